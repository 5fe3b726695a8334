import Verif.Fp.BitsModel
import Verif.Fp.FpRd
import Mathlib.Tactic.Linarith
import Mathlib.Tactic.Ring
import Mathlib.Tactic.FieldSimp
import Mathlib.Tactic.NormNum

/-!
# Bits of a float32 and the IEEE-754 reading of them
-/

namespace Verif.Fp

/-- IEEE-754: the value of 32 bits: a sign, eight bits of exponent, 23 bits of fraction. -/
def ofBits32 (b : BitVec 32) : Val :=
  let s := decide (2 ^ 31 ≤ b.toNat)
  let e : ℕ := b.toNat / 2 ^ 23 % 2 ^ 8
  let m : ℕ := b.toNat % 2 ^ 23
  if e = 255 then (if m = 0 then .inf s else .nan)
  else if e = 0 then .fin s (m * 2 ^ (-149 : ℤ))
  else .fin s ((2 ^ 23 + m : ℕ) * 2 ^ ((e : ℤ) - 150))

/-- The values that a float32 can have. -/
def Repr32 : Val → Prop
  | .fin _ q => 0 ≤ q ∧ q < 2 ^ 128 ∧ Grid binary32 q
  | _ => True

theorem ofBits32_make (s : Bool) (e m : ℕ) (he : e < 256) (hm : m < 2 ^ 23) :
    ofBits32 (BitVec.ofNat 32 ((if s then 2 ^ 31 else 0) + (e * 2 ^ 23 + m))) =
      if e = 255 then (if m = 0 then .inf s else .nan)
      else if e = 0 then .fin s (m * 2 ^ (-149 : ℤ))
      else .fin s ((2 ^ 23 + m : ℕ) * 2 ^ ((e : ℤ) - 150)) := by
  have hn : (BitVec.ofNat 32 ((if s then 2 ^ 31 else 0) + (e * 2 ^ 23 + m))).toNat = (if s then 2 ^ 31 else 0) + (e * 2 ^ 23 + m) := by
    rw [BitVec.toNat_ofNat, Nat.mod_eq_of_lt]
    cases s <;> simp <;> omega
  unfold ofBits32
  simp only [hn]
  have h1 : decide (2 ^ 31 ≤ (if s then 2 ^ 31 else 0) + (e * 2 ^ 23 + m)) = s := by
    cases s <;> simp <;> omega
  have h2 : ((if s then 2 ^ 31 else 0) + (e * 2 ^ 23 + m)) / 2 ^ 23 % 2 ^ 8 = e := by
    cases s <;> simp <;> omega
  have h3 : ((if s then 2 ^ 31 else 0) + (e * 2 ^ 23 + m)) % 2 ^ 23 = m := by
    cases s <;> simp <;> omega
  rw [h1, h2, h3]

theorem two_zpow_pos (k : ℤ) : (0 : ℚ) < 2 ^ k := zpow_pos (by norm_num) k

/-- A magnitude on the grid is its significand times the unit in the last place. -/
theorem significand32_spec {q : ℚ} (h0 : 0 ≤ q) (hg : Grid binary32 q) :
    q = significand32 q * 2 ^ (exponent32 q - 23) := by
  have hp := two_zpow_pos (exponent32 q - 23)
  have hint : ∃ z : ℤ, q / 2 ^ (exponent32 q - 23) = z := by
    rcases h0.eq_or_lt with h | h
    · exact ⟨0, by rw [← h]; simp⟩
    · have h1 := rd_grid binary32 (by decide) hg
      rw [rd_pos _ h] at h1
      have hu : ulp binary32 q = 2 ^ (exponent32 q - 23) := by
        unfold ulp exponent32 binary32
        norm_num
      rw [hu] at h1
      exact ⟨_, by rw [div_eq_iff hp.ne']; exact h1.symm⟩
  obtain ⟨z, hz⟩ := hint
  have hz0 : 0 ≤ z := by
    have : (0 : ℚ) ≤ z := hz ▸ div_nonneg h0 hp.le
    exact_mod_cast this
  unfold significand32
  rw [hz, Int.floor_intCast]
  have : ((z.toNat : ℕ) : ℚ) = z := by
    have : ((z.toNat : ℤ) : ℚ) = z := by rw [Int.toNat_of_nonneg hz0]
    exact_mod_cast this
  rw [this, ← hz, div_mul_cancel₀ _ hp.ne']

theorem toBits32_fields {q : ℚ} (h0 : 0 ≤ q) (h128 : q < 2 ^ 128) (hg : Grid binary32 q) :
    ∃ e m : ℕ, e < 255 ∧ m < 2 ^ 23 ∧ magBits32 q = e * 2 ^ 23 + m ∧
      q = if e = 0 then (m : ℚ) * 2 ^ (-149 : ℤ) else ((2 ^ 23 + m : ℕ) : ℚ) * 2 ^ ((e : ℤ) - 150) := by
  have hs := significand32_spec h0 hg
  have hp := two_zpow_pos (exponent32 q - 23)
  rcases h0.eq_or_lt with h | h
  · refine ⟨0, 0, by norm_num, by norm_num, ?_, ?_⟩
    · have : significand32 q = 0 := by
        unfold significand32
        rw [← h]
        simp
      unfold magBits32
      rw [this]
      norm_num
    · rw [← h]; simp
  · have hlog := Int.zpow_log_le_self (b := 2) (by norm_num) h
    have hlt := Int.lt_zpow_succ_log_self (b := 2) (by norm_num) q
    push_cast at hlog hlt
    have hm24 : significand32 q < 2 ^ 24 := by
      have h1 : q < 2 ^ (exponent32 q + 1) := lt_of_lt_of_le hlt (zpow_le_zpow_right₀ (by norm_num) (by unfold exponent32; omega))
      have h2 : (2 : ℚ) ^ (exponent32 q + 1) = 2 ^ 24 * 2 ^ (exponent32 q - 23) := by
        rw [← zpow_natCast (2 : ℚ) 24, ← zpow_add₀ (by norm_num)]
        congr 1
        push_cast
        ring
      rw [h2, hs] at h1
      have h3 : (significand32 q : ℚ) < 2 ^ 24 := by
        rw [← hs] at h1
        rw [hs] at h1
        exact lt_of_mul_lt_mul_right (by rw [← hs]; rw [← hs] at h1; exact h1) hp.le
      exact_mod_cast h3
    have he127 : Int.log 2 q ≤ 127 := by
      by_contra hc
      have : (2 : ℚ) ^ (128 : ℤ) ≤ 2 ^ Int.log 2 q := zpow_le_zpow_right₀ (by norm_num) (by omega)
      rw [show (128 : ℤ) = ((128 : ℕ) : ℤ) from rfl, zpow_natCast] at this
      linarith
    by_cases hm : significand32 q < 2 ^ 23
    · refine ⟨0, significand32 q, by norm_num, hm, by unfold magBits32; rw [if_pos hm]; omega, ?_⟩
      rw [if_pos rfl]
      have he : exponent32 q = -126 := by
        by_contra hc
        have hee : exponent32 q = Int.log 2 q := by unfold exponent32 at hc ⊢; omega
        have h2 : (2 : ℚ) ^ exponent32 q = 2 ^ 23 * 2 ^ (exponent32 q - 23) := by
          rw [← zpow_natCast (2 : ℚ) 23, ← zpow_add₀ (by norm_num)]
          congr 1
          push_cast
          ring
        rw [← hee, h2] at hlog
        have h3 : (2 ^ 23 : ℚ) ≤ significand32 q := by
          refine le_of_mul_le_mul_right ?_ hp
          rw [← hs]
          exact hlog
        have : (2 ^ 23 : ℕ) ≤ significand32 q := by exact_mod_cast h3
        omega
      rw [he] at hs
      exact hs
    · have he : -126 ≤ exponent32 q := by unfold exponent32; omega
      have he2 : exponent32 q ≤ 127 := by unfold exponent32; omega
      refine ⟨(exponent32 q + 127).toNat, significand32 q - 2 ^ 23, by omega, by omega, by unfold magBits32; rw [if_neg hm], ?_⟩
      rw [if_neg (by omega), Int.toNat_of_nonneg (by omega), show 2 ^ 23 + (significand32 q - 2 ^ 23) = significand32 q by omega,
        show exponent32 q + 127 - 150 = exponent32 q - 23 by ring]
      exact hs

/-- What the library stores reads back as the number stored. -/
theorem ofBits32_toBits32 (v : Val) (hv : Repr32 v) : ofBits32 (toBits32 v) = v := by
  rcases v with _ | s | ⟨s, q⟩
  · unfold ofBits32 toBits32
    simp
  · unfold toBits32
    have := ofBits32_make s 255 0 (by norm_num) (by norm_num)
    rw [Nat.add_zero] at this
    simp only
    rw [this]
    simp
  · obtain ⟨h0, h1, h2⟩ := hv
    obtain ⟨e, m, he, hm, hb, hq⟩ := toBits32_fields h0 h1 h2
    unfold toBits32
    simp only
    rw [hb, ofBits32_make s e m (by omega) hm, if_neg (by omega)]
    by_cases h : e = 0
    · rw [if_pos h] at hq ⊢
      rw [← hq]
    · rw [if_neg h] at hq ⊢
      rw [← hq]

theorem log_mul_zpow (n k : ℕ) (e : ℤ) (h1 : 2 ^ k ≤ n) (h2 : n < 2 ^ (k + 1)) : Int.log 2 ((n : ℚ) * 2 ^ e) = k + e := by
  have hn : (0 : ℚ) < n := by
    have : 0 < n := lt_of_lt_of_le (by positivity) h1
    exact_mod_cast this
  have hp := two_zpow_pos e
  have hq : (0 : ℚ) < n * 2 ^ e := mul_pos hn hp
  have g1 : (2 : ℚ) ^ ((k : ℤ) + e) ≤ n * 2 ^ e := by
    rw [zpow_add₀ (by norm_num), zpow_natCast]
    refine mul_le_mul_of_nonneg_right ?_ hp.le
    exact_mod_cast h1
  have g2 : (n : ℚ) * 2 ^ e < 2 ^ ((k : ℤ) + e + 1) := by
    rw [show (k : ℤ) + e + 1 = ((k + 1 : ℕ) : ℤ) + e by push_cast; ring, zpow_add₀ (by norm_num), zpow_natCast]
    refine mul_lt_mul_of_pos_right ?_ hp
    exact_mod_cast h2
  have hlog := Int.zpow_log_le_self (b := 2) (by norm_num) hq
  have hlt := Int.lt_zpow_succ_log_self (b := 2) (by norm_num) ((n : ℚ) * 2 ^ e)
  push_cast at hlog hlt
  have a1 := (zpow_lt_zpow_iff_right₀ (a := (2 : ℚ)) (by norm_num)).1 (lt_of_le_of_lt hlog g2)
  have a2 := (zpow_lt_zpow_iff_right₀ (a := (2 : ℚ)) (by norm_num)).1 (lt_of_le_of_lt g1 hlt)
  omega

theorem magBits32_sub (m : ℕ) (hm : m < 2 ^ 23) : magBits32 (m * 2 ^ (-149 : ℤ)) = m := by
  have hs : significand32 (m * 2 ^ (-149 : ℤ)) = m := by
    by_cases h0 : m = 0
    · subst h0
      simp [significand32]
    · have h1 : 2 ^ (Nat.log 2 m) ≤ m := Nat.pow_log_le_self 2 h0
      have h2 : m < 2 ^ (Nat.log 2 m + 1) := Nat.lt_pow_succ_log_self (by norm_num) m
      have hl := log_mul_zpow m (Nat.log 2 m) (-149) h1 h2
      have h3 : Nat.log 2 m < 23 := Nat.log_lt_of_lt_pow h0 hm
      have he : exponent32 (m * 2 ^ (-149 : ℤ)) = -126 := by
        unfold exponent32
        rw [hl]
        omega
      unfold significand32
      rw [he, show (-126 : ℤ) - 23 = -149 by norm_num, mul_div_cancel_right₀ _ (two_zpow_pos _).ne', ← Int.cast_natCast, Int.floor_intCast]
      rfl
  unfold magBits32
  rw [hs, if_pos hm]

theorem magBits32_normal (e m : ℕ) (he0 : 0 < e) (he : e < 255) (hm : m < 2 ^ 23) :
    magBits32 ((2 ^ 23 + m : ℕ) * 2 ^ ((e : ℤ) - 150)) = e * 2 ^ 23 + m := by
  have hl := log_mul_zpow (2 ^ 23 + m) 23 ((e : ℤ) - 150) (by omega) (by omega)
  have hee : exponent32 ((2 ^ 23 + m : ℕ) * 2 ^ ((e : ℤ) - 150)) = (e : ℤ) - 127 := by
    unfold exponent32
    rw [hl]
    push_cast
    omega
  have hs : significand32 ((2 ^ 23 + m : ℕ) * 2 ^ ((e : ℤ) - 150)) = 2 ^ 23 + m := by
    unfold significand32
    rw [hee, show (e : ℤ) - 127 - 23 = (e : ℤ) - 150 by ring, mul_div_cancel_right₀ _ (two_zpow_pos _).ne', ← Int.cast_natCast, Int.floor_intCast]
    rfl
  unfold magBits32
  rw [hs, if_neg (by omega), hee, show (e : ℤ) - 127 + 127 = e by ring]
  simp

/-- Every pattern but those of a NaN is what the library stores for the number it stands for. -/
theorem toBits32_ofBits32 (b : BitVec 32) (h : ofBits32 b ≠ .nan) : Repr32 (ofBits32 b) ∧ toBits32 (ofBits32 b) = b := by
  have hb := b.isLt
  obtain ⟨s, e, m, he, hm, heq⟩ : ∃ (s : Bool) (e m : ℕ), e < 256 ∧ m < 2 ^ 23 ∧ b = BitVec.ofNat 32 ((if s then 2 ^ 31 else 0) + (e * 2 ^ 23 + m)) := by
    refine ⟨decide (2 ^ 31 ≤ b.toNat), b.toNat / 2 ^ 23 % 2 ^ 8, b.toNat % 2 ^ 23, by omega, by omega, ?_⟩
    apply BitVec.eq_of_toNat_eq
    rw [BitVec.toNat_ofNat]
    by_cases hs : 2 ^ 31 ≤ b.toNat
    · simp only [hs, decide_true, if_true]
      omega
    · simp only [hs, decide_false, Bool.false_eq_true, if_false]
      omega
  subst heq
  rw [ofBits32_make s e m he hm] at h ⊢
  by_cases h255 : e = 255
  · rw [if_pos h255] at h ⊢
    by_cases h0 : m = 0
    · rw [if_pos h0, h255, h0]
      exact ⟨trivial, rfl⟩
    · rw [if_neg h0] at h
      exact absurd rfl h
  · rw [if_neg h255]
    by_cases h0 : e = 0
    · rw [if_pos h0]
      refine ⟨⟨?_, ?_, ⟨m, -149, ?_, by decide, ?_⟩⟩, ?_⟩
      · have := two_zpow_pos (-149)
        positivity
      · have h1 : (m : ℚ) < 2 ^ 23 := by exact_mod_cast hm
        have h2 : (2 : ℚ) ^ (-149 : ℤ) ≤ 1 := zpow_le_one_of_nonpos₀ (by norm_num) (by norm_num)
        calc (m : ℚ) * 2 ^ (-149 : ℤ) ≤ m * 1 := mul_le_mul_of_nonneg_left h2 (by positivity)
          _ < 2 ^ 128 := by linarith [show (2 : ℚ) ^ 23 ≤ 2 ^ 128 by norm_num]
      · exact lt_of_lt_of_le hm (by decide)
      · rw [abs_of_nonneg]
        have := two_zpow_pos (-149)
        positivity
      · unfold toBits32
        simp only
        rw [magBits32_sub m hm, h0]
        simp
    · rw [if_neg h0]
      have hp := two_zpow_pos ((e : ℤ) - 150)
      refine ⟨⟨by positivity, ?_, ⟨2 ^ 23 + m, (e : ℤ) - 150, ?_, ?_, ?_⟩⟩, ?_⟩
      · have h1 : ((2 ^ 23 + m : ℕ) : ℚ) < 2 ^ (24 : ℤ) := by
          have : 2 ^ 23 + m < 2 ^ 24 := by omega
          exact_mod_cast this
        calc ((2 ^ 23 + m : ℕ) : ℚ) * 2 ^ ((e : ℤ) - 150) < 2 ^ (24 : ℤ) * 2 ^ ((e : ℤ) - 150) := mul_lt_mul_of_pos_right h1 hp
          _ = 2 ^ ((e : ℤ) - 126) := by rw [← zpow_add₀ (by norm_num)]; congr 1; ring
          _ ≤ 2 ^ (128 : ℤ) := zpow_le_zpow_right₀ (by norm_num) (by omega)
          _ = 2 ^ 128 := by rw [show (128 : ℤ) = ((128 : ℕ) : ℤ) from rfl, zpow_natCast]
      · show 2 ^ 23 + m < 2 ^ 24
        omega
      · show (-126 : ℤ) - (24 - 1) ≤ _
        omega
      · rw [abs_of_nonneg (by positivity)]
      · unfold toBits32
        simp only
        rw [magBits32_normal e m (by omega) (by omega) hm]

end Verif.Fp
