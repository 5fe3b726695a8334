import Verif.Fp.Bits

/-!
# Bits of a float64 and the IEEE-754 reading of them

As `BitsModel` and `Bits` for float32.
-/

namespace Verif.Fp

/-- The exponent, at least that of the least normal number, with which a float64 is stored. -/
def exponent64 (q : ℚ) : ℤ := max (Int.log 2 q) (-1022)

/-- The significand, in units of the last place. -/
def significand64 (q : ℚ) : ℕ := ⌊q / 2 ^ (exponent64 q - 52)⌋.toNat

/-- Exponent and fraction field of a magnitude. -/
def magBits64 (q : ℚ) : ℕ :=
  if significand64 q < 2 ^ 52 then significand64 q else (exponent64 q + 1023).toNat * 2 ^ 52 + (significand64 q - 2 ^ 52)

/-- The bits of a float64; a not-a-number gets the payload of `math.NaN`. -/
def toBits64 : Val → BitVec 64
  | .nan => 0x7ff8000000000001#64
  | .inf s => BitVec.ofNat 64 ((if s then 2 ^ 63 else 0) + 2047 * 2 ^ 52)
  | .fin s q => BitVec.ofNat 64 ((if s then 2 ^ 63 else 0) + magBits64 q)

/-- IEEE-754: the value of 64 bits: a sign, eleven bits of exponent, 52 bits of fraction. -/
def ofBits64 (b : BitVec 64) : Val :=
  let s := decide (2 ^ 63 ≤ b.toNat)
  let e : ℕ := b.toNat / 2 ^ 52 % 2 ^ 11
  let m : ℕ := b.toNat % 2 ^ 52
  if e = 2047 then (if m = 0 then .inf s else .nan)
  else if e = 0 then .fin s (m * 2 ^ (-1074 : ℤ))
  else .fin s ((2 ^ 52 + m : ℕ) * 2 ^ ((e : ℤ) - 1075))

/-- The values that a float64 can have. -/
def Repr64 : Val → Prop
  | .fin _ q => 0 ≤ q ∧ q < 2 ^ 1024 ∧ Grid binary64 q
  | _ => True

theorem ofBits64_make (s : Bool) (e m : ℕ) (he : e < 2048) (hm : m < 2 ^ 52) :
    ofBits64 (BitVec.ofNat 64 ((if s then 2 ^ 63 else 0) + (e * 2 ^ 52 + m))) =
      if e = 2047 then (if m = 0 then .inf s else .nan)
      else if e = 0 then .fin s (m * 2 ^ (-1074 : ℤ))
      else .fin s ((2 ^ 52 + m : ℕ) * 2 ^ ((e : ℤ) - 1075)) := by
  have hn : (BitVec.ofNat 64 ((if s then 2 ^ 63 else 0) + (e * 2 ^ 52 + m))).toNat = (if s then 2 ^ 63 else 0) + (e * 2 ^ 52 + m) := by
    rw [BitVec.toNat_ofNat, Nat.mod_eq_of_lt]
    cases s <;> simp <;> omega
  unfold ofBits64
  simp only [hn]
  have h1 : decide (2 ^ 63 ≤ (if s then 2 ^ 63 else 0) + (e * 2 ^ 52 + m)) = s := by
    cases s <;> simp <;> omega
  have h2 : ((if s then 2 ^ 63 else 0) + (e * 2 ^ 52 + m)) / 2 ^ 52 % 2 ^ 11 = e := by
    cases s <;> simp <;> omega
  have h3 : ((if s then 2 ^ 63 else 0) + (e * 2 ^ 52 + m)) % 2 ^ 52 = m := by
    cases s <;> simp <;> omega
  rw [h1, h2, h3]

/-- A magnitude on the grid is its significand times the unit in the last place. -/
theorem significand64_spec {q : ℚ} (h0 : 0 ≤ q) (hg : Grid binary64 q) :
    q = significand64 q * 2 ^ (exponent64 q - 52) := by
  have hp := two_zpow_pos (exponent64 q - 52)
  have hint : ∃ z : ℤ, q / 2 ^ (exponent64 q - 52) = z := by
    rcases h0.eq_or_lt with h | h
    · exact ⟨0, by rw [← h]; simp⟩
    · have h1 := rd_grid binary64 (by decide) hg
      rw [rd_pos _ h] at h1
      have hu : ulp binary64 q = 2 ^ (exponent64 q - 52) := by
        unfold ulp exponent64 binary64
        norm_num
      rw [hu] at h1
      exact ⟨_, by rw [div_eq_iff hp.ne']; exact h1.symm⟩
  obtain ⟨z, hz⟩ := hint
  have hz0 : 0 ≤ z := by
    have : (0 : ℚ) ≤ z := hz ▸ div_nonneg h0 hp.le
    exact_mod_cast this
  unfold significand64
  rw [hz, Int.floor_intCast]
  have : ((z.toNat : ℕ) : ℚ) = z := by
    have : ((z.toNat : ℤ) : ℚ) = z := by rw [Int.toNat_of_nonneg hz0]
    exact_mod_cast this
  rw [this, ← hz, div_mul_cancel₀ _ hp.ne']

theorem toBits64_fields {q : ℚ} (h0 : 0 ≤ q) (h1024 : q < 2 ^ 1024) (hg : Grid binary64 q) :
    ∃ e m : ℕ, e < 2047 ∧ m < 2 ^ 52 ∧ magBits64 q = e * 2 ^ 52 + m ∧
      q = if e = 0 then (m : ℚ) * 2 ^ (-1074 : ℤ) else ((2 ^ 52 + m : ℕ) : ℚ) * 2 ^ ((e : ℤ) - 1075) := by
  have hs := significand64_spec h0 hg
  have hp := two_zpow_pos (exponent64 q - 52)
  rcases h0.eq_or_lt with h | h
  · refine ⟨0, 0, by norm_num, by norm_num, ?_, ?_⟩
    · have : significand64 q = 0 := by
        unfold significand64
        rw [← h]
        simp
      unfold magBits64
      rw [this]
      norm_num
    · rw [← h]; simp
  · have hlog := Int.zpow_log_le_self (b := 2) (by norm_num) h
    have hlt := Int.lt_zpow_succ_log_self (b := 2) (by norm_num) q
    push_cast at hlog hlt
    have hm53 : significand64 q < 2 ^ 53 := by
      have h1 : q < 2 ^ (exponent64 q + 1) := lt_of_lt_of_le hlt (zpow_le_zpow_right₀ (by norm_num) (by unfold exponent64; omega))
      have h2 : (2 : ℚ) ^ (exponent64 q + 1) = 2 ^ 53 * 2 ^ (exponent64 q - 52) := by
        rw [← zpow_natCast (2 : ℚ) 53, ← zpow_add₀ (by norm_num)]
        congr 1
        push_cast
        ring
      rw [h2, hs] at h1
      have h3 : (significand64 q : ℚ) < 2 ^ 53 := by
        rw [← hs] at h1
        rw [hs] at h1
        exact lt_of_mul_lt_mul_right (by rw [← hs]; rw [← hs] at h1; exact h1) hp.le
      exact_mod_cast h3
    have he1023 : Int.log 2 q ≤ 1023 := by
      by_contra hc
      have : (2 : ℚ) ^ (1024 : ℤ) ≤ 2 ^ Int.log 2 q := zpow_le_zpow_right₀ (by norm_num) (by omega)
      rw [show (1024 : ℤ) = ((1024 : ℕ) : ℤ) from rfl, zpow_natCast] at this
      linarith
    by_cases hm : significand64 q < 2 ^ 52
    · refine ⟨0, significand64 q, by norm_num, hm, by unfold magBits64; rw [if_pos hm]; omega, ?_⟩
      rw [if_pos rfl]
      have he : exponent64 q = -1022 := by
        by_contra hc
        have hee : exponent64 q = Int.log 2 q := by unfold exponent64 at hc ⊢; omega
        have h2 : (2 : ℚ) ^ exponent64 q = 2 ^ 52 * 2 ^ (exponent64 q - 52) := by
          rw [← zpow_natCast (2 : ℚ) 52, ← zpow_add₀ (by norm_num)]
          congr 1
          push_cast
          ring
        rw [← hee, h2] at hlog
        have h3 : (2 ^ 52 : ℚ) ≤ significand64 q := by
          refine le_of_mul_le_mul_right ?_ hp
          rw [← hs]
          exact hlog
        have : (2 ^ 52 : ℕ) ≤ significand64 q := by exact_mod_cast h3
        omega
      rw [he] at hs
      exact hs
    · have he : -1022 ≤ exponent64 q := by unfold exponent64; omega
      have he2 : exponent64 q ≤ 1023 := by unfold exponent64; omega
      refine ⟨(exponent64 q + 1023).toNat, significand64 q - 2 ^ 52, by omega, by omega, by unfold magBits64; rw [if_neg hm], ?_⟩
      rw [if_neg (by omega), Int.toNat_of_nonneg (by omega), show 2 ^ 52 + (significand64 q - 2 ^ 52) = significand64 q by omega,
        show exponent64 q + 1023 - 1075 = exponent64 q - 52 by ring]
      exact hs

/-- What is stored reads back as the number stored. -/
theorem ofBits64_toBits64 (v : Val) (hv : Repr64 v) : ofBits64 (toBits64 v) = v := by
  rcases v with _ | s | ⟨s, q⟩
  · unfold ofBits64 toBits64
    simp
  · unfold toBits64
    have := ofBits64_make s 2047 0 (by norm_num) (by norm_num)
    rw [Nat.add_zero] at this
    simp only
    rw [this]
    simp
  · obtain ⟨h0, h1, h2⟩ := hv
    obtain ⟨e, m, he, hm, hb, hq⟩ := toBits64_fields h0 h1 h2
    unfold toBits64
    simp only
    rw [hb, ofBits64_make s e m (by omega) hm, if_neg (by omega)]
    by_cases h : e = 0
    · rw [if_pos h] at hq ⊢
      rw [← hq]
    · rw [if_neg h] at hq ⊢
      rw [← hq]

theorem magBits64_sub (m : ℕ) (hm : m < 2 ^ 52) : magBits64 (m * 2 ^ (-1074 : ℤ)) = m := by
  have hs : significand64 (m * 2 ^ (-1074 : ℤ)) = m := by
    by_cases h0 : m = 0
    · subst h0
      simp [significand64]
    · have h1 : 2 ^ (Nat.log 2 m) ≤ m := Nat.pow_log_le_self 2 h0
      have h2 : m < 2 ^ (Nat.log 2 m + 1) := Nat.lt_pow_succ_log_self (by norm_num) m
      have hl := log_mul_zpow m (Nat.log 2 m) (-1074) h1 h2
      have h3 : Nat.log 2 m < 52 := Nat.log_lt_of_lt_pow h0 hm
      have he : exponent64 (m * 2 ^ (-1074 : ℤ)) = -1022 := by
        unfold exponent64
        rw [hl]
        omega
      unfold significand64
      rw [he, show (-1022 : ℤ) - 52 = -1074 by norm_num, mul_div_cancel_right₀ _ (two_zpow_pos _).ne', ← Int.cast_natCast, Int.floor_intCast]
      rfl
  unfold magBits64
  rw [hs, if_pos hm]

theorem magBits64_normal (e m : ℕ) (he0 : 0 < e) (he : e < 2047) (hm : m < 2 ^ 52) :
    magBits64 ((2 ^ 52 + m : ℕ) * 2 ^ ((e : ℤ) - 1075)) = e * 2 ^ 52 + m := by
  have hl := log_mul_zpow (2 ^ 52 + m) 52 ((e : ℤ) - 1075) (by omega) (by omega)
  have hee : exponent64 ((2 ^ 52 + m : ℕ) * 2 ^ ((e : ℤ) - 1075)) = (e : ℤ) - 1023 := by
    unfold exponent64
    rw [hl]
    push_cast
    omega
  have hs : significand64 ((2 ^ 52 + m : ℕ) * 2 ^ ((e : ℤ) - 1075)) = 2 ^ 52 + m := by
    unfold significand64
    rw [hee, show (e : ℤ) - 1023 - 52 = (e : ℤ) - 1075 by ring, mul_div_cancel_right₀ _ (two_zpow_pos _).ne', ← Int.cast_natCast, Int.floor_intCast]
    rfl
  unfold magBits64
  rw [hs, if_neg (by omega), hee, show (e : ℤ) - 1023 + 1023 = e by ring]
  simp

/-- Every pattern but those of a NaN is what is stored for the number it stands for. -/
theorem toBits64_ofBits64 (b : BitVec 64) (h : ofBits64 b ≠ .nan) : Repr64 (ofBits64 b) ∧ toBits64 (ofBits64 b) = b := by
  have hb := b.isLt
  obtain ⟨s, e, m, he, hm, heq⟩ : ∃ (s : Bool) (e m : ℕ), e < 2048 ∧ m < 2 ^ 52 ∧ b = BitVec.ofNat 64 ((if s then 2 ^ 63 else 0) + (e * 2 ^ 52 + m)) := by
    refine ⟨decide (2 ^ 63 ≤ b.toNat), b.toNat / 2 ^ 52 % 2 ^ 11, b.toNat % 2 ^ 52, by omega, by omega, ?_⟩
    apply BitVec.eq_of_toNat_eq
    rw [BitVec.toNat_ofNat]
    by_cases hs : 2 ^ 63 ≤ b.toNat
    · simp only [hs, decide_true, if_true]
      omega
    · simp only [hs, decide_false, Bool.false_eq_true, if_false]
      omega
  subst heq
  rw [ofBits64_make s e m he hm] at h ⊢
  by_cases h255 : e = 2047
  · rw [if_pos h255] at h ⊢
    by_cases h0 : m = 0
    · rw [if_pos h0, h255, h0]
      exact ⟨trivial, rfl⟩
    · rw [if_neg h0] at h
      exact absurd rfl h
  · rw [if_neg h255]
    by_cases h0 : e = 0
    · rw [if_pos h0]
      refine ⟨⟨?_, ?_, ⟨m, -1074, ?_, by decide, ?_⟩⟩, ?_⟩
      · have := two_zpow_pos (-1074)
        positivity
      · have h1 : (m : ℚ) < 2 ^ 52 := by exact_mod_cast hm
        have h2 : (2 : ℚ) ^ (-1074 : ℤ) ≤ 1 := zpow_le_one_of_nonpos₀ (by norm_num) (by norm_num)
        calc (m : ℚ) * 2 ^ (-1074 : ℤ) ≤ m * 1 := mul_le_mul_of_nonneg_left h2 (by positivity)
          _ = m := mul_one _
          _ < 2 ^ 52 := h1
          _ ≤ 2 ^ 1024 := pow_le_pow_right₀ (by norm_num) (by norm_num)
      · exact lt_of_lt_of_le hm (by decide)
      · rw [abs_of_nonneg]
        have := two_zpow_pos (-1074)
        positivity
      · unfold toBits64
        simp only
        rw [magBits64_sub m hm, h0]
        simp
    · rw [if_neg h0]
      have hp := two_zpow_pos ((e : ℤ) - 1075)
      refine ⟨⟨by positivity, ?_, ⟨2 ^ 52 + m, (e : ℤ) - 1075, ?_, ?_, ?_⟩⟩, ?_⟩
      · have h1 : ((2 ^ 52 + m : ℕ) : ℚ) < 2 ^ (53 : ℤ) := by
          have : 2 ^ 52 + m < 2 ^ 53 := by omega
          exact_mod_cast this
        calc ((2 ^ 52 + m : ℕ) : ℚ) * 2 ^ ((e : ℤ) - 1075) < 2 ^ (53 : ℤ) * 2 ^ ((e : ℤ) - 1075) := mul_lt_mul_of_pos_right h1 hp
          _ = 2 ^ ((e : ℤ) - 1022) := by rw [← zpow_add₀ (by norm_num)]; congr 1; ring
          _ ≤ 2 ^ (1024 : ℤ) := zpow_le_zpow_right₀ (by norm_num) (by omega)
          _ = 2 ^ 1024 := by rw [show (1024 : ℤ) = ((1024 : ℕ) : ℤ) from rfl, zpow_natCast]
      · show 2 ^ 52 + m < 2 ^ 53
        omega
      · show (-1022 : ℤ) - (53 - 1) ≤ _
        omega
      · rw [abs_of_nonneg (by positivity)]
      · unfold toBits64
        simp only
        rw [magBits64_normal e m (by omega) (by omega) hm]

end Verif.Fp
