import Verif.Fp.FpModel
import Mathlib.Tactic.Linarith
import Mathlib.Tactic.Ring
import Mathlib.Tactic.NormNum
import Mathlib.Tactic.Positivity
import Mathlib.Tactic.FieldSimp
import Mathlib.Algebra.Order.Field.Power

/-!
# The rounding of the floating-point model is IEEE-754 rounding to nearest, ties to even

`Rep φ x`: the magnitudes of the format.  A result that is not infinite is a magnitude of the format, none is nearer
to the exact value, and if another one is as near then the result is an even multiple of the spacing.
-/

namespace Verif.Fp

/-- The finite magnitudes of a format: at most `p` significant bits, and exponents in range. -/
def Rep (φ : Format) (x : ℚ) : Prop :=
  ∃ (m : ℕ) (e : ℤ), m < 2 ^ φ.p ∧ φ.emin - (φ.p - 1) ≤ e ∧ e ≤ φ.emax - (φ.p - 1) ∧ x = m * (2 : ℚ) ^ e

theorem roundEven_half (x : ℚ) : |x - roundEven x| ≤ 1 / 2 := by
  have h1 := Int.floor_le x
  have h2 := Int.lt_floor_add_one x
  unfold roundEven
  simp only
  rw [abs_le]
  split
  · constructor <;> linarith
  · split
    · push_cast; constructor <;> linarith
    · split
      · constructor <;> linarith
      · push_cast; constructor <;> linarith

/-- No integer is nearer than `roundEven x`; one as near is equal, or `roundEven x` is even. -/
theorem roundEven_nearest (x : ℚ) (z : ℤ) :
    |x - roundEven x| ≤ |x - z| ∧ (|x - roundEven x| = |x - z| → z = roundEven x ∨ roundEven x % 2 = 0) := by
  have hh := roundEven_half x
  have h1 := Int.floor_le x
  have h2 := Int.lt_floor_add_one x
  by_cases hz : z = roundEven x
  · subst hz
    exact ⟨le_refl _, fun _ => Or.inl rfl⟩
  have hd : (1 : ℚ) ≤ |(z : ℚ) - roundEven x| := by
    have : (1 : ℤ) ≤ |z - roundEven x| := Int.one_le_abs (sub_ne_zero.2 hz)
    exact_mod_cast this
  have ht : |(z : ℚ) - roundEven x| ≤ |x - roundEven x| + |x - z| := by
    have := abs_sub_le (z : ℚ) x (roundEven x : ℚ)
    rw [abs_sub_comm (z : ℚ) x] at this
    linarith
  refine ⟨by linarith, fun he => Or.inr ?_⟩
  have hhalf : |x - roundEven x| = 1 / 2 := by linarith
  unfold roundEven at hhalf ⊢
  simp only at hhalf ⊢
  by_cases a : x - ⌊x⌋ < 1 / 2
  · rw [if_pos a] at hhalf
    rw [abs_of_nonneg (by linarith)] at hhalf
    linarith
  · rw [if_neg a] at hhalf ⊢
    by_cases b : 1 / 2 < x - ⌊x⌋
    · rw [if_pos b] at hhalf
      push_cast at hhalf
      rw [abs_of_nonpos (by linarith)] at hhalf
      linarith
    · rw [if_neg b] at hhalf ⊢
      by_cases c : ⌊x⌋ % 2 = 0
      · rw [if_pos c]; exact c
      · rw [if_neg c]; omega

theorem roundEven_nonneg (x : ℚ) (h : 0 ≤ x) : 0 ≤ roundEven x := by
  have : 0 ≤ ⌊x⌋ := Int.floor_nonneg.2 h
  unfold roundEven
  simp only
  split
  · exact this
  · split
    · omega
    · split <;> omega

theorem ulp_pos (φ : Format) (q : ℚ) : 0 < ulp φ q := by unfold ulp; positivity

/-- The scaled magnitude is below `2^p`. -/
theorem scaled_lt (φ : Format) (q : ℚ) : q / ulp φ q < 2 ^ φ.p := by
  rw [div_lt_iff₀ (ulp_pos φ q)]
  have h := Int.lt_zpow_succ_log_self (b := 2) (by norm_num) q
  refine h.trans_le ?_
  unfold ulp
  rw [← zpow_natCast, ← zpow_add₀ (by norm_num)]
  exact zpow_le_zpow_right₀ (by norm_num : (1 : ℚ) ≤ 2) (by omega)

/-- A result that is not infinite is a magnitude of the format. -/
theorem round_rep (φ : Format) (hp : 1 ≤ φ.p) (he : φ.emin ≤ φ.emax) (s : Bool) (q : ℚ) (hq : 0 ≤ q) (r : ℚ) (h : round φ s q = .fin s r) : Rep φ r := by
  unfold round at h
  by_cases h0 : q = 0
  · rw [if_pos h0] at h
    cases h
    exact ⟨0, φ.emin - (φ.p - 1), by positivity, le_refl _, by omega, by simp⟩
  rw [if_neg h0] at h
  have hq' : 0 < q := lt_of_le_of_ne hq (Ne.symm h0)
  simp only at h
  by_cases hbig : (2 : ℚ) ^ (φ.emax + 1) ≤ (roundEven (q / ulp φ q) : ℚ) * ulp φ q
  · rw [if_pos hbig] at h; cases h
  rw [if_neg hbig] at h
  have hr : (roundEven (q / ulp φ q) : ℚ) * ulp φ q = r := by injection h
  have hn0 := roundEven_nonneg (q / ulp φ q) (by have := ulp_pos φ q; positivity)
  have hlt := scaled_lt φ q
  have hle : roundEven (q / ulp φ q) ≤ 2 ^ φ.p := by
    have := (abs_le.1 (roundEven_half (q / ulp φ q))).1
    have h3 : (roundEven (q / ulp φ q) : ℚ) < ((2 ^ φ.p + 1 : ℤ) : ℚ) := by push_cast; linarith
    have h4 : roundEven (q / ulp φ q) < 2 ^ φ.p + 1 := by exact_mod_cast h3
    omega
  obtain ⟨n, hn⟩ := Int.eq_ofNat_of_zero_le hn0
  rw [hn] at hr hle hbig
  have hle' : n ≤ 2 ^ φ.p := by exact_mod_cast hle
  have two : (0 : ℚ) < 2 := by norm_num
  set k := max (Int.log 2 q) φ.emin - ((φ.p : ℤ) - 1) with hk
  have hu : ulp φ q = 2 ^ k := rfl
  rw [hu] at hr hbig
  have hkmin : φ.emin - (φ.p - 1) ≤ k := by omega
  have e1 : ((2 : ℚ) ^ φ.p) = 2 ^ ((φ.p : ℤ) - 1) * 2 := by
    rw [← zpow_natCast, ← zpow_add_one₀ (by norm_num)]
    congr 1; omega
  rcases Nat.lt_or_ge n (2 ^ φ.p) with hlt' | hge
  · rcases le_or_gt k (φ.emax - (φ.p - 1)) with hkm | hkm
    · exact ⟨n, k, hlt', hkmin, hkm, by rw [← hr]; rfl⟩
    · -- the spacing is too large: only zero is left
      exfalso
      have hlog : φ.emax + 1 ≤ Int.log 2 q := by omega
      have hq2 : (2 : ℚ) ^ (φ.emax + 1) ≤ q := (zpow_le_zpow_right₀ (by norm_num) hlog).trans (Int.zpow_log_le_self (by norm_num) hq')
      -- q/u ≥ 2^(p-1), an integer, so the rounded value is at least that
      have hkk : k = Int.log 2 q - ((φ.p : ℤ) - 1) := by omega
      have hq3 : (2 : ℚ) ^ (φ.p - 1) ≤ q / ulp φ q := by
        rw [le_div_iff₀ (ulp_pos φ q), hu, ← zpow_natCast, ← zpow_add₀ (by norm_num)]
        refine (zpow_le_zpow_right₀ (by norm_num) ?_).trans (Int.zpow_log_le_self (b := 2) (by norm_num) hq')
        omega
      have hfl : (2 : ℤ) ^ (φ.p - 1) ≤ ⌊q / ulp φ q⌋ := Int.le_floor.2 (by push_cast; exact hq3)
      have hre : (2 : ℤ) ^ (φ.p - 1) ≤ roundEven (q / ulp φ q) := by
        unfold roundEven
        simp only
        split
        · exact hfl
        · split
          · omega
          · split <;> omega
      rw [hn] at hre
      have hre' : ((2 : ℚ) ^ (φ.p - 1)) ≤ (n : ℚ) := by exact_mod_cast hre
      apply hbig
      calc (2 : ℚ) ^ (φ.emax + 1) ≤ 2 ^ (φ.p - 1) * 2 ^ k := by
            rw [← zpow_natCast, ← zpow_add₀ (by norm_num)]
            exact zpow_le_zpow_right₀ (by norm_num) (by omega)
        _ ≤ _ := mul_le_mul_of_nonneg_right hre' (by positivity)
  · have hn2 : n = 2 ^ φ.p := by omega
    refine ⟨2 ^ (φ.p - 1), k + 1, Nat.pow_lt_pow_right (by norm_num) (by omega), by omega, ?_, ?_⟩
    · by_contra hc
      apply hbig
      rw [hn2]
      push_cast
      rw [← zpow_natCast, ← zpow_add₀ (by norm_num)]
      exact zpow_le_zpow_right₀ (by norm_num) (by omega)
    · rw [← hr, hn2]
      push_cast
      rw [zpow_add_one₀ (by norm_num), show ((2 : ℚ) ^ φ.p) = 2 ^ (φ.p - 1) * 2 by rw [← pow_succ]; congr 1; omega]
      ring

/-- Rounding is to nearest: with `r` the value before the overflow test, no magnitude of the format is nearer to
`q`, and if one is as near then it is `r` or `r` is an even multiple of the spacing. -/
theorem round_nearest (φ : Format) (hp : 1 ≤ φ.p) (q : ℚ) (hq : 0 < q) (x : ℚ) (hx : Rep φ x) :
    |q - roundEven (q / ulp φ q) * ulp φ q| ≤ |q - x| ∧
      (|q - roundEven (q / ulp φ q) * ulp φ q| = |q - x| → x = roundEven (q / ulp φ q) * ulp φ q ∨ roundEven (q / ulp φ q) % 2 = 0) := by
  have hu := ulp_pos φ q
  have scale : ∀ z : ℚ, |q - z * ulp φ q| = |q / ulp φ q - z| * ulp φ q := by
    intro z
    rw [← abs_of_pos hu, ← abs_mul, abs_of_pos hu]
    congr 1
    field_simp
  have int : ∀ z : ℤ, |q - roundEven (q / ulp φ q) * ulp φ q| ≤ |q - z * ulp φ q| ∧
      (|q - roundEven (q / ulp φ q) * ulp φ q| = |q - z * ulp φ q| → z = roundEven (q / ulp φ q) ∨ roundEven (q / ulp φ q) % 2 = 0) := by
    intro z
    rw [scale, scale]
    have := roundEven_nearest (q / ulp φ q) z
    exact ⟨mul_le_mul_of_nonneg_right this.1 hu.le, fun h => this.2 (mul_right_cancel₀ (ne_of_gt hu) h)⟩
  obtain ⟨m, e, hm, he1, he2, rfl⟩ := hx
  set k := max (Int.log 2 q) φ.emin - ((φ.p : ℤ) - 1) with hk
  have huk : ulp φ q = 2 ^ k := rfl
  rcases le_or_gt k e with hke | hke
  · obtain ⟨d, hd⟩ := Int.eq_ofNat_of_zero_le (sub_nonneg.2 hke)
    have hz : (m : ℚ) * 2 ^ e = ((m * 2 ^ d : ℤ) : ℚ) * ulp φ q := by
      rw [huk]
      push_cast
      rw [mul_assoc, ← zpow_natCast, ← zpow_add₀ (by norm_num)]
      congr 2; omega
    rw [hz]
    have := int (m * 2 ^ d)
    exact ⟨this.1, fun h => (this.2 h).imp (fun h => by rw [h]) id⟩
  · -- `x` is below the binade of `q`
    have hlog : k = Int.log 2 q - ((φ.p : ℤ) - 1) := by omega
    have hbin : ((2 ^ (φ.p - 1) : ℤ) : ℚ) * ulp φ q = 2 ^ Int.log 2 q := by
      rw [huk]
      push_cast
      rw [← zpow_natCast, ← zpow_add₀ (by norm_num)]
      congr 1; omega
    have hle : (2 : ℚ) ^ Int.log 2 q ≤ q := Int.zpow_log_le_self (by norm_num) hq
    have hx : (m : ℚ) * 2 ^ e < 2 ^ Int.log 2 q := by
      calc (m : ℚ) * 2 ^ e < 2 ^ φ.p * 2 ^ e := mul_lt_mul_of_pos_right (by exact_mod_cast hm) (by positivity)
        _ ≤ _ := by
          rw [← zpow_natCast, ← zpow_add₀ (by norm_num)]
          exact zpow_le_zpow_right₀ (by norm_num) (by omega)
    have h := (int (2 ^ (φ.p - 1))).1
    rw [hbin, abs_of_nonneg (sub_nonneg.2 hle)] at h
    rw [abs_of_nonneg (by linarith : (0 : ℚ) ≤ q - m * 2 ^ e)]
    exact ⟨by linarith, fun h' => by linarith⟩

/-- The result is infinite exactly from the midpoint between the largest magnitude and `2^(emax+1)` on. -/
theorem round_inf_iff (φ : Format) (hp : 1 ≤ φ.p) (he : φ.emin ≤ φ.emax) (s : Bool) (q : ℚ) (hq : 0 ≤ q) :
    round φ s q = .inf s ↔ (2 : ℚ) ^ (φ.emax + 1) - 2 ^ (φ.emax - φ.p) ≤ q := by
  have two : (1 : ℚ) ≤ 2 := by norm_num
  by_cases h0 : q = 0
  · subst h0
    have h1 : (2 : ℚ) ^ (φ.emax - φ.p) < 2 ^ (φ.emax + 1) := zpow_lt_zpow_right₀ (by norm_num) (by omega)
    have h2 : ¬ (2 : ℚ) ^ (φ.emax + 1) - 2 ^ (φ.emax - φ.p) ≤ 0 := by linarith
    simp [round, h2]
  have hq' : 0 < q := lt_of_le_of_ne hq (Ne.symm h0)
  have hu := ulp_pos φ q
  have e : round φ s q = .inf s ↔ (2 : ℚ) ^ (φ.emax + 1) ≤ roundEven (q / ulp φ q) * ulp φ q := by
    unfold round
    rw [if_neg h0]
    simp only
    split
    · rename_i h; simp [h]
    · rename_i h; simp [h]
  rw [e]
  have hhalf := roundEven_half (q / ulp φ q)
  have hgap : |q - roundEven (q / ulp φ q) * ulp φ q| ≤ ulp φ q / 2 := by
    have : |q - roundEven (q / ulp φ q) * ulp φ q| = |q / ulp φ q - roundEven (q / ulp φ q)| * ulp φ q := by
      rw [← abs_of_pos hu, ← abs_mul, abs_of_pos hu]
      congr 1
      field_simp
    rw [this]
    calc _ ≤ 1 / 2 * ulp φ q := mul_le_mul_of_nonneg_right hhalf hu.le
      _ = _ := by ring
  rcases lt_trichotomy (Int.log 2 q) φ.emax with hl | hl | hl
  · -- below the last binade
    have hq2 : q < 2 ^ φ.emax := (Int.lt_zpow_succ_log_self (b := 2) (by norm_num) q).trans_le (by exact_mod_cast zpow_le_zpow_right₀ two (by omega))
    have hul : ulp φ q ≤ 2 ^ φ.emax := by
      unfold ulp
      exact zpow_le_zpow_right₀ two (by omega)
    have hE : (2 : ℚ) ^ (φ.emax + 1) = 2 ^ φ.emax * 2 := zpow_add_one₀ (by norm_num) _
    have hP : (2 : ℚ) ^ (φ.emax - φ.p) ≤ 2 ^ φ.emax := zpow_le_zpow_right₀ two (by omega)
    have hpos : (0 : ℚ) < 2 ^ φ.emax := by positivity
    constructor
    · intro h
      exfalso
      have := (abs_le.1 hgap).1
      linarith
    · intro h
      exfalso
      rw [hE] at h
      linarith
  · -- the last binade
    have hul : ulp φ q = 2 ^ (φ.emax - φ.p) * 2 := by
      unfold ulp
      rw [← zpow_add_one₀ (by norm_num)]
      congr 1; omega
    have hM : (2 : ℚ) ^ (φ.emax + 1) = ((2 ^ φ.p : ℤ) : ℚ) * ulp φ q := by
      rw [hul]
      push_cast
      rw [← zpow_add_one₀ (by norm_num), ← zpow_natCast, ← zpow_add₀ (by norm_num)]
      congr 1; omega
    have hhalfu : (2 : ℚ) ^ (φ.emax - φ.p) = ulp φ q / 2 := by rw [hul]; ring
    rw [hM, hhalfu]
    rw [mul_le_mul_iff_left₀ hu, Int.cast_le]
    have hx : (((2 ^ φ.p : ℤ) : ℚ) * ulp φ q - ulp φ q / 2 ≤ q) ↔ ((2 ^ φ.p : ℤ) : ℚ) - 1 / 2 ≤ q / ulp φ q := by
      rw [le_div_iff₀ hu]
      constructor <;> intro h <;> linarith
    rw [hx]
    generalize q / ulp φ q = t at *
    have hev : (2 ^ φ.p : ℤ) % 2 = 0 := by
      obtain ⟨j, hj⟩ : ∃ j, φ.p = j + 1 := ⟨φ.p - 1, by omega⟩
      rw [hj, pow_succ]; omega
    generalize (2 ^ φ.p : ℤ) = N at *
    have a := (abs_le.1 hhalf)
    constructor
    · intro h
      have : (N : ℚ) ≤ roundEven t := by exact_mod_cast h
      linarith
    · intro h
      by_contra hc
      have h1 : roundEven t ≤ N - 1 := by omega
      have h2 : ((roundEven t : ℤ) : ℚ) ≤ N - 1 := by exact_mod_cast h1
      have h3 : t = N - 1 / 2 := by linarith
      have h4 : roundEven t = N - 1 := by
        have : (N : ℚ) - 1 ≤ roundEven t := by linarith
        have : N - 1 ≤ roundEven t := by exact_mod_cast this
        omega
      have h5 := (roundEven_nearest t N).2 (by
        rw [h4, h3]
        push_cast
        rw [show (N : ℚ) - 1 / 2 - (N - 1) = 1 / 2 by ring, show (N : ℚ) - 1 / 2 - N = -(1 / 2) by ring, abs_neg])
      omega
  · -- beyond the last binade
    have hq2 : (2 : ℚ) ^ (φ.emax + 1) ≤ q := (zpow_le_zpow_right₀ two (by omega)).trans (Int.zpow_log_le_self (b := 2) (by norm_num) hq')
    have hpos : (0 : ℚ) < 2 ^ (φ.emax - φ.p) := by positivity
    constructor
    · intro _; linarith
    · intro _
      set k := max (Int.log 2 q) φ.emin - ((φ.p : ℤ) - 1) with hk
      have huk : ulp φ q = 2 ^ k := rfl
      have hM : (2 : ℚ) ^ Int.log 2 q = ((2 ^ (φ.p - 1) : ℤ) : ℚ) * ulp φ q := by
        rw [huk]
        push_cast
        rw [← zpow_natCast, ← zpow_add₀ (by norm_num)]
        congr 1; omega
      have hle : ((2 ^ (φ.p - 1) : ℤ) : ℚ) ≤ q / ulp φ q := by
        rw [le_div_iff₀ hu, ← hM]
        exact Int.zpow_log_le_self (by norm_num) hq'
      have hre : (2 : ℤ) ^ (φ.p - 1) ≤ roundEven (q / ulp φ q) := by
        have hfl : (2 : ℤ) ^ (φ.p - 1) ≤ ⌊q / ulp φ q⌋ := Int.le_floor.2 hle
        unfold roundEven
        simp only
        split
        · exact hfl
        · split
          · omega
          · split <;> omega
      have hre' : (((2 : ℤ) ^ (φ.p - 1) : ℤ) : ℚ) ≤ roundEven (q / ulp φ q) := by exact_mod_cast hre
      calc (2 : ℚ) ^ (φ.emax + 1) ≤ 2 ^ Int.log 2 q := zpow_le_zpow_right₀ two (by omega)
        _ = ((2 ^ (φ.p - 1) : ℤ) : ℚ) * ulp φ q := hM
        _ ≤ _ := mul_le_mul_of_nonneg_right hre' hu.le

/-- Ties: halfway between two float32 numbers the even one is taken. -/
example : Rep binary32 16777216 := ⟨8388608, 1, by decide, by decide, by decide, by norm_num⟩

end Verif.Fp
