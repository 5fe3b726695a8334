import Verif.Fp.FpModel
import Mathlib.Tactic.Linarith
import Mathlib.Tactic.Ring
import Mathlib.Tactic.NormNum
import Mathlib.Tactic.Positivity
import Mathlib.Algebra.Order.Field.Rat
import Mathlib.Algebra.Order.Field.Power

namespace Verif.Fp

theorem roundEven_int (n : ℤ) : roundEven (n : ℚ) = n := by
  simp [roundEven]

/-- A number with at most `p` significant bits, not below the subnormal grid, is a multiple of its
own spacing. -/
theorem div_ulp_int (φ : Format) (m : ℕ) (e : ℤ) (hm0 : 0 < m) (hm : m < 2 ^ φ.p)
    (he : φ.emin - (φ.p - 1) ≤ e) :
    ∃ k : ℤ, (m : ℚ) * 2 ^ e / ulp φ (m * 2 ^ e) = k := by
  set q : ℚ := m * 2 ^ e with hq
  have hqpos : 0 < q := by positivity
  have hE : max (Int.log 2 q) φ.emin - (φ.p - 1) ≤ e := by
    rcases le_total (Int.log 2 q) φ.emin with h | h
    · rw [max_eq_right h]; exact he
    · rw [max_eq_left h]
      have h1 : (2 : ℚ) ^ Int.log 2 q ≤ q := by
        have := Int.zpow_log_le_self (b := 2) (R := ℚ) (by norm_num) hqpos
        simpa using this
      have h2 : q < (2 : ℚ) ^ ((φ.p : ℤ) + e) := by
        rw [zpow_add₀ (by norm_num : (2 : ℚ) ≠ 0), hq]
        apply mul_lt_mul_of_pos_right _ (by positivity)
        rw [zpow_natCast]; exact_mod_cast hm
      have h3 := (zpow_lt_zpow_iff_right₀ (by norm_num : (1 : ℚ) < 2)).1 (lt_of_le_of_lt h1 h2)
      omega
  refine ⟨(m : ℤ) * 2 ^ (e - (max (Int.log 2 q) φ.emin - (φ.p - 1))).toNat, ?_⟩
  rw [ulp, hq, mul_div_assoc, ← zpow_sub₀ (by norm_num : (2 : ℚ) ≠ 0)]
  push_cast
  congr 1
  rw [← zpow_natCast]
  congr 1
  rw [Int.toNat_of_nonneg (by rw [← hq]; omega)]

/-- Numbers of the format are rounded to themselves. -/
theorem round_exact (φ : Format) (s : Bool) (m : ℕ) (e : ℤ) (hm : m < 2 ^ φ.p)
    (he : φ.emin - (φ.p - 1) ≤ e) (hmax : (m : ℚ) * 2 ^ e < 2 ^ (φ.emax + 1)) :
    round φ s (m * 2 ^ e) = .fin s (m * 2 ^ e) := by
  by_cases h0 : m = 0
  · subst h0; simp [round]
  have hpos : 0 < m := Nat.pos_of_ne_zero h0
  have hq : (m : ℚ) * 2 ^ e ≠ 0 := by positivity
  obtain ⟨k, hk⟩ := div_ulp_int φ m e hpos hm he
  have hu : ulp φ (m * 2 ^ e) ≠ 0 := by unfold ulp; positivity
  have hr : (roundEven ((m : ℚ) * 2 ^ e / ulp φ (m * 2 ^ e)) : ℚ) * ulp φ (m * 2 ^ e) = m * 2 ^ e := by
    rw [hk, roundEven_int, ← hk, div_mul_cancel₀ _ hu]
  unfold round
  rw [if_neg hq]
  simp only [hr]
  rw [if_neg (not_le.2 hmax)]

end Verif.Fp
