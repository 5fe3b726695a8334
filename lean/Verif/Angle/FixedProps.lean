import Verif.Angle.FixedModel
import Verif.Angle.ArctanLemmas

/-!
# Properties C29–C31: `FastAtan2Fixed`
-/

namespace Verif.Angle
open Real

theorem wrap_of_isInt {x : Int} (h : IsInt x) : wrap x = x := by unfold wrap; unfold IsInt at h; omega
theorem wrap_isInt (x : Int) : IsInt (wrap x) := by unfold wrap IsInt; omega
theorem wrap_abs_le (x : Int) : (wrap x).natAbs ≤ x.natAbs := by unfold wrap; omega

theorem tdiv_abs_le {a b : Int} {c : Nat} (h : a.natAbs ≤ c * b.natAbs) : (Int.tdiv a b).natAbs ≤ c := by
  rw [Int.natAbs_tdiv]
  exact Nat.div_le_of_le_mul (by rw [Nat.mul_comm]; exact h)

/-- The quotient of both branches of `FastAtan2Fixed`: between −4096 and 4096. -/
theorem quot_bound {d s : Int} (hs : s ≠ 0) (h : d.natAbs ≤ s.natAbs) :
    ∃ q, goDiv (wrap (4096 * d)) s = some q ∧ -4096 ≤ q ∧ q ≤ 4096 := by
  have h1 := wrap_abs_le (4096 * d)
  have h3 := tdiv_abs_le (a := wrap (4096 * d)) (b := s) (c := 4096) (by omega)
  have h4 : IsInt (Int.tdiv (wrap (4096 * d)) s) := by unfold IsInt; omega
  refine ⟨_, by rw [goDiv, if_neg hs, wrap_of_isInt h4], ?_, ?_⟩ <;> omega

/-- The angle computed from `yAbs`, before the final negation. -/
def core (ya x : Int) : Option Int :=
  if x ≥ 0 then (goDiv (wrap (4096 * wrap (x - ya))) (wrap (x + ya))).map fun q => wrap (4096 - q)
  else (goDiv (wrap (4096 * wrap (x + ya))) (wrap (ya - x))).map fun q => wrap (12288 - q)

theorem fast_eq (y x : Int) (h0 : ¬ (x = 0 ∧ y = 0)) : fastAtan2Fixed y x
    = (core (if y < 0 then wrap (-y) else y) x).map fun a => if y < 0 then wrap (-a) else a := by
  unfold fastAtan2Fixed core
  rw [if_neg h0]

theorem core_range (ya x : Int) (hya : IsInt ya) (hx : IsInt x) (h0 : ¬ (x = 0 ∧ ya = 0))
    (hm : 0 ≤ ya ∨ (ya = minInt ∧ x ≠ minInt)) :
    ∃ a, core ya x = some a ∧ 0 ≤ a ∧ a ≤ 16384 := by
  unfold IsInt minInt at *
  unfold core
  by_cases hx0 : x ≥ 0
  · rw [if_pos hx0]
    obtain ⟨q, hq, h1, h2⟩ := quot_bound (d := wrap (x - ya)) (s := wrap (x + ya)) (by
      unfold wrap; omega) (by unfold wrap; omega)
    rw [hq]
    refine ⟨_, rfl, ?_, ?_⟩ <;> dsimp only [wrap] <;> omega
  · rw [if_neg hx0]
    obtain ⟨q, hq, h1, h2⟩ := quot_bound (d := wrap (x + ya)) (s := wrap (ya - x)) (by
      unfold wrap; omega) (by unfold wrap; omega)
    rw [hq]
    refine ⟨_, rfl, ?_, ?_⟩ <;> dsimp only [wrap] <;> omega

/-- C29, exact: the only panicking input is `y = x = minInt` (so the claim as stated is false, hence
partial), and otherwise the result lies in `[-2^14, 2^14]`, for all pairs of 64-bit integers,
including those where intermediate results overflow. -/
theorem C29_range_partial (y x : Int) (hy : IsInt y) (hx : IsInt x) :
    (fastAtan2Fixed y x = none ↔ y = minInt ∧ x = minInt) ∧
      ∀ v, fastAtan2Fixed y x = some v → -16384 ≤ v ∧ v ≤ 16384 := by
  by_cases h0 : x = 0 ∧ y = 0
  · obtain ⟨rfl, rfl⟩ := h0
    constructor
    · simp [fastAtan2Fixed, minInt]
    · intro v hv; simp [fastAtan2Fixed] at hv; omega
  rw [fast_eq y x h0]
  by_cases hp : y = minInt ∧ x = minInt
  · obtain ⟨rfl, rfl⟩ := hp
    have : core (if minInt < 0 then wrap (-minInt) else minInt) minInt = none := by decide
    rw [this]; simp
  · obtain ⟨a, ha, h1, h2⟩ := core_range (if y < 0 then wrap (-y) else y) x
      (by split; exact wrap_isInt _; exact hy) hx
      (by unfold IsInt wrap at *; split <;> omega)
      (by unfold IsInt wrap minInt at *; split <;> omega)
    rw [ha]
    refine ⟨by simp [hp], fun v hv => ?_⟩
    simp only [Option.map_some, Option.some.injEq] at hv
    unfold wrap at hv
    split at hv <;> omega

/-- C29 is violated: division by zero at `y = x = -2^63`. -/
theorem C29_violated : IsInt minInt ∧ fastAtan2Fixed minInt minInt = none := by
  constructor
  · unfold IsInt minInt; omega
  · decide

/-- Sample values, and inputs where the products overflow. -/
example : fastAtan2Fixed 3 4 = some 3511 ∧ fastAtan2Fixed (-3) (-4) = some (-12873) ∧
    IsInt 9223372036854775807 ∧ fastAtan2Fixed 9223372036854775807 (-9223372036854775807) = some 12288 := by
  refine ⟨by decide, by decide, by unfold IsInt; omega, by decide⟩

/-- C30.  Negating `y` negates the result, for all 64-bit integers off the x axis except
`y = -2^63` (whose negation overflows), and on the nonnegative x axis below 2^51. -/
theorem C30_odd (y x : Int) (hy : IsInt y) (hx : IsInt x) (hm : y ≠ minInt)
    (hax : y ≠ 0 ∨ (0 ≤ x ∧ x < 2251799813685248)) :
    ∃ v, fastAtan2Fixed y x = some v ∧ fastAtan2Fixed (-y) x = some (-v) := by
  by_cases h0 : x = 0 ∧ y = 0
  · obtain ⟨rfl, rfl⟩ := h0
    exact ⟨0, by decide, by decide⟩
  have ey : (if -y < 0 then wrap (-(-y)) else -y) = y.natAbs := by
    unfold wrap IsInt minInt at *; split <;> omega
  have ey' : (if y < 0 then wrap (-y) else y) = y.natAbs := by
    unfold wrap IsInt minInt at *; split <;> omega
  rw [fast_eq y x h0, fast_eq (-y) x (by omega), ey, ey']
  obtain ⟨a, ha, h1, h2⟩ := core_range y.natAbs x (by unfold IsInt minInt at *; omega) hx (by omega) (by omega)
  by_cases hy0 : y = 0
  · subst hy0
    have hx1 : 0 < x ∧ x < 2251799813685248 := by omega
    have hq : Int.tdiv (4096 * x) x = 4096 := Int.mul_tdiv_cancel 4096 (by omega)
    have e1 : wrap x = x := by unfold wrap; omega
    have e2 : wrap (4096 * x) = 4096 * x := by unfold wrap; omega
    have : core ((0 : Int).natAbs) x = some 0 := by
      unfold core goDiv
      simp only [Int.natAbs_zero, Int.cast_ofNat_Int, sub_zero, add_zero]
      rw [if_pos (by omega), e1, e2, if_neg (by omega), hq]
      decide
    rw [this]
    exact ⟨0, by decide, by decide⟩
  · rw [ha]
    simp only [Option.map_some]
    rcases lt_or_gt_of_ne hy0 with h | h
    · refine ⟨-a, ?_, ?_⟩
      · rw [if_pos h]; unfold wrap; congr 1; omega
      · rw [if_neg (by omega)]; congr 1; omega
    · refine ⟨a, ?_, ?_⟩
      · rw [if_neg (by omega)]
      · rw [if_pos (by omega)]; unfold wrap; congr 1; omega

example : fastAtan2Fixed 5 (-7) = some 12970 ∧ fastAtan2Fixed (-5) (-7) = some (-12970) ∧
    fastAtan2Fixed 0 9 = some 0 ∧ IsInt 5 ∧ (5 : Int) ≠ minInt := by
  refine ⟨by decide, by decide, by decide, ?_, ?_⟩
  · unfold IsInt; omega
  · decide

/-! ## C31 -/

theorem tdiv_real {a s : Int} (hs : 0 < s) : |((Int.tdiv a s : Int) : ℝ) - (a : ℝ) / s| ≤ 1 := by
  have h1 := Int.tmod_add_mul_tdiv a s
  have h2 : (Int.tmod a s).natAbs < s.natAbs := by
    rw [Int.natAbs_tmod]; exact Nat.mod_lt _ (by omega)
  have hs' : (0 : ℝ) < s := by exact_mod_cast hs
  have h3 : (a : ℝ) = (Int.tmod a s : ℝ) + s * (Int.tdiv a s : ℝ) := by exact_mod_cast h1.symm
  have h5 : -s ≤ Int.tmod a s := by omega
  have h6 : Int.tmod a s ≤ s := by omega
  have h5' : -(s : ℝ) ≤ (Int.tmod a s : ℝ) := by exact_mod_cast h5
  have h6' : (Int.tmod a s : ℝ) ≤ s := by exact_mod_cast h6
  have e : (a : ℝ) / s = (Int.tmod a s : ℝ) / s + (Int.tdiv a s : ℝ) := by
    rw [h3]; field_simp
  have h7 : (Int.tmod a s : ℝ) / s ≤ 1 := by rw [div_le_one hs']; exact h6'
  have h8 : -1 ≤ (Int.tmod a s : ℝ) / s := by rw [le_div_iff₀ hs']; linarith
  rw [e, abs_le]
  constructor <;> linarith

/-- The straight line through the ends approximates the arctangent on `[0, 1]`. -/
theorem linear_pos {r : ℝ} (h0 : 0 ≤ r) (h1 : r ≤ 1) : |arctan r - π / 4 * r| ≤ 0.0797 := by
  have hp := pi_gt_d6
  have hp' := pi_lt_d6
  have hr3 : 0 ≤ r ^ 3 := by positivity
  rw [abs_le]
  constructor
  · by_cases h : r ≤ 4 / 5
    · have := arctan_ge_2 h0
      have : r ^ 3 ≤ 16 / 25 * r := by nlinarith [mul_nonneg h0 (sub_nonneg.2 h)]
      nlinarith
    · have := arctan_reflect (x := r) (by linarith)
      have hw : 0 ≤ (1 - r) / (1 + r) := div_nonneg (by linarith) (by linarith)
      have h2 := arctan_le_self hw
      have h3 : (1 - r) / (1 + r) ≤ (1 - r) * (5 / 9) := by
        rw [div_le_iff₀ (by linarith)]; nlinarith
      nlinarith
  · by_cases h : r ≤ 3 / 5
    · have h2 := arctan_le_3 h0
      have h3 : r - r ^ 3 / 3 + r ^ 5 / 5 - 0.785398 * r ≤ 0.0797 := by
        nlinarith [sq_nonneg (r - 0.555), sq_nonneg (r ^ 2 - 0.308), mul_nonneg h0 (sq_nonneg (r ^ 2 - 0.308)),
          mul_nonneg h0 (sq_nonneg (r - 0.555)), mul_nonneg h0 (sub_nonneg.2 h)]
      nlinarith
    · have h2 := arctan_reflect (x := r) (by linarith)
      have h1r : (0 : ℝ) < 1 + r := by linarith
      obtain ⟨w, hw⟩ : ∃ w, w = (1 - r) / (1 + r) := ⟨_, rfl⟩
      rw [← hw] at h2
      have hw0 : 0 ≤ w := by rw [hw]; exact div_nonneg (by linarith) h1r.le
      have hw1 : w ≤ 1 / 4 := by rw [hw, div_le_iff₀ h1r]; linarith
      have hr : (1 - r) = 2 * w / (1 + w) := by
        have : (1 : ℝ) + w ≠ 0 := by positivity
        rw [eq_div_iff this, hw]; field_simp; ring
      have h3 := arctan_ge_2 hw0
      have h4 : π / 4 * (1 - r) ≤ 0.0797 + (w - w ^ 3 / 3) := by
        rw [hr, mul_div_assoc', div_le_iff₀ (by positivity)]
        have : w ^ 3 ≤ 1 / 16 * w := by nlinarith [mul_nonneg hw0 (sub_nonneg.2 hw1)]
        nlinarith [sq_nonneg (w - 0.2455), pow_nonneg hw0 3]
      linarith

theorem linear_bound {r : ℝ} (h0 : -1 ≤ r) (h1 : r ≤ 1) : |arctan r - π / 4 * r| ≤ 0.0797 := by
  by_cases h : 0 ≤ r
  · exact linear_pos h h1
  · have := linear_pos (r := -r) (by linarith) (by linarith)
    rw [arctan_neg, show -arctan r - π / 4 * -r = -(arctan r - π / 4 * r) by ring, abs_neg] at this
    exact this

/-- Error of one branch: `c` is the angle of the diagonal in units of π/2^14. -/
theorem branch_error (c d s : Int) (hs : 0 < s) (h1 : -s ≤ d) (h2 : d ≤ s) :
    |((c - Int.tdiv (4096 * d) s : Int) : ℝ) * π / 16384 - (c * π / 16384 - arctan (d / s))| ≤ 0.08 := by
  have hs' : (0 : ℝ) < s := by exact_mod_cast hs
  have hq := tdiv_real (a := 4096 * d) hs
  have hr1 : -1 ≤ (d : ℝ) / s := by
    rw [le_div_iff₀ hs']; have : -(s : ℝ) ≤ d := by exact_mod_cast h1
    linarith
  have hr2 : (d : ℝ) / s ≤ 1 := by
    rw [div_le_one hs']; exact_mod_cast h2
  have hl := linear_bound hr1 hr2
  have hp := pi_gt_d6
  have hp' := pi_lt_d6
  push_cast at hq ⊢
  rw [mul_div_assoc] at hq
  generalize (d : ℝ) / s = r at *
  generalize ((Int.tdiv (4096 * d) s : Int) : ℝ) = q at *
  rw [abs_le] at *
  constructor <;> nlinarith

theorem core_error (ya x : Int) (hya : 0 ≤ ya) (h0 : ¬ (x = 0 ∧ ya = 0))
    (hb : x.natAbs + ya.natAbs < 2251799813685248) :
    ∃ a : Int, core ya x = some a ∧ |(a : ℝ) * π / 16384 - angle x ya| ≤ 0.08 := by
  have hyr : (0 : ℝ) ≤ ya := by exact_mod_cast hya
  unfold core
  by_cases hx0 : x ≥ 0
  · have hxr : (0 : ℝ) ≤ x := by exact_mod_cast hx0
    have hsum : (0 : ℝ) < x + ya := by
      have : 0 < x + ya := by omega
      exact_mod_cast this
    obtain ⟨q, hq, q1, q2⟩ := quot_bound (d := x - ya) (s := x + ya) (by omega) (by omega)
    have e1 : wrap (x - ya) = x - ya := by unfold wrap; omega
    have e2 : wrap (x + ya) = x + ya := by unfold wrap; omega
    have e3 : wrap (4096 * (x - ya)) = 4096 * (x - ya) := by unfold wrap; omega
    rw [if_pos hx0, e1, e2, hq]
    rw [goDiv, if_neg (by omega), e3] at hq
    have hb2 := tdiv_abs_le (a := 4096 * (x - ya)) (b := x + ya) (c := 4096) (by omega)
    rw [wrap_of_isInt (by unfold IsInt; omega)] at hq
    refine ⟨4096 - q, by simp only [Option.map_some, wrap]; congr 1; omega, ?_⟩
    have := branch_error 4096 (x - ya) (x + ya) (by omega) (by omega) (by omega)
    simp only [Option.some.injEq] at hq
    rw [hq] at this
    rw [angle_diag_right hxr hyr hsum]
    push_cast at this ⊢
    rw [show (4096 : ℝ) * π / 16384 = π / 4 by ring] at this
    exact this
  · have hxr : (x : ℝ) < 0 := by
      have : x < 0 := by omega
      exact_mod_cast this
    obtain ⟨q, hq, q1, q2⟩ := quot_bound (d := x + ya) (s := ya - x) (by omega) (by omega)
    have e1 : wrap (ya - x) = ya - x := by unfold wrap; omega
    have e2 : wrap (x + ya) = x + ya := by unfold wrap; omega
    have e3 : wrap (4096 * (x + ya)) = 4096 * (x + ya) := by unfold wrap; omega
    rw [if_neg hx0, e1, e2, hq]
    rw [goDiv, if_neg (by omega), e3] at hq
    have hb2 := tdiv_abs_le (a := 4096 * (x + ya)) (b := ya - x) (c := 4096) (by omega)
    rw [wrap_of_isInt (by unfold IsInt; omega)] at hq
    refine ⟨12288 - q, by simp only [Option.map_some, wrap]; congr 1; omega, ?_⟩
    have := branch_error 12288 (x + ya) (ya - x) (by omega) (by omega) (by omega)
    simp only [Option.some.injEq] at hq
    rw [hq] at this
    rw [angle_diag_left hxr hyr]
    push_cast at this ⊢
    rw [show (12288 : ℝ) * π / 16384 = 3 * π / 4 by ring] at this
    exact this

/-- C31.  The error of `FastAtan2Fixed` is at most 0.08 radian for every integer point other than the
origin with |x|+|y| < 2^51; the angle is the argument of the complex number `x + iy`. -/
theorem C31_error (y x : Int) (h0 : ¬ (x = 0 ∧ y = 0)) (hb : x.natAbs + y.natAbs < 2251799813685248) :
    ∃ v : Int, fastAtan2Fixed y x = some v ∧ |(v : ℝ) * π / 16384 - Complex.arg ⟨x, y⟩| ≤ 0.08 := by
  show ∃ v : Int, _ ∧ |(v : ℝ) * π / 16384 - angle x y| ≤ 0.08
  have ey' : (if y < 0 then wrap (-y) else y) = y.natAbs := by
    unfold wrap; split <;> omega
  obtain ⟨a, ha, he⟩ := core_error y.natAbs x (by omega) (by omega) (by omega)
  obtain ⟨a', ha', r1, r2⟩ := core_range y.natAbs x (by unfold IsInt; omega) (by unfold IsInt; omega) (by omega)
    (by omega)
  rw [ha] at ha'
  simp only [Option.some.injEq] at ha'
  subst ha'
  rw [fast_eq y x h0, ey', ha, Option.map_some]
  by_cases hy : y < 0
  · rw [if_pos hy]
    refine ⟨-a, by unfold wrap; congr 1; omega, ?_⟩
    have hyr : (y : ℝ) < 0 := by exact_mod_cast hy
    rw [angle_neg hyr]
    have : (((y.natAbs : Int)) : ℝ) = -(y : ℝ) := by
      have : (y.natAbs : Int) = -y := by omega
      rw [this]; push_cast; ring
    rw [this] at he
    push_cast
    rw [show -(a : ℝ) * π / 16384 - -angle x (-y) = -((a : ℝ) * π / 16384 - angle x (-y)) by ring, abs_neg]
    exact he
  · rw [if_neg hy]
    refine ⟨a, rfl, ?_⟩
    have : (y.natAbs : Int) = y := by omega
    rw [this] at he
    exact he

/-- A point where the error is close to its maximum (0.0711 rad): 7 units to the left, 2 up. -/
example : ¬ ((-7 : Int) = 0 ∧ (2 : Int) = 0) ∧ (-7 : Int).natAbs + (2 : Int).natAbs < 2251799813685248 ∧
    fastAtan2Fixed 2 (-7) = some 14563 := by
  refine ⟨by decide, by decide, by decide⟩

/-- The bound of C31 is sharp: at `x = 2^51, y = 0` the product wraps around and the result is off by
a quarter of a turn. -/
theorem C31_bound_sharp :
    fastAtan2Fixed 0 2251799813685248 = some 8192 ∧ Complex.arg ⟨(2251799813685248 : ℝ), 0⟩ = 0 := by
  refine ⟨by decide, ?_⟩
  have h := angle_right (x := 2251799813685248) (y := 0) (by norm_num)
  rw [zero_div, arctan_zero] at h
  exact h

end Verif.Angle
