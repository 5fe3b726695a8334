import Mathlib.Analysis.SpecialFunctions.Trigonometric.ArctanDeriv
import Mathlib.Analysis.SpecialFunctions.Complex.Arg
import Mathlib.Analysis.Calculus.Deriv.MeanValue
import Mathlib.Analysis.Real.Pi.Bounds
import Mathlib.Analysis.Calculus.Deriv.Pow

/-!
# Bounds for the inverse tangent and the angle of a point, from Mathlib only
-/

namespace Verif.Angle
open Real

/-- Alternating partial sums of the arctangent series. -/
noncomputable def T : Nat → ℝ → ℝ
  | 0, _ => 0
  | n + 1, x => T n x + (-1) ^ n * x ^ (2 * n + 1) / (2 * n + 1)

theorem hasDerivAt_T (n : Nat) (x : ℝ) : HasDerivAt (T n) ((1 - (-x ^ 2) ^ n) / (1 + x ^ 2)) x := by
  have hp : (1 : ℝ) + x ^ 2 ≠ 0 := by positivity
  induction n with
  | zero =>
    have : T 0 = fun _ => (0 : ℝ) := by funext y; rfl
    rw [this]; simpa using hasDerivAt_const x (0 : ℝ)
  | succ n ih =>
    have e : T (n + 1) = fun y => T n y + (-1) ^ n * y ^ (2 * n + 1) / (2 * n + 1) := by funext y; rfl
    rw [e]
    have h2 : HasDerivAt (fun y : ℝ => (-1) ^ n * y ^ (2 * n + 1) / (2 * (n : ℝ) + 1)) ((-x ^ 2) ^ n) x := by
      have h := ((hasDerivAt_pow (2 * n + 1) x).const_mul ((-1 : ℝ) ^ n)).div_const (2 * (n : ℝ) + 1)
      have hn : (2 * (n : ℝ) + 1) ≠ 0 := by positivity
      refine h.congr_deriv ?_
      rw [neg_pow (x ^ 2), ← pow_mul]
      push_cast
      field_simp
    refine (ih.add h2).congr_deriv ?_
    field_simp
    ring

theorem T_bound (n : Nat) {x : ℝ} (hx : 0 ≤ x) : 0 ≤ (-1) ^ n * (arctan x - T n x) := by
  have hd : ∀ y, HasDerivAt (fun y => (-1) ^ n * (arctan y - T n y)) ((y ^ 2) ^ n / (1 + y ^ 2)) y := by
    intro y
    have h := ((hasDerivAt_arctan y).sub (hasDerivAt_T n y)).const_mul ((-1 : ℝ) ^ n)
    have hp : (1 : ℝ) + y ^ 2 ≠ 0 := by positivity
    refine h.congr_deriv ?_
    have e : (-1 : ℝ) ^ n * (-1) ^ n = 1 := by rw [← mul_pow]; norm_num
    rw [neg_pow (y ^ 2)]
    field_simp
    linear_combination ((y ^ 2) ^ n) * e
  have hm : Monotone fun y => (-1) ^ n * (arctan y - T n y) := by
    apply monotone_of_deriv_nonneg
    · exact fun y => (hd y).differentiableAt
    · intro y; rw [(hd y).deriv]; positivity
  have h := hm hx
  have h0 : ∀ m, T m 0 = 0 := by
    intro m; induction m with
    | zero => rfl
    | succ m ih => simp [T, ih]
  simpa [h0] using h

theorem arctan_le_3 {x : ℝ} (hx : 0 ≤ x) : arctan x ≤ x - x ^ 3 / 3 + x ^ 5 / 5 := by
  have := T_bound 3 hx; simp [T] at this; norm_num at this; linarith
theorem arctan_le_5 {x : ℝ} (hx : 0 ≤ x) : arctan x ≤ x - x ^ 3 / 3 + x ^ 5 / 5 - x ^ 7 / 7 + x ^ 9 / 9 := by
  have := T_bound 5 hx; simp [T] at this; norm_num at this; linarith
theorem arctan_ge_2 {x : ℝ} (hx : 0 ≤ x) : x - x ^ 3 / 3 ≤ arctan x := by
  have := T_bound 2 hx; simp [T] at this; norm_num at this; linarith
theorem arctan_ge_4 {x : ℝ} (hx : 0 ≤ x) : x - x ^ 3 / 3 + x ^ 5 / 5 - x ^ 7 / 7 ≤ arctan x := by
  have := T_bound 4 hx; simp [T] at this; norm_num at this; linarith
theorem arctan_le_self {x : ℝ} (hx : 0 ≤ x) : arctan x ≤ x := by
  have := T_bound 1 hx; simp [T] at this; linarith

/-- Reflection around the diagonal. -/
theorem arctan_reflect {x : ℝ} (hx : -1 < x) : arctan x = π / 4 - arctan ((1 - x) / (1 + x)) := by
  have h1 : (1 : ℝ) + x ≠ 0 := by linarith
  have h : x * ((1 - x) / (1 + x)) < 1 := by
    rw [mul_div_assoc', div_lt_one (by linarith)]
    nlinarith [sq_nonneg x]
  have := arctan_add h
  have e : (x + (1 - x) / (1 + x)) / (1 - x * ((1 - x) / (1 + x))) = 1 := by
    have h3 : 1 + x - x * (1 - x) ≠ 0 := by
      have : 1 + x - x * (1 - x) = 1 + x ^ 2 := by ring
      rw [this]; positivity
    field_simp
    ring
  rw [e, arctan_one] at this
  linarith

/-- The difference of two arctangents of the same sign is at most the difference of the arguments. -/
theorem arctan_sub_le {x y : ℝ} (h : x ≤ y) : arctan y - arctan x ≤ y - x := by
  have hm : Monotone fun z : ℝ => z - arctan z := by
    apply monotone_of_deriv_nonneg
    · exact fun z => (differentiableAt_id).sub (hasDerivAt_arctan z).differentiableAt
    · intro z
      have := ((hasDerivAt_id z).sub (hasDerivAt_arctan z)).deriv
      change deriv (fun z : ℝ => z - arctan z) z = _ at this
      rw [this]
      have : 1 / (1 + z ^ 2) ≤ 1 := by
        rw [div_le_one (by positivity)]; nlinarith [sq_nonneg z]
      linarith
  have := hm h
  simp only at this
  linarith

/-! ## The angle of a point -/

/-- The angle of the point `(x, y)`, in `(-π, π]`; `0` at the origin. -/
noncomputable def angle (x y : ℝ) : ℝ := Complex.arg ⟨x, y⟩

theorem angle_polar {x y ρ θ : ℝ} (hρ : 0 < ρ) (h1 : -π < θ) (h2 : θ ≤ π) (hx : x = ρ * cos θ)
    (hy : y = ρ * sin θ) : angle x y = θ := by
  have := Complex.arg_mul_cos_add_sin_mul_I hρ ⟨h1, h2⟩
  unfold angle
  rw [← this]
  congr 1
  apply Complex.ext
  · simp [hx, ← Complex.ofReal_cos, ← Complex.ofReal_sin]
  · simp [hy, ← Complex.ofReal_cos, ← Complex.ofReal_sin]

/-- Reflection in the x axis. -/
theorem angle_neg {x y : ℝ} (hy : y < 0) : angle x y = -angle x (-y) := by
  have h := Complex.arg_conj (⟨x, -y⟩ : ℂ)
  have e : (starRingEnd ℂ) (⟨x, -y⟩ : ℂ) = ⟨x, y⟩ := by apply Complex.ext <;> simp
  rw [e, if_neg] at h
  · exact h
  · rw [Complex.arg_eq_pi_iff]; simp; intro _ h0; exact absurd h0 hy.ne

/-- Right half plane. -/
theorem angle_right {x y : ℝ} (hx : 0 < x) : angle x y = arctan (y / x) := by
  have h1 := neg_pi_div_two_lt_arctan (y / x)
  have h2 := arctan_lt_pi_div_two (y / x)
  have hc := cos_arctan_pos (y / x)
  refine angle_polar (ρ := x / cos (arctan (y / x))) (by positivity) (by linarith [pi_pos]) (by linarith [pi_pos]) ?_ ?_
  · field_simp
  · have : sin (arctan (y / x)) = tan (arctan (y / x)) * cos (arctan (y / x)) := by
      rw [tan_mul_cos hc.ne']
    rw [this, tan_arctan]
    field_simp

/-- Upper left quadrant (the negative axis included). -/
theorem angle_left {x y : ℝ} (hx : x < 0) (hy : 0 ≤ y) : angle x y = π + arctan (y / x) := by
  have h1 := neg_pi_div_two_lt_arctan (y / x)
  have h2 : arctan (y / x) ≤ 0 := arctan_le_zero.2 (div_nonpos_of_nonneg_of_nonpos hy hx.le)
  have hc := cos_arctan_pos (y / x)
  have hx' : x ≠ 0 := hx.ne
  refine angle_polar (ρ := -x / cos (arctan (y / x))) (div_pos (by linarith) hc) (by linarith [pi_pos])
    (by linarith) ?_ ?_
  · rw [add_comm, cos_add_pi]; field_simp
  · rw [add_comm, sin_add_pi]
    have : sin (arctan (y / x)) = tan (arctan (y / x)) * cos (arctan (y / x)) := by
      rw [tan_mul_cos hc.ne']
    rw [this, tan_arctan]
    field_simp

theorem angle_up {y : ℝ} (hy : 0 < y) : angle 0 y = π / 2 := by
  refine angle_polar hy (by linarith [pi_pos]) (by linarith [pi_pos]) ?_ ?_ <;> simp

/-- The diagonal form used by the approximations, first quadrant. -/
theorem angle_diag_right {x y : ℝ} (hx : 0 ≤ x) (hy : 0 ≤ y) (h : 0 < x + y) :
    angle x y = π / 4 - arctan ((x - y) / (x + y)) := by
  rcases hx.eq_or_lt with rfl | hx
  · rw [angle_up (by linarith)]
    rw [show (0 - y) / (0 + y) = -1 by
      rw [zero_sub, zero_add, neg_div, div_self (by linarith)]]
    rw [arctan_neg, arctan_one]; ring
  · rw [angle_right hx, arctan_reflect (lt_of_lt_of_le (by norm_num) (div_nonneg hy hx.le))]
    congr 2
    field_simp

/-- Second quadrant. -/
theorem angle_diag_left {x y : ℝ} (hx : x < 0) (hy : 0 ≤ y) :
    angle x y = 3 * π / 4 - arctan ((x + y) / (y - x)) := by
  rw [angle_left hx hy]
  have e : y / x = -(y / (-x)) := by field_simp
  rw [e, arctan_neg, arctan_reflect (x := y / -x) (lt_of_lt_of_le (by norm_num) (div_nonneg hy (by linarith)))]
  have e2 : (1 - y / -x) / (1 + y / -x) = -((x + y) / (y - x)) := by
    have h0 : x ≠ 0 := hx.ne
    have h1 : -x ≠ 0 := by linarith
    have h2 : y - x ≠ 0 := by linarith
    have e3 : 1 + y / -x = (y - x) / -x := by field_simp; ring
    have e4 : 1 - y / -x = -(x + y) / -x := by field_simp; ring
    rw [e3, e4, div_div_div_cancel_right₀ h1, neg_div]
  rw [e2, arctan_neg]; ring

end Verif.Angle
