import Verif.Angle.FastModel
import Verif.Angle.Poly
import Verif.Angle.LutProps

/-!
# Properties C33, C34, C35: `FastAtan2` and `FastAtan2_2` over the real numbers
-/

namespace Verif.Angle
open Real

/-! ## The two one-variable approximations on `[0, 1]` -/

theorem reflect_param {r : ℝ} (h0 : 1 / 2 ≤ r) (h1 : r ≤ 1) :
    ∃ w, 0 ≤ w ∧ w ≤ 1 / 3 ∧ r = (1 - w) / (1 + w) ∧ arctan r = π / 4 - arctan w := by
  refine ⟨(1 - r) / (1 + r), div_nonneg (by linarith) (by linarith), ?_, ?_, arctan_reflect (by linarith)⟩
  · rw [div_le_iff₀ (by linarith)]; linarith
  · have : (1 : ℝ) + r ≠ 0 := by linarith
    field_simp
    ring

theorem cubic_pos {r : ℝ} (h0 : 0 ≤ r) (h1 : r ≤ 1) : |arctan r + fastPoly r| ≤ 0.01016 := by
  have hp := pi_gt_d6
  have hp' := pi_lt_d6
  have ef : fastPoly r = -(9817/10000 * r - 1963/10000 * r ^ 3) := by unfold fastPoly; ring
  rw [ef, abs_le]
  by_cases h : r ≤ 1 / 2
  · have a1 := arctan_ge_4 h0
    have a2 := arctan_le_5 h0
    have p1 := c33_lo_small h0 h
    have p2 := c33_hi_small h0 h
    constructor <;> linarith
  · obtain ⟨w, w0, w1, rfl, e⟩ := reflect_param (r := r) (by linarith) h1
    have hw : (0 : ℝ) < (1 + w) ^ 3 := by positivity
    have a1 := arctan_ge_4 w0
    have a2 := arctan_le_3 w0
    have p1 := c33_lo_big w0 w1
    have p2 := c33_hi_big w0 w1
    have e2 : 9817/10000 * ((1 - w) / (1 + w)) - 1963/10000 * ((1 - w) / (1 + w)) ^ 3
        = (9817/10000 * (1 - w) * (1 + w) ^ 2 - 1963/10000 * (1 - w) ^ 3) / (1 + w) ^ 3 := by
      field_simp
    have q1 : (9817/10000 * (1 - w) * (1 + w) ^ 2 - 1963/10000 * (1 - w) ^ 3) / (1 + w) ^ 3
        ≤ 785398/1000000 - (w - w ^ 3 / 3 + w ^ 5 / 5) + 1016/100000 := by
      rw [div_le_iff₀ hw]; linarith
    have q2 : 78539825/100000000 - (w - w ^ 3 / 3 + w ^ 5 / 5 - w ^ 7 / 7) - 1016/100000
        ≤ (9817/10000 * (1 - w) * (1 + w) ^ 2 - 1963/10000 * (1 - w) ^ 3) / (1 + w) ^ 3 := by
      rw [le_div_iff₀ hw]; linarith
    rw [e, e2]
    constructor <;> linarith

theorem fastPoly_neg (r : ℝ) : fastPoly (-r) = -fastPoly r := by unfold fastPoly; ring

theorem cubic_bound {r : ℝ} (h0 : -1 ≤ r) (h1 : r ≤ 1) : |arctan r + fastPoly r| ≤ 0.01016 := by
  by_cases h : 0 ≤ r
  · exact cubic_pos h h1
  · have := cubic_pos (r := -r) (by linarith) (by linarith)
    rwa [arctan_neg, fastPoly_neg, ← neg_add, abs_neg] at this

theorem rational_pos {z : ℝ} (h0 : 0 ≤ z) (h1 : z ≤ 1) : |z / (1 + 28 / 100 * (z * z)) - arctan z| ≤ 0.00499 := by
  have hp := pi_gt_d6
  have hp' := pi_lt_d6
  rw [abs_le, ← pow_two]
  have hd : (0 : ℝ) < 1 + 28 / 100 * z ^ 2 := by positivity
  by_cases h : z ≤ 1 / 2
  · have a1 := arctan_ge_4 h0
    have a2 := arctan_le_5 h0
    have p1 := c34_lo_small h0 h
    have p2 := c34_hi_small h0 h
    have q1 : z / (1 + 28 / 100 * z ^ 2) ≤ z - z ^ 3 / 3 + z ^ 5 / 5 - z ^ 7 / 7 + 499/100000 := by
      rw [div_le_iff₀ hd]; linarith
    have q2 : (z - z ^ 3 / 3 + z ^ 5 / 5 - z ^ 7 / 7 + z ^ 9 / 9) - 499/100000 ≤ z / (1 + 28 / 100 * z ^ 2) := by
      rw [le_div_iff₀ hd]; linarith
    constructor <;> linarith
  · obtain ⟨w, w0, w1, rfl, e⟩ := reflect_param (r := z) (by linarith) h1
    have hw : (0 : ℝ) < (1 + w) ^ 2 + 28/100 * (1 - w) ^ 2 := by positivity
    have a1 := arctan_ge_4 w0
    have a2 := arctan_le_3 w0
    have p1 := c34_lo_big w0 w1
    have p2 := c34_hi_big w0 w1
    have e2 : (1 - w) / (1 + w) / (1 + 28 / 100 * ((1 - w) / (1 + w)) ^ 2)
        = ((1 + w) * (1 - w)) / ((1 + w) ^ 2 + 28/100 * (1 - w) ^ 2) := by
      have : (1 + w) ≠ 0 := by positivity
      rw [div_eq_div_iff hd.ne' hw.ne']
      field_simp
    have q1 : ((1 + w) * (1 - w)) / ((1 + w) ^ 2 + 28/100 * (1 - w) ^ 2)
        ≤ 785398/1000000 - (w - w ^ 3 / 3 + w ^ 5 / 5) + 499/100000 := by
      rw [div_le_iff₀ hw]; linarith
    have q2 : 78539825/100000000 - (w - w ^ 3 / 3 + w ^ 5 / 5 - w ^ 7 / 7) - 499/100000
        ≤ ((1 + w) * (1 - w)) / ((1 + w) ^ 2 + 28/100 * (1 - w) ^ 2) := by
      rw [le_div_iff₀ hw]; linarith
    rw [e, e2]
    constructor <;> linarith

theorem rational_bound {z : ℝ} (h : z * z ≤ 1) : |z / (1 + 28 / 100 * (z * z)) - arctan z| ≤ 0.00499 := by
  have hz := abs_le.1 (abs_le_one_iff_mul_self_le_one.2 h)
  by_cases h0 : 0 ≤ z
  · exact rational_pos h0 hz.2
  · have := rational_pos (z := -z) (by linarith) (by linarith)
    rw [arctan_neg, neg_mul_neg, neg_div, ← abs_neg] at this
    convert this using 2
    ring

/-- The other branch: the arctangent of the reciprocal. -/
theorem outer_bound {z : ℝ} (h : 1 ≤ z * z) : |z / (z * z + 28 / 100) - arctan z⁻¹| ≤ 0.00499 := by
  have hi : z⁻¹ * z⁻¹ ≤ 1 := by
    rw [← mul_inv]; exact inv_le_one_of_one_le₀ h
  have hz0 : z ≠ 0 := by
    rintro rfl; norm_num at h
  have hb := rational_bound hi
  have e : z⁻¹ / (1 + 28 / 100 * (z⁻¹ * z⁻¹)) = z / (z * z + 28 / 100) := by
    have : z * z + 28 / 100 ≠ 0 := by nlinarith
    have : 1 + 28 / 100 * (z⁻¹ * z⁻¹) ≠ 0 := by
      have := mul_self_nonneg z⁻¹
      linarith
    rw [div_eq_div_iff (by assumption) (by assumption)]
    field_simp
  rwa [e] at hb

/-! ## C34 -/

/-- The angle is the arctangent of the quotient up to a half turn. -/
theorem angle_quot {x y : ℝ} (hx : x ≠ 0) : angle x y = arctan (y / x) + (if x > 0 then 0 else if y < 0 then -π else π) := by
  by_cases h1 : x > 0
  · rw [if_pos h1, angle_right h1]; ring
  · have h1' : x < 0 := lt_of_le_of_ne (not_lt.1 h1) hx
    rw [if_neg h1]
    by_cases h2 : y < 0
    · rw [if_pos h2, angle_neg h2, angle_left h1' (by linarith), neg_div, arctan_neg]
      ring
    · rw [if_neg h2, angle_left h1' (not_lt.1 h2)]
      ring

/-- The first branch of `FastAtan2_2`, also where the square of the quotient is one. -/
theorem inner_error {x y : ℝ} (hx : x ≠ 0) (hz : y / x * (y / x) ≤ 1) :
    |(if x < 0 then if y < 0 then y / x / (1 + 28 / 100 * (y / x * (y / x))) - π else y / x / (1 + 28 / 100 * (y / x * (y / x))) + π
      else y / x / (1 + 28 / 100 * (y / x * (y / x)))) - angle x y| ≤ 0.005 := by
  have hb := (rational_bound hz).trans (by norm_num : (0.00499 : ℝ) ≤ 0.005)
  rw [angle_quot hx]
  by_cases h1 : x < 0
  · rw [if_pos h1, if_neg h1.le.not_gt]
    split
    · rw [show ∀ a b : ℝ, a - π - (b + -π) = a - b by intros; ring]; exact hb
    · rw [show ∀ a b : ℝ, a + π - (b + π) = a - b by intros; ring]; exact hb
  · have h1' : x > 0 := lt_of_le_of_ne (not_lt.1 h1) (Ne.symm hx)
    rw [if_neg h1, if_pos h1', add_zero]; exact hb

/-- C34: in exact arithmetic `FastAtan2_2` is within 0.005 radians of the angle of `(x, y)`, for every
point of the plane. -/
theorem C34_error (y x : ℝ) : |fastAtan2_2 π y x - Complex.arg ⟨x, y⟩| ≤ 0.005 := by
  change |_ - angle x y| ≤ 0.005
  unfold fastAtan2_2
  by_cases hx : x = 0
  · subst hx
    rw [if_pos rfl]
    rcases lt_trichotomy y 0 with h | rfl | h
    · rw [if_neg h.le.not_gt, if_pos h, angle_neg h, angle_up (by linarith)]
      rw [sub_self]; norm_num
    · have : angle 0 0 = 0 := by
        unfold angle; exact Complex.arg_zero
      rw [this]; norm_num
    · rw [if_pos h, angle_up h]; norm_num
  rw [if_neg hx]
  rw [angle_quot hx]
  dsimp only
  by_cases hz : y / x * (y / x) < 1
  · rw [if_pos hz, ← angle_quot hx]
    exact inner_error hx hz.le
  · rw [if_neg hz]
    have hz0 : y / x ≠ 0 := by
      intro h; rw [h] at hz; norm_num at hz
    have hy0 : y ≠ 0 := by
      rintro rfl; simp at hz0
    have hb : |y / x / (y / x * (y / x) + 28 / 100) - arctan (y / x)⁻¹| ≤ 0.005 :=
      le_trans (outer_bound (not_lt.1 hz)) (by norm_num)
    rcases lt_or_gt_of_ne hz0 with hn | hn
    · have hinv := arctan_inv_of_neg hn
      rw [hinv] at hb
      have : x > 0 ↔ y < 0 := by
        rw [div_neg_iff] at hn
        constructor
        · intro h; rcases hn with h' | h' <;> linarith [h'.1, h'.2]
        · intro h; rcases hn with h' | h' <;> linarith [h'.1, h'.2]
      by_cases hy : y < 0
      · rw [if_pos hy, if_pos (this.2 hy)]
        rw [← abs_neg]; convert hb using 2; ring
      · rw [if_neg hy, if_neg (fun h => hy (this.1 h)), if_neg hy]
        rw [← abs_neg]; convert hb using 2; ring
    · have hinv := arctan_inv_of_pos hn
      rw [hinv] at hb
      have : x > 0 ↔ ¬ y < 0 := by
        rw [div_pos_iff] at hn
        constructor
        · intro h; rcases hn with h' | h' <;> linarith [h'.1, h'.2]
        · intro h; rcases hn with h' | h'
          · exact h'.2
          · exact absurd h'.1 h
      by_cases hy : y < 0
      · rw [if_pos hy, if_neg (fun h => (this.1 h) hy), if_pos hy]
        rw [← abs_neg]; convert hb using 2; ring
      · rw [if_neg hy, if_pos (this.2 hy)]
        rw [← abs_neg]; convert hb using 2; ring

/-! ## C33 -/

/-- Effect of moving the point up by `κ`, right half plane. -/
theorem shift_right {x a κ m : ℝ} (hx : 0 < x) (_ : 0 ≤ a) (hk : 0 ≤ κ) (hm : 0 < m)
    (h : m ≤ x ∨ m ≤ a) : |arctan ((a + κ) / x) - arctan (a / x)| ≤ κ / m := by
  have hmono : a / x ≤ (a + κ) / x := by gcongr; linarith
  rw [abs_of_nonneg (sub_nonneg.2 (arctan_mono hmono))]
  by_cases h1 : m ≤ x
  · have := arctan_sub_le hmono
    have e : (a + κ) / x - a / x = κ / x := by ring
    rw [e] at this
    exact this.trans (by gcongr)
  · have h2 : m ≤ a := by tauto
    have h3 : x < m := not_le.1 h1
    have ha' : 0 < a := by linarith
    have hb : 0 < a + κ := by linarith
    have i1 := arctan_inv_of_pos (x := a / x) (by positivity)
    have i2 := arctan_inv_of_pos (x := (a + κ) / x) (by positivity)
    rw [inv_div] at i1 i2
    have hle : x / (a + κ) ≤ x / a := by gcongr; linarith
    have h4 := arctan_sub_le hle
    have e : x / a - x / (a + κ) = (x / a) * (κ / (a + κ)) := by field_simp; ring
    have h5 : x / a ≤ 1 := by rw [div_le_one ha']; linarith
    have h6 : κ / (a + κ) ≤ κ / m := by gcongr; linarith
    have h7 : (x / a) * (κ / (a + κ)) ≤ κ / (a + κ) :=
      mul_le_of_le_one_left (by positivity) h5
    linarith

theorem diag_range {x b : ℝ} (hx : 0 < x) (hb : 0 ≤ b) : -1 ≤ (x - b) / (x + b) ∧ (x - b) / (x + b) ≤ 1 := by
  constructor
  · rw [le_div_iff₀ (by linarith)]; linarith
  · rw [div_le_one (by linarith)]; linarith

theorem kludge_pos : (0 : ℝ) < kludge := by unfold kludge; norm_num

/-- The angle in the upper half plane. -/
theorem upper_error {x a m : ℝ} (ha : 0 ≤ a) (hm : 0 < m) (h : m ≤ |x| ∨ m ≤ a) (hx0 : x ≠ 0) :
    |(if x < 0 then π * 3 / 4 + fastPoly ((x + (a + kludge)) / (a + kludge - x))
      else π / 4 + fastPoly ((x - (a + kludge)) / (x + (a + kludge)))) - angle x a| ≤ 0.01016 + kludge / m := by
  have hk := kludge_pos
  by_cases hx : x < 0
  · rw [if_pos hx]
    have h1 := angle_diag_left hx (show 0 ≤ a + kludge by linarith)
    have h2 := angle_left hx (show 0 ≤ a + kludge by linarith)
    have h3 := angle_left hx ha
    have h4 := shift_right (x := -x) (a := a) (κ := kludge) (m := m) (by linarith) ha hk.le hm
      (by rwa [abs_of_neg hx] at h)
    have hr := diag_range (x := -x) (b := a + kludge) (by linarith) (by linarith)
    have er : (-x - (a + kludge)) / (-x + (a + kludge)) = -((x + (a + kludge)) / (a + kludge - x)) := by
      rw [← neg_div]; congr 1 <;> ring
    rw [er] at hr
    have hc := cubic_bound (r := (x + (a + kludge)) / (a + kludge - x)) (by linarith [hr.2]) (by linarith [hr.1])
    rw [div_neg, div_neg, arctan_neg, arctan_neg] at h4
    rw [abs_le] at h4 hc ⊢
    constructor <;> linarith [h4.1, h4.2, hc.1, hc.2]
  · have hx' : 0 < x := lt_of_le_of_ne (not_lt.1 hx) (Ne.symm hx0)
    rw [if_neg hx]
    have h1 := angle_diag_right hx'.le (show 0 ≤ a + kludge by linarith) (by linarith)
    have h2 := angle_right (x := x) (y := a + kludge) hx'
    have h3 := angle_right (x := x) (y := a) hx'
    have h4 := shift_right (x := x) (a := a) (κ := kludge) (m := m) hx' ha hk.le hm
      (by rwa [abs_of_pos hx'] at h)
    have hr := diag_range (x := x) (b := a + kludge) (by linarith) (by linarith)
    have hc := cubic_bound hr.1 hr.2
    rw [abs_le] at h4 hc ⊢
    constructor <;> linarith [h4.1, h4.2, hc.1, hc.2]

/-- `FastAtan2` computes on the absolute value of `y` and negates. -/
theorem fastAtan2_eq {x y : ℝ} (hx0 : x ≠ 0) : fastAtan2 π y x =
    (if y < 0 then -1 else 1) * (if x < 0 then π * 3 / 4 + fastPoly ((x + (|y| + kludge)) / (|y| + kludge - x))
      else π / 4 + fastPoly ((x - (|y| + kludge)) / (x + (|y| + kludge)))) := by
  have ea : (if y < 0 then -y else y) = |y| := by
    split
    · rename_i h; rw [abs_of_neg h]
    · rename_i h; rw [abs_of_nonneg (not_lt.1 h)]
  unfold fastAtan2
  simp only [ea]
  by_cases hx : x < 0
  · simp only [if_pos hx]
    split <;> ring
  · have hx' : x > 0 := lt_of_le_of_ne (not_lt.1 hx) (Ne.symm hx0)
    simp only [if_neg hx, if_pos hx']
    split <;> ring

/-- C33, provable part: at every point but the origin `FastAtan2` is within
`0.01016 + 1e-20 / max(|x|, |y|)` radians of the angle (documented: 0.01, see `C33_violated`). -/
theorem C33_error_partial (y x : ℝ) (h0 : ¬ (x = 0 ∧ y = 0)) :
    |fastAtan2 π y x - Complex.arg ⟨x, y⟩| ≤ 0.01016 + 1e-20 / max |x| |y| := by
  change |_ - angle x y| ≤ _
  have hm : 0 < max |x| |y| := by
    rw [lt_max_iff]
    by_contra hc
    rw [not_or, not_lt, not_lt, abs_nonpos_iff, abs_nonpos_iff] at hc
    exact h0 hc
  have ek : (kludge : ℝ) = 1e-20 := by unfold kludge; norm_num
  by_cases hx : x = 0
  · have hpos : (0 : ℝ) ≤ 1e-20 / max |x| |y| := by positivity
    subst hx
    have hy : y ≠ 0 := fun h => h0 ⟨rfl, h⟩
    unfold fastAtan2
    simp only [lt_irrefl, gt_iff_lt, if_false]
    rcases lt_or_gt_of_ne hy with h | h
    · rw [if_pos h, angle_neg h, angle_up (by linarith), sub_self, abs_zero]
      linarith
    · rw [if_neg (not_lt.2 h.le), if_pos h, angle_up h, sub_self, abs_zero]
      linarith
  · rw [fastAtan2_eq hx]
    have h := upper_error (x := x) (a := |y|) (m := max |x| |y|) (abs_nonneg y) hm (le_max_iff.1 le_rfl) hx
    rw [ek] at h ⊢
    by_cases hy : y < 0
    · rw [if_pos hy, angle_neg hy, ← abs_neg, ← abs_of_neg hy]
      convert h using 2
      ring
    · rw [if_neg hy, one_mul]
      rw [show angle x y = angle x |y| by rw [abs_of_nonneg (not_lt.1 hy)]]
      exact h

/-- Corollary away from the origin: 0.0102 where a coordinate is at least `1e-15`. -/
theorem C33_error_away_partial (y x : ℝ) (h : 1e-15 ≤ max |x| |y|) :
    |fastAtan2 π y x - Complex.arg ⟨x, y⟩| ≤ 0.0102 := by
  have h0 : ¬ (x = 0 ∧ y = 0) := by
    rintro ⟨rfl, rfl⟩
    norm_num at h
  have h1 := C33_error_partial y x h0
  have h2 : (1e-20 : ℝ) / max |x| |y| ≤ 1e-20 / 1e-15 := by
    apply div_le_div_of_nonneg_left <;> first | assumption | norm_num
  norm_num at h1 h2 ⊢
  linarith

example : (1e-15 : ℝ) ≤ max |3| |(-4)| ∧ ¬ ((3 : ℝ) = 0 ∧ (-4 : ℝ) = 0) := by
  constructor
  · rw [abs_of_pos (by norm_num)]; exact le_max_of_le_left (by norm_num)
  · norm_num

/-- C33 is violated: at `(x, y) = (83, 10)` the error is more than the documented 0.01. -/
theorem C33_violated : 0.01 < |fastAtan2 π 10 83 - Complex.arg ⟨83, 10⟩| := by
  change _ < |_ - angle 83 10|
  rw [angle_right (by norm_num), fastAtan2_eq (by norm_num), if_neg (by norm_num), if_neg (by norm_num)]
  have h1 := arctan_ge_4 (x := 10 / 83) (by norm_num)
  have hp := pi_lt_d6
  rw [abs_sub_comm, lt_abs]
  left
  rw [abs_of_pos (by norm_num : (0 : ℝ) < 10)]
  unfold fastPoly kludge
  norm_num at h1 ⊢
  linarith

/-- C33 is violated badly close to the origin, because of the constant added to `|y|`: at
`(1e-21, 0)` the error is more than one radian. -/
theorem C33_violated_small : 1 < |fastAtan2 π 0 1e-21 - Complex.arg ⟨1e-21, 0⟩| := by
  change _ < |_ - angle 1e-21 0|
  rw [angle_right (by norm_num), fastAtan2_eq (by norm_num), if_neg (by norm_num), if_neg (by norm_num)]
  rw [zero_div, arctan_zero, sub_zero, abs_zero, one_mul, lt_abs]
  left
  have hp := pi_gt_d6
  unfold fastPoly kludge
  norm_num
  linarith

/-! ## C35 -/

theorem fastPoly_range {r : ℝ} (h0 : -1 ≤ r) (h1 : r ≤ 1) : |fastPoly r| ≤ 0.7854 := by
  unfold fastPoly
  have e : 1 - r ≥ 0 := by linarith
  have e' : 1 + r ≥ 0 := by linarith
  rw [abs_le]
  constructor
  · nlinarith [mul_nonneg e e', mul_nonneg e (mul_nonneg e e'), mul_nonneg e' (mul_nonneg e e')]
  · nlinarith [mul_nonneg e e', mul_nonneg e (mul_nonneg e e'), mul_nonneg e' (mul_nonneg e e')]

/-- C35 for `FastAtan2_2`: the result is always in `[-π, π]`. -/
theorem C35_range_2 (y x : ℝ) : -π ≤ fastAtan2_2 π y x ∧ fastAtan2_2 π y x ≤ π := by
  have hp := pi_gt_d6
  unfold fastAtan2_2
  by_cases hx : x = 0
  · rw [if_pos hx]
    split_ifs <;> constructor <;> linarith
  rw [if_neg hx]
  dsimp only
  by_cases hz : y / x * (y / x) < 1
  · rw [if_pos hz]
    have hz' := abs_le.1 (abs_le_one_iff_mul_self_le_one.2 hz.le)
    have hd : (1 : ℝ) ≤ 1 + 28 / 100 * (y / x * (y / x)) := by
      have := mul_self_nonneg (y / x); linarith
    have hb1 : -1 ≤ y / x / (1 + 28 / 100 * (y / x * (y / x))) := by
      rw [le_div_iff₀ (by linarith)]; linarith
    have hb2 : y / x / (1 + 28 / 100 * (y / x * (y / x))) ≤ 1 := by
      rw [div_le_one (by linarith)]; linarith
    by_cases h1 : x < 0
    · rw [if_pos h1]
      by_cases h2 : y < 0
      · rw [if_pos h2]
        have : 0 ≤ y / x / (1 + 28 / 100 * (y / x * (y / x))) :=
          div_nonneg (div_nonneg_of_nonpos h2.le h1.le) (by linarith)
        constructor <;> linarith
      · rw [if_neg h2]
        have : y / x / (1 + 28 / 100 * (y / x * (y / x))) ≤ 0 :=
          div_nonpos_of_nonpos_of_nonneg (div_nonpos_of_nonneg_of_nonpos (not_lt.1 h2) h1.le) (by linarith)
        constructor <;> linarith
    · rw [if_neg h1]; constructor <;> linarith
  · rw [if_neg hz]
    have hz' := not_lt.1 hz
    have hb1 : -1 ≤ y / x / (y / x * (y / x) + 28 / 100) := by
      rw [le_div_iff₀ (by linarith)]; nlinarith [sq_nonneg (y / x + 1)]
    have hb2 : y / x / (y / x * (y / x) + 28 / 100) ≤ 1 := by
      rw [div_le_one (by linarith)]; nlinarith [sq_nonneg (y / x - 1)]
    split <;> constructor <;> linarith

/-- C35 for `FastAtan2`, provable part: the result exceeds `π` by less than `2e-6`. -/
theorem C35_range_partial (y x : ℝ) : |fastAtan2 π y x| ≤ π + 2e-6 := by
  have hp := pi_gt_d6
  have hk := kludge_pos
  by_cases hx : x = 0
  · subst hx
    unfold fastAtan2
    simp only [lt_irrefl, gt_iff_lt, if_false]
    rw [abs_le]
    split_ifs <;> constructor <;> linarith
  rw [fastAtan2_eq hx, abs_mul]
  have e1 : |(if y < 0 then -1 else 1 : ℝ)| = 1 := by split <;> simp
  rw [e1, one_mul]
  have hy := abs_nonneg y
  by_cases h : x < 0
  · rw [if_pos h]
    have hr := diag_range (x := -x) (b := |y| + kludge) (by linarith) (by linarith)
    have er : (-x - (|y| + kludge)) / (-x + (|y| + kludge)) = -((x + (|y| + kludge)) / (|y| + kludge - x)) := by
      rw [← neg_div]; congr 1 <;> ring
    rw [er] at hr
    have := abs_le.1 (fastPoly_range (r := (x + (|y| + kludge)) / (|y| + kludge - x)) (by linarith [hr.2]) (by linarith [hr.1]))
    rw [abs_le]
    constructor <;> linarith
  · rw [if_neg h]
    have hx' : 0 < x := lt_of_le_of_ne (not_lt.1 h) (Ne.symm hx)
    have hr := diag_range (x := x) (b := |y| + kludge) hx' (by linarith)
    have := abs_le.1 (fastPoly_range hr.1 hr.2)
    rw [abs_le]
    constructor <;> linarith

/-- C35 is violated by `FastAtan2`: on the negative axis the result is greater than `π`. -/
theorem C35_violated : π < fastAtan2 π 0 (-1) := by
  rw [fastAtan2_eq (by norm_num), if_neg (by norm_num), if_pos (by norm_num), abs_zero]
  have hp := pi_lt_d20
  unfold fastPoly kludge
  norm_num
  linarith

end Verif.Angle
