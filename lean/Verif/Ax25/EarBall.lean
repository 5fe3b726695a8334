import Mathlib.Analysis.SpecialFunctions.Trigonometric.Bounds
import Mathlib.Analysis.Real.Pi.Bounds
import Mathlib.Analysis.Complex.Trigonometric

/-!
# Complex numbers with error bounds, in integers

Helper for C139: sums of complex exponentials are enclosed by integer arithmetic, so that inequalities between them become facts that the kernel
computes.
-/

namespace Verif.Ax25.Ear

open Complex

/-- One unit of the integers below is `1 / scale`. -/
def scale : Int := 1000000000000

/-- A disk of radius `err` around `re + im i`, in units of `1 / scale`. -/
structure Ball where
  re : Int
  im : Int
  err : Int
deriving DecidableEq

namespace Ball

/-- The centre of the disk, times `scale`. -/
noncomputable def mid (b : Ball) : ℂ := ⟨b.re, b.im⟩

/-- The number lies in the disk. -/
def Has (b : Ball) (z : ℂ) : Prop := ‖z * (scale : ℝ) - b.mid‖ ≤ b.err

/-- Sum. -/
def add (a b : Ball) : Ball := ⟨a.re + b.re, a.im + b.im, a.err + b.err⟩

/-- Difference. -/
def sub (a b : Ball) : Ball := ⟨a.re - b.re, a.im - b.im, a.err + b.err⟩

/-- Conjugate. -/
def conj (a : Ball) : Ball := ⟨a.re, -a.im, a.err⟩

/-- The size of the centre, as a sum of absolute values. -/
def size (a : Ball) : Int := |a.re| + |a.im|

/-- Product. -/
def mul (a b : Ball) : Ball :=
  ⟨(a.re * b.re - a.im * b.im) / scale, (a.re * b.im + a.im * b.re) / scale,
    (size a * b.err + size b * a.err + a.err * b.err) / scale + 3⟩

/-- Product with a number on the unit circle. -/
def turn (a b : Ball) : Ball :=
  ⟨(a.re * b.re - a.im * b.im) / scale, (a.re * b.im + a.im * b.re) / scale, a.err + size a * b.err / scale + 3⟩

/-- The number 1. -/
def one : Ball := ⟨scale, 0, 0⟩

/-- Powers of a number on the unit circle. -/
def pow (b : Ball) : Nat → Ball
  | 0 => one
  | n + 1 => turn (pow b n) b

theorem scale_pos : (0 : ℝ) < (scale : ℝ) := by norm_num [scale]

theorem has_add {a b : Ball} {z w : ℂ} (ha : a.Has z) (hb : b.Has w) : (add a b).Has (z + w) := by
  unfold Has at *
  have e : (z + w) * (scale : ℝ) - (add a b).mid = (z * (scale : ℝ) - a.mid) + (w * (scale : ℝ) - b.mid) := by
    have : (add a b).mid = a.mid + b.mid := by apply Complex.ext <;> simp [mid, add]
    rw [this]; ring
  rw [e]
  refine (norm_add_le _ _).trans ?_
  simp only [add, Int.cast_add]
  linarith

theorem has_sub {a b : Ball} {z w : ℂ} (ha : a.Has z) (hb : b.Has w) : (sub a b).Has (z - w) := by
  unfold Has at *
  have e : (z - w) * (scale : ℝ) - (sub a b).mid = (z * (scale : ℝ) - a.mid) - (w * (scale : ℝ) - b.mid) := by
    have : (sub a b).mid = a.mid - b.mid := by apply Complex.ext <;> simp [mid, sub]
    rw [this]; ring
  rw [e]
  refine (norm_sub_le _ _).trans ?_
  simp only [sub, Int.cast_add]
  linarith

theorem has_conj {a : Ball} {z : ℂ} (ha : a.Has z) : (conj a).Has ((starRingEnd ℂ) z) := by
  unfold Has at *
  have e : (starRingEnd ℂ) z * (scale : ℝ) - (conj a).mid = (starRingEnd ℂ) (z * (scale : ℝ) - a.mid) := by
    apply Complex.ext <;> simp [mid, conj]
  rw [e, Complex.norm_conj]
  exact ha

theorem has_one : one.Has 1 := by
  have : (1 : ℂ) * (scale : ℝ) - one.mid = 0 := by apply Complex.ext <;> simp [mid, one]
  unfold Has
  rw [this]
  simp [one]

theorem has_zero : (⟨0, 0, 0⟩ : Ball).Has 0 := by
  have : (0 : ℂ) * (scale : ℝ) - (⟨0, 0, 0⟩ : Ball).mid = 0 := by apply Complex.ext <;> simp [mid]
  unfold Has
  rw [this]
  simp

theorem div_near (n : Int) : |(n : ℝ) / scale - ((n / scale : Int) : ℝ)| ≤ 1 := by
  have h0 : (0 : Int) < scale := by decide
  have h1 : scale * (n / scale) ≤ n := Int.mul_ediv_self_le h0.ne'
  have h2 : n < scale * (n / scale + 1) := by
    have := Int.lt_ediv_add_one_mul_self n h0
    linarith
  have h1' : (scale : ℝ) * ((n / scale : Int) : ℝ) ≤ n := by exact_mod_cast h1
  have h2' : (n : ℝ) < scale * (((n / scale : Int) : ℝ) + 1) := by exact_mod_cast h2
  have hs := scale_pos
  rw [abs_le]
  constructor
  · have : ((n / scale : Int) : ℝ) ≤ n / scale := by rw [le_div_iff₀ hs]; linarith
    linarith
  · have : (n : ℝ) / scale ≤ ((n / scale : Int) : ℝ) + 1 := by rw [div_le_iff₀ hs]; linarith
    linarith

theorem norm_mid (a : Ball) : ‖a.mid‖ ≤ size a := by
  refine (Complex.norm_le_abs_re_add_abs_im _).trans ?_
  simp [mid, size]

/-- Rounding of the centre of a product. -/
theorem mid_mul (a b : Ball) (e : Int) :
    ‖a.mid * b.mid / (scale : ℝ) - (⟨(a.re * b.re - a.im * b.im) / scale, (a.re * b.im + a.im * b.re) / scale, e⟩ : Ball).mid‖ ≤ 2 := by
  refine (Complex.norm_le_abs_re_add_abs_im _).trans ?_
  have d1 := div_near (a.re * b.re - a.im * b.im)
  have d2 := div_near (a.re * b.im + a.im * b.re)
  push_cast at d1 d2
  rw [sub_re, sub_im, div_ofReal_re, div_ofReal_im, mul_re, mul_im]
  simp only [mid]
  linarith

theorem has_mul {a b : Ball} {z w : ℂ} (ha : a.Has z) (hb : b.Has w) : (mul a b).Has (z * w) := by
  have hs := scale_pos
  unfold Has at *
  have hm := mid_mul a b ((size a * b.err + size b * a.err + a.err * b.err) / scale + 3)
  have hE := div_near (size a * b.err + size b * a.err + a.err * b.err)
  have e : z * w * (scale : ℝ) - (mul a b).mid
      = ((z * (scale : ℝ) - a.mid) * b.mid + a.mid * (w * (scale : ℝ) - b.mid) + (z * (scale : ℝ) - a.mid) * (w * (scale : ℝ) - b.mid)) / (scale : ℝ)
        + (a.mid * b.mid / (scale : ℝ) - (mul a b).mid) := by
    have : ((scale : ℝ) : ℂ) ≠ 0 := by exact_mod_cast hs.ne'
    field_simp
    ring
  rw [e]
  have na := norm_mid a
  have nb := norm_mid b
  have t : ‖((z * (scale : ℝ) - a.mid) * b.mid + a.mid * (w * (scale : ℝ) - b.mid) + (z * (scale : ℝ) - a.mid) * (w * (scale : ℝ) - b.mid)) / ((scale : ℝ) : ℂ)‖
      ≤ ((size a * b.err + size b * a.err + a.err * b.err : Int) : ℝ) / scale := by
    rw [norm_div, Complex.norm_real, Real.norm_eq_abs, abs_of_pos hs]
    apply div_le_div_of_nonneg_right _ hs.le
    refine (norm_add_le _ _).trans ?_
    have h0 := norm_add_le ((z * (scale : ℝ) - a.mid) * b.mid) (a.mid * (w * (scale : ℝ) - b.mid))
    have h1 : ‖(z * (scale : ℝ) - a.mid) * b.mid‖ ≤ a.err * size b := by
      rw [norm_mul]; exact mul_le_mul ha nb (norm_nonneg _) ((norm_nonneg _).trans ha)
    have h2 : ‖a.mid * (w * (scale : ℝ) - b.mid)‖ ≤ size a * b.err := by
      rw [norm_mul]; exact mul_le_mul na hb (norm_nonneg _) ((norm_nonneg _).trans na)
    have h3 : ‖(z * (scale : ℝ) - a.mid) * (w * (scale : ℝ) - b.mid)‖ ≤ a.err * b.err := by
      rw [norm_mul]; exact mul_le_mul ha hb (norm_nonneg _) ((norm_nonneg _).trans ha)
    simp only [Int.cast_add, Int.cast_mul]
    linarith
  refine (norm_add_le _ _).trans ((add_le_add t hm).trans ?_)
  rw [abs_le] at hE
  simp only [mul, Int.cast_add, Int.cast_ofNat] at hE ⊢
  linarith

theorem has_turn {a b : Ball} {z w : ℂ} (ha : a.Has z) (hb : b.Has w) (hw : ‖w‖ = 1) : (turn a b).Has (z * w) := by
  have hs := scale_pos
  unfold Has at *
  have hm := mid_mul a b (a.err + size a * b.err / scale + 3)
  have hE := div_near (size a * b.err)
  have e : z * w * (scale : ℝ) - (turn a b).mid
      = (z * (scale : ℝ) - a.mid) * w + a.mid * (w * (scale : ℝ) - b.mid) / (scale : ℝ)
        + (a.mid * b.mid / (scale : ℝ) - (turn a b).mid) := by
    have : ((scale : ℝ) : ℂ) ≠ 0 := by exact_mod_cast hs.ne'
    field_simp
    ring
  rw [e]
  have na := norm_mid a
  have h1 : ‖(z * (scale : ℝ) - a.mid) * w‖ ≤ a.err := by rw [norm_mul, hw, mul_one]; exact ha
  have h2 : ‖a.mid * (w * (scale : ℝ) - b.mid) / ((scale : ℝ) : ℂ)‖ ≤ ((size a * b.err : Int) : ℝ) / scale := by
    rw [norm_div, Complex.norm_real, Real.norm_eq_abs, abs_of_pos hs, norm_mul]
    rw [Int.cast_mul]
    exact div_le_div_of_nonneg_right (mul_le_mul na hb (norm_nonneg _) ((norm_nonneg _).trans na)) hs.le
  have h3 := norm_add_le ((z * (scale : ℝ) - a.mid) * w) (a.mid * (w * (scale : ℝ) - b.mid) / (scale : ℝ))
  refine (norm_add_le _ _).trans ((add_le_add (h3.trans (add_le_add h1 h2)) hm).trans ?_)
  rw [abs_le] at hE
  simp only [turn, Int.cast_add, Int.cast_ofNat] at hE ⊢
  linarith

theorem has_pow {a : Ball} {z : ℂ} (ha : a.Has z) (hz : ‖z‖ = 1) (n : Nat) : (pow a n).Has (z ^ n) := by
  induction n with
  | zero => simpa [pow] using has_one
  | succ n ih => rw [pow_succ]; exact has_turn ih ha hz

/-- The sums `1 + ρ + … + ρ^(i-1)` for `i = n, n - 1, …, 0`, with the last power. -/
def geoUp (b : Ball) : Nat → List Ball × Ball
  | 0 => ([⟨0, 0, 0⟩], one)
  | n + 1 =>
    let (l, p) := geoUp b n
    (add (l.headD ⟨0, 0, 0⟩) p :: l, turn p b)

theorem geoUp_spec {a : Ball} {z : ℂ} (ha : a.Has z) (hz : ‖z‖ = 1) (n : Nat) :
    (geoUp a n).2.Has (z ^ n) ∧ (geoUp a n).1.length = n + 1 ∧
      ∀ i ≤ n, ((geoUp a n).1.getD i ⟨0, 0, 0⟩).Has (∑ l ∈ Finset.range (n - i), z ^ l) := by
  induction n with
  | zero =>
    refine ⟨by simpa [geoUp] using has_one, rfl, fun i hi => ?_⟩
    obtain rfl : i = 0 := by omega
    simpa [geoUp] using has_zero
  | succ n ih =>
    obtain ⟨h1, h2, h3⟩ := ih
    refine ⟨?_, ?_, ?_⟩
    · rw [pow_succ]; exact has_turn h1 ha hz
    · simp [geoUp, h2]
    · intro i hi
      cases i with
      | zero =>
        have h0 := h3 0 (by omega)
        rw [Nat.sub_zero] at h0 ⊢
        rw [Finset.sum_range_succ]
        have e : (geoUp a n).1.headD ⟨0, 0, 0⟩ = (geoUp a n).1.getD 0 ⟨0, 0, 0⟩ := by
          cases (geoUp a n).1 <;> rfl
        simp only [geoUp, List.getD_cons_zero]
        rw [e]
        exact has_add h0 h1
      | succ i =>
        have := h3 i (by omega)
        simpa [geoUp] using this

/-- The unit of angle. -/
noncomputable def unit : ℝ := 2 * Real.pi / 7056

/-- Enclosure of `e^{i unit}`. -/
def root : Ball := ⟨999999603528, 890473990, 1⟩

theorem has_root : root.Has (exp ((unit : ℂ) * I)) := by
  have h1 := Real.pi_gt_d20
  have h2 := Real.pi_lt_d20
  have hu1 : (0.00089047410816037 : ℝ) < unit := by unfold unit; rw [lt_div_iff₀ (by norm_num)]; linarith
  have hu2 : unit < (0.00089047410816038 : ℝ) := by unfold unit; rw [div_lt_iff₀ (by norm_num)]; linarith
  have hb : |unit| ≤ 1 := by rw [abs_of_pos (by linarith)]; linarith
  have c := Real.cos_bound hb
  have s := Real.sin_bound hb
  have h0 : 0 < unit := by linarith
  rw [abs_of_pos h0] at c s
  have q1 : (0.00089047410816037 : ℝ) ^ 2 ≤ unit ^ 2 := pow_le_pow_left₀ (by norm_num) hu1.le 2
  have q2 : unit ^ 2 ≤ (0.00089047410816038 : ℝ) ^ 2 := pow_le_pow_left₀ h0.le hu2.le 2
  have q3 : unit ^ 4 ≤ (0.00089047410816038 : ℝ) ^ 4 := pow_le_pow_left₀ h0.le hu2.le 4
  have q6 : unit ^ 5 ≤ (0.00089047410816038 : ℝ) ^ 5 := pow_le_pow_left₀ h0.le hu2.le 5
  have q4 : unit ^ 3 ≤ (0.00089047410816038 : ℝ) ^ 3 := pow_le_pow_left₀ h0.le hu2.le 3
  have q5 : (0.00089047410816037 : ℝ) ^ 3 ≤ unit ^ 3 := pow_le_pow_left₀ (by norm_num) hu1.le 3
  norm_num at q1 q2 q3 q4 q5 q6
  rw [abs_le] at c s
  unfold Has
  refine (Complex.norm_le_abs_re_add_abs_im _).trans ?_
  have r1 : |Real.cos unit * 1000000000000 - 999999603528| ≤ 3 / 10 := by
    rw [abs_le]
    constructor <;> linarith
  have r2 : |Real.sin unit * 1000000000000 - 890473990| ≤ 3 / 5 := by
    rw [abs_le]
    constructor <;> linarith
  rw [sub_re, sub_im, re_mul_ofReal, im_mul_ofReal, exp_ofReal_mul_I_re, exp_ofReal_mul_I_im]
  norm_num [root, scale, mid]
  linarith

end Ball

end Verif.Ax25.Ear
