import Verif.Demod.DemodFp
import Verif.Fp.FpNear

/-!
# C142: the polar discriminators in double precision

`PolarDiscriminator` (dsp/demod.go:7-9) and `polarDiscriminant` (borip/example/rx.go:15-19) multiply two `complex128` numbers, in any of the ways a
compiler may do that (`CMul`), and take the angle with `math.Atan2`, which is not modelled: it is a parameter `atan2`, and the theorems assume that it
returns an angle within `δ` of the exact one.
-/

namespace Verif.Demod

open Verif.Fp Verif.Arm Verif.Angle Real

/-- `cmplx.Conj`, and `complex(real(b), -imag(b))` of borip/example/rx.go:16. -/
def conj64 (b : CVal binary64) : CVal binary64 := ⟨b.re, Fp.neg b.im⟩

/-- `PolarDiscriminator`, dsp/demod.go:7-9; `cmplx.Phase(x)` is `math.Atan2(imag(x), real(x))`. -/
def polar64 [CMul binary64] (atan2 : FVal binary64 → FVal binary64 → FVal binary64) (a b : CVal binary64) : FVal binary64 :=
  let c := a * conj64 b
  atan2 c.im c.re

/-- `polarDiscriminant`, borip/example/rx.go:15-19; `math.Pi` is the constant of Go, rounded to `float64`. -/
def polarPi64 [CMul binary64] (atan2 : FVal binary64 → FVal binary64 → FVal binary64) (a b : CVal binary64) : FVal binary64 :=
  let c := a * conj64 b
  let angle := atan2 c.im c.re
  Fp.div binary64 angle (Fp.round binary64 false goPi)

/-- The library function is within `δ` of the angle of every finite point but the origin. -/
def AtanOk (atan2 : FVal binary64 → FVal binary64 → FVal binary64) (δ : ℝ) : Prop :=
  ∀ y x : FVal binary64, Finite y → Finite x → (val x ≠ 0 ∨ val y ≠ 0) →
    Finite (atan2 y x) ∧ |val (atan2 y x) - Complex.arg ⟨val x, val y⟩| ≤ δ

theorem conj64_fin {b : CVal binary64} (h : b.Fin) : (conj64 b).Fin ∧ (conj64 b).toC = (starRingEnd ℂ) b.toC := by
  obtain ⟨f, e⟩ := Fp.finite_neg h.2
  refine ⟨⟨h.1, f⟩, ?_⟩
  apply Complex.ext
  · rfl
  · exact e

/-- C142 (part).  Finite numbers the product of whose magnitudes lies between `2^-900` and `2^1000`.  The result is finite, at most `π + δ` in magnitude, and within `δ + 1e-15` of the phase step; it
may be off by a whole turn, and only if the step is within 1e-15 of half a turn.  Missing: smaller and larger products. -/
theorem C142_polar_partial [CMul binary64] {atan2 : FVal binary64 → FVal binary64 → FVal binary64} {δ : ℝ} (hA : AtanOk atan2 δ)
    (a b : CVal binary64) (ha : a.Fin) (hb : b.Fin) (hlow : 2 ^ (-900 : ℤ) ≤ ‖a.toC‖ * ‖b.toC‖) (hhigh : ‖a.toC‖ * ‖b.toC‖ ≤ 2 ^ (1000 : ℤ)) :
    Finite (polar64 atan2 a b) ∧ |val (polar64 atan2 a b)| ≤ π + δ ∧
      ∃ k : ℤ, |val (polar64 atan2 a b) - ((a.toC * (starRingEnd ℂ) b.toC).arg + 2 * π * k)| ≤ δ + 1e-15 ∧
        (|(a.toC * (starRingEnd ℂ) b.toC).arg| ≤ π - 1e-15 → k = 0) := by
  obtain ⟨hc1, hc2⟩ := conj64_fin hb
  have hcn : ‖(conj64 b).toC‖ = ‖b.toC‖ := by rw [hc2, RCLike.norm_conj]
  obtain ⟨hf, he⟩ := CVal.mul_err binary64_ok ha hc1 (by
    rw [hcn, mul_assoc]
    have e : (2 : ℝ) ^ binary64.emax = 2 ^ (1000 : ℤ) * 2 ^ (23 : ℤ) := by
      rw [← zpow_add₀ (by norm_num)]; rfl
    have : (1 : ℝ) ≤ 2 ^ (1000 : ℤ) := one_le_zpow₀ (by norm_num) (by norm_num)
    rw [e]
    generalize (2 : ℝ) ^ (1000 : ℤ) = X at *
    generalize ‖a.toC‖ * ‖b.toC‖ = Y at *
    norm_num
    linarith)
  rw [hcn, hc2] at he
  have hzn : ‖a.toC * (starRingEnd ℂ) b.toC‖ = ‖a.toC‖ * ‖b.toC‖ := by rw [norm_mul, RCLike.norm_conj]
  change Finite (atan2 (a * conj64 b).im (a * conj64 b).re) ∧ |val (atan2 (a * conj64 b).im (a * conj64 b).re)| ≤ _ ∧
    ∃ k : ℤ, |val (atan2 (a * conj64 b).im (a * conj64 b).re) - _| ≤ _ ∧ _
  generalize a * conj64 b = c at *
  generalize a.toC * (starRingEnd ℂ) b.toC = z at *
  generalize ‖a.toC‖ * ‖b.toC‖ = ρ at *
  have hρ : 0 < ρ := lt_of_lt_of_le (by positivity) hlow
  have hu : uR binary64 = 1 / 2 ^ 53 := by norm_num [uR, binary64]
  have hw : 8 * wR binary64 ≤ 1e-20 * 2 ^ (-900 : ℤ) := by
    have e : wR binary64 = 2 ^ (-900 : ℤ) * 2 ^ (-175 : ℤ) := by
      rw [← zpow_add₀ (by norm_num)]; rfl
    have h0 : (0 : ℝ) < 2 ^ (-900 : ℤ) := by positivity
    have h1 : (2 : ℝ) ^ (-175 : ℤ) ≤ 1e-25 := by norm_num
    rw [e]
    nlinarith
  have hd : ‖c.toC - z‖ ≤ 5.6e-16 * ρ := by
    rw [hu] at he
    have : (1e-20 : ℝ) * 2 ^ (-900 : ℤ) ≤ 1e-20 * ρ := mul_le_mul_of_nonneg_left hlow (by norm_num)
    have h5 : 5 * (1 / 2 ^ 53 : ℝ) ≤ 5.56e-16 := by norm_num
    have h6 := mul_le_mul_of_nonneg_right h5 hρ.le
    have h7 : (5.56e-16 : ℝ) * ρ + 1e-20 * ρ ≤ 5.6e-16 * ρ := by
      rw [← add_mul]
      exact mul_le_mul_of_nonneg_right (by norm_num) hρ.le
    linarith
  obtain ⟨k, hk⟩ := arg_close (by norm_num) hρ hzn hd
  have hc0 : val c.re ≠ 0 ∨ val c.im ≠ 0 := by
    by_contra h0
    rw [not_or, not_not, not_not] at h0
    have : c.toC = 0 := Complex.ext h0.1 h0.2
    rw [this, zero_sub, norm_neg, hzn] at hd
    have : (5.6e-16 : ℝ) * ρ < 1 * ρ := mul_lt_mul_of_pos_right (by norm_num) hρ
    linarith
  obtain ⟨g1, g2⟩ := hA c.im c.re hf.2 hf.1 hc0
  have hr : |val (atan2 c.im c.re)| ≤ π + δ := by
    have h1 := abs_add_le (val (atan2 c.im c.re) - Complex.arg ⟨val c.re, val c.im⟩) (Complex.arg ⟨val c.re, val c.im⟩)
    rw [sub_add_cancel] at h1
    have h2 := Complex.abs_arg_le_pi ⟨val c.re, val c.im⟩
    linarith
  refine ⟨g1, hr, k, ?_, fun hz => no_turn (by norm_num) hk (by norm_num at *; linarith)⟩
  have g3 : |val (atan2 c.im c.re) - c.toC.arg| ≤ δ := g2
  have := abs_add_le (val (atan2 c.im c.re) - c.toC.arg) (c.toC.arg - (z.arg + 2 * π * k))
  rw [sub_add_sub_cancel] at this
  norm_num at *
  linarith

theorem pi64_value : Fp.round binary64 false goPi = .fin false (884279719003555 / 2 ^ 48) := by decide +kernel

theorem pi64_near : Finite (Fp.round binary64 false goPi) ∧ |val (Fp.round binary64 false goPi) - π| ≤ 2e-16 := by
  rw [pi64_value]
  refine ⟨⟨_, _, rfl, by norm_num⟩, ?_⟩
  rw [val_fin]
  have h1 := pi_gt_d20
  have h2 := pi_lt_d20
  rw [abs_le]
  constructor <;> norm_num <;> linarith

/-- A rounded quotient. -/
theorem div_val {φ : Format} (h : φ.Ok) {v w : FVal φ} (hv : Finite v) (hw : Finite w) (h0 : val w ≠ 0) (ht : |val v / val w| ≤ 2 ^ φ.emax) :
    Finite (Fp.div φ v w) ∧ |val (Fp.div φ v w) - val v / val w| ≤ uR φ * |val v / val w| + wR φ := by
  have e : val v / val w = ((Val.toRat v / Val.toRat w : ℚ) : ℝ) := by unfold val; push_cast; rfl
  rw [e] at ht ⊢
  obtain ⟨h1, h2⟩ := rd_real h ht
  have hi := div_rd φ ⟨hv, rfl⟩ ⟨hw, rfl⟩ (by
    intro hz
    apply h0
    unfold val
    rw [hz]; norm_num) h1
  refine ⟨hi.1, ?_⟩
  rw [val_of_is hi]
  exact h2

/-- C142 (part).  The same in units of half turns, for the discriminator of the example program: within `(δ + 1e-15)/π + 1e-15`, up to a whole turn, which is 2. -/
theorem C142_half_turns_partial [CMul binary64] {atan2 : FVal binary64 → FVal binary64 → FVal binary64} {δ : ℝ} (hδ : δ ≤ 1 / 10)
    (hA : AtanOk atan2 δ) (a b : CVal binary64) (ha : a.Fin) (hb : b.Fin) (hlow : 2 ^ (-900 : ℤ) ≤ ‖a.toC‖ * ‖b.toC‖) (hhigh : ‖a.toC‖ * ‖b.toC‖ ≤ 2 ^ (1000 : ℤ)) :
    Finite (polarPi64 atan2 a b) ∧
      ∃ k : ℤ, |val (polarPi64 atan2 a b) - ((a.toC * (starRingEnd ℂ) b.toC).arg / π + 2 * k)| ≤ (δ + 1e-15) / π + 1e-15 ∧
        (|(a.toC * (starRingEnd ℂ) b.toC).arg| ≤ π - 1e-15 → k = 0) := by
  obtain ⟨hf, hr, k, hk, hz⟩ := C142_polar_partial hA a b ha hb hlow hhigh
  change Finite (Fp.div binary64 (polar64 atan2 a b) (Fp.round binary64 false goPi)) ∧
    ∃ k : ℤ, |val (Fp.div binary64 (polar64 atan2 a b) (Fp.round binary64 false goPi)) - _| ≤ _ ∧ _
  generalize polar64 atan2 a b = v at *
  generalize (a.toC * (starRingEnd ℂ) b.toC).arg = α at *
  obtain ⟨fd, hd⟩ := pi64_near
  generalize Fp.round binary64 false goPi = d at *
  have hp1 := pi_gt_d6
  have hp2 := pi_lt_d6
  have hd' := abs_le.1 hd
  have hd3 : 3.14 ≤ val d := by norm_num at *; linarith [hd'.1]
  have hq : |val v / val d| ≤ 1.1 := by
    rw [abs_div, abs_of_pos (by linarith : 0 < val d), div_le_iff₀ (by linarith)]
    norm_num at *; linarith
  obtain ⟨g1, g2⟩ := div_val binary64_ok hf fd (by linarith) (hq.trans (by
    have : (1 : ℝ) * 2 ^ (1 : ℤ) ≤ 2 ^ binary64.emax := by
      rw [one_mul]; exact zpow_le_zpow_right₀ (by norm_num) (by decide)
    norm_num at *; linarith))
  refine ⟨g1, k, ?_, hz⟩
  have hu : uR binary64 ≤ 1.2e-16 := by norm_num [uR, binary64]
  have hw : wR binary64 ≤ 1e-20 := by
    have : wR binary64 ≤ 2 ^ (-100 : ℤ) := zpow_le_zpow_right₀ (by norm_num) (by decide)
    refine this.trans (by norm_num)
  have hu0 := uR_pos binary64
  have g3 : |val (Fp.div binary64 v d) - val v / val d| ≤ 2e-16 := by
    have : uR binary64 * |val v / val d| ≤ 1.2e-16 * 1.1 := mul_le_mul hu hq (abs_nonneg _) (by norm_num)
    norm_num at *; linarith
  have g4 : |val v / val d - val v / π| ≤ 2e-16 := by
    have e : val v / val d - val v / π = val v / val d * ((π - val d) / π) := by
      have : val d ≠ 0 := by linarith
      field_simp
    rw [e, abs_mul, abs_div (π - val d), abs_of_pos pi_pos]
    have : |π - val d| / π ≤ 1e-16 := by
      rw [div_le_iff₀ pi_pos, abs_sub_comm]
      norm_num at *; linarith
    have := mul_le_mul hq this (by positivity) (by norm_num)
    norm_num at *; linarith
  have g5 : |val v / π - (α / π + 2 * k)| ≤ (δ + 1e-15) / π := by
    have e : val v / π - (α / π + 2 * k) = (val v - (α + 2 * π * k)) / π := by field_simp
    rw [e, abs_div, abs_of_pos pi_pos]
    exact div_le_div_of_nonneg_right hk pi_pos.le
  rw [abs_le] at *
  norm_num at *
  constructor <;> linarith [g3.1, g3.2, g4.1, g4.2, g5.1, g5.2]

/-- The hypotheses hold for some library function, for two numbers of magnitude one, and for a fused product. -/
example : (∃ atan2, AtanOk atan2 (1 / 10)) ∧ Nonempty (CMul binary64) ∧ ∃ a b : CVal binary64, a.Fin ∧ b.Fin ∧
    2 ^ (-900 : ℤ) ≤ ‖a.toC‖ * ‖b.toC‖ ∧ ‖a.toC‖ * ‖b.toC‖ ≤ 2 ^ (1000 : ℤ) := by
  refine ⟨?_, ⟨CMul.fused binary64⟩, ⟨.fin false 0, .fin true 1⟩, ⟨.fin true 1, .fin false 0⟩, ⟨⟨_, _, rfl, by norm_num⟩, ⟨_, _, rfl, by norm_num⟩⟩,
    ⟨⟨_, _, rfl, by norm_num⟩, ⟨_, _, rfl, by norm_num⟩⟩, ?_⟩
  · have key : ∀ θ : ℝ, ∃ v : FVal binary64, Finite v ∧ |val v - θ| ≤ 1 / 10 := by
      intro θ
      obtain ⟨q, h1, h2⟩ := exists_rat_btwn (show |θ| < |θ| + 1 / 10 by linarith)
      have hq : (0 : ℚ) ≤ q := by
        have : (0 : ℝ) ≤ q := (abs_nonneg θ).trans h1.le
        exact_mod_cast this
      rcases le_total 0 θ with h | h
      · refine ⟨.fin false q, ⟨_, _, rfl, hq⟩, ?_⟩
        rw [abs_of_nonneg h] at h1 h2
        rw [show val (.fin false q) = q by rw [val_fin]; simp, abs_le]
        constructor <;> linarith
      · refine ⟨.fin true q, ⟨_, _, rfl, hq⟩, ?_⟩
        rw [abs_of_nonpos h] at h1 h2
        rw [show val (.fin true q) = -q by rw [val_fin]; simp, abs_le]
        constructor <;> linarith
    choose f hf using key
    exact ⟨fun y x => f (Complex.arg ⟨val x, val y⟩), fun y x _ _ _ => hf _⟩
  · have e1 : ‖(⟨.fin false 0, .fin true 1⟩ : CVal binary64).toC‖ = 1 := by
      rw [Complex.norm_def, Complex.normSq_apply]
      simp [CVal.toC, val_fin]
    have e2 : ‖(⟨.fin true 1, .fin false 0⟩ : CVal binary64).toC‖ = 1 := by
      rw [Complex.norm_def, Complex.normSq_apply]
      simp [CVal.toC, val_fin]
    rw [e1, e2, mul_one]
    exact ⟨zpow_le_one_of_nonpos₀ (by norm_num) (by norm_num), one_le_zpow₀ (by norm_num) (by norm_num)⟩

/-! ## Products that underflow or overflow -/

/-- The numbers `2^-600` and `2^600` of the format. -/
def small64 : FVal binary64 := .fin false (1 / 2 ^ 600)
@[inherit_doc small64] def large64 : FVal binary64 := .fin false (2 ^ 600)

theorem small_val : val small64 = 1 / 2 ^ 600 := by
  unfold small64
  rw [val_fin, if_neg (by decide)]
  push_cast
  rfl

theorem large_val : val large64 = 2 ^ 600 := by
  unfold large64
  rw [val_fin, if_neg (by decide)]
  push_cast
  rfl

/-- The phase steps of a pair on the real axis and of a pair on a diagonal. -/
theorem steps {x : ℝ} (hx : 0 < x) :
    ((⟨x, 0⟩ : ℂ) * (starRingEnd ℂ) ⟨x, 0⟩).arg = 0 ∧ ((⟨x, x⟩ : ℂ) * (starRingEnd ℂ) ⟨x, 0⟩).arg = π / 4 ∧
      ((⟨x, x⟩ : ℂ) * (starRingEnd ℂ) ⟨x, x⟩).arg = 0 := by
  have e1 : ((⟨x, 0⟩ : ℂ) * (starRingEnd ℂ) ⟨x, 0⟩) = ((x * x : ℝ) : ℂ) := by
    apply Complex.ext <;> simp
  have e2 : ((⟨x, x⟩ : ℂ) * (starRingEnd ℂ) ⟨x, 0⟩) = ((x * x * √2 : ℝ) : ℂ) * (Real.cos (π / 4) + Real.sin (π / 4) * Complex.I) := by
    rw [Real.cos_pi_div_four, Real.sin_pi_div_four]
    have h2 : √2 * √2 = 2 := Real.mul_self_sqrt (by norm_num)
    apply Complex.ext <;> simp <;> linear_combination (-(x * x) / 2) * h2
  have e3 : ((⟨x, x⟩ : ℂ) * (starRingEnd ℂ) ⟨x, x⟩) = ((2 * (x * x) : ℝ) : ℂ) := by
    apply Complex.ext <;> simp <;> ring
  refine ⟨?_, ?_, ?_⟩
  · rw [e1]
    exact Complex.arg_ofReal_of_nonneg (by positivity)
  · rw [e2, Complex.ofReal_cos, Complex.ofReal_sin]
    exact Complex.arg_mul_cos_add_sin_mul_I (by positivity) ⟨by linarith [Real.pi_pos], by linarith [Real.pi_pos]⟩
  · rw [e3]
    exact Complex.arg_ofReal_of_nonneg (by positivity)

/-- C142 (negation for small numbers).  For numbers of magnitude `2^-600` the product underflows to zero, so that every library arctangent
gives the same angle for a step of nothing and a step of an eighth of a turn. -/
theorem C142_violated_small : letI := CMul.plain binary64
    ∃ a a' b : CVal binary64, a.Fin ∧ a'.Fin ∧ b.Fin ∧ Grid binary64 (1 / 2 ^ 600) ∧
      (∀ v ∈ [a.re, a.im, a'.re, a'.im, b.re, b.im], Val.toRat v = 0 ∨ Val.toRat v = 1 / 2 ^ 600) ∧
      (a.toC * (starRingEnd ℂ) b.toC).arg = 0 ∧ (a'.toC * (starRingEnd ℂ) b.toC).arg = π / 4 ∧
      ∀ atan2, polar64 atan2 a b = polar64 atan2 a' b := by
  have f0 : Finite (0 : FVal binary64) := ⟨_, _, rfl, le_rfl⟩
  have fs : Finite small64 := ⟨_, _, rfl, by positivity⟩
  have z : val (0 : FVal binary64) = 0 := by
    show val (.fin false 0) = 0
    rw [val_fin]; simp
  obtain ⟨s1, s2, -⟩ := steps (x := 1 / 2 ^ 600) (by positivity)
  refine ⟨⟨small64, 0⟩, ⟨small64, small64⟩, ⟨small64, 0⟩, ⟨fs, f0⟩, ⟨fs, fs⟩, ⟨fs, f0⟩,
    ⟨1, -600, by decide, by decide, by norm_num⟩, ?_, ?_, ?_, ?_⟩
  · intro v hv
    simp only [List.mem_cons, List.not_mem_nil, or_false] at hv
    rcases hv with rfl | rfl | rfl | rfl | rfl | rfl <;> first | (left; rfl) | (right; rfl)
  · unfold CVal.toC
    rw [small_val, z]; exact s1
  · unfold CVal.toC
    rw [small_val, z]; exact s2
  · intro atan2
    unfold polar64
    exact congrArg₂ atan2 (by decide +kernel) (by decide +kernel)

/-- C142 (negation for large numbers).  For numbers of magnitude `2^600` both parts of the product overflow. -/
theorem C142_violated_large : letI := CMul.plain binary64
    ∃ a b : CVal binary64, a.Fin ∧ b.Fin ∧ Grid binary64 (2 ^ 600) ∧
      (∀ v ∈ [a.re, a.im, b.re, b.im], |Val.toRat v| = 2 ^ 600) ∧
      (a.toC * (starRingEnd ℂ) b.toC).arg = 0 ∧
      ∀ atan2 : FVal binary64 → FVal binary64 → FVal binary64, polar64 atan2 a b = atan2 Val.nan (.inf false) := by
  have fl : Finite large64 := ⟨_, _, rfl, by positivity⟩
  obtain ⟨-, -, s3⟩ := steps (x := 2 ^ 600) (by positivity)
  refine ⟨⟨large64, large64⟩, ⟨large64, large64⟩, ⟨fl, fl⟩, ⟨fl, fl⟩, ⟨1, 600, by decide, by decide, by norm_num⟩, ?_, ?_, ?_⟩
  · intro v hv
    simp only [List.mem_cons, List.not_mem_nil, or_false] at hv
    rcases hv with rfl | rfl | rfl | rfl <;> (unfold large64; show |((2 : ℚ) ^ 600)| = 2 ^ 600; exact abs_of_pos (by positivity))
  · unfold CVal.toC
    rw [large_val]; exact s3
  · intro atan2
    unfold polar64
    letI := CMul.plain binary64
    have e1 : ((⟨large64, large64⟩ : CVal binary64) * conj64 ⟨large64, large64⟩).im = (.nan : Val) := by
      change (_ : Val) = .nan
      decide +kernel
    have e2 : ((⟨large64, large64⟩ : CVal binary64) * conj64 ⟨large64, large64⟩).re = (.inf false : Val) := by
      change (_ : Val) = .inf false
      decide +kernel
    exact congrArg₂ atan2 e1 e2

end Verif.Demod
