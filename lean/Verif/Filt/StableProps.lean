import Verif.Filt.StableSpec
import Verif.Filt.BiquadProps
import Mathlib.Analysis.SpecificLimits.Normed
import Mathlib.Analysis.Complex.Polynomial.Basic
import Mathlib.Analysis.SpecialFunctions.Trigonometric.Bounds

/-!
# Property C42: every designed biquad is stable; steady state of stable biquads
-/

namespace Verif.Filt
open Verif.Conv Real

/-! ## Roots inside the unit circle -/

theorem jury {a0 a1 a2 : ℝ} (h1 : |a2| < a0) (h2 : |a1| < a0 + a2) {z : ℂ}
    (h : (a0 : ℂ) * z ^ 2 + a1 * z + a2 = 0) : ‖z‖ < 1 := by
  obtain ⟨x, y⟩ := z
  have hre := congrArg Complex.re h
  have him := congrArg Complex.im h
  simp [pow_two] at hre him
  rw [abs_lt] at h1 h2
  have h0 : 0 < a0 := by linarith
  have hn : ‖(⟨x, y⟩ : ℂ)‖ ^ 2 = x ^ 2 + y ^ 2 := by
    rw [Complex.sq_norm, Complex.normSq_mk]; ring
  have key : x ^ 2 + y ^ 2 < 1 := by
    by_cases hy : y = 0
    · subst hy
      by_contra hc
      have hx : 1 ≤ x ^ 2 := by nlinarith
      have : 1 ≤ |x| := by
        rw [← one_le_sq_iff₀ (abs_nonneg x), sq_abs]; exact hx
      rcases le_abs.1 this with hx1 | hx1
      · nlinarith [mul_nonneg (sub_nonneg.2 hx1) (by nlinarith : (0 : ℝ) ≤ a0 * x - a2)]
      · nlinarith [mul_nonneg (sub_nonneg.2 hx1) (by nlinarith : (0 : ℝ) ≤ a0 * (-x) - a2)]
    · have e : a1 = -2 * a0 * x := by
        have : y * (a1 + 2 * a0 * x) = 0 := by linarith
        rcases mul_eq_zero.1 this with h | h
        · exact absurd h hy
        · linarith
      subst e
      have : a0 * (x ^ 2 + y ^ 2) = a2 := by nlinarith
      by_contra hc
      nlinarith
  rw [← hn] at key
  have := norm_nonneg (⟨x, y⟩ : ℂ)
  nlinarith

theorem polesInside_of_jury {f : BQ ℝ} (h1 : |f.A2| < f.A0) (h2 : |f.A1| < f.A0 + f.A2) : PolesInside f :=
  ⟨(lt_of_le_of_lt (abs_nonneg _) h1).ne', fun _ h => jury h1 h2 h⟩

/-! ## Designs -/

/-- Admissible frequency: strictly between zero and half the sample rate. -/
def FreqOk (sampleRate freq : ℝ) : Prop := 0 < freq ∧ 2 * freq < sampleRate

theorem sin_cos_ok {fs f0 : ℝ} (h : FreqOk fs f0) :
    0 < sin (2 * π * f0 / fs) ∧ cos (2 * π * f0 / fs) < 1 ∧ -1 < cos (2 * π * f0 / fs) := by
  obtain ⟨h1, h2⟩ := h
  have hfs : 0 < fs := by linarith
  have hp := pi_pos
  have hw0 : 0 < 2 * π * f0 / fs := by positivity
  have hw1 : 2 * π * f0 / fs < π := by
    rw [div_lt_iff₀ hfs]; nlinarith
  have hs := sin_pos_of_pos_of_lt_pi hw0 hw1
  have hsc := sin_sq_add_cos_sq (2 * π * f0 / fs)
  refine ⟨hs, ?_, ?_⟩ <;> nlinarith

theorem jury_alpha {alpha c : ℝ} (ha : 0 < alpha) (h1 : c < 1) (h2 : -1 < c) :
    |1 - alpha| < 1 + alpha ∧ |-2 * c| < (1 + alpha) + (1 - alpha) := by
  constructor <;> rw [abs_lt] <;> constructor <;> linarith

theorem alpha_pos {fs f0 q : ℝ} (h : FreqOk fs f0) (hq : 0 < q) : 0 < sin (2 * π * f0 / fs) / (2 * q) :=
  div_pos (sin_cos_ok h).1 (by linarith)

/-- C42, low-pass. -/
theorem C42_low_pass (fs f0 q : ℝ) (h : FreqOk fs f0) (hq : 0 < q) : PolesInside (newLowPass fs f0 q) := by
  have := jury_alpha (alpha_pos h hq) (sin_cos_ok h).2.1 (sin_cos_ok h).2.2
  exact polesInside_of_jury this.1 this.2

/-- C42, high-pass. -/
theorem C42_high_pass (fs f0 q : ℝ) (h : FreqOk fs f0) (hq : 0 < q) : PolesInside (newHighPass fs f0 q) := by
  have := jury_alpha (alpha_pos h hq) (sin_cos_ok h).2.1 (sin_cos_ok h).2.2
  exact polesInside_of_jury this.1 this.2

/-- C42, band-pass with constant skirt gain. -/
theorem C42_band_pass_skirt (fs f0 q : ℝ) (h : FreqOk fs f0) (hq : 0 < q) : PolesInside (newBandPassSkirt fs f0 q) := by
  have := jury_alpha (alpha_pos h hq) (sin_cos_ok h).2.1 (sin_cos_ok h).2.2
  exact polesInside_of_jury this.1 this.2

/-- C42, band-pass with constant peak gain. -/
theorem C42_band_pass_peak (fs f0 q : ℝ) (h : FreqOk fs f0) (hq : 0 < q) : PolesInside (newBandPassPeak fs f0 q) := by
  have := jury_alpha (alpha_pos h hq) (sin_cos_ok h).2.1 (sin_cos_ok h).2.2
  exact polesInside_of_jury this.1 this.2

/-- C42, notch. -/
theorem C42_notch (fs f0 q : ℝ) (h : FreqOk fs f0) (hq : 0 < q) : PolesInside (newNotch fs f0 q) := by
  have := jury_alpha (alpha_pos h hq) (sin_cos_ok h).2.1 (sin_cos_ok h).2.2
  exact polesInside_of_jury this.1 this.2

/-- C42, all-pass. -/
theorem C42_all_pass (fs f0 q : ℝ) (h : FreqOk fs f0) (hq : 0 < q) : PolesInside (newAllPass fs f0 q) := by
  have := jury_alpha (alpha_pos h hq) (sin_cos_ok h).2.1 (sin_cos_ok h).2.2
  exact polesInside_of_jury this.1 this.2

/-- C42, peaking equaliser, every gain. -/
theorem C42_peaking (fs f0 q dB : ℝ) (h : FreqOk fs f0) (hq : 0 < q) : PolesInside (newPeaking fs f0 q dB) := by
  have ha : (0 : ℝ) < 10 ^ (dB / 40) := rpow_pos_of_pos (by norm_num) _
  have := jury_alpha (div_pos (alpha_pos h hq) ha) (sin_cos_ok h).2.1 (sin_cos_ok h).2.2
  exact polesInside_of_jury this.1 this.2

/-- Admissible shelf slope for the gain: the radicand of the shelf designs is positive. -/
def SlopeOk (slope dB : ℝ) : Prop :=
  0 < ((10 : ℝ) ^ (dB / 40) + 1 / (10 : ℝ) ^ (dB / 40)) * (1 / slope - 1) + 2

/-- Slopes up to the documented maximum of 1 are admissible for every gain. -/
theorem slopeOk_of_le_one {slope dB : ℝ} (h0 : 0 < slope) (h1 : slope ≤ 1) : SlopeOk slope dB := by
  have ha : (0 : ℝ) < 10 ^ (dB / 40) := rpow_pos_of_pos (by norm_num) _
  have : 1 ≤ 1 / slope := by rw [le_div_iff₀ h0]; linarith
  unfold SlopeOk
  have : 0 ≤ ((10 : ℝ) ^ (dB / 40) + 1 / (10 : ℝ) ^ (dB / 40)) * (1 / slope - 1) :=
    mul_nonneg (by positivity) (by linarith)
  linarith

theorem shelf_temp_pos {fs f0 slope dB : ℝ} (h : FreqOk fs f0) (hs : SlopeOk slope dB) :
    0 < 2 * √((10 : ℝ) ^ (dB / 40)) * (sin (2 * π * f0 / fs) / 2 *
      √(((10 : ℝ) ^ (dB / 40) + 1 / (10 : ℝ) ^ (dB / 40)) * (1 / slope - 1) + 2)) := by
  have ha : (0 : ℝ) < 10 ^ (dB / 40) := rpow_pos_of_pos (by norm_num) _
  have h1 := (sin_cos_ok h).1
  have h2 := sqrt_pos.2 hs
  positivity

theorem jury_shelf {a c t : ℝ} (ha : 0 < a) (ht : 0 < t) (h1 : c < 1) (h2 : -1 < c) :
    |(a + 1) + (a - 1) * c - t| < (a + 1) + (a - 1) * c + t ∧
    |-2 * ((a - 1) + (a + 1) * c)| < ((a + 1) + (a - 1) * c + t) + ((a + 1) + (a - 1) * c - t) := by
  have e1 : 0 < a * (1 + c) := mul_pos ha (by linarith)
  constructor <;> rw [abs_lt] <;> constructor <;> nlinarith

/-- C42, low shelf, every gain and every admissible slope. -/
theorem C42_low_shelf (fs f0 slope dB : ℝ) (h : FreqOk fs f0) (hs : SlopeOk slope dB) :
    PolesInside (newLowShelf fs f0 slope dB) := by
  have ha : (0 : ℝ) < 10 ^ (dB / 40) := rpow_pos_of_pos (by norm_num) _
  have := jury_shelf ha (shelf_temp_pos h hs) (sin_cos_ok h).2.1 (sin_cos_ok h).2.2
  exact polesInside_of_jury this.1 this.2

/-- C42, high shelf, every gain and every admissible slope. -/
theorem C42_high_shelf (fs f0 slope dB : ℝ) (h : FreqOk fs f0) (hs : SlopeOk slope dB) :
    PolesInside (newHighShelf fs f0 slope dB) := by
  have ha : (0 : ℝ) < 10 ^ (dB / 40) := rpow_pos_of_pos (by norm_num) _
  have := jury_shelf (c := -cos (2 * π * f0 / fs)) ha (shelf_temp_pos h hs)
    (by linarith [(sin_cos_ok h).2.2]) (by linarith [(sin_cos_ok h).2.1])
  refine polesInside_of_jury ?_ ?_
  · convert this.1 using 1 <;> simp only [newHighShelf, bq] <;> ring_nf
  · convert this.2 using 1
    · rw [← abs_neg]
      simp only [newHighShelf, bq]
      ring_nf
    · simp only [newHighShelf, bq]
      ring

/-- C42: the slope condition is needed.  Where the radicand is zero a shelf has poles on the unit
circle (both poles have product 1). -/
theorem C42_slope_sharp (fs f0 slope dB : ℝ)
    (hs : ((10 : ℝ) ^ (dB / 40) + 1 / (10 : ℝ) ^ (dB / 40)) * (1 / slope - 1) + 2 = 0) :
    ¬ PolesInside (newLowShelf fs f0 slope dB) := by
  rintro ⟨h0, h⟩
  have e : (newLowShelf fs f0 slope dB).A2 = (newLowShelf fs f0 slope dB).A0 := by
    simp only [newLowShelf, bq, hs, sqrt_zero, mul_zero, add_zero, sub_zero]
  generalize (newLowShelf fs f0 slope dB).A0 = a0 at *
  generalize (newLowShelf fs f0 slope dB).A1 = a1 at *
  rw [e] at h
  have h0' : (a0 : ℂ) ≠ 0 := by exact_mod_cast h0
  obtain ⟨z, hz⟩ : ∃ z : ℂ, (a0 : ℂ) * z ^ 2 + a1 * z + a0 = 0 := by
    obtain ⟨s, hs⟩ := IsAlgClosed.exists_pow_nat_eq ((a1 : ℂ) ^ 2 - 4 * a0 * a0) (n := 2) (by norm_num)
    refine ⟨(-a1 + s) / (2 * a0), ?_⟩
    field_simp
    linear_combination hs
  have hz0 : z ≠ 0 := by
    rintro rfl
    simp at hz
    exact h0 hz
  have h1 := h z hz
  have h2 := h z⁻¹ (by
    field_simp
    linear_combination hz)
  rw [norm_inv] at h2
  have : 0 < ‖z‖ := norm_pos_iff.2 hz0
  have := (one_lt_inv₀ this).2 h1
  linarith

example : FreqOk 48000 1000 ∧ (0 : ℝ) < 0.7 ∧ SlopeOk 0.5 6 ∧ SlopeOk 1 (-12) := by
  refine ⟨⟨by norm_num, by norm_num⟩, by norm_num, slopeOk_of_le_one (by norm_num) (by norm_num),
    slopeOk_of_le_one (by norm_num) (by norm_num)⟩

/-! ## Bounded output -/

/-- Factorisation of the denominator. -/
theorem exists_poles {f : BQ ℝ} (h : PolesInside f) : ∃ p1 p2 : ℂ, ‖p1‖ < 1 ∧ ‖p2‖ < 1 ∧
    ((f.A1 / f.A0 : ℝ) : ℂ) = -(p1 + p2) ∧ ((f.A2 / f.A0 : ℝ) : ℂ) = p1 * p2 := by
  obtain ⟨h0, h⟩ := h
  have h0' : (f.A0 : ℂ) ≠ 0 := by exact_mod_cast h0
  obtain ⟨s, hs⟩ := IsAlgClosed.exists_pow_nat_eq ((f.A1 : ℂ) ^ 2 - 4 * f.A0 * f.A2) (n := 2) (by norm_num)
  refine ⟨(-f.A1 + s) / (2 * f.A0), (-f.A1 - s) / (2 * f.A0), h _ ?_, h _ ?_, ?_, ?_⟩
  · field_simp
    linear_combination hs
  · field_simp
    linear_combination hs
  · push_cast
    field_simp
    ring
  · push_cast
    field_simp
    linear_combination hs

/-- First-order recursion with a pole inside the unit circle. -/
theorem first_order_bound {p : ℂ} (hp : ‖p‖ < 1) {u v : Nat → ℂ} {U : ℝ} (hU : ∀ n, ‖u n‖ ≤ U)
    (h : ∀ n, v n = u n + p * delayed v n 1) (n : Nat) : ‖v n‖ ≤ U / (1 - ‖p‖) := by
  have hU0 : 0 ≤ U := (norm_nonneg _).trans (hU 0)
  have h1 : 0 < 1 - ‖p‖ := by linarith
  induction n with
  | zero =>
    have e0 : v 0 = u 0 := by
      rw [h 0]
      simp [delayed]
    rw [e0]
    refine (hU 0).trans ?_
    rw [le_div_iff₀ h1]
    nlinarith [norm_nonneg p]
  | succ n ih =>
    rw [h (n + 1)]
    have : delayed v (n + 1) 1 = v n := by simp [delayed]
    rw [this]
    calc ‖u (n + 1) + p * v n‖ ≤ ‖u (n + 1)‖ + ‖p‖ * ‖v n‖ := by
          rw [← norm_mul]; exact norm_add_le _ _
      _ ≤ U + ‖p‖ * (U / (1 - ‖p‖)) := by gcongr; exact hU _
      _ = U / (1 - ‖p‖) := by field_simp; ring

/-- C42, consequence: a biquad with both poles inside the unit circle, started from rest, has a bound
`C` such that every input bounded by `M` gives output bounded by `C M`, for every length. -/
theorem C42_bounded (f : BQ ℝ) (hf : f.AtRest) (h : PolesInside f) :
    ∃ C : ℝ, ∀ (M : ℝ) (m : Nat → ℝ) (input output : Slice), OutputOk input output →
      (∀ i < input.len, |m (input.base + i)| ≤ M) →
      ∃ m' g, f.filter m input output = some (m', g) ∧ ∀ i < input.len, |m' (output.base + i)| ≤ C * M := by
  obtain ⟨p1, p2, hp1, hp2, e1, e2⟩ := exists_poles h
  let B := |f.B0 / f.A0| + |f.B1 / f.A0| + |f.B2 / f.A0|
  refine ⟨B / (1 - ‖p1‖) / (1 - ‖p2‖), ?_⟩
  intro M m input output hio hM
  refine ⟨_, _, BQ.filter_eq f m input output hio, ?_⟩
  intro i hi
  rw [Verif.Conv.fill_in hi]
  -- the input continued by zeros
  let x : Nat → ℝ := fun j => if j < input.len then m (input.base + j) else 0
  have hx : f.out (fun j => m (input.base + j)) i = f.out x i := by
    refine f.out_congr fun j hj => ?_
    simp only [x]
    rw [if_pos (by omega)]
  change |f.out (fun j => m (input.base + j)) i| ≤ _
  rw [hx]
  have hM0 : 0 ≤ M := (abs_nonneg _).trans (hM i hi)
  have hxM : ∀ j, |x j| ≤ M := by
    intro j
    simp only [x]
    split
    · exact hM j (by assumption)
    · simpa using hM0
  have hdM : ∀ n k, |delayed x n k| ≤ M := by
    intro n k
    unfold delayed
    split
    · exact hxM _
    · simpa using hM0
  let u : Nat → ℂ := fun n => ((f.B0 / f.A0 * x n + f.B1 / f.A0 * delayed x n 1 + f.B2 / f.A0 * delayed x n 2 : ℝ) : ℂ)
  have hu : ∀ n, ‖u n‖ ≤ B * M := by
    intro n
    simp only [u, Complex.norm_real, norm_eq_abs]
    have t1 : |f.B0 / f.A0 * x n| ≤ |f.B0 / f.A0| * M := by rw [abs_mul]; gcongr; exact hxM n
    have t2 : |f.B1 / f.A0 * delayed x n 1| ≤ |f.B1 / f.A0| * M := by rw [abs_mul]; gcongr; exact hdM n 1
    have t3 : |f.B2 / f.A0 * delayed x n 2| ≤ |f.B2 / f.A0| * M := by rw [abs_mul]; gcongr; exact hdM n 2
    calc _ ≤ |f.B0 / f.A0 * x n| + |f.B1 / f.A0 * delayed x n 1| + |f.B2 / f.A0 * delayed x n 2| := abs_add_three _ _ _
      _ ≤ B * M := by simp only [B]; linarith
  let y : Nat → ℂ := fun n => (f.out x n : ℂ)
  let v : Nat → ℂ := fun n => y n - p2 * delayed y n 1
  have hdy : ∀ n k, ((delayed (f.out x) n k : ℝ) : ℂ) = delayed y n k := by
    intro n k
    unfold delayed
    split <;> simp [y]
  have hy : ∀ n, y n = u n - (-(p1 + p2)) * delayed y n 1 - (p1 * p2) * delayed y n 2 := by
    intro n
    rw [← e1, ← e2, ← hdy, ← hdy]
    simp only [y, u]
    rw [f.out_eq hf]
    push_cast
    ring
  have hv : ∀ n, v n = u n + p1 * delayed v n 1 := by
    intro n
    match n with
    | 0 =>
      have e := hy 0
      simp only [delayed] at e
      simp at e
      simp only [v, delayed]
      simp
      rw [e]
    | 1 =>
      have e := hy 1
      simp only [delayed] at e
      simp at e
      simp only [v, delayed]
      simp
      rw [e]
      ring
    | n + 2 =>
      have e := hy (n + 2)
      simp only [delayed] at e
      simp at e
      simp only [v, delayed]
      simp
      rw [e]
      ring
  have b1 := first_order_bound hp1 hu hv
  have b2 := first_order_bound hp2 (u := v) (v := y) b1 (fun n => by simp only [v]; ring) i
  simp only [y, Complex.norm_real, norm_eq_abs] at b2
  refine b2.trans (le_of_eq ?_)
  ring

/-! ## Steady state -/

/-- Solutions of the homogeneous equation of a stable biquad die out. -/
theorem homogeneous_decay {f : BQ ℝ} (h : PolesInside f) {e : Nat → ℝ}
    (he : ∀ n, e (n + 2) + f.A1 / f.A0 * e (n + 1) + f.A2 / f.A0 * e n = 0) :
    Filter.Tendsto e Filter.atTop (nhds 0) := by
  obtain ⟨p1, p2, hp1, hp2, e1, e2⟩ := exists_poles h
  obtain ⟨r, hr0, hr1, h1, h2⟩ : ∃ r : ℝ, 0 < r ∧ r < 1 ∧ ‖p1‖ ≤ r ∧ ‖p2‖ ≤ r :=
    ⟨max (1 / 2) (max ‖p1‖ ‖p2‖), lt_max_of_lt_left (by norm_num), max_lt (by norm_num) (max_lt hp1 hp2),
      le_max_of_le_right (le_max_left _ _), le_max_of_le_right (le_max_right _ _)⟩
  let v : Nat → ℂ := fun n => (e (n + 1) : ℂ) - p2 * e n
  have hv : ∀ n, v (n + 1) = p1 * v n := by
    intro n
    have := congrArg (fun t : ℝ => (t : ℂ)) (he n)
    simp only [v]
    push_cast at this
    rw [← Complex.ofReal_div, ← Complex.ofReal_div, e1, e2] at this
    linear_combination this
  have hvn : ∀ n, ‖v n‖ ≤ ‖v 0‖ * r ^ n := by
    intro n
    induction n with
    | zero => simp
    | succ n ih =>
      rw [hv, norm_mul, pow_succ]
      calc ‖p1‖ * ‖v n‖ ≤ r * (‖v 0‖ * r ^ n) := by gcongr
        _ = _ := by ring
  have hen : ∀ n : Nat, |e n| ≤ (|e 0| + n * (‖v 0‖ / r)) * r ^ n := by
    intro n
    induction n with
    | zero => simp
    | succ n ih =>
      have e3 : (e (n + 1) : ℂ) = v n + p2 * e n := by simp only [v]; ring
      have e4 : |e (n + 1)| ≤ ‖v n‖ + ‖p2‖ * |e n| := by
        have : |e (n + 1)| = ‖(e (n + 1) : ℂ)‖ := by rw [Complex.norm_real, norm_eq_abs]
        rw [this, e3]
        refine (norm_add_le _ _).trans ?_
        rw [norm_mul, Complex.norm_real, norm_eq_abs]
      calc |e (n + 1)| ≤ ‖v n‖ + ‖p2‖ * |e n| := e4
        _ ≤ ‖v 0‖ * r ^ n + r * ((|e 0| + n * (‖v 0‖ / r)) * r ^ n) := by
            gcongr
            exact hvn n
        _ = (|e 0| + (n + 1 : Nat) * (‖v 0‖ / r)) * r ^ (n + 1) := by
            push_cast
            rw [pow_succ]
            field_simp
            ring
  have lim : Filter.Tendsto (fun n : Nat => (|e 0| + n * (‖v 0‖ / r)) * r ^ n) Filter.atTop (nhds 0) := by
    have l1 := (tendsto_pow_atTop_nhds_zero_of_lt_one hr0.le hr1).const_mul |e 0|
    have l2 := (tendsto_self_mul_const_pow_of_lt_one hr0.le hr1).const_mul (‖v 0‖ / r)
    have := l1.add l2
    simp only [mul_zero, add_zero] at this
    refine this.congr fun n => ?_
    ring
  exact squeeze_zero_norm hen lim

/-- C43, what the response means: a stable biquad started from rest and fed the sinusoid
`Re(c zⁿ)`, `|z| = 1`, settles to the sinusoid `Re(c H(z) zⁿ)`.  For every tolerance there is an index
after which every output, for every length of the input, is within the tolerance. -/
theorem C43_steady_state (f : BQ ℝ) (hf : f.AtRest) (h : PolesInside f) (c z : ℂ) (hz : ‖z‖ = 1) (ε : ℝ) (hε : 0 < ε) :
    ∃ N, ∀ (m : Nat → ℝ) (input output : Slice), OutputOk input output →
      (∀ i < input.len, m (input.base + i) = (c * z ^ i).re) →
      ∃ m' g, f.filter m input output = some (m', g) ∧
        ∀ i < input.len, N ≤ i → |m' (output.base + i) - (c * response f z * z ^ i).re| < ε := by
  let x : Nat → ℝ := fun i => (c * z ^ i).re
  let e : Nat → ℝ := fun n => f.out x n - (c * response f z * z ^ n).re
  have hz0 : z ≠ 0 := by rintro rfl; simp at hz
  have hden : (f.A0 : ℂ) + f.A1 * z⁻¹ + f.A2 * z⁻¹ ^ 2 ≠ 0 := by
    intro h0
    have := h.2 z (by field_simp at h0; linear_combination h0)
    rw [hz] at this
    exact lt_irrefl _ this
  have hA0 : (f.A0 : ℂ) ≠ 0 := by exact_mod_cast h.1
  have hlim : Filter.Tendsto e Filter.atTop (nhds 0) := by
    refine homogeneous_decay h fun n => ?_
    have o := f.out_eq hf x (n + 2)
    have d1 : ∀ y : Nat → ℝ, delayed y (n + 2) 1 = y (n + 1) := fun y => by simp [delayed]
    have d2 : ∀ y : Nat → ℝ, delayed y (n + 2) 2 = y n := fun y => by simp [delayed]
    rw [d1, d1, d2, d2] at o
    have hc : c * response f z * z ^ (n + 2) + (f.A1 / f.A0 : ℝ) * (c * response f z * z ^ (n + 1))
        + (f.A2 / f.A0 : ℝ) * (c * response f z * z ^ n)
        = (f.B0 / f.A0 : ℝ) * (c * z ^ (n + 2)) + (f.B1 / f.A0 : ℝ) * (c * z ^ (n + 1))
        + (f.B2 / f.A0 : ℝ) * (c * z ^ n) := by
      have hr : response f z * (f.A0 + f.A1 * z⁻¹ + f.A2 * z⁻¹ ^ 2) = f.B0 + f.B1 * z⁻¹ + f.B2 * z⁻¹ ^ 2 := by
        unfold response
        rw [div_mul_cancel₀ _ hden]
      field_simp at hr
      push_cast
      field_simp
      ring_nf at hr ⊢
      linear_combination c * z ^ n * hr
    have hre := congrArg Complex.re hc
    simp only [Complex.add_re, Complex.re_ofReal_mul] at hre
    simp only [e, x] at o ⊢
    rw [o]
    linarith
  obtain ⟨N, hN⟩ := (Metric.tendsto_atTop.1 hlim) ε hε
  refine ⟨N, ?_⟩
  intro m input output hio hm
  refine ⟨_, _, BQ.filter_eq f m input output hio, ?_⟩
  intro i hi hNi
  rw [Verif.Conv.fill_in hi]
  have := hN i hNi
  rw [Real.dist_eq, sub_zero] at this
  have hx : f.out (fun j => m (input.base + j)) i = f.out x i :=
    f.out_congr fun j hj => hm j (by omega)
  change |f.out (fun j => m (input.base + j)) i - _| < _
  rw [hx]
  exact this

end Verif.Filt
