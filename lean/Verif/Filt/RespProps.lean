import Verif.Filt.StableProps
import Mathlib.Analysis.SpecialFunctions.Trigonometric.Complex

/-!
# Property C43: the biquad designs have the advertised frequency response

The comments in dsp/biquad.go name the analogue prototype `H(s)` of each design.  Each digital design
equals its prototype at every frequency, with the frequency axis warped so that the design frequency
is exact.
-/

namespace Verif.Filt
open Real

/-- The point on the unit circle for frequency `f` at the sample rate `fs`. -/
noncomputable def unitAt (fs f : ℝ) : ℂ := Complex.exp ((2 * π * f / fs : ℝ) * Complex.I)

/-- Warped analogue frequency, `s = j tan(π f / fs) / tan(π f0 / fs)`. -/
noncomputable def warp (fs f0 f : ℝ) : ℂ := (tan (π * f / fs) / tan (π * f0 / fs) : ℝ) * Complex.I

/-! ## Analogue prototypes, as in the comments of dsp/biquad.go:45-197 -/

/-- `H(s) = 1 / (s^2 + s/Q + 1)`. -/
noncomputable def protoLowPass (q : ℝ) (s : ℂ) : ℂ := 1 / (s ^ 2 + s / q + 1)
/-- `H(s) = s^2 / (s^2 + s/Q + 1)`. -/
noncomputable def protoHighPass (q : ℝ) (s : ℂ) : ℂ := s ^ 2 / (s ^ 2 + s / q + 1)
/-- `H(s) = s / (s^2 + s/Q + 1)`. -/
noncomputable def protoSkirt (q : ℝ) (s : ℂ) : ℂ := s / (s ^ 2 + s / q + 1)
/-- `H(s) = (s/Q) / (s^2 + s/Q + 1)`. -/
noncomputable def protoPeak (q : ℝ) (s : ℂ) : ℂ := (s / q) / (s ^ 2 + s / q + 1)
/-- `H(s) = (s^2 + 1) / (s^2 + s/Q + 1)`. -/
noncomputable def protoNotch (q : ℝ) (s : ℂ) : ℂ := (s ^ 2 + 1) / (s ^ 2 + s / q + 1)
/-- `H(s) = (s^2 - s/Q + 1) / (s^2 + s/Q + 1)`. -/
noncomputable def protoAllPass (q : ℝ) (s : ℂ) : ℂ := (s ^ 2 - s / q + 1) / (s ^ 2 + s / q + 1)
/-- `H(s) = (s^2 + s*(A/Q) + 1) / (s^2 + s/(A*Q) + 1)`. -/
noncomputable def protoPeaking (q a : ℝ) (s : ℂ) : ℂ := (s ^ 2 + s * (a / q) + 1) / (s ^ 2 + s / (a * q) + 1)
/-- `H(s) = A * (s^2 + (sqrt(A)/Q)*s + A)/(A*s^2 + (sqrt(A)/Q)*s + 1)`. -/
noncomputable def protoLowShelf (q a : ℝ) (s : ℂ) : ℂ :=
  a * (s ^ 2 + (√a / q : ℝ) * s + a) / (a * s ^ 2 + (√a / q : ℝ) * s + 1)
/-- `H(s) = A * (A*s^2 + (sqrt(A)/Q)*s + 1)/(s^2 + (sqrt(A)/Q)*s + A)`. -/
noncomputable def protoHighShelf (q a : ℝ) (s : ℂ) : ℂ :=
  a * (a * s ^ 2 + (√a / q : ℝ) * s + 1) / (s ^ 2 + (√a / q : ℝ) * s + a)

/-! ## The bilinear identity -/

theorem half_tan {fs f0 : ℝ} (h : FreqOk fs f0) : ∃ T : ℝ, 0 < T ∧ tan (π * f0 / fs) = T ∧
    sin (2 * π * f0 / fs) = 2 * T / (1 + T ^ 2) ∧ cos (2 * π * f0 / fs) = (1 - T ^ 2) / (1 + T ^ 2) := by
  obtain ⟨h1, h2⟩ := h
  have hfs : 0 < fs := by linarith
  have hp := pi_pos
  have hw0 : 0 < π * f0 / fs := by positivity
  have hw1 : π * f0 / fs < π / 2 := by
    rw [div_lt_iff₀ hfs]; nlinarith
  have hc : 0 < cos (π * f0 / fs) := cos_pos_of_mem_Ioo ⟨by linarith, hw1⟩
  have hs : 0 < sin (π * f0 / fs) := sin_pos_of_pos_of_lt_pi hw0 (by linarith)
  have e : 2 * π * f0 / fs = 2 * (π * f0 / fs) := by ring
  have h3 := sin_sq_add_cos_sq (π * f0 / fs)
  refine ⟨tan (π * f0 / fs), tan_pos_of_pos_of_lt_pi_div_two hw0 hw1, rfl, ?_, ?_⟩
  · rw [e, sin_two_mul, tan_eq_sin_div_cos]
    field_simp
    linear_combination h3
  · rw [e, cos_two_mul, tan_eq_sin_div_cos]
    field_simp
    linear_combination (2 * cos (π * f0 / fs) ^ 2) * h3

/-- `z⁻¹` in terms of the half-angle tangent. -/
theorem unitAt_inv {fs f : ℝ} (hc : cos (π * f / fs) ≠ 0) :
    (unitAt fs f)⁻¹ = (1 - tan (π * f / fs) * Complex.I) / (1 + tan (π * f / fs) * Complex.I) ∧
    (1 : ℂ) + tan (π * f / fs) * Complex.I ≠ 0 := by
  have h0 : (1 : ℂ) + tan (π * f / fs) * Complex.I ≠ 0 := by
    generalize tan (π * f / fs) = t
    intro h
    have := congrArg Complex.re h
    simp at this
  refine ⟨?_, h0⟩
  have e : 2 * π * f / fs = 2 * (π * f / fs) := by ring
  rw [unitAt, ← Complex.exp_neg, ← neg_mul, ← Complex.ofReal_neg, Complex.exp_mul_I, eq_div_iff h0, e,
    ← Complex.ofReal_cos, ← Complex.ofReal_sin, cos_neg, sin_neg, cos_two_mul, sin_two_mul, tan_eq_sin_div_cos]
  have hc' : ((cos (π * f / fs) : ℝ) : ℂ) ≠ 0 := by exact_mod_cast hc
  have h3 : ((sin (π * f / fs) : ℝ) : ℂ) ^ 2 + ((cos (π * f / fs) : ℝ) : ℂ) ^ 2 = 1 := by
    exact_mod_cast sin_sq_add_cos_sq (π * f / fs)
  generalize sin (π * f / fs) = S at *
  generalize cos (π * f / fs) = C at *
  push_cast
  field_simp
  linear_combination (norm := (ring_nf; try simp only [Complex.I_sq]; try ring_nf)) (2 * C : ℂ) * h3

theorem response_of {f : BQ ℝ} {z N D k : ℂ} (hk : k ≠ 0)
    (hn : f.B0 + f.B1 * z⁻¹ + f.B2 * z⁻¹ ^ 2 = k * N) (hd : f.A0 + f.A1 * z⁻¹ + f.A2 * z⁻¹ ^ 2 = k * D) :
    response f z = N / D := by
  rw [response, hn, hd, mul_div_mul_left _ _ hk]

/-- C43: the low-pass design has the advertised response at every frequency. -/
theorem C43_low_pass_response (fs f0 q f : ℝ) (h : FreqOk fs f0) (hq : 0 < q) (hc : cos (π * f / fs) ≠ 0) :
    response (newLowPass fs f0 q) (unitAt fs f) = protoLowPass q (warp fs f0 f) := by
  obtain ⟨T, hT, e1, e2, e3⟩ := half_tan h
  obtain ⟨e4, h4⟩ := unitAt_inv hc
  rw [warp, e1]
  generalize tan (π * f / fs) = t at *
  have hT' : (T : ℂ) ≠ 0 := by exact_mod_cast hT.ne'
  have hTT : (1 : ℂ) + (T : ℂ) ^ 2 ≠ 0 := by
    have : (1 : ℝ) + T ^ 2 ≠ 0 := by positivity
    exact_mod_cast this
  have hq' : (q : ℂ) ≠ 0 := by exact_mod_cast hq.ne'
  unfold protoLowPass
  refine response_of (k := 4 * (T : ℂ) ^ 2 / ((1 + (T : ℂ) ^ 2) * (1 + t * Complex.I) ^ 2)) ?_ ?_ ?_
  · have : 4 * (T : ℂ) ^ 2 ≠ 0 := mul_ne_zero (by norm_num) (pow_ne_zero _ hT')
    exact div_ne_zero this (mul_ne_zero hTT (pow_ne_zero _ h4))
  all_goals
    rw [e4]
    simp only [newLowPass, bq, e2, e3]
    push_cast
    field_simp
    ring_nf

/-- C43: the high-pass design. -/
theorem C43_high_pass_response (fs f0 q f : ℝ) (h : FreqOk fs f0) (hq : 0 < q) (hc : cos (π * f / fs) ≠ 0) :
    response (newHighPass fs f0 q) (unitAt fs f) = protoHighPass q (warp fs f0 f) := by
  obtain ⟨T, hT, e1, e2, e3⟩ := half_tan h
  obtain ⟨e4, h4⟩ := unitAt_inv hc
  rw [warp, e1]
  generalize tan (π * f / fs) = t at *
  have hT' : (T : ℂ) ≠ 0 := by exact_mod_cast hT.ne'
  have hTT : (1 : ℂ) + (T : ℂ) ^ 2 ≠ 0 := by
    have : (1 : ℝ) + T ^ 2 ≠ 0 := by positivity
    exact_mod_cast this
  have hq' : (q : ℂ) ≠ 0 := by exact_mod_cast hq.ne'
  unfold protoHighPass
  refine response_of (k := 4 * (T : ℂ) ^ 2 / ((1 + (T : ℂ) ^ 2) * (1 + t * Complex.I) ^ 2)) ?_ ?_ ?_
  · have : 4 * (T : ℂ) ^ 2 ≠ 0 := mul_ne_zero (by norm_num) (pow_ne_zero _ hT')
    exact div_ne_zero this (mul_ne_zero hTT (pow_ne_zero _ h4))
  all_goals
    rw [e4]
    simp only [newHighPass, bq, e2, e3]
    push_cast
    field_simp
    ring_nf

/-- C43: the band-pass design with constant skirt gain. -/
theorem C43_skirt_response (fs f0 q f : ℝ) (h : FreqOk fs f0) (hq : 0 < q) (hc : cos (π * f / fs) ≠ 0) :
    response (newBandPassSkirt fs f0 q) (unitAt fs f) = protoSkirt q (warp fs f0 f) := by
  obtain ⟨T, hT, e1, e2, e3⟩ := half_tan h
  obtain ⟨e4, h4⟩ := unitAt_inv hc
  rw [warp, e1]
  generalize tan (π * f / fs) = t at *
  have hT' : (T : ℂ) ≠ 0 := by exact_mod_cast hT.ne'
  have hTT : (1 : ℂ) + (T : ℂ) ^ 2 ≠ 0 := by
    have : (1 : ℝ) + T ^ 2 ≠ 0 := by positivity
    exact_mod_cast this
  have hq' : (q : ℂ) ≠ 0 := by exact_mod_cast hq.ne'
  unfold protoSkirt
  refine response_of (k := 4 * (T : ℂ) ^ 2 / ((1 + (T : ℂ) ^ 2) * (1 + t * Complex.I) ^ 2)) ?_ ?_ ?_
  · have : 4 * (T : ℂ) ^ 2 ≠ 0 := mul_ne_zero (by norm_num) (pow_ne_zero _ hT')
    exact div_ne_zero this (mul_ne_zero hTT (pow_ne_zero _ h4))
  all_goals
    rw [e4]
    simp only [newBandPassSkirt, bq, e2, e3]
    push_cast
    field_simp
    ring_nf

/-- C43: the band-pass design with constant peak gain. -/
theorem C43_peak_response (fs f0 q f : ℝ) (h : FreqOk fs f0) (hq : 0 < q) (hc : cos (π * f / fs) ≠ 0) :
    response (newBandPassPeak fs f0 q) (unitAt fs f) = protoPeak q (warp fs f0 f) := by
  obtain ⟨T, hT, e1, e2, e3⟩ := half_tan h
  obtain ⟨e4, h4⟩ := unitAt_inv hc
  rw [warp, e1]
  generalize tan (π * f / fs) = t at *
  have hT' : (T : ℂ) ≠ 0 := by exact_mod_cast hT.ne'
  have hTT : (1 : ℂ) + (T : ℂ) ^ 2 ≠ 0 := by
    have : (1 : ℝ) + T ^ 2 ≠ 0 := by positivity
    exact_mod_cast this
  have hq' : (q : ℂ) ≠ 0 := by exact_mod_cast hq.ne'
  unfold protoPeak
  refine response_of (k := 4 * (T : ℂ) ^ 2 / ((1 + (T : ℂ) ^ 2) * (1 + t * Complex.I) ^ 2)) ?_ ?_ ?_
  · have : 4 * (T : ℂ) ^ 2 ≠ 0 := mul_ne_zero (by norm_num) (pow_ne_zero _ hT')
    exact div_ne_zero this (mul_ne_zero hTT (pow_ne_zero _ h4))
  all_goals
    rw [e4]
    simp only [newBandPassPeak, bq, e2, e3]
    push_cast
    field_simp
    ring_nf

/-- C43: the notch design. -/
theorem C43_notch_response (fs f0 q f : ℝ) (h : FreqOk fs f0) (hq : 0 < q) (hc : cos (π * f / fs) ≠ 0) :
    response (newNotch fs f0 q) (unitAt fs f) = protoNotch q (warp fs f0 f) := by
  obtain ⟨T, hT, e1, e2, e3⟩ := half_tan h
  obtain ⟨e4, h4⟩ := unitAt_inv hc
  rw [warp, e1]
  generalize tan (π * f / fs) = t at *
  have hT' : (T : ℂ) ≠ 0 := by exact_mod_cast hT.ne'
  have hTT : (1 : ℂ) + (T : ℂ) ^ 2 ≠ 0 := by
    have : (1 : ℝ) + T ^ 2 ≠ 0 := by positivity
    exact_mod_cast this
  have hq' : (q : ℂ) ≠ 0 := by exact_mod_cast hq.ne'
  unfold protoNotch
  refine response_of (k := 4 * (T : ℂ) ^ 2 / ((1 + (T : ℂ) ^ 2) * (1 + t * Complex.I) ^ 2)) ?_ ?_ ?_
  · have : 4 * (T : ℂ) ^ 2 ≠ 0 := mul_ne_zero (by norm_num) (pow_ne_zero _ hT')
    exact div_ne_zero this (mul_ne_zero hTT (pow_ne_zero _ h4))
  all_goals
    rw [e4]
    simp only [newNotch, bq, e2, e3]
    push_cast
    field_simp
    ring_nf

/-- C43: the all-pass design. -/
theorem C43_all_pass_response (fs f0 q f : ℝ) (h : FreqOk fs f0) (hq : 0 < q) (hc : cos (π * f / fs) ≠ 0) :
    response (newAllPass fs f0 q) (unitAt fs f) = protoAllPass q (warp fs f0 f) := by
  obtain ⟨T, hT, e1, e2, e3⟩ := half_tan h
  obtain ⟨e4, h4⟩ := unitAt_inv hc
  rw [warp, e1]
  generalize tan (π * f / fs) = t at *
  have hT' : (T : ℂ) ≠ 0 := by exact_mod_cast hT.ne'
  have hTT : (1 : ℂ) + (T : ℂ) ^ 2 ≠ 0 := by
    have : (1 : ℝ) + T ^ 2 ≠ 0 := by positivity
    exact_mod_cast this
  have hq' : (q : ℂ) ≠ 0 := by exact_mod_cast hq.ne'
  unfold protoAllPass
  refine response_of (k := 4 * (T : ℂ) ^ 2 / ((1 + (T : ℂ) ^ 2) * (1 + t * Complex.I) ^ 2)) ?_ ?_ ?_
  · have : 4 * (T : ℂ) ^ 2 ≠ 0 := mul_ne_zero (by norm_num) (pow_ne_zero _ hT')
    exact div_ne_zero this (mul_ne_zero hTT (pow_ne_zero _ h4))
  all_goals
    rw [e4]
    simp only [newAllPass, bq, e2, e3]
    push_cast
    field_simp
    ring_nf

/-- C43: the peaking design, with `A = 10^(dB/40)`. -/
theorem C43_peaking_response (fs f0 q dB f : ℝ) (h : FreqOk fs f0) (hq : 0 < q) (hc : cos (π * f / fs) ≠ 0) :
    response (newPeaking fs f0 q dB) (unitAt fs f) = protoPeaking q ((10 : ℝ) ^ (dB / 40)) (warp fs f0 f) := by
  obtain ⟨T, hT, e1, e2, e3⟩ := half_tan h
  obtain ⟨e4, h4⟩ := unitAt_inv hc
  rw [warp, e1]
  generalize tan (π * f / fs) = t at *
  have hT' : (T : ℂ) ≠ 0 := by exact_mod_cast hT.ne'
  have hTT : (1 : ℂ) + (T : ℂ) ^ 2 ≠ 0 := by
    have : (1 : ℝ) + T ^ 2 ≠ 0 := by positivity
    exact_mod_cast this
  have hq' : (q : ℂ) ≠ 0 := by exact_mod_cast hq.ne'
  have ha : (0 : ℝ) < 10 ^ (dB / 40) := rpow_pos_of_pos (by norm_num) _
  unfold protoPeaking newPeaking
  generalize (10 : ℝ) ^ (dB / 40) = a at *
  have ha' : (a : ℂ) ≠ 0 := by exact_mod_cast ha.ne'
  refine response_of (k := 4 * (T : ℂ) ^ 2 / ((1 + (T : ℂ) ^ 2) * (1 + t * Complex.I) ^ 2)) ?_ ?_ ?_
  · have : 4 * (T : ℂ) ^ 2 ≠ 0 := mul_ne_zero (by norm_num) (pow_ne_zero _ hT')
    exact div_ne_zero this (mul_ne_zero hTT (pow_ne_zero _ h4))
  all_goals
    rw [e4]
    simp only [bq, e2, e3]
    push_cast
    field_simp
    ring_nf

/-- Quality factor of a shelf of gain `dB` and slope `S`: `1/Q = √((A + 1/A)(1/S - 1) + 2)`. -/
noncomputable def shelfQ (slope dB : ℝ) : ℝ :=
  1 / √(((10 : ℝ) ^ (dB / 40) + 1 / (10 : ℝ) ^ (dB / 40)) * (1 / slope - 1) + 2)

/-- C43: the low shelf design, with `A = 10^(dB/40)`. -/
theorem C43_low_shelf_response (fs f0 slope dB f : ℝ) (h : FreqOk fs f0) (hs : SlopeOk slope dB) (hc : cos (π * f / fs) ≠ 0) :
    response (newLowShelf fs f0 slope dB) (unitAt fs f)
      = protoLowShelf (shelfQ slope dB) ((10 : ℝ) ^ (dB / 40)) (warp fs f0 f) := by
  obtain ⟨T, hT, e1, e2, e3⟩ := half_tan h
  obtain ⟨e4, h4⟩ := unitAt_inv hc
  rw [warp, e1]
  generalize tan (π * f / fs) = t at *
  have hT' : (T : ℂ) ≠ 0 := by exact_mod_cast hT.ne'
  have hTT : (1 : ℂ) + (T : ℂ) ^ 2 ≠ 0 := by
    have : (1 : ℝ) + T ^ 2 ≠ 0 := by positivity
    exact_mod_cast this
  have ha : (0 : ℝ) < 10 ^ (dB / 40) := rpow_pos_of_pos (by norm_num) _
  have hR : 0 < √(((10 : ℝ) ^ (dB / 40) + 1 / (10 : ℝ) ^ (dB / 40)) * (1 / slope - 1) + 2) := sqrt_pos.2 hs
  unfold protoLowShelf shelfQ newLowShelf
  dsimp only
  generalize √(((10 : ℝ) ^ (dB / 40) + 1 / (10 : ℝ) ^ (dB / 40)) * (1 / slope - 1) + 2) = R at *
  generalize √((10 : ℝ) ^ (dB / 40)) = ra at *
  generalize (10 : ℝ) ^ (dB / 40) = a at *
  have hR' : (R : ℂ) ≠ 0 := by exact_mod_cast hR.ne'
  refine response_of (k := 8 * (T : ℂ) ^ 2 / ((1 + (T : ℂ) ^ 2) * (1 + t * Complex.I) ^ 2)) ?_ ?_ ?_
  · have : 8 * (T : ℂ) ^ 2 ≠ 0 := mul_ne_zero (by norm_num) (pow_ne_zero _ hT')
    exact div_ne_zero this (mul_ne_zero hTT (pow_ne_zero _ h4))
  all_goals
    rw [e4]
    simp only [bq, e2, e3]
    push_cast
    field_simp
    ring_nf

/-- C43: the high shelf design, with `A = 10^(dB/40)`. -/
theorem C43_high_shelf_response (fs f0 slope dB f : ℝ) (h : FreqOk fs f0) (hs : SlopeOk slope dB) (hc : cos (π * f / fs) ≠ 0) :
    response (newHighShelf fs f0 slope dB) (unitAt fs f)
      = protoHighShelf (shelfQ slope dB) ((10 : ℝ) ^ (dB / 40)) (warp fs f0 f) := by
  obtain ⟨T, hT, e1, e2, e3⟩ := half_tan h
  obtain ⟨e4, h4⟩ := unitAt_inv hc
  rw [warp, e1]
  generalize tan (π * f / fs) = t at *
  have hT' : (T : ℂ) ≠ 0 := by exact_mod_cast hT.ne'
  have hTT : (1 : ℂ) + (T : ℂ) ^ 2 ≠ 0 := by
    have : (1 : ℝ) + T ^ 2 ≠ 0 := by positivity
    exact_mod_cast this
  have ha : (0 : ℝ) < 10 ^ (dB / 40) := rpow_pos_of_pos (by norm_num) _
  have hR : 0 < √(((10 : ℝ) ^ (dB / 40) + 1 / (10 : ℝ) ^ (dB / 40)) * (1 / slope - 1) + 2) := sqrt_pos.2 hs
  unfold protoHighShelf shelfQ newHighShelf
  dsimp only
  generalize √(((10 : ℝ) ^ (dB / 40) + 1 / (10 : ℝ) ^ (dB / 40)) * (1 / slope - 1) + 2) = R at *
  generalize √((10 : ℝ) ^ (dB / 40)) = ra at *
  generalize (10 : ℝ) ^ (dB / 40) = a at *
  have hR' : (R : ℂ) ≠ 0 := by exact_mod_cast hR.ne'
  refine response_of (k := 8 * (T : ℂ) ^ 2 / ((1 + (T : ℂ) ^ 2) * (1 + t * Complex.I) ^ 2)) ?_ ?_ ?_
  · have : 8 * (T : ℂ) ^ 2 ≠ 0 := mul_ne_zero (by norm_num) (pow_ne_zero _ hT')
    exact div_ne_zero this (mul_ne_zero hTT (pow_ne_zero _ h4))
  all_goals
    rw [e4]
    simp only [bq, e2, e3]
    push_cast
    field_simp
    ring_nf

example : FreqOk 48000 1000 ∧ cos (π * 3000 / 48000) ≠ 0 ∧ (0 : ℝ) < 0.7 ∧ SlopeOk 0.5 6 := by
  refine ⟨⟨by norm_num, by norm_num⟩, ?_, by norm_num, slopeOk_of_le_one (by norm_num) (by norm_num)⟩
  have hp := pi_pos
  exact (cos_pos_of_mem_Ioo ⟨by linarith, by linarith⟩).ne'

/-! ## Gains at zero, at half the sample rate and at the design frequency -/

theorem cos_zero_ok (fs : ℝ) : cos (π * 0 / fs) ≠ 0 := by simp

theorem cos_design_ok {fs f0 : ℝ} (h : FreqOk fs f0) : cos (π * f0 / fs) ≠ 0 := by
  obtain ⟨h1, h2⟩ := h
  have hfs : 0 < fs := by linarith
  have hp := pi_pos
  have hw0 : 0 < π * f0 / fs := by positivity
  have hw1 : π * f0 / fs < π / 2 := by
    rw [div_lt_iff₀ hfs]; nlinarith
  exact (cos_pos_of_mem_Ioo ⟨by linarith, hw1⟩).ne'

theorem warp_zero (fs f0 : ℝ) : warp fs f0 0 = 0 := by simp [warp]

theorem warp_design {fs f0 : ℝ} (h : FreqOk fs f0) : warp fs f0 f0 = Complex.I := by
  obtain ⟨T, hT, e1, -, -⟩ := half_tan h
  rw [warp, e1, div_self hT.ne']
  simp

theorem unitAt_nyquist {fs : ℝ} (h : fs ≠ 0) : unitAt fs (fs / 2) = -1 := by
  have : 2 * π * (fs / 2) / fs = π := by field_simp
  rw [unitAt, this, Complex.exp_pi_mul_I]

theorem fs_ne {fs f0 : ℝ} (h : FreqOk fs f0) : fs ≠ 0 := by
  obtain ⟨h1, h2⟩ := h
  linarith

theorem shelf_norm (a r : ℝ) : ‖(-1 + (r : ℂ) * Complex.I + a)‖ = ‖((a : ℂ) * (-1) + r * Complex.I + 1)‖ := by
  have e : ((a : ℂ) * (-1) + r * Complex.I + 1) = -(starRingEnd ℂ) (-1 + (r : ℂ) * Complex.I + a) := by
    simp
    ring
  rw [e, norm_neg, Complex.norm_conj]

theorem shelf_ne {a r : ℝ} (hr : 0 < r) : ((a : ℂ) * (-1) + r * Complex.I + 1) ≠ 0 := by
  intro h
  have := congrArg Complex.im h
  simp at this
  exact hr.ne' this

theorem shelf_corner {a r : ℝ} (ha : 0 < a) (hr : 0 < r) :
    ‖(a : ℂ) * (-1 + (r : ℂ) * Complex.I + a) / ((a : ℂ) * (-1) + r * Complex.I + 1)‖ = a := by
  rw [norm_div, norm_mul, shelf_norm, mul_div_assoc, div_self (norm_ne_zero_iff.2 (shelf_ne hr)), mul_one,
    Complex.norm_real, norm_eq_abs, abs_of_pos ha]

theorem shelf_corner' {a r : ℝ} (ha : 0 < a) (hr : 0 < r) :
    ‖(a : ℂ) * ((a : ℂ) * (-1) + r * Complex.I + 1) / (-1 + (r : ℂ) * Complex.I + a)‖ = a := by
  rw [norm_div, norm_mul, shelf_norm, mul_div_assoc, div_self (norm_ne_zero_iff.2 (shelf_ne hr)), mul_one,
    Complex.norm_real, norm_eq_abs, abs_of_pos ha]

/-- The denominator of a stable filter does not vanish on the unit circle. -/
theorem response_den_ne {f : BQ ℝ} (h : PolesInside f) {z : ℂ} (hz : ‖z‖ = 1) :
    (f.A0 : ℂ) + f.A1 * z⁻¹ + f.A2 * z⁻¹ ^ 2 ≠ 0 := by
  have hz0 : z ≠ 0 := by rintro rfl; simp at hz
  intro h0
  have := h.2 z (by field_simp at h0; linear_combination h0)
  rw [hz] at this
  exact lt_irrefl _ this

/-- Response at half the sample rate from the alternating sums of the coefficients. -/
theorem response_nyquist (f : BQ ℝ) : response f (-1) = ((f.B0 - f.B1 + f.B2) / (f.A0 - f.A1 + f.A2) : ℝ) := by
  rw [response, inv_neg, inv_one]
  push_cast
  ring_nf

/-- C43: the low-pass design passes zero frequency with gain 1, blocks half the sample rate, and has
response `-jQ` at the cutoff frequency. -/
theorem C43_low_pass (fs f0 q : ℝ) (h : FreqOk fs f0) (hq : 0 < q) :
    response (newLowPass fs f0 q) (unitAt fs 0) = 1 ∧ response (newLowPass fs f0 q) (unitAt fs (fs / 2)) = 0 ∧
    response (newLowPass fs f0 q) (unitAt fs f0) = -(q * Complex.I) := by
  have hq' : (q : ℂ) ≠ 0 := by exact_mod_cast hq.ne'
  refine ⟨?_, ?_, ?_⟩
  · rw [C43_low_pass_response fs f0 q 0 h hq (cos_zero_ok fs), warp_zero]
    simp [protoLowPass]
  · rw [unitAt_nyquist (fs_ne h), response_nyquist]
    norm_cast
    rw [div_eq_zero_iff]
    left
    simp only [newLowPass, bq]
    ring
  · rw [C43_low_pass_response fs f0 q f0 h hq (cos_design_ok h), warp_design h, protoLowPass, Complex.I_sq]
    field_simp
    ring_nf
    simp [Complex.I_sq]

/-- C43: the high-pass design blocks zero frequency, passes half the sample rate with gain 1, and has
response `jQ` at the cutoff frequency. -/
theorem C43_high_pass (fs f0 q : ℝ) (h : FreqOk fs f0) (hq : 0 < q) :
    response (newHighPass fs f0 q) (unitAt fs 0) = 0 ∧ response (newHighPass fs f0 q) (unitAt fs (fs / 2)) = 1 ∧
    response (newHighPass fs f0 q) (unitAt fs f0) = q * Complex.I := by
  have hq' : (q : ℂ) ≠ 0 := by exact_mod_cast hq.ne'
  refine ⟨?_, ?_, ?_⟩
  · rw [C43_high_pass_response fs f0 q 0 h hq (cos_zero_ok fs), warp_zero]
    simp [protoHighPass]
  · rw [unitAt_nyquist (fs_ne h), response_nyquist]
    norm_cast
    have := (sin_cos_ok h).2.2
    simp only [newHighPass, bq]
    rw [div_eq_one_iff_eq] <;> [ring; linarith]
  · rw [C43_high_pass_response fs f0 q f0 h hq (cos_design_ok h), warp_design h, protoHighPass, Complex.I_sq]
    field_simp
    ring_nf
    simp [Complex.I_sq]

/-- C43: the constant-skirt band-pass blocks zero and half the sample rate and has gain `Q` at centre. -/
theorem C43_skirt (fs f0 q : ℝ) (h : FreqOk fs f0) (hq : 0 < q) :
    response (newBandPassSkirt fs f0 q) (unitAt fs 0) = 0 ∧
    response (newBandPassSkirt fs f0 q) (unitAt fs (fs / 2)) = 0 ∧
    response (newBandPassSkirt fs f0 q) (unitAt fs f0) = q := by
  have hq' : (q : ℂ) ≠ 0 := by exact_mod_cast hq.ne'
  refine ⟨?_, ?_, ?_⟩
  · rw [C43_skirt_response fs f0 q 0 h hq (cos_zero_ok fs), warp_zero]
    simp [protoSkirt]
  · rw [unitAt_nyquist (fs_ne h), response_nyquist]
    norm_cast
    rw [div_eq_zero_iff]
    left
    simp only [newBandPassSkirt, bq]
    ring
  · rw [C43_skirt_response fs f0 q f0 h hq (cos_design_ok h), warp_design h, protoSkirt, Complex.I_sq]
    field_simp
    ring_nf

/-- C43: the constant-peak band-pass blocks zero and half the sample rate and has gain 1 at centre. -/
theorem C43_peak (fs f0 q : ℝ) (h : FreqOk fs f0) (hq : 0 < q) :
    response (newBandPassPeak fs f0 q) (unitAt fs 0) = 0 ∧
    response (newBandPassPeak fs f0 q) (unitAt fs (fs / 2)) = 0 ∧
    response (newBandPassPeak fs f0 q) (unitAt fs f0) = 1 := by
  have hq' : (q : ℂ) ≠ 0 := by exact_mod_cast hq.ne'
  refine ⟨?_, ?_, ?_⟩
  · rw [C43_peak_response fs f0 q 0 h hq (cos_zero_ok fs), warp_zero]
    simp [protoPeak]
  · rw [unitAt_nyquist (fs_ne h), response_nyquist]
    norm_cast
    rw [div_eq_zero_iff]
    left
    simp only [newBandPassPeak, bq]
    ring
  · rw [C43_peak_response fs f0 q f0 h hq (cos_design_ok h), warp_design h, protoPeak, Complex.I_sq]
    field_simp
    ring_nf

/-- C43: the notch passes zero and half the sample rate with gain 1 and blocks the centre. -/
theorem C43_notch (fs f0 q : ℝ) (h : FreqOk fs f0) (hq : 0 < q) :
    response (newNotch fs f0 q) (unitAt fs 0) = 1 ∧ response (newNotch fs f0 q) (unitAt fs (fs / 2)) = 1 ∧
    response (newNotch fs f0 q) (unitAt fs f0) = 0 := by
  refine ⟨?_, ?_, ?_⟩
  · rw [C43_notch_response fs f0 q 0 h hq (cos_zero_ok fs), warp_zero]
    simp [protoNotch]
  · rw [unitAt_nyquist (fs_ne h), response_nyquist]
    norm_cast
    have := (sin_cos_ok h).2.2
    simp only [newNotch, bq]
    rw [div_eq_one_iff_eq] <;> [ring; linarith]
  · rw [C43_notch_response fs f0 q f0 h hq (cos_design_ok h), warp_design h, protoNotch, Complex.I_sq]
    simp

/-- C43: the all-pass has gain 1 at every frequency. -/
theorem C43_all_pass (fs f0 q : ℝ) (h : FreqOk fs f0) (hq : 0 < q) (f : ℝ) :
    ‖response (newAllPass fs f0 q) (unitAt fs f)‖ = 1 := by
  have hu : ‖unitAt fs f‖ = 1 := by rw [unitAt, Complex.norm_exp_ofReal_mul_I]
  have hp := C42_all_pass fs f0 q h hq
  have hz0 : unitAt fs f ≠ 0 := by
    intro h0; rw [h0] at hu; simp at hu
  have hden := response_den_ne hp hu
  rw [response, norm_div, div_eq_one_iff_eq (norm_ne_zero_iff.2 hden)]
  generalize unitAt fs f = z at *
  simp only [newAllPass, bq] at hden ⊢
  generalize sin (2 * π * f0 / fs) / (2 * q) = al at *
  generalize -2 * cos (2 * π * f0 / fs) = c at *
  have hi : z⁻¹ = (starRingEnd ℂ) z := by
    rw [Complex.inv_def, Complex.normSq_eq_norm_sq, hu]; simp
  have e : (((1 - al : ℝ) : ℂ) + (c : ℂ) * z⁻¹ + ((1 + al : ℝ) : ℂ) * z⁻¹ ^ 2)
      = z⁻¹ ^ 2 * (starRingEnd ℂ) (((1 + al : ℝ) : ℂ) + (c : ℂ) * z⁻¹ + ((1 - al : ℝ) : ℂ) * z⁻¹ ^ 2) := by
    simp only [map_add, map_mul, map_pow, Complex.conj_ofReal]
    have : (starRingEnd ℂ) z⁻¹ = z := by rw [hi, Complex.conj_conj]
    rw [this]
    field_simp
    ring
  rw [e, norm_mul, norm_pow, norm_inv, hu, Complex.norm_conj]
  simp

/-- Gain of `dB` decibels in amplitude: `10^(dB/20)`. -/
noncomputable def gainOf (dB : ℝ) : ℝ := (10 : ℝ) ^ (dB / 20)

theorem gainOf_eq (dB : ℝ) : gainOf dB = (10 : ℝ) ^ (dB / 40) * (10 : ℝ) ^ (dB / 40) := by
  rw [gainOf, ← rpow_add (by norm_num)]
  congr 1
  ring

/-- C43: the peaking equaliser has the requested gain at centre and gain 1 at zero and half the sample
rate. -/
theorem C43_peaking (fs f0 q dB : ℝ) (h : FreqOk fs f0) (hq : 0 < q) :
    response (newPeaking fs f0 q dB) (unitAt fs 0) = 1 ∧ response (newPeaking fs f0 q dB) (unitAt fs (fs / 2)) = 1 ∧
    response (newPeaking fs f0 q dB) (unitAt fs f0) = gainOf dB := by
  have hq' : (q : ℂ) ≠ 0 := by exact_mod_cast hq.ne'
  refine ⟨?_, ?_, ?_⟩
  · rw [C43_peaking_response fs f0 q dB 0 h hq (cos_zero_ok fs), warp_zero]
    simp [protoPeaking]
  · rw [unitAt_nyquist (fs_ne h), response_nyquist]
    norm_cast
    have := (sin_cos_ok h).2.2
    simp only [newPeaking, bq]
    rw [div_eq_one_iff_eq] <;> [ring; linarith]
  · rw [C43_peaking_response fs f0 q dB f0 h hq (cos_design_ok h), warp_design h, protoPeaking, Complex.I_sq, gainOf_eq]
    have ha : (0 : ℝ) < 10 ^ (dB / 40) := rpow_pos_of_pos (by norm_num) _
    generalize (10 : ℝ) ^ (dB / 40) = a at *
    have ha' : (a : ℂ) ≠ 0 := by exact_mod_cast ha.ne'
    push_cast
    field_simp
    ring_nf

/-- C43: the low shelf has the requested gain at zero frequency, gain 1 at half the sample rate and
half the gain in dB at the corner frequency. -/
theorem C43_low_shelf (fs f0 slope dB : ℝ) (h : FreqOk fs f0) (hs : SlopeOk slope dB) :
    response (newLowShelf fs f0 slope dB) (unitAt fs 0) = gainOf dB ∧
    response (newLowShelf fs f0 slope dB) (unitAt fs (fs / 2)) = 1 ∧
    ‖response (newLowShelf fs f0 slope dB) (unitAt fs f0)‖ = gainOf (dB / 2) := by
  have ha : (0 : ℝ) < 10 ^ (dB / 40) := rpow_pos_of_pos (by norm_num) _
  refine ⟨?_, ?_, ?_⟩
  · rw [C43_low_shelf_response fs f0 slope dB 0 h hs (cos_zero_ok fs), warp_zero, gainOf_eq]
    simp [protoLowShelf]
  · rw [unitAt_nyquist (fs_ne h), response_nyquist]
    norm_cast
    have := (sin_cos_ok h).2.2
    have h0 := mul_pos ha (show 0 < 1 + cos (2 * π * f0 / fs) by linarith)
    simp only [newLowShelf, bq]
    rw [div_eq_one_iff_eq] <;> [ring; nlinarith]
  · rw [C43_low_shelf_response fs f0 slope dB f0 h hs (cos_design_ok h), warp_design h, protoLowShelf, Complex.I_sq]
    have hg : gainOf (dB / 2) = (10 : ℝ) ^ (dB / 40) := by rw [gainOf]; congr 1; ring
    have hr : 0 < √((10 : ℝ) ^ (dB / 40)) / shelfQ slope dB :=
      div_pos (sqrt_pos.2 ha) (one_div_pos.2 (sqrt_pos.2 hs))
    rw [hg]
    generalize √((10 : ℝ) ^ (dB / 40)) / shelfQ slope dB = r at *
    generalize (10 : ℝ) ^ (dB / 40) = a at *
    exact shelf_corner ha hr

/-- C43: the high shelf has gain 1 at zero frequency, the requested gain at half the sample rate and
half the gain in dB at the corner frequency. -/
theorem C43_high_shelf (fs f0 slope dB : ℝ) (h : FreqOk fs f0) (hs : SlopeOk slope dB) :
    response (newHighShelf fs f0 slope dB) (unitAt fs 0) = 1 ∧
    response (newHighShelf fs f0 slope dB) (unitAt fs (fs / 2)) = gainOf dB ∧
    ‖response (newHighShelf fs f0 slope dB) (unitAt fs f0)‖ = gainOf (dB / 2) := by
  have ha : (0 : ℝ) < 10 ^ (dB / 40) := rpow_pos_of_pos (by norm_num) _
  have ha' : (((10 : ℝ) ^ (dB / 40) : ℝ) : ℂ) ≠ 0 := by exact_mod_cast ha.ne'
  refine ⟨?_, ?_, ?_⟩
  · rw [C43_high_shelf_response fs f0 slope dB 0 h hs (cos_zero_ok fs), warp_zero]
    simp only [protoHighShelf, ne_eq, OfNat.ofNat_ne_zero, not_false_eq_true, zero_pow, mul_zero, add_zero, zero_add, mul_one]
    exact div_self ha'
  · rw [unitAt_nyquist (fs_ne h), response_nyquist, gainOf_eq]
    norm_cast
    have := (sin_cos_ok h).2.2
    have h0 := mul_pos ha (show 0 < 1 + cos (2 * π * f0 / fs) by linarith)
    simp only [newHighShelf, bq]
    rw [div_eq_iff] <;> [ring; nlinarith]
  · rw [C43_high_shelf_response fs f0 slope dB f0 h hs (cos_design_ok h), warp_design h, protoHighShelf, Complex.I_sq]
    have hg : gainOf (dB / 2) = (10 : ℝ) ^ (dB / 40) := by rw [gainOf]; congr 1; ring
    have hr : 0 < √((10 : ℝ) ^ (dB / 40)) / shelfQ slope dB :=
      div_pos (sqrt_pos.2 ha) (one_div_pos.2 (sqrt_pos.2 hs))
    rw [hg]
    generalize √((10 : ℝ) ^ (dB / 40)) / shelfQ slope dB = r at *
    generalize (10 : ℝ) ^ (dB / 40) = a at *
    exact shelf_corner' ha hr

end Verif.Filt
