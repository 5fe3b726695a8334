import Verif.Filt.BiquadModel
import Mathlib.Analysis.Complex.Basic

/-!
# Specification of stability and frequency response of a biquad
-/

namespace Verif.Filt

/-- Both poles, the roots of `A0 z² + A1 z + A2`, are strictly inside the unit circle. -/
def PolesInside (f : BQ ℝ) : Prop :=
  f.A0 ≠ 0 ∧ ∀ z : ℂ, (f.A0 : ℂ) * z ^ 2 + f.A1 * z + f.A2 = 0 → ‖z‖ < 1

/-- Transfer function at `z`: `(B0 + B1 z⁻¹ + B2 z⁻²) / (A0 + A1 z⁻¹ + A2 z⁻²)`. -/
noncomputable def response (f : BQ ℝ) (z : ℂ) : ℂ :=
  (f.B0 + f.B1 * z⁻¹ + f.B2 * z⁻¹ ^ 2) / (f.A0 + f.A1 * z⁻¹ + f.A2 * z⁻¹ ^ 2)

end Verif.Filt
