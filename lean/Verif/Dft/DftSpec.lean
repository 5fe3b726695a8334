import Mathlib.Analysis.SpecialFunctions.Trigonometric.Basic
import Mathlib.Algebra.BigOperators.Group.Finset.Basic

/-!
# Specification: discrete Fourier sums
-/

namespace Verif.Dft
open Complex

/-- `Σ x_m e^{-j w m}`, `m < n`: the Fourier sum of `n` samples at `w` radians per sample. -/
noncomputable def fourierSum (w : ℝ) (n : Nat) (x : Nat → ℂ) : ℂ :=
  ∑ m ∈ Finset.range n, x m * exp (-(w * m : ℝ) * I)

/-- Bin `k` of the `n`-point DFT. -/
noncomputable def dft (n : Nat) (k : ℤ) (x : Nat → ℂ) : ℂ :=
  ∑ m ∈ Finset.range n, x m * exp (-(2 * Real.pi * k * m / n : ℝ) * I)

end Verif.Dft
