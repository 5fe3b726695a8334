import Verif.Window.WindowModel
import Verif.Dft.DftSpec
import Mathlib.Tactic.LinearCombination
import Mathlib.Tactic.NormNum
import Mathlib.Algebra.BigOperators.Ring.Finset

/-!
# Property C74: the frequency-domain window coefficients
-/

namespace Verif.Window
open Complex Verif.Dft

/-- Specification: applying the list `c` around bin `k` of a spectrum. -/
noncomputable def around (c : List ℝ) (X : ℤ → ℂ) (k : ℤ) : ℂ :=
  ∑ j ∈ Finset.range c.length, ((c.getD j 0 : ℝ) : ℂ) * X (k + j - (c.length / 2 : Nat))

/-- Specification: the periodic cosine-sum window of length `n`. -/
noncomputable def periodic (a0 a1 a2 : ℝ) (n m : Nat) : ℝ :=
  a0 - a1 * Real.cos (2 * Real.pi * m / n) + a2 * Real.cos (2 * (2 * Real.pi * m / n))

/-- Term `m` of bin `k + j`. -/
theorem shifted (n m : Nat) (k j : ℤ) :
    exp (-(2 * Real.pi * (k + j : ℤ) * m / n : ℝ) * I) = exp (-(2 * Real.pi * k * m / n : ℝ) * I) * exp (-(j * (2 * Real.pi * m / n) : ℝ) * I) := by
  rw [← Complex.exp_add]
  congr 1
  push_cast
  ring

theorem cos_half (t : ℝ) : ((Real.cos t : ℝ) : ℂ) = (exp (-(-1 * t : ℝ) * I) + exp (-(1 * t : ℝ) * I)) / 2 := by
  rw [Complex.ofReal_cos, Complex.cos]
  congr 2
  · congr 1; push_cast; ring
  · congr 1; push_cast; ring

theorem periodic_exp (a0 a1 a2 t : ℝ) : ((a0 - a1 * Real.cos t + a2 * Real.cos (2 * t) : ℝ) : ℂ) =
    a0 - a1 * ((exp (-((-1 : ℤ) * t : ℝ) * I) + exp (-((1 : ℤ) * t : ℝ) * I)) / 2)
      + a2 * ((exp (-((-2 : ℤ) * t : ℝ) * I) + exp (-((2 : ℤ) * t : ℝ) * I)) / 2) := by
  have e1 : (-1 * (2 * t) : ℝ) = (-2 : ℤ) * t := by push_cast; ring
  have e2 : (1 * (2 * t) : ℝ) = (2 : ℤ) * t := by push_cast; ring
  have h1 := cos_half t
  have h2 := cos_half (2 * t)
  rw [e1, e2] at h2
  rw [Complex.ofReal_add, Complex.ofReal_sub, Complex.ofReal_mul, Complex.ofReal_mul, h1, h2]
  push_cast
  rfl

theorem dft_window (a0 a1 a2 : ℝ) (n : Nat) (x : Nat → ℂ) (k : ℤ) :
    ((a2 / 2 : ℝ) : ℂ) * dft n (k + (-2)) x + ((-a1 / 2 : ℝ) : ℂ) * dft n (k + (-1)) x + (a0 : ℂ) * dft n k x
      + ((-a1 / 2 : ℝ) : ℂ) * dft n (k + 1) x + ((a2 / 2 : ℝ) : ℂ) * dft n (k + 2) x
    = dft n k (fun m => x m * (periodic a0 a1 a2 n m : ℂ)) := by
  unfold dft
  rw [Finset.mul_sum, Finset.mul_sum, Finset.mul_sum, Finset.mul_sum, Finset.mul_sum, ← Finset.sum_add_distrib, ← Finset.sum_add_distrib,
    ← Finset.sum_add_distrib, ← Finset.sum_add_distrib]
  refine Finset.sum_congr rfl fun m _ => ?_
  rw [shifted n m k (-2), shifted n m k (-1), shifted n m k 1, shifted n m k 2]
  simp only [periodic]
  rw [periodic_exp]
  generalize (2 * Real.pi * m / n : ℝ) = t
  push_cast
  ring

theorem around3 (p q r : ℝ) (X : ℤ → ℂ) (k : ℤ) : around [p, q, r] X k = p * X (k + (-1)) + q * X k + r * X (k + 1) := by
  simp [around, Finset.sum_range_succ]
  ring_nf

theorem around5 (p q r s t : ℝ) (X : ℤ → ℂ) (k : ℤ) :
    around [p, q, r, s, t] X k = p * X (k + (-2)) + q * X (k + (-1)) + r * X k + s * X (k + 1) + t * X (k + 2) := by
  simp [around, Finset.sum_range_succ]
  ring_nf

/-- C74, Hamming: combining three neighbouring bins with `HammingFreqCoeff` is the DFT of the samples
multiplied by the periodic window with the coefficients of `HammingWindow`. -/
theorem C74_hamming (n : Nat) (x : Nat → ℂ) (k : ℤ) :
    around hammingFreq (fun k => dft n k x) k = dft n k (fun m => x m * (periodic 0.53836 (1 - 0.53836) 0 n m : ℂ)) := by
  rw [hammingFreq, around3, ← dft_window]
  push_cast
  ring

/-- C74, Hanning: the periodic window is `0.5 (1 - cos)`, as in `HanningWindow`. -/
theorem C74_hanning (n : Nat) (x : Nat → ℂ) (k : ℤ) :
    around hanningFreq (fun k => dft n k x) k = dft n k (fun m => x m * ((0.5 * (1 - Real.cos (2 * Real.pi * m / n)) : ℝ) : ℂ)) := by
  have e : ∀ m : Nat, (0.5 * (1 - Real.cos (2 * Real.pi * m / n)) : ℝ) = periodic 0.5 0.5 0 n m := by
    intro m
    unfold periodic
    ring
  simp only [e]
  rw [hanningFreq, around3, ← dft_window]
  norm_num

/-- C74, Blackman: the coefficients of `BlackmanWindow`. -/
theorem C74_blackman (n : Nat) (x : Nat → ℂ) (k : ℤ) :
    around blackmanFreq (fun k => dft n k x) k = dft n k (fun m => x m * (periodic ((1 - 0.16) / 2) (1 / 2) (0.16 / 2) n m : ℂ)) := by
  rw [blackmanFreq, around5, ← dft_window]
  norm_num

example : periodic 0.5 0.5 0 4 2 = 1 := by
  have : 2 * Real.pi * (2 : Nat) / (4 : Nat) = Real.pi := by push_cast; ring
  rw [periodic, this, Real.cos_pi]
  norm_num

end Verif.Window
