import Mathlib.Analysis.SpecialFunctions.Trigonometric.Basic

/-!
# Model of the window functions of dsp/window.go

Simplification: arithmetic is exact real arithmetic and the constants have their decimal values.  A
value that is not a finite number is `none`; it arises only from the division 0/0, whose result NaN is
kept by every operation applied to it.  The `F32` functions differ only in a final rounding.
-/

namespace Verif.Window

/-- Floating-point division: not a finite number when the divisor is zero. -/
noncomputable def fdiv (a b : ℝ) : Option ℝ := if b = 0 then none else some (a / b)

/-- Element `n` of `TriangleWindow`, dsp/window.go:20 (and 26). -/
noncomputable def triangleAt (len n : Nat) : Option ℝ :=
  (fdiv ((n : ℝ) - ((len : ℝ) - 1) / 2) (((len : ℝ) + 1) / 2)).map fun q => 1 - |q|

/-- `TriangleWindow`, dsp/window.go:18-22, and `TriangleWindowF32`, 24-28. -/
noncomputable def triangle (len : Nat) : List (Option ℝ) := (List.range len).map (triangleAt len)

/-- Element `n` of `HanningWindow`, dsp/window.go:40 (and 46). -/
noncomputable def hanningAt (len n : Nat) : Option ℝ :=
  (fdiv (2 * Real.pi * n) ((len : ℝ) - 1)).map fun q => 0.5 * (1 - Real.cos q)

/-- `HanningWindow`, dsp/window.go:38-42, and `HanningWindowF32`, 44-48. -/
noncomputable def hanning (len : Nat) : List (Option ℝ) := (List.range len).map (hanningAt len)

/-- A conditional statement `if len(a) > k { v = v ± a[k]*math.Cos(m*math.Pi*fn/nn) }` of the loop,
dsp/window.go:76-84 (and 97-105); `sign` is 1 or -1. -/
noncomputable def windowTerm (a : List ℝ) (k : Nat) (sign m fn nn : ℝ) (v : Option ℝ) : Option ℝ :=
  if a.length > k then
    v.bind fun v => (fdiv (m * Real.pi * fn) nn).map fun q => v + sign * (a.getD k 0 * Real.cos q)
  else v

/-- The loop body of `window`, dsp/window.go:74-85 (and 95-106). -/
noncomputable def windowAt (a : List ℝ) (len n : Nat) : Option ℝ :=
  let nn := (len : ℝ) - 1
  let v : Option ℝ := some (a.getD 0 0)
  let v := windowTerm a 1 (-1) 2 n nn v
  let v := windowTerm a 2 1 4 n nn v
  windowTerm a 3 (-1) 6 n nn v

/-- `window`, dsp/window.go:68-87, and `windowF32`, 89-108: the outer `none` is a panic. -/
noncomputable def window (len : Nat) (a : List ℝ) : Option (List (Option ℝ)) :=
  if a.length < 1 ∨ a.length > 4 then none else some ((List.range len).map (windowAt a len))

/-- `HammingWindow`, dsp/window.go:30-32, and `HammingWindowF32`, 34-36. -/
noncomputable def hamming (len : Nat) : Option (List (Option ℝ)) := window len [0.53836, 1 - 0.53836]

/-- `BlackmanWindow`, dsp/window.go:50-53, and `BlackmanWindowF32`, 55-58. -/
noncomputable def blackman (len : Nat) : Option (List (Option ℝ)) :=
  let a := 0.16
  window len [(1 - a) / 2, 1 / 2, a / 2]

/-- `NuttallWindow`, dsp/window.go:60-62, and `NuttallWindowF32`, 64-66. -/
noncomputable def nuttall (len : Nat) : Option (List (Option ℝ)) := window len [0.355768, 0.487396, 0.144232, 0.012604]

/-- `HammingFreqCoeff`, dsp/window.go:10 (and 14). -/
noncomputable def hammingFreq : List ℝ := [(0.53836 - 1) / 2, 0.53836, (0.53836 - 1) / 2]

/-- `HanningFreqCoeff`, dsp/window.go:11 (and 15). -/
noncomputable def hanningFreq : List ℝ := [-0.25, 0.5, -0.25]

/-- `BlackmanFreqCoeff`, dsp/window.go:9 (and 13). -/
noncomputable def blackmanFreq : List ℝ := [0.16 / 4, -1.0 / 4, (1 - 0.16) / 2, -1.0 / 4, 0.16 / 4]

end Verif.Window
