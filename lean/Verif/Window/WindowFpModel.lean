import Verif.Fp.FpApprox
import Verif.Dft.BucketFp

/-!
# Model of dsp/window.go in floating point

Every operation is rounded, the conversions and constants included.  What an iteration of a loop computes is an expression
(`Fp/FpFma`): `Expr.Eval` gives the values any platform may store, products being fused with sums or not.  `math.Cos` is a
parameter.  A length has fewer than 2^53 elements where a theorem says so.
-/

namespace Verif.WinFp
open Verif.Fp Verif.Dft Verif.Filt Expr

/-- The constants `2*math.Pi`, `4*math.Pi` and `6*math.Pi` of dsp/window.go:40, 46, 77, 80, 83, 98, 101 and 104: constant
expressions, evaluated exactly and rounded once. -/
def pi64 (j : Nat) : FVal binary64 := konst binary64 (2 * j * goPi)

/-- `2*math.Pi*fn/nn` and its multiples, where `fn = float64(n)` and `nn = float64(len(output)-1)`, dsp/window.go:40, 77,
80, 83 (and 46, 98, 101, 104). -/
def phaseFp (j len n : Nat) : FVal binary64 := pi64 j * ofNat64 n / ofNat64 (len - 1)

/-- The loop body of `HanningWindow`, dsp/window.go:40, before the assignment (and of `HanningWindowF32`, 46, before the
conversion). -/
def hanningE (cos : FVal binary64 → FVal binary64) (len n : Nat) : Expr binary64 :=
  .leaf (konst binary64 (1 / 2)) * (.leaf (konst binary64 1) - .leaf (cos (phaseFp 1 len n)))

/-- The loop body of `window`, dsp/window.go:74-85 (and of `windowF32`, 95-106, before the conversion). -/
def windowE (cos : FVal binary64 → FVal binary64) (a : List (FVal binary64)) (len n : Nat) : Expr binary64 :=
  let v : Expr binary64 := .leaf (a.getD 0 0)
  let v := if a.length > 1 then v - .leaf (a.getD 1 0) * .leaf (cos (phaseFp 1 len n)) else v
  let v := if a.length > 2 then v + .leaf (a.getD 2 0) * .leaf (cos (phaseFp 2 len n)) else v
  if a.length > 3 then v - .leaf (a.getD 3 0) * .leaf (cos (phaseFp 3 len n)) else v

/-- `window` and `windowF32`, dsp/window.go:68-108: what is computed for each element; `none` is the panic. -/
def windowFp (cos : FVal binary64 → FVal binary64) (a : List (FVal binary64)) (len : Nat) : Option (List (Expr binary64)) :=
  if a.length < 1 ∨ a.length > 4 then none else some ((List.range len).map (windowE cos a len))

/-- The coefficients of `HammingWindow`, dsp/window.go:31 (and 35): constants. -/
def hammingA : List (FVal binary64) := [konst binary64 0.53836, konst binary64 (1 - 0.53836)]

/-- The variable `a` of dsp/window.go:51 (and 56). -/
def blackA : FVal binary64 := konst binary64 0.16

/-- The coefficients of `BlackmanWindow`, dsp/window.go:52 (and 57): computed from the variable `a`, with rounding. -/
def blackmanA : List (FVal binary64) :=
  [(konst binary64 1 - blackA : FVal binary64) / konst binary64 2, konst binary64 (1 / 2), blackA / konst binary64 2]

/-- The coefficients of `NuttallWindow`, dsp/window.go:61 (and 65). -/
def nuttallA : List (FVal binary64) :=
  [konst binary64 0.355768, konst binary64 0.487396, konst binary64 0.144232, konst binary64 0.012604]

/-- `HanningWindow`, dsp/window.go:38-42. -/
def hanningFp (cos : FVal binary64 → FVal binary64) (len : Nat) : List (Expr binary64) :=
  (List.range len).map (hanningE cos len)

/-- `HammingWindow`, dsp/window.go:30-32. -/
def hammingFp (cos : FVal binary64 → FVal binary64) (len : Nat) : Option (List (Expr binary64)) := windowFp cos hammingA len

/-- `BlackmanWindow`, dsp/window.go:50-53. -/
def blackmanFp (cos : FVal binary64 → FVal binary64) (len : Nat) : Option (List (Expr binary64)) := windowFp cos blackmanA len

/-- `NuttallWindow`, dsp/window.go:60-62. -/
def nuttallFp (cos : FVal binary64 → FVal binary64) (len : Nat) : Option (List (Expr binary64)) := windowFp cos nuttallA len

/-- What a platform may leave in `output`. -/
def Stored (es : List (Expr binary64)) (vs : List (FVal binary64)) : Prop := List.Forall₂ Eval es vs

/-- What a platform may leave in the `output` of an `F32` function, dsp/window.go:26, 46 and 106: each value converted to
`float32`. -/
def Stored32 (es : List (Expr binary64)) (vs : List (FVal binary32)) : Prop :=
  List.Forall₂ (fun e v => ∃ w : FVal binary64, Eval e w ∧ v = narrow w) es vs

/-- `math.Abs`. -/
def absV (v : FVal binary64) : FVal binary64 := Fp.abs v

/-- The quotient in dsp/window.go:20 (and 26): `(float64(n)-float64(len(output)-1)/2.0)/(float64(len(output)+1)/2.0)`. -/
def triangleQ (len n : Nat) : FVal binary64 :=
  (ofNat64 n - ofNat64 (len - 1) / konst binary64 2) / (ofNat64 (len + 1) / konst binary64 2)

/-- `1 - math.Abs(…)`, dsp/window.go:20 (and 26, before the conversion).  There is no product to fuse. -/
def triangleV (len n : Nat) : FVal binary64 := konst binary64 1 - absV (triangleQ len n)

/-- `TriangleWindow`, dsp/window.go:18-22. -/
def triangleFp (len : Nat) : List (FVal binary64) := (List.range len).map (triangleV len)

/-- `TriangleWindowF32`, dsp/window.go:24-28. -/
def triangleFp32 (len : Nat) : List (FVal binary32) := (List.range len).map fun n => narrow (triangleV len n)

end Verif.WinFp
