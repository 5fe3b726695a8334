import Verif.Filt.IirModel
import Verif.Filt.BiquadModel
import Verif.Fp.FpFma
import Verif.Fp.FpNear

/-!
# Model of the real filters as a compiler may fuse them (dsp/filter.go, dsp/biquad.go)

The same loops as in `IirModel` and `BiquadModel`, with the sum of each sample kept as an expression.  `ev i e` is the
value the program computes for the expression `e` of sample `i`; what is known of it is `Eval e (ev i e)`, so that each
product in a sum may be fused or not, differently at each sample.  `Expr.unfused` gives back the models where nothing is
fused (`IIR.filterBy_unfused`, `BQ.filterBy_unfused`, `BQ.filterF32By_unfused`, `DC.filterBy_unfused`).
-/

namespace Verif.Filt
open Verif.Conv Verif.Fp

variable {S : Type} {φ : Format}

/-- The sum of dsp/filter.go:74-77. -/
def IIR.sumExpr (f : IIR (FVal φ)) (m : Nat → FVal φ) (s : FVal φ) : Option (Expr φ) := do
  let b0 ← f.bCoef.read m 0
  forRange f.d (Expr.leaf b0 * Expr.leaf s) fun j sum => do
    let p ← f.win.read f.pIn j
    let b ← f.bCoef.read m (j + 1)
    let a ← f.aCoef.read m (j + 1)
    let q ← f.win.read f.pOut j
    some (sum + (Expr.leaf b * Expr.leaf p - Expr.leaf a * Expr.leaf q))

/-- `IIRFilter.Filter`, dsp/filter.go:72-86. -/
def IIR.filterBy (ev : Nat → Expr φ → FVal φ) (f : IIR (FVal φ)) (m : Nat → FVal φ) (input output : Slice) :
    Option ((Nat → FVal φ) × IIR (FVal φ)) :=
  forRange input.len (m, f) fun i (m, f) => do
    let s ← input.read m i
    let e ← f.sumExpr m s
    let sum := ev i e
    let f ← f.push s sum
    let m ← output.write m i sum
    some (m, f)

/-- The sum of dsp/biquad.go:20 and 36. -/
def bqExpr (v0 v1 v2 w1 w2 s i0 i1 o0 o1 : FVal φ) : Expr φ :=
  Expr.leaf v0 * Expr.leaf s + Expr.leaf v1 * Expr.leaf i0 + Expr.leaf v2 * Expr.leaf i1
    - Expr.leaf w1 * Expr.leaf o0 - Expr.leaf w2 * Expr.leaf o1

/-- `BiQuadFilter.FilterF32`, dsp/biquad.go:29-43; `wide s` is `float64(s)`, `narrow v` is `float32(v)` (explicit
conversions, which are not fused with anything). -/
def BQ.filterF32By (wide : S → FVal φ) (narrow : FVal φ → S) (ev : Nat → Expr φ → FVal φ) (f : BQ (FVal φ)) (m : Nat → S)
    (input output : Slice) : Option ((Nat → S) × BQ (FVal φ)) :=
  let b0a0 := f.B0 / f.A0
  let b1a0 := f.B1 / f.A0
  let b2a0 := f.B2 / f.A0
  let a1a0 := f.A1 / f.A0
  let a2a0 := f.A2 / f.A0
  forRange input.len (m, f) fun i (m, f) => do
    let s ← input.read m i
    let newSample := ev i (bqExpr b0a0 b1a0 b2a0 a1a0 a2a0 (wide s) f.prevIn0 f.prevIn1 f.prevOut0 f.prevOut1)
    let f := { f with prevOut1 := f.prevOut0 }
    let f := { f with prevOut0 := newSample }
    let f := { f with prevIn1 := f.prevIn0 }
    let f := { f with prevIn0 := wide s }
    let m ← output.write m i (narrow newSample)
    some (m, f)

/-- `BiQuadFilter.Filter`, dsp/biquad.go:13-27: the same loop without the conversions. -/
def BQ.filterBy (ev : Nat → Expr φ → FVal φ) (f : BQ (FVal φ)) (m : Nat → FVal φ) (input output : Slice) :
    Option ((Nat → FVal φ) × BQ (FVal φ)) :=
  f.filterF32By (fun s => s) (fun s => s) ev m input output

/-- The state after one sample, `x + f.a*lw` of dsp/filter.go:132, 140, 158 and 166, fused or not. -/
def dcNext (fused : Bool) (a x lw : FVal φ) : FVal φ := if fused then fma φ a lw x else x + a * lw

/-- `DCFilter.Filter`, dsp/filter.go:129-137 and 155-163; `fused i` says whether the product of sample `i` is fused. -/
def DC.filterBy (fused : Nat → Bool) (f : DC (FVal φ)) (m : Nat → FVal φ) (input output : Slice) :
    Option ((Nat → FVal φ) × DC (FVal φ)) := do
  let (m, lw) ← forRange input.len (m, f.w) fun i (m, lw) => do
    let x ← input.read m i
    let w := dcNext (fused i) f.a x lw
    let m ← output.write m i (w - lw)
    some (m, w)
  some (m, { f with w := lw })

/-- `DCFilter.FilterOne`, dsp/filter.go:139-144 and 165-170. -/
def DC.filterOneBy (fused : Bool) (f : DC (FVal φ)) (x : FVal φ) : FVal φ × DC (FVal φ) :=
  let w := dcNext fused f.a x f.w
  let y := w - f.w
  (y, { f with w := w })

end Verif.Filt
