import Verif.Conv.SliceModel
import Mathlib.Algebra.Notation.Defs

/-!
# Model of the IIR filters and the DC filter (dsp/filter.go)

Samples are elements of an arbitrary type `F` with arbitrary operations, about which nothing is
assumed (so the theorems that need no laws hold bit for bit for float64, complex64 and complex128
as well).  Slices are windows of a memory (`Verif.Conv.Slice`) and may overlap.
-/

namespace Verif.Filt
open Verif.Conv

variable {F R : Type}

/-- `for i := n; i > 0; i-- { body }`. -/
def forDown {σ : Type} (n : Nat) (s : σ) (body : Nat → σ → Option σ) : Option σ :=
  match n with
  | 0 => some s
  | n + 1 => (body (n + 1) s).bind fun s => forDown n s body

/-- `IIRFilter`, dsp/filter.go:3-6, also `ComplexIIRFilter32` and `ComplexIIRFilter` (lines 8-16).
The coefficient slices are windows of the memory of the samples, because line 29-30 stores the
caller's slices.  `pIn` and `pOut` are arrays of their own, of length `d`. -/
structure IIR (F : Type) where
  bCoef : Slice
  aCoef : Slice
  d : Nat
  pIn : Nat → F
  pOut : Nat → F

/-- The slice header of `pIn` and of `pOut`, in their own memories. -/
def IIR.win (f : IIR F) : Slice := ⟨0, f.d⟩

/-- The normalisation at dsp/filter.go:19-27 (also 37-45 and 55-63): the new memory, or a panic. -/
def normalise [Div F] (bCoef aCoef : Slice) (m : Nat → F) : Option (Nat → F) :=
  if bCoef.len ≠ aCoef.len ∨ bCoef.len = 0 then none
  else do
    let m ← forRange bCoef.len m fun i m => do
      let c ← bCoef.read m i
      let a0 ← aCoef.read m 0
      bCoef.write m i (c / a0)
    let tail ← aCoef.drop 1
    forRange tail.len m fun i m => do
      let c ← tail.read m i
      let a0 ← aCoef.read m 0
      aCoef.write m (i + 1) (c / a0)

/-- `NewIIRFilter`, dsp/filter.go:18-34: the new memory and the filter. -/
def newIIR [Div F] [Zero F] (bCoef aCoef : Slice) (m : Nat → F) : Option ((Nat → F) × IIR F) := do
  let m ← normalise bCoef aCoef m
  some (m, ⟨bCoef, aCoef, bCoef.len - 1, fun _ => 0, fun _ => 0⟩)

/-- `rtoc` and `rtoc32`, dsp/util.go:56-70: a fresh slice at address `at_` of the memory of complex
numbers; `toC v` is `complex(v, 0)`. -/
def rtoc (toC : R → F) (r : Slice) (rm : Nat → R) (at_ : Nat) (cm : Nat → F) : Option ((Nat → F) × Slice) := do
  let c : Slice := ⟨at_, r.len⟩
  let cm ← forRange r.len cm fun i cm => do
    let v ← r.read rm i
    c.write cm i (toC v)
  some (cm, c)

/-- `NewComplexIIRFilter` and `NewComplexIIRFilter32`, dsp/filter.go:36-70: the new memory of real
numbers, the new memory of complex numbers, and the filter.  `fb`, `fa` are the addresses of the two
fresh slices. -/
def newComplexIIR [Div R] [Zero F] (toC : R → F) (bCoef aCoef : Slice) (rm : Nat → R) (fb fa : Nat)
    (cm : Nat → F) : Option ((Nat → R) × (Nat → F) × IIR F) := do
  let rm ← normalise bCoef aCoef rm
  let (cm, b) ← rtoc toC bCoef rm fb cm
  let (cm, a) ← rtoc toC aCoef rm fa cm
  some (rm, cm, ⟨b, a, bCoef.len - 1, fun _ => 0, fun _ => 0⟩)

section
variable [Add F] [Sub F] [Mul F]

/-- The sum of dsp/filter.go:74-77. -/
def IIR.sum (f : IIR F) (m : Nat → F) (s : F) : Option F := do
  let b0 ← f.bCoef.read m 0
  forRange f.d (b0 * s) fun j sum => do
    let p ← f.win.read f.pIn j
    let b ← f.bCoef.read m (j + 1)
    let a ← f.aCoef.read m (j + 1)
    let q ← f.win.read f.pOut j
    some (sum + (b * p - a * q))

/-- The shift of the two delay lines, dsp/filter.go:78-83. -/
def IIR.push (f : IIR F) (s sum : F) : Option (IIR F) := do
  let (pi, po) ← forDown (f.d - 1) (f.pIn, f.pOut) fun i (pi, po) => do
    let p ← f.win.read pi (i - 1)
    let pi ← f.win.write pi i p
    let q ← f.win.read po (i - 1)
    let po ← f.win.write po i q
    some (pi, po)
  let pi ← f.win.write pi 0 s
  let po ← f.win.write po 0 sum
  some { f with pIn := pi, pOut := po }

/-- `IIRFilter.Filter`, dsp/filter.go:72-86, and the identical `Filter` methods of the complex
filters, lines 88-118. -/
def IIR.filter (f : IIR F) (m : Nat → F) (input output : Slice) : Option ((Nat → F) × IIR F) :=
  forRange input.len (m, f) fun i (m, f) => do
    let s ← input.read m i
    let sum ← f.sum m s
    let f ← f.push s sum
    let m ← output.write m i sum
    some (m, f)

/-- `DCFilter` and `DCFilter32`, dsp/filter.go:120-123, 146-149. -/
structure DC (F : Type) where
  a : F
  w : F

/-- `NewDCFilter`, `NewDCFilter32`, dsp/filter.go:125-127, 151-153. -/
def newDC [Zero F] (a : F) : DC F := ⟨a, 0⟩

/-- `DCFilter.Filter`, dsp/filter.go:129-137 and 155-163. -/
def DC.filter (f : DC F) (m : Nat → F) (input output : Slice) : Option ((Nat → F) × DC F) := do
  let (m, lw) ← forRange input.len (m, f.w) fun i (m, lw) => do
    let x ← input.read m i
    let w := x + f.a * lw
    let m ← output.write m i (w - lw)
    some (m, w)
  some (m, { f with w := lw })

/-- `DCFilter.FilterOne`, dsp/filter.go:139-144 and 165-170. -/
def DC.filterOne (f : DC F) (x : F) : F × DC F :=
  let w := x + f.a * f.w
  let y := w - f.w
  (y, { f with w := w })

end

end Verif.Filt
