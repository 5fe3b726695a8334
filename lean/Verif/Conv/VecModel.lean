import Verif.Conv.ConvModel

/-!
# Model of the vector routines of `dsp/math32.go` (portable versions)

Input and output of the same element type are slices of one memory and may overlap.  A complex64
is a pair (real, imaginary).
-/

namespace Verif.Conv
variable {F D : Type}

/-- `vMulC64xF32`, dsp/math32.go:13-25. -/
def vMulC64xF32 (o : FloatOps F D) (input output : Slice) (m : Nat → F × F) (mul : Slice)
    (fm : Nat → F) : Option (Nat → F × F) := do
  let n := input.len
  let n := if output.len < n then output.len else n
  let n := if mul.len < n then mul.len else n
  let inp ← input.take n
  forRange n m fun i m => do
    let v ← inp.read m i
    let w ← mul.read fm i
    output.write m i (o.mul v.1 w, o.mul v.2 w)

/-- Go's complex64 product. -/
def cmul (o : FloatOps F D) (a b : F × F) : F × F :=
  (o.sub (o.mul a.1 b.1) (o.mul a.2 b.2), o.add (o.mul a.1 b.2) (o.mul a.2 b.1))

/-- `VMulC64`, dsp/math32.go:30-41. -/
def vMulC64 (o : FloatOps F D) (input output mul : Slice) (m : Nat → F × F) :
    Option (Nat → F × F) := do
  let n := input.len
  let n := if output.len < n then output.len else n
  let n := if mul.len < n then mul.len else n
  let inp ← input.take n
  forRange n m fun i m => do
    let v ← inp.read m i
    let w ← mul.read m i
    output.write m i (cmul o v w)

/-- `VAddF32`, dsp/math32.go:43-51. -/
def vAddF32 (o : FloatOps F D) (input output : Slice) (m : Nat → F) : Option (Nat → F) := do
  let n := input.len
  let n := if output.len < n then output.len else n
  let inp ← input.take n
  forRange n m fun i m => do
    let v ← inp.read m i
    let w ← output.read m i
    output.write m i (o.add w v)

/-- `VAddC64`, dsp/math32.go:53-61. -/
def vAddC64 (o : FloatOps F D) (input output : Slice) (m : Nat → F × F) : Option (Nat → F × F) := do
  let n := input.len
  let n := if output.len < n then output.len else n
  let inp ← input.take n
  forRange n m fun i m => do
    let v ← inp.read m i
    let w ← output.read m i
    output.write m i (o.add w.1 v.1, o.add w.2 v.2)

/-- `vscaleF32`, dsp/math32.go:70-78. -/
def vscaleF32 (o : FloatOps F D) (input output : Slice) (m : Nat → F) (scale : F) :
    Option (Nat → F) := do
  let n := input.len
  let n := if output.len < n then output.len else n
  let inp ← input.take n
  forRange n m fun i m => do
    let v ← inp.read m i
    output.write m i (o.mul v scale)

/-- A complex64 memory seen as float32 memory: real part first. -/
def asFloats (m : Nat → F × F) : Nat → F := fun k => if k % 2 = 0 then (m (k / 2)).1 else (m (k / 2)).2

/-- A float32 memory seen as complex64 memory. -/
def asComplex (m : Nat → F) : Nat → F × F := fun k => (m (2 * k), m (2 * k + 1))

/-- The conversion `(*[2 << 25]float32)(unsafe.Pointer(&s[0]))[:len(s)*2]`, dsp/math32.go:64-65:
panics when the slice is empty (`&s[0]`) or when `len(s)*2` exceeds the array length `2 << 25`. -/
def floatView (s : Slice) : Option Slice :=
  if s.len = 0 then none
  else if s.len * 2 ≤ 2 <<< 25 then some ⟨s.base * 2, s.len * 2⟩ else none

/-- `VScaleC64`, dsp/math32.go:63-67, on top of the portable `vscaleF32`. -/
def vScaleC64 (o : FloatOps F D) (input output : Slice) (m : Nat → F × F) (scale : F) :
    Option (Nat → F × F) := do
  let inp ← floatView input
  let out ← floatView output
  let fm ← vscaleF32 o inp out (asFloats m) scale
  some (asComplex fm)

/-- `vAbsC64`, dsp/math32.go:81-90, including the index expression `output[n-1]` at line 86. -/
def vAbsC64 (o : FloatOps F D) (input : Slice) (im : Nat → F × F) (output : Slice)
    (om : Nat → F) : Option (Nat → F) := do
  let n := input.len
  let n := if output.len < n then output.len else n
  if n = 0 then none
  let _ ← output.read om (n - 1)
  let inp ← input.take n
  forRange n om fun i om => do
    let v ← inp.read im i
    output.write om i (o.sqrt (o.add (o.mul v.1 v.1) (o.mul v.2 v.2)))

end Verif.Conv
