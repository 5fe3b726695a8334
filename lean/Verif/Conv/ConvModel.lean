import Verif.Conv.SliceModel

/-!
# Model of `dsp/conversion.go` (portable versions)

Floating-point values are elements of arbitrary types with arbitrary operations (`FloatOps`), about
which nothing is assumed.  Bytes are `BitVec 8`, `int16`/`uint16` are `BitVec 16`, and so on
(the signedness is in the operations).  Slices of different element types live in different
memories and cannot overlap.
-/

namespace Verif.Conv

/-- The float32/float64 operations used by the conversions; `F` is float32 and `D` is float64. -/
structure FloatOps (F D : Type) where
  /-- `float32(x)` for an integer expression -/
  ofInt : Int → F
  /-- `float64(x)` for an integer expression -/
  ofIntD : Int → D
  /-- float32 product -/
  mul : F → F → F
  /-- float32 sum -/
  add : F → F → F
  /-- float32 difference -/
  sub : F → F → F
  /-- float64 product -/
  mulD : D → D → D
  /-- `int16(x)` -/
  toI16 : F → BitVec 16
  /-- `int8(x)` -/
  toI8 : F → BitVec 8
  /-- `math.Float32bits` -/
  bits : F → BitVec 32
  /-- `float32(math.Sqrt(float64(x)))` -/
  sqrt : F → F

variable {F D : Type}

/-- `ui8toi16`, dsp/conversion.go:12-22. -/
def ui8toi16 (input : Slice) (im : Nat → BitVec 8) (output : Slice) (om : Nat → BitVec 16) :
    Option (Nat → BitVec 16) := do
  let n := output.len
  let n := if input.len < n then input.len else n
  let inp ← input.take n
  forRange n om fun i om => do
    let v ← inp.read im i
    let v := v - 128
    let v16 := (v.zeroExtend 16 <<< 8) ||| v.zeroExtend 16
    output.write om i v16

/-- `ui8toi16b`, dsp/conversion.go:26-36.  Input and output are byte slices of the same memory and
may overlap. -/
def ui8toi16b (input output : Slice) (m : Nat → BitVec 8) : Option (Nat → BitVec 8) := do
  let n := output.len / 2
  let n := if input.len < n then input.len else n
  let inp ← input.take n
  forRange n m fun i m => do
    let v ← inp.read m i
    let v := v - 128
    let m ← output.write m (i * 2) v
    output.write m (i * 2 + 1) v

/-- `ui8tof32`, dsp/conversion.go:41-50, including the index expression `output[n-1]` at line 46,
whose index is −1 when `n = 0`. -/
def ui8tof32 (o : FloatOps F D) (input : Slice) (im : Nat → BitVec 8) (output : Slice)
    (om : Nat → F) : Option (Nat → F) := do
  let n := input.len
  let n := if output.len < n then output.len else n
  if n = 0 then none
  let _ ← output.read om (n - 1)
  let inp ← input.take n
  forRange n om fun i om => do
    let v ← inp.read im i
    output.write om i (o.ofInt ((v.toNat : Int) - 128))

/-- `i8tof32`, dsp/conversion.go:55-63. -/
def i8tof32 (o : FloatOps F D) (input : Slice) (im : Nat → BitVec 8) (output : Slice)
    (om : Nat → F) : Option (Nat → F) := do
  let n := input.len
  let n := if output.len < n then output.len else n
  let inp ← input.take n
  forRange n om fun i om => do
    let v ← inp.read im i
    output.write om i (o.ofInt v.toInt)

/-- `ui8toc64`, dsp/conversion.go:68-79. -/
def ui8toc64 (o : FloatOps F D) (input : Slice) (im : Nat → BitVec 8) (output : Slice)
    (om : Nat → F × F) : Option (Nat → F × F) := do
  let n := input.len / 2
  let n := if output.len < n then output.len else n
  forRange n om fun i om => do
    let re ← input.read im (i * 2)
    let ie ← input.read im (i * 2 + 1)
    output.write om i (o.ofInt ((re.toNat : Int) - 128), o.ofInt ((ie.toNat : Int) - 128))

/-- `I8toc64`, dsp/conversion.go:83-95. -/
def i8toc64 (o : FloatOps F D) (input : Slice) (im : Nat → BitVec 8) (output : Slice)
    (om : Nat → F × F) : Option (Nat → F × F) := do
  let n := input.len / 2
  let n := if output.len < n then output.len else n
  forRange n om fun i om => do
    let re ← input.read im (i * 2)
    let ie ← input.read im (i * 2 + 1)
    output.write om i (o.ofInt re.toInt, o.ofInt ie.toInt)

/-- `C64toi8`, dsp/conversion.go:99-109. -/
def c64toi8 (o : FloatOps F D) (input : Slice) (im : Nat → F × F) (output : Slice)
    (om : Nat → BitVec 8) : Option (Nat → BitVec 8) := do
  let n := output.len / 2
  let n := if input.len < n then input.len else n
  let inp ← input.take n
  forRange n om fun i om => do
    let s ← inp.read im i
    let om ← output.write om (i * 2) (o.toI8 s.1)
    output.write om (i * 2 + 1) (o.toI8 s.2)

/-- `f32toi16`, dsp/conversion.go:113-121. -/
def f32toi16 (o : FloatOps F D) (input : Slice) (im : Nat → F) (output : Slice)
    (om : Nat → BitVec 16) (scale : F) : Option (Nat → BitVec 16) := do
  let n := output.len
  let n := if input.len < n then input.len else n
  let inp ← input.take n
  forRange n om fun i om => do
    let v ← inp.read im i
    output.write om i (o.toI16 (o.mul v scale))

/-- `f32toi16ble`, dsp/conversion.go:126-136. -/
def f32toi16ble (o : FloatOps F D) (input : Slice) (im : Nat → F) (output : Slice)
    (om : Nat → BitVec 8) (scale : F) : Option (Nat → BitVec 8) := do
  let n := output.len / 2
  let n := if input.len < n then input.len else n
  let inp ← input.take n
  forRange n om fun i om => do
    let v ← inp.read im i
    let v := o.toI16 (o.mul v scale)
    let om ← output.write om (i * 2) ((v &&& 0xff#16).truncate 8)
    output.write om (i * 2 + 1) ((v >>> 8).truncate 8)

/-- `i16ToBLE`, dsp/conversion.go:140-149; `v >> 8` at line 147 is an arithmetic shift. -/
def i16ToBLE (input : Slice) (im : Nat → BitVec 16) (output : Slice) (om : Nat → BitVec 8) :
    Option (Nat → BitVec 8) := do
  let n := input.len
  let n := if output.len / 2 < n then output.len / 2 else n
  let inp ← input.take n
  forRange n om fun i om => do
    let v ← inp.read im i
    let om ← output.write om (i * 2) ((v &&& 0xff#16).truncate 8)
    output.write om (i * 2 + 1) ((v.sshiftRight 8).truncate 8)

/-- `i16bleToF64`, dsp/conversion.go:153-161. -/
def i16bleToF64 (o : FloatOps F D) (input : Slice) (im : Nat → BitVec 8) (output : Slice)
    (om : Nat → D) (scale : D) : Option (Nat → D) := do
  let n := input.len / 2
  let n := if output.len < n then output.len else n
  let _ ← output.take n
  forRange n om fun i om => do
    let lo ← input.read im (i * 2)
    let hi ← input.read im (i * 2 + 1)
    output.write om i
      (o.mulD (o.ofIntD (lo.zeroExtend 16 ||| (hi.zeroExtend 16 <<< 8)).toInt) scale)

/-- `i16bleToF32`, dsp/conversion.go:165-173. -/
def i16bleToF32 (o : FloatOps F D) (input : Slice) (im : Nat → BitVec 8) (output : Slice)
    (om : Nat → F) (scale : F) : Option (Nat → F) := do
  let n := input.len / 2
  let n := if output.len < n then output.len else n
  let _ ← output.take n
  forRange n om fun i om => do
    let lo ← input.read im (i * 2)
    let hi ← input.read im (i * 2 + 1)
    output.write om i
      (o.mul (o.ofInt (lo.zeroExtend 16 ||| (hi.zeroExtend 16 <<< 8)).toInt) scale)

/-- `I32bleToF32`, dsp/conversion.go:176-190. -/
def i32bleToF32 (o : FloatOps F D) (input : Slice) (im : Nat → BitVec 8) (output : Slice)
    (om : Nat → F) (scale : F) : Option (Nat → F) := do
  let n := input.len / 4
  let n := if output.len < n then output.len else n
  let _ ← output.take n
  forRange n om fun i om => do
    let b0 ← input.read im (i * 4)
    let b1 ← input.read im (i * 4 + 1)
    let b2 ← input.read im (i * 4 + 2)
    let b3 ← input.read im (i * 4 + 3)
    output.write om i
      (o.mul (o.ofInt (b0.zeroExtend 32 ||| (b1.zeroExtend 32 <<< 8) ||| (b2.zeroExtend 32 <<< 16)
        ||| (b3.zeroExtend 32 <<< 24)).toInt) scale)

/-- `binary.LittleEndian.PutUint32(b, v)` of the Go standard library: checks `b[3]` first, then
stores the bytes of `v`, least significant first. -/
def putUint32 (b : Slice) (m : Nat → BitVec 8) (v : BitVec 32) : Option (Nat → BitVec 8) := do
  let _ ← b.read m 3
  let m ← b.write m 0 (v.truncate 8)
  let m ← b.write m 1 ((v >>> 8).truncate 8)
  let m ← b.write m 2 ((v >>> 16).truncate 8)
  b.write m 3 ((v >>> 24).truncate 8)

/-- `F32Tof32ble`, dsp/conversion.go:193-202. -/
def f32Tof32ble (o : FloatOps F D) (input : Slice) (im : Nat → F) (output : Slice)
    (om : Nat → BitVec 8) : Option (Nat → BitVec 8) := do
  let n := output.len / 4
  let n := if input.len < n then input.len else n
  let inp ← input.take n
  forRange n om fun i om => do
    let s ← inp.read im i
    let b ← output.drop (i * 4)
    putUint32 b om (o.bits s)

end Verif.Conv
