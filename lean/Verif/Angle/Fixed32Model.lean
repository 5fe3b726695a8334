import Verif.Angle.FixedModel
import Verif.Fp.FpApprox
import Verif.Dft.BucketFp

/-!
# Models of `dsp/mathfixed.go` where `int` has 32 bits, and of the table

386, arm, mips and mipsle, where Go's `int` is 32 bits wide: operations wrap around at 2^31.  The table
of arctangents is computed with rounding (`Fp`), `math.Atan` being a parameter.
-/

namespace Verif.Angle
open Verif.Fp Verif.Dft Expr

/-- Two's-complement wrap-around to 32 bits. -/
def wrap32 (x : Int) : Int := (x + 2147483648) % 4294967296 - 2147483648

/-- The smallest 32-bit `int`. -/
def minInt32 : Int := -2147483648

/-- `x` is a value of type `int`, 32 bits. -/
def IsInt32 (x : Int) : Prop := -2147483648 ≤ x ∧ x < 2147483648

/-- Go integer division of 32-bit `int`. -/
def goDiv32 (a b : Int) : Option Int := if b = 0 then none else some (wrap32 (Int.tdiv a b))

/-- `FastAtan2Fixed`, dsp/mathfixed.go:66-86, with fixedPi4 = 4096 and fixedPi34 = 12288
(dsp/mathfixed.go:5-9). -/
def fastAtan2Fixed32 (y x : Int) : Option Int :=
  if x = 0 ∧ y = 0 then some 0
  else
    let yAbs := if y < 0 then wrap32 (-y) else y
    let angle :=
      if x ≥ 0 then
        (goDiv32 (wrap32 (4096 * wrap32 (x - yAbs))) (wrap32 (x + yAbs))).map fun q => wrap32 (4096 - q)
      else
        (goDiv32 (wrap32 (4096 * wrap32 (x + yAbs))) (wrap32 (yAbs - x))).map fun q => wrap32 (12288 - q)
    angle.map fun angle => if y < 0 then wrap32 (-angle) else angle

/-- `Atan2LUT`, dsp/mathfixed.go:25-64.  The table contents are a parameter, since they are computed
with floating point. -/
def atan2LUT32 (lut : Nat → Int) (y x : Int) : Option Int :=
  if x = 0 then
    if y > 0 then some 8192 else if y < 0 then some (-8192) else some 0
  else
    (goDiv32 (wrap32 (y * 256)) x).bind fun t =>
    if t = 0 then
      if x > 0 then some 0 else if y < 0 then some (-16384) else some 16384
    else if t ≥ 131072 ∨ wrap32 (-t) ≥ 131072 then
      if y > 0 then some 8192 else some (-8192)
    else if t > 0 then
      if y > 0 then lutAt lut t else (lutAt lut t).map fun v => wrap32 (v - 16384)
    else if y > 0 then (lutAt lut (wrap32 (-t))).map fun v => wrap32 (16384 - v)
    else (lutAt lut (wrap32 (-t))).map fun v => wrap32 (-v)

/-- `math.Pi` as a `float64` operand, dsp/mathfixed.go:21. -/
def piV : FVal binary64 := konst binary64 goPi

/-- `math.Atan(float64(i)/float64(1<<atanLUTCoef)) / math.Pi * (1 << 14)`, dsp/mathfixed.go:21: there is no sum, so nothing to
fuse. -/
def lutEntry (atan : FVal binary64 → FVal binary64) (i : Nat) : FVal binary64 :=
  atan (ofNat64 i / konst binary64 256) / piV * konst binary64 16384

/-- Entry `i` of the table, dsp/mathfixed.go:18-23: the conversion to `int`, of `w` bits; `other` is what a platform makes of
a value out of range. -/
def lutFp (w : Nat) (other : Val → BitVec w) (atan : FVal binary64 → FVal binary64) (i : Nat) : Int :=
  (toSigned w other (lutEntry atan i)).toInt

end Verif.Angle
