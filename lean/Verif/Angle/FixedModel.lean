import Mathlib.Tactic.Common

/-!
# Models of the integer angle approximations of `dsp/mathfixed.go`

Go `int` is taken as 64 bits wide (amd64, arm64); operations wrap around, division truncates toward
zero and panics (`none`) when the divisor is zero.
-/

namespace Verif.Angle

/-- Two's-complement wrap-around to 64 bits. -/
def wrap (x : Int) : Int := (x + 9223372036854775808) % 18446744073709551616 - 9223372036854775808

/-- The smallest `int`. -/
def minInt : Int := -9223372036854775808

/-- `x` is a value of type `int`. -/
def IsInt (x : Int) : Prop := -9223372036854775808 ≤ x ∧ x < 9223372036854775808

/-- Go integer division. -/
def goDiv (a b : Int) : Option Int := if b = 0 then none else some (wrap (Int.tdiv a b))

/-- `FastAtan2Fixed`, dsp/mathfixed.go:66-86, with fixedPi4 = 4096 and fixedPi34 = 12288
(dsp/mathfixed.go:5-9). -/
def fastAtan2Fixed (y x : Int) : Option Int :=
  if x = 0 ∧ y = 0 then some 0
  else
    let yAbs := if y < 0 then wrap (-y) else y
    let angle :=
      if x ≥ 0 then
        (goDiv (wrap (4096 * wrap (x - yAbs))) (wrap (x + yAbs))).map fun q => wrap (4096 - q)
      else
        (goDiv (wrap (4096 * wrap (x + yAbs))) (wrap (yAbs - x))).map fun q => wrap (12288 - q)
    angle.map fun angle => if y < 0 then wrap (-angle) else angle

/-- Reading the table, a slice of length 131072 (dsp/mathfixed.go:11-23): panics outside. -/
def lutAt (lut : Nat → Int) (i : Int) : Option Int :=
  if 0 ≤ i ∧ i < 131072 then some (lut i.toNat) else none

/-- `Atan2LUT`, dsp/mathfixed.go:25-64.  The table contents are a parameter, since they are computed
with floating point. -/
def atan2LUT (lut : Nat → Int) (y x : Int) : Option Int :=
  if x = 0 then
    if y > 0 then some 8192 else if y < 0 then some (-8192) else some 0
  else
    (goDiv (wrap (y * 256)) x).bind fun t =>
    if t = 0 then
      if x > 0 then some 0 else if y < 0 then some (-16384) else some 16384
    else if t ≥ 131072 ∨ wrap (-t) ≥ 131072 then
      if y > 0 then some 8192 else some (-8192)
    else if t > 0 then
      if y > 0 then lutAt lut t else (lutAt lut t).map fun v => wrap (v - 16384)
    else if y > 0 then (lutAt lut (wrap (-t))).map fun v => wrap (16384 - v)
    else (lutAt lut (wrap (-t))).map fun v => wrap (-v)

end Verif.Angle
