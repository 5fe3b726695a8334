import Mathlib.Algebra.Order.Field.Basic

/-!
# Model of the floating-point angle approximations (dsp/math32.go)

Simplification: arithmetic is exact (an ordered field `K`, real numbers in the properties), and the
constants have their decimal values; rounding to 32 bits is not modelled.  `pi` is a parameter so that
the model is computable over the rationals.

On amd64 and 386 the exported functions jump to the Go functions modelled here
(dsp/math32_amd64.s:4-8).
-/

namespace Verif.Angle

variable {K : Type*} [Field K] [LinearOrder K]

/-- The polynomial of dsp/math32.go:137 and 140: `(0.1963*r*r-0.9817)*r`. -/
def fastPoly (r : K) : K := (1963 / 10000 * r * r - 9817 / 10000) * r

/-- The constant of dsp/math32.go:133: `1e-20`. -/
def kludge : K := 1 / 100000000000000000000

/-- `fastAtan2`, dsp/math32.go:128-152. -/
def fastAtan2 (pi : K) (y x : K) : K :=
  let absY := if y < 0 then -y else y
  let absY := absY + kludge
  if x < 0 then
    let r := (x + absY) / (absY - x)
    let angle := pi * 3 / 4 + fastPoly r
    if y < 0 then -angle else angle
  else if x > 0 then
    let r := (x - absY) / (x + absY)
    let angle := pi / 4 + fastPoly r
    if y < 0 then -angle else angle
  else if y < 0 then -(pi / 2)
  else if y > 0 then pi / 2
  else 0

/-- `fastAtan2_2`, dsp/math32.go:156-183. -/
def fastAtan2_2 (pi : K) (y x : K) : K :=
  if x = 0 then
    if y > 0 then pi / 2 else if y < 0 then -(pi / 2) else 0
  else
    let z := y / x
    let zz := z * z
    if zz < 1 then
      let atan := z / (1 + 28 / 100 * zz)
      if x < 0 then
        if y < 0 then atan - pi else atan + pi
      else atan
    else
      let atan := pi / 2 - z / (zz + 28 / 100)
      if y < 0 then atan - pi else atan

end Verif.Angle
