import Mathlib.Algebra.Order.Floor.Ring
import Mathlib.Algebra.Order.Field.Basic
import Verif.Angle.FixedModel

/-!
# Model of the interpolators of dsp/interpolate.go

Simplification: arithmetic is exact (an ordered field with a floor function), so rounding, NaN and
infinities are not modelled; the `float32` versions of the four-point and six-point interpolators
differ from the `float64` ones only in rounding and are the same definitions here.

Go `int` is 64 bits wide and integer addition wraps around (`Verif.Angle.wrap`).  Conversion of a
number outside the range of `int` is implementation-defined in Go; `goInt` is what amd64 does
(`CVTTSD2SQ`): the smallest `int`.
-/

namespace Verif.Interp
open Verif.Angle

variable {K : Type*} [Field K] [LinearOrder K] [FloorRing K]

/-- Rounding toward zero. -/
def trunc (x : K) : Int := if 0 ≤ x then ⌊x⌋ else ⌈x⌉

/-- The conversion `int(x)` on amd64. -/
def goInt (x : K) : Int :=
  if -9223372036854775808 ≤ trunc x ∧ trunc x < 9223372036854775808 then trunc x else -9223372036854775808

/-- The index expression `samples[j]`: panics outside. -/
def index (samples : List K) (j : Int) : Option K :=
  if 0 ≤ j then samples[j.toNat]? else none

/-- The right neighbour, dsp/interpolate.go:12-17 and 33-38. -/
def highValue (samples : List K) (lowInt : Int) : Option K :=
  let i := wrap (lowInt + 1)
  if i ≥ samples.length then some 0 else index samples i

/-- `Linear`, dsp/interpolate.go:6-21. -/
def linear (samples : List K) (x : K) : Option K :=
  let low : K := ⌊x⌋
  let lowInt := goInt low
  if lowInt < samples.length then do
    let lowValue ← index samples lowInt
    let highValue ← highValue samples lowInt
    some (lowValue + (x - low) * (highValue - lowValue))
  else some 0

/-- `math.MaxFloat32`, the constant of dsp/interpolate.go:25: `(2^24 - 1) * 2^104`. -/
def maxFloat32 : K := (2 ^ 24 - 1) * 2 ^ 104

/-- `LinearF32`, dsp/interpolate.go:24-42. -/
def linearF32 (samples : List K) (x : K) : Option K :=
  if x < 0 ∨ x > maxFloat32 then some 0
  else
    let low : K := ⌊x⌋
    let lowInt := goInt low
    if lowInt < samples.length then do
      let lowValue ← index samples lowInt
      let highValue ← highValue samples lowInt
      some (lowValue + (x - low) * (highValue - lowValue))
    else some 0

/-- Entry `i` of the local array of taps, dsp/interpolate.go:48-53 (also 67-72, 88-93, 115-120,
141-146, 170-175): zero outside the samples.  The array and the loop filling it are replaced by this
function of the offset `i`. -/
def tap (samples : List K) (xi i : Int) : K :=
  let j := wrap (xi + i)
  if j ≥ 0 ∧ j < samples.length then samples.getD j.toNat 0 else 0

/-- `Hermite4p3o`, dsp/interpolate.go:45-61, and `Hermite4p3oF32`, 64-80. -/
def hermite (samples : List K) (x : K) : K :=
  let xi := goInt x
  let s0 := tap samples xi (-1)
  let s1 := tap samples xi 0
  let s2 := tap samples xi 1
  let s3 := tap samples xi 2
  let x := x - ⌊x⌋
  let c0 := s1
  let c1 := 1 / 2 * (s2 - s0)
  let c2 := s0 - 5 / 2 * s1 + 2 * s2 - 1 / 2 * s3
  let c3 := 1 / 2 * (s3 - s0) + 3 / 2 * (s1 - s2)
  ((c3 * x + c2) * x + c1) * x + c0

/-- A decimal constant of 17 digits after the point. -/
def e17 (n : Int) : K := n / 100000000000000000

/-- A decimal constant of 18 digits after the point. -/
def e18 (n : Int) : K := n / 1000000000000000000

/-- `Optimal2x4p4o`, dsp/interpolate.go:83-107, and `Optimal2x4p4oF32`, 110-134. -/
def optimal4 (samples : List K) (x : K) : K :=
  let xi := goInt x
  let s := tap samples xi
  let even1 := s 1 + s 0
  let odd1 := s 1 - s 0
  let even2 := s 2 + s (-1)
  let odd2 := s 2 - s (-1)
  let c0 := even1 * e17 45645918406487612 + even2 * e17 4354173901996461
  let c1 := odd1 * e17 47236675362442071 + odd2 * e17 17686613581136501
  let c2 := even1 * e18 (-253674794204558521) + even2 * e17 25371918651882464
  let c3 := odd1 * e17 (-37917091811631082) + odd2 * e17 11952965967158000
  let c4 := even1 * e17 4252164479749607 + even2 * e17 (-4289144034653719)
  let z := x - ⌊x⌋ - 1 / 2
  (((c4 * z + c3) * z + c2) * z + c1) * z + c0

/-- `Optimal2x6p5o`, dsp/interpolate.go:137-163, and `Optimal2x6p5oF32`, 166-192. -/
def optimal6 (samples : List K) (x : K) : K :=
  let xi := goInt x
  let s := tap samples xi
  let even1 := s 1 + s 0
  let odd1 := s 1 - s 0
  let even2 := s 2 + s (-1)
  let odd2 := s 2 - s (-1)
  let even3 := s 3 + s (-2)
  let odd3 := s 3 - s (-2)
  let c0 := even1 * e17 40513396007145713 + even2 * e17 9251794438424393 + even3 * e17 234806603570670
  let c1 := odd1 * e17 28342806338906690 + odd2 * e17 21703277024054901 + odd3 * e17 1309294748731515
  let c2 := even1 * e18 (-191337682540351941) + even2 * e17 16187844487943592 + even3 * e17 2946017143111912
  let c3 := odd1 * e17 (-16471626190554542) + odd2 * e17 (-154547203542499) + odd3 * e17 3399271444851909
  let c4 := even1 * e17 3845798729588149 + even2 * e17 (-5712936104242644) + even3 * e17 1866750929921070
  let c5 := odd1 * e17 4317950185225609 + odd2 * e17 (-1802814255926417) + odd3 * e17 152170021558204
  let z := x - ⌊x⌋ - 1 / 2
  ((((c5 * z + c4) * z + c3) * z + c2) * z + c1) * z + c0

end Verif.Interp
