import Verif.Fp.FpApprox
import Verif.Filt.IirFp
import Verif.Angle.FixedModel

/-!
# Model of dsp/interpolate.go in floating point

The interpolators on data of a binary format, conversions included.  What a call computes is given as an expression
(`Fp/FpFma`): its value without fused operations is what amd64 returns, `Expr.Eval` gives the values any platform may
return.  Variables that hold no product (`x - low`, the fraction, `z`) cannot be part of a fused operation and are
computed at once.

`int` is 64 bits wide; conversion of a number outside its range is what amd64 does (`Verif.Interp.goInt`).
-/

namespace Verif.Interp
open Verif.Fp Verif.Angle Verif.Filt

variable {φ : Format}

/-- `math.Floor`. -/
def floorV : Val → Val
  | .fin false q => .fin false ⌊q⌋
  | .fin true q => .fin true ⌈q⌉
  | v => v

/-- `int(v)` on amd64 (`CVTTSD2SQ`, `CVTTSS2SQ`). -/
def intV : Val → Int
  | .fin s q =>
    let t := if s then -⌊q⌋ else ⌊q⌋
    if -9223372036854775808 ≤ t ∧ t < 9223372036854775808 then t else -9223372036854775808
  | _ => -9223372036854775808

/-- `float32(math.Floor(float64(x)))`, dsp/interpolate.go:29 (also 74, 132 and 190). -/
def floor32 (x : FVal binary32) : FVal binary32 := narrow (floorV (widen x))

/-- `math.Floor(x)`, dsp/interpolate.go:8 (also 55, 105 and 161). -/
def floor64 (x : FVal binary64) : FVal binary64 := floorV x

/-- The index expression `samples[j]`: panics outside. -/
def indexV (samples : List (FVal φ)) (j : Int) : Option (FVal φ) :=
  if 0 ≤ j then samples[j.toNat]? else none

/-- The right neighbour, dsp/interpolate.go:12-17 and 33-38. -/
def highV (samples : List (FVal φ)) (lowInt : Int) : Option (FVal φ) :=
  let i := wrap (lowInt + 1)
  if i ≥ samples.length then some 0 else indexV samples i

/-- `lowValue + (x-low)*(highValue-lowValue)`, dsp/interpolate.go:18 and 39. -/
def lineBody {F : Type} [Add F] [Sub F] [Mul F] (lowValue t highValue : F) : F :=
  lowValue + t * (highValue - lowValue)

/-- dsp/interpolate.go:7-20 (also 28-41); `flo` is the floor of the precision. -/
def line (flo : FVal φ → FVal φ) (samples : List (FVal φ)) (x : FVal φ) : Option (Expr φ) :=
  let low := flo x
  let lowInt := intV low
  if lowInt < samples.length then do
    let lowValue ← indexV samples lowInt
    let highValue ← highV samples lowInt
    some (lineBody (.leaf lowValue) (.leaf (x - low)) (.leaf highValue))
  else some (.leaf 0)

/-- `Linear`, dsp/interpolate.go:6-21. -/
def linear64 (samples : List (FVal binary64)) (x : FVal binary64) : Option (Expr binary64) := line floor64 samples x

/-- `math.MaxFloat32`, the constant of dsp/interpolate.go:25. -/
def max32 : FVal binary32 := Expr.konst binary32 ((2 ^ 24 - 1) * 2 ^ 104)

/-- The comparison `a < b`. -/
def ltV (a b : Val) : Bool := decide (Fp.lt a b)

/-- `LinearF32`, dsp/interpolate.go:24-42. -/
def linear32 (samples : List (FVal binary32)) (x : FVal binary32) : Option (Expr binary32) :=
  if ltV x (0 : FVal binary32) || ltV max32 x then some (.leaf 0) else line floor32 samples x

/-- Entry `i` of the local array of taps, dsp/interpolate.go:48-53 (also 67-72, 88-93, 115-120, 141-146, 170-175). -/
def tapV (samples : List (FVal φ)) (xi i : Int) : FVal φ :=
  let j := wrap (xi + i)
  if j ≥ 0 ∧ j < samples.length then samples.getD j.toNat 0 else 0

/-- dsp/interpolate.go:56-60 (also 75-79); `k` converts the constants. -/
def hermiteBody {F : Type} [Add F] [Sub F] [Mul F] (k : ℚ → F) (s0 s1 s2 s3 x : F) : F :=
  let c0 := s1
  let c1 := k (1 / 2) * (s2 - s0)
  let c2 := s0 - k (5 / 2) * s1 + k 2 * s2 - k (1 / 2) * s3
  let c3 := k (1 / 2) * (s3 - s0) + k (3 / 2) * (s1 - s2)
  ((c3 * x + c2) * x + c1) * x + c0

/-- A constant in an expression. -/
def kE (q : ℚ) : Expr φ := .leaf (Expr.konst φ q)

/-- `Hermite4p3o`, dsp/interpolate.go:45-61, and `Hermite4p3oF32`, 64-80. -/
def hermiteFp (flo : FVal φ → FVal φ) (samples : List (FVal φ)) (x : FVal φ) : Expr φ :=
  let xi := intV x
  let s := fun i => Expr.leaf (tapV samples xi i)
  hermiteBody kE (s (-1)) (s 0) (s 1) (s 2) (.leaf (x - flo x))

/-- A decimal constant of 17 digits after the point. -/
def q17 (n : Int) : ℚ := n / 100000000000000000

/-- A decimal constant of 18 digits after the point. -/
def q18 (n : Int) : ℚ := n / 1000000000000000000

/-- dsp/interpolate.go:95-106 (also 122-133). -/
def opt4Body {F : Type} [Add F] [Sub F] [Mul F] (k : ℚ → F) (s : Int → F) (z : F) : F :=
  let even1 := s 1 + s 0
  let odd1 := s 1 - s 0
  let even2 := s 2 + s (-1)
  let odd2 := s 2 - s (-1)
  let c0 := even1 * k (q17 45645918406487612) + even2 * k (q17 4354173901996461)
  let c1 := odd1 * k (q17 47236675362442071) + odd2 * k (q17 17686613581136501)
  let c2 := even1 * k (q18 (-253674794204558521)) + even2 * k (q17 25371918651882464)
  let c3 := odd1 * k (q17 (-37917091811631082)) + odd2 * k (q17 11952965967158000)
  let c4 := even1 * k (q17 4252164479749607) + even2 * k (q17 (-4289144034653719))
  (((c4 * z + c3) * z + c2) * z + c1) * z + c0

/-- `x - math.Floor(x) - 1.0/2.0`, dsp/interpolate.go:105 (also 132, 161 and 190). -/
def zFp (flo : FVal φ → FVal φ) (x : FVal φ) : FVal φ := x - flo x - Expr.konst φ (1 / 2)

/-- `Optimal2x4p4o`, dsp/interpolate.go:83-107, and `Optimal2x4p4oF32`, 110-134. -/
def opt4Fp (flo : FVal φ → FVal φ) (samples : List (FVal φ)) (x : FVal φ) : Expr φ :=
  let xi := intV x
  opt4Body kE (fun i => Expr.leaf (tapV samples xi i)) (.leaf (zFp flo x))

/-- dsp/interpolate.go:148-162 (also 177-191). -/
def opt6Body {F : Type} [Add F] [Sub F] [Mul F] (k : ℚ → F) (s : Int → F) (z : F) : F :=
  let even1 := s 1 + s 0
  let odd1 := s 1 - s 0
  let even2 := s 2 + s (-1)
  let odd2 := s 2 - s (-1)
  let even3 := s 3 + s (-2)
  let odd3 := s 3 - s (-2)
  let c0 := even1 * k (q17 40513396007145713) + even2 * k (q17 9251794438424393) + even3 * k (q17 234806603570670)
  let c1 := odd1 * k (q17 28342806338906690) + odd2 * k (q17 21703277024054901) + odd3 * k (q17 1309294748731515)
  let c2 := even1 * k (q18 (-191337682540351941)) + even2 * k (q17 16187844487943592) + even3 * k (q17 2946017143111912)
  let c3 := odd1 * k (q17 (-16471626190554542)) + odd2 * k (q17 (-154547203542499)) + odd3 * k (q17 3399271444851909)
  let c4 := even1 * k (q17 3845798729588149) + even2 * k (q17 (-5712936104242644)) + even3 * k (q17 1866750929921070)
  let c5 := odd1 * k (q17 4317950185225609) + odd2 * k (q17 (-1802814255926417)) + odd3 * k (q17 152170021558204)
  ((((c5 * z + c4) * z + c3) * z + c2) * z + c1) * z + c0

/-- `Optimal2x6p5o`, dsp/interpolate.go:137-163, and `Optimal2x6p5oF32`, 166-192. -/
def opt6Fp (flo : FVal φ → FVal φ) (samples : List (FVal φ)) (x : FVal φ) : Expr φ :=
  let xi := intV x
  opt6Body kE (fun i => Expr.leaf (tapV samples xi i)) (.leaf (zFp flo x))

end Verif.Interp
