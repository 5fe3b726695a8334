import Verif.Fp.FpDiv
import Mathlib.Algebra.Order.Field.Basic

/-!
# Model of `FastAtan2` and `FastAtan2_2` on 32-bit ARM (dsp/math32_arm.s:10-140) and of the portable functions

Both are written over the same arithmetic `AOps`, so that they can be compared in binary32 (NaNs, infinities and
signed zeros included) and in exact arithmetic.  Registers are local names.  A fused or reordered evaluation of the
Go expressions by the compiler is not modelled.
-/

namespace Verif.Arm

/-- The constants. -/
inductive Const where
  | zero | one | tiny | c1963 | c9817 | c28 | pi | halfPi | negHalfPi | quarterPi | threeQuarterPi
  deriving DecidableEq

/-- `math.Pi` of the Go library, and `pi` of dsp/math32_arm.s:3. -/
def goPi : ℚ := 314159265358979323846264338327950288419716939937510582097494459 / 10 ^ 62

/-- Values in the Go source: dsp/math32.go:121-123, 133, 137, 168-169, 172, 178. -/
def Const.go : Const → ℚ
  | .zero => 0
  | .one => 1
  | .tiny => 1 / 10 ^ 20
  | .c1963 => 1963 / 10000
  | .c9817 => 9817 / 10000
  | .c28 => 28 / 100
  | .pi => goPi
  | .halfPi => goPi / 2
  | .negHalfPi => -(goPi / 2)
  | .quarterPi => goPi / 4
  | .threeQuarterPi => goPi * 3 / 4

/-- Values in the assembly: dsp/math32_arm.s:3-5, 16, 26, 32, 37, 40, 81, 88. -/
def Const.asm : Const → ℚ
  | .zero => 0
  | .one => 1
  | .tiny => 1 / 10 ^ 20
  | .c1963 => 1963 / 10000
  | .c9817 => 9817 / 10000
  | .c28 => 28 / 100
  | .pi => goPi
  | .halfPi => 1570796326794896557998981734272092580795288085938 / 10 ^ 48
  | .negHalfPi => -(1570796326794896557998981734272092580795288085938 / 10 ^ 48)
  | .quarterPi => 7853981852531433 / 10 ^ 16
  | .threeQuarterPi => 2356194496154785 / 10 ^ 15

/-- The arithmetic. -/
structure AOps (V : Type) where
  add : V → V → V
  sub : V → V → V
  mul : V → V → V
  div : V → V → V
  neg : V → V
  abs : V → V
  /-- `none` is unordered -/
  cmp : V → V → Option Ordering
  lit : Const → V

variable {V : Type}

/-- `a < b` of Go. -/
def AOps.lt (o : AOps V) (a b : V) : Bool := o.cmp a b == some .lt
/-- `a > b` of Go. -/
def AOps.gt (o : AOps V) (a b : V) : Bool := o.cmp a b == some .gt
/-- `a == b` of Go. -/
def AOps.eq (o : AOps V) (a b : V) : Bool := o.cmp a b == some .eq

/-- `(0.1963*r*r-0.9817)*r`, dsp/math32.go:137 and 140. -/
def polyGo (o : AOps V) (r : V) : V := o.mul (o.sub (o.mul (o.mul (o.lit .c1963) r) r) (o.lit .c9817)) r

/-- `fastAtan2`, dsp/math32.go:128-152. -/
def fastAtan2Go (o : AOps V) (y x : V) : V :=
  let absY := if o.lt y (o.lit .zero) then o.neg y else y
  let absY := o.add absY (o.lit .tiny)
  if o.lt x (o.lit .zero) then
    let r := o.div (o.add x absY) (o.sub absY x)
    let angle := o.add (o.lit .threeQuarterPi) (polyGo o r)
    if o.lt y (o.lit .zero) then o.neg angle else angle
  else if o.gt x (o.lit .zero) then
    let r := o.div (o.sub x absY) (o.add x absY)
    let angle := o.add (o.lit .quarterPi) (polyGo o r)
    if o.lt y (o.lit .zero) then o.neg angle else angle
  else if o.lt y (o.lit .zero) then o.lit .negHalfPi
  else if o.gt y (o.lit .zero) then o.lit .halfPi
  else o.lit .zero

/-- `fastAtan2_2`, dsp/math32.go:156-183. -/
def fastAtan2_2Go (o : AOps V) (y x : V) : V :=
  if o.eq x (o.lit .zero) then
    if o.gt y (o.lit .zero) then o.lit .halfPi
    else if o.lt y (o.lit .zero) then o.lit .negHalfPi
    else o.lit .zero
  else
    let z := o.div y x
    let zz := o.mul z z
    if o.lt zz (o.lit .one) then
      let atan := o.div z (o.add (o.lit .one) (o.mul (o.lit .c28) zz))
      if o.lt x (o.lit .zero) then
        if o.lt y (o.lit .zero) then o.sub atan (o.lit .pi) else o.add atan (o.lit .pi)
      else atan
    else
      let atan := o.sub (o.lit .halfPi) (o.div z (o.add zz (o.lit .c28)))
      if o.lt y (o.lit .zero) then o.sub atan (o.lit .pi) else atan

/-- The condition flags. -/
structure Flags where
  n : Bool
  z : Bool
  c : Bool
  v : Bool

/-- `vcmpe` and `vmrs`: the flags after a comparison. -/
def Flags.ofCmp : Option Ordering → Flags
  | some .lt => ⟨true, false, false, false⟩
  | some .eq => ⟨false, true, true, false⟩
  | some .gt => ⟨false, false, true, false⟩
  | none => ⟨false, false, true, true⟩

/-- Conditions EQ, GE, LT and GT. -/
def Flags.eq (f : Flags) : Bool := f.z
def Flags.ge (f : Flags) : Bool := f.n == f.v
def Flags.lt (f : Flags) : Bool := f.n != f.v
def Flags.gt (f : Flags) : Bool := !f.z && f.n == f.v

/-- `fatan2_2`, dsp/math32_arm.s:34-48. -/
def fatan2Tail (o : AOps V) (f6 f4 f1 f3 : V) : V :=
  let f2 := o.div f1 f4
  let f1 := o.lit .c1963
  let f1 := o.mul f1 f2
  let f1 := o.mul f1 f2
  let f0 := o.lit .c9817
  let f1 := o.sub f1 f0
  let f1 := o.mul f1 f2
  let f1 := o.add f1 f3
  let fl := Flags.ofCmp (o.cmp f6 (o.lit .zero))
  if fl.lt then o.neg f1 else f1

/-- `FastAtan2`, dsp/math32_arm.s:10-67. -/
def fastAtan2Arm (o : AOps V) (y x : V) : V :=
  let f6 := y
  let f4 := x
  let f2 := o.abs f6
  let f0 := o.lit .tiny
  let f2 := o.add f2 f0
  let fl := Flags.ofCmp (o.cmp f4 (o.lit .zero))
  if fl.gt then fatan2Tail o f6 (o.add f4 f2) (o.sub f4 f2) (o.lit .quarterPi)
  else if fl.eq then
    let fl := Flags.ofCmp (o.cmp f6 (o.lit .zero))
    if fl.gt then o.lit .halfPi else if fl.lt then o.lit .negHalfPi else f6
  else fatan2Tail o f6 (o.sub f2 f4) (o.add f4 f2) (o.lit .threeQuarterPi)

/-- `FastAtan2_2`, dsp/math32_arm.s:70-140. -/
def fastAtan2_2Arm (o : AOps V) (y x : V) : V :=
  let f6 := x
  let f3 := y
  let fl := Flags.ofCmp (o.cmp f6 (o.lit .zero))
  if fl.eq then
    let fl := Flags.ofCmp (o.cmp f3 (o.lit .zero))
    if fl.gt then o.lit .halfPi else if fl.lt then o.lit .negHalfPi else f6
  else
    let f1 := o.div f3 f6
    let f2 := o.mul f1 f1
    let f0 := o.lit .one
    let fl := Flags.ofCmp (o.cmp f2 f0)
    if fl.gt then
      let f4 := o.lit .c28
      let f2 := o.add f2 f4
      let f2 := o.div f1 f2
      let f1 := o.lit .halfPi
      let f2 := o.sub f1 f2
      let f1 := o.lit .pi
      let fl := Flags.ofCmp (o.cmp f3 (o.lit .zero))
      if fl.lt then o.sub f2 f1 else f2
    else
      let f4 := o.lit .c28
      let f2 := o.mul f2 f4
      let f2 := o.add f2 f0
      let f2 := o.div f1 f2
      let fl := Flags.ofCmp (o.cmp f6 (o.lit .zero))
      if fl.ge then f2
      else
        let f1 := o.lit .pi
        let fl := Flags.ofCmp (o.cmp f3 (o.lit .zero))
        if fl.lt then o.sub f2 f1 else if fl.ge then o.add f2 f1 else f2

/-- binary32 arithmetic with constants rounded from the values `c`. -/
def ieeeOps (c : Const → ℚ) : AOps Fp.Val where
  add := Fp.add Fp.binary32
  sub := Fp.sub Fp.binary32
  mul := Fp.mul Fp.binary32
  div := Fp.div Fp.binary32
  neg := Fp.neg
  abs := Fp.abs
  cmp := Fp.cmp
  lit k := Fp.roundRat Fp.binary32 (c k)

/-- Exact arithmetic with the circle constant `p`. -/
def exactOps {K : Type} [Field K] [LinearOrder K] (p : K) : AOps K where
  add a b := a + b
  sub a b := a - b
  mul a b := a * b
  div a b := a / b
  neg a := -a
  abs a := if a < 0 then -a else a
  cmp a b := if a < b then some .lt else if a > b then some .gt else some .eq
  lit
    | .zero => 0
    | .one => 1
    | .tiny => 1 / 100000000000000000000
    | .c1963 => 1963 / 10000
    | .c9817 => 9817 / 10000
    | .c28 => 28 / 100
    | .pi => p
    | .halfPi => p / 2
    | .negHalfPi => -(p / 2)
    | .quarterPi => p / 4
    | .threeQuarterPi => p * 3 / 4

end Verif.Arm
