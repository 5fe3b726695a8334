import Mathlib.Data.Int.Log
import Mathlib.Data.Rat.Floor
import Mathlib.Tactic.Common

/-!
# A model of IEEE-754 binary floating point

Values are not-a-number (without payload), the infinities, and finite values with a sign and an
exact nonnegative rational magnitude (so that the two zeros are distinct).  Operations compute the
exact rational result and round once, to nearest with ties to even, with gradual underflow.

This models the float32 arithmetic of Go as used in `/repo/dsp` (Go rounds each float32 operation
to binary32 on amd64; the language permits fusing `x*y + z`, which amd64 compilers do not do and
this model does not cover).
-/

namespace Verif.Fp

/-- A binary format: precision in bits, least and greatest exponent of normal numbers. -/
structure Format where
  p : Nat
  emin : Int
  emax : Int

/-- IEEE-754 binary32 (`float32`). -/
def binary32 : Format := ⟨24, -126, 127⟩
/-- IEEE-754 binary64 (`float64`). -/
def binary64 : Format := ⟨53, -1022, 1023⟩

/-- Floating-point data; the magnitude of `fin` is meant to be nonnegative. -/
inductive Val where
  | nan
  | inf (neg : Bool)
  | fin (neg : Bool) (mag : ℚ)
  deriving DecidableEq

/-- Round a nonnegative rational to an integer, ties to even. -/
def roundEven (x : ℚ) : ℤ :=
  let f := ⌊x⌋
  if x - f < 1 / 2 then f
  else if 1 / 2 < x - f then f + 1
  else if f % 2 = 0 then f else f + 1

/-- The spacing of floating-point numbers around the positive rational `q`. -/
def ulp (φ : Format) (q : ℚ) : ℚ := (2 : ℚ) ^ (max (Int.log 2 q) φ.emin - (φ.p - 1))

/-- Round a nonnegative exact magnitude with a sign to the format. -/
def round (φ : Format) (neg : Bool) (q : ℚ) : Val :=
  if q = 0 then .fin neg 0
  else
    let r := (roundEven (q / ulp φ q) : ℚ) * ulp φ q
    if (2 : ℚ) ^ (φ.emax + 1) ≤ r then .inf neg else .fin neg r

/-- The exact value of a finite datum. -/
def Val.toRat : Val → ℚ
  | .fin neg q => if neg then -q else q
  | _ => 0

/-- Round a signed exact value; zero becomes +0. -/
def roundRat (φ : Format) (x : ℚ) : Val := round φ (decide (x < 0)) |x|

/-- Conversion of an integer. -/
def ofInt (φ : Format) (n : ℤ) : Val := roundRat φ n

/-- Product. -/
def mul (φ : Format) : Val → Val → Val
  | .nan, _ => .nan
  | _, .nan => .nan
  | .inf s, .inf t => .inf (s != t)
  | .inf s, .fin t q => if q = 0 then .nan else .inf (s != t)
  | .fin s q, .inf t => if q = 0 then .nan else .inf (s != t)
  | .fin s q, .fin t r => round φ (s != t) (q * r)

/-- Sum. -/
def add (φ : Format) : Val → Val → Val
  | .nan, _ => .nan
  | _, .nan => .nan
  | .inf s, .inf t => if s = t then .inf s else .nan
  | .inf s, .fin _ _ => .inf s
  | .fin _ _, .inf t => .inf t
  | .fin s q, .fin t r =>
    let x := (Val.fin s q).toRat + (Val.fin t r).toRat
    if x = 0 then .fin (s && t) 0 else roundRat φ x

/-- Negation. -/
def neg : Val → Val
  | .nan => .nan
  | .inf s => .inf (!s)
  | .fin s q => .fin (!s) q

/-- Difference. -/
def sub (φ : Format) (a b : Val) : Val := add φ a (neg b)

/-- Go conversion of a float to a signed integer of `w` bits: truncation toward zero when the result
is representable; otherwise the language leaves the result to the implementation, modelled by the
arbitrary function `other`. -/
def toSigned (w : Nat) (other : Val → BitVec w) : Val → BitVec w
  | .fin s q =>
    let t : ℤ := if s then -⌊q⌋ else ⌊q⌋
    if -2 ^ (w - 1) ≤ t ∧ t < 2 ^ (w - 1) then BitVec.ofInt w t else other (.fin s q)
  | x => other x

/-- `<` of floats: false when an operand is a NaN. -/
def lt : Val → Val → Prop
  | .nan, _ => False
  | _, .nan => False
  | .inf s, .inf t => s = true ∧ t = false
  | .inf s, .fin _ _ => s = true
  | .fin _ _, .inf t => t = false
  | .fin s q, .fin t r => (Val.fin s q).toRat < (Val.fin t r).toRat

instance : DecidableRel lt := fun a b => by
  cases a <;> cases b <;> simp only [lt] <;> infer_instance

end Verif.Fp
