import Verif.Fp.FpModel

/-!
# Quotient, magnitude and comparison in the IEEE model
-/

namespace Verif.Fp

/-- Quotient. -/
def div (φ : Format) : Val → Val → Val
  | .nan, _ => .nan
  | _, .nan => .nan
  | .inf _, .inf _ => .nan
  | .inf s, .fin t _ => .inf (s != t)
  | .fin s _, .inf t => .fin (s != t) 0
  | .fin s q, .fin t r =>
    if r = 0 then if q = 0 then .nan else .inf (s != t)
    else round φ (s != t) (q / r)

/-- Magnitude. -/
def abs : Val → Val
  | .nan => .nan
  | .inf _ => .inf false
  | .fin _ q => .fin false q

/-- Comparison; no answer if an operand is a NaN. -/
def cmp (a b : Val) : Option Ordering :=
  match a, b with
  | .nan, _ => none
  | _, .nan => none
  | a, b => if lt a b then some .lt else if lt b a then some .gt else some .eq

end Verif.Fp
