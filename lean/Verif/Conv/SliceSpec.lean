import Mathlib.Logic.Function.Basic
import Mathlib.Tactic.Common

/-!
# Specification of "fills exactly a range"
-/

namespace Verif.Conv

/-- The memory `m` with cells `base … base+n-1` replaced by `g 0 … g (n-1)` and every other cell
unchanged. -/
def fill {α : Type} (m : Nat → α) (base n : Nat) (g : Nat → α) : Nat → α :=
  fun a => if base ≤ a ∧ a < base + n then g (a - base) else m a

end Verif.Conv
