import Mathlib.Algebra.BigOperators.Group.Finset.Basic
import Mathlib.Algebra.Ring.Defs

/-!
# Specification of linear filters
-/

namespace Verif.Filt

/-- Sample `n - k` of a sequence that starts at 0 and was zero before. -/
def delayed {K : Type} [Zero K] (x : Nat → K) (n k : Nat) : K := if k ≤ n then x (n - k) else 0

/-- The difference equation `Σ a[k] y[n-k] = Σ b[k] x[n-k]` with `L` coefficients each, for the first
`N` samples, with zero initial conditions. -/
def Recurrence {K : Type} [CommRing K] (L N : Nat) (b a x y : Nat → K) : Prop :=
  ∀ n < N, ∑ k ∈ Finset.range L, a k * delayed y n k = ∑ k ∈ Finset.range L, b k * delayed x n k

end Verif.Filt
