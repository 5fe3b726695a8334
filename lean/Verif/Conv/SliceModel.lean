import Mathlib.Logic.Function.Basic
import Mathlib.Order.Basic
import Mathlib.Tactic.Common

/-!
# Go slices over a flat memory

A slice is a window (base address, length) into a memory, so that two slices of the same element
type may overlap in any way.  Accesses are bounds checked; a panic is `none`.

Simplification: the capacity of a slice is not modelled; re-slicing beyond the length panics here
(in Go it panics beyond the capacity).  None of the modelled routines re-slices beyond the length.
-/

namespace Verif.Conv

/-- A Go slice header without capacity: elements `base … base+len-1` of a memory. -/
structure Slice where
  base : Nat
  len : Nat

variable {α σ : Type}

/-- `s[i]` as an expression. -/
def Slice.read (s : Slice) (m : Nat → α) (i : Nat) : Option α :=
  if i < s.len then some (m (s.base + i)) else none

/-- `s[i] = v`. -/
def Slice.write (s : Slice) (m : Nat → α) (i : Nat) (v : α) : Option (Nat → α) :=
  if i < s.len then some (Function.update m (s.base + i) v) else none

/-- `s[:n]`. -/
def Slice.take (s : Slice) (n : Nat) : Option Slice :=
  if n ≤ s.len then some ⟨s.base, n⟩ else none

/-- `s[k:]`. -/
def Slice.drop (s : Slice) (k : Nat) : Option Slice :=
  if k ≤ s.len then some ⟨s.base + k, s.len - k⟩ else none

/-- `for i := 0; i < n; i++ { body }`, also `for i := range s` with `len(s) = n`. -/
def forRange (n : Nat) (s : σ) (body : Nat → σ → Option σ) : Option σ :=
  match n with
  | 0 => some s
  | n + 1 => (forRange n s body).bind (body n)

end Verif.Conv
