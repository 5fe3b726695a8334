/-!
# Model of the interpolation in `examples/ax25.go`

The program has `interp := 1`, so that the inner loop is not run; here `interp` is any number from 1 on. The arithmetic is arbitrary.
-/

namespace Verif.Ax25.Stretch

variable {F : Type} [Add F] [Sub F] [Div F] [NatCast F]

/-- `samples[si] = x`, examples/ax25.go:70, 75: `none` is a panic. -/
def store (samples : List F) (si : Nat) (x : F) : Option (List F) := if si < samples.length then some (samples.set si x) else none

/-- `samples`, `si` and `lastSample`. -/
structure St (F : Type) where
  samples : List F
  si : Nat
  last : F

/-- The loop over `j`, examples/ax25.go:68-72, with `k` turns left. -/
def inner (d : F) : Nat → St F → Option (St F)
  | 0, st => some st
  | k + 1, st => (store st.samples st.si (st.last + d)).bind fun a => inner d k ⟨a, st.si + 1, st.last + d⟩

/-- A turn of the loop over the bytes, examples/ax25.go:66-76, with the sample `s`. -/
def turn (interp : Nat) (st : St F) (s : F) : Option (St F) :=
  (if interp > 1 then (inner ((s - st.last) / (interp : F)) (interp - 1) st).map fun st => { st with last := s } else some st).bind fun st =>
    (store st.samples st.si s).map fun a => { st with samples := a, si := st.si + 1 }

/-- The loop over the bytes, examples/ax25.go:64-77, with the samples that they stand for. -/
def turns (interp : Nat) : St F → List F → Option (St F)
  | st, [] => some st
  | st, s :: ss => (turn interp st s).bind fun st => turns interp st ss

/-- examples/ax25.go:61-77: the samples move by `window*interp` places (`copy` leaves the last ones as they are), and the new ones are written to the end. -/
def block (interp window : Nat) (samples : List F) (last : F) (ss : List F) : Option (St F) :=
  if window * interp ≤ samples.length then
    turns interp ⟨samples.drop (window * interp) ++ samples.drop (samples.length - window * interp), samples.length - window * interp, last⟩ ss
  else none

end Verif.Ax25.Stretch
