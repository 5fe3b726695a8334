import Verif.Ax25.HdlcModel
import Mathlib.Algebra.Order.Field.Basic
import Mathlib.Algebra.Order.Group.Unbundled.Abs

/-!
# Model: the receiver of `examples/ax25.go`

The bit clock of the example program: it looks at the difference of the two tone magnitudes once per
window of four samples, notes level changes, and decides when to give a bit to the AX.25 decoder.

The arithmetic is that of an ordered field `K` (the Go code uses `float64`).  The input of the model
is, for each window, the number `diff` of line 82; the Goertzel filter that makes it is modelled in
`Verif.Dft`, reading and shifting the samples (lines 54-77) works as in the DTMF example, modelled in
`Verif.Dtmf.ToolModel`.  Printing is not modelled: a returned frame is recorded instead.
-/

namespace Verif.Ax25.Clock

open Verif.Ax25

/-- The variables `currentTime`, `timeDelta`, `prevBit` and `transition`, examples/ax25.go:45-50. -/
structure Clk (K : Type*) where
  currentTime : K
  timeDelta : K
  prevBit : Int
  transition : Bool
  deriving DecidableEq

/-- The clock, the decoder `ax` (examples/ax25.go:52) and what its method `Feed` has returned so far,
one entry for each call (examples/ax25.go:106). -/
structure Rx (K : Type*) where
  clk : Clk K
  dec : Dec
  out : List (Option Frame)

section
variable {K : Type*} [Field K] [LinearOrder K]

/-- The values at the start, examples/ax25.go:45-52. -/
def start : Rx K := ⟨⟨0, 0, 0, false⟩, newDecoder, []⟩

/-- The bit shown by one window, if it shows one, examples/ax25.go:84-88. -/
def level (threshold diff : K) : Option Int :=
  if threshold < |diff| then some (if diff < 0 then 0 else 1) else none

/-- Take note of the bit of a window, examples/ax25.go:89-95. -/
def observe (bitClock : K) (c : Clk K) : Option Int → Clk K
  | none => c
  | some b =>
    if c.prevBit ≠ b then
      { c with transition := true, prevBit := b, timeDelta := bitClock / 2 - c.currentTime }
    else c

/-- The clock part of one turn of the inner loop, examples/ax25.go:99-105 and 125, with the bit given
to the decoder. -/
def tickClk (bitClock : K) (c : Clk K) : Clk K × Int :=
  if c.transition then
    (⟨c.currentTime - bitClock + c.timeDelta, 0, c.prevBit, false⟩, 0)
  else (⟨c.currentTime - bitClock, c.timeDelta, c.prevBit, false⟩, 1)

/-- One turn of the inner loop, examples/ax25.go:99-125; `none` is a panic in the decoder. -/
def tick (bitClock : K) (s : Rx K) : Option (Rx K) :=
  let (c, b) := tickClk bitClock s.clk
  match feed s.dec b with
  | none => none
  | some (d, o) => some ⟨c, d, s.out ++ [o]⟩

/-- The inner loop, examples/ax25.go:98-126.  Lean needs a bound on the number of turns: `none` when
`fuel` tests of the loop condition were not enough (or the decoder panicked); the theorems say that
this does not happen with three or more. -/
def ticks (bitClock : K) : Nat → Rx K → Option (Rx K)
  | 0, _ => none
  | fuel + 1, s =>
    if bitClock ≤ s.clk.currentTime then
      match tick bitClock s with
      | none => none
      | some s' => ticks bitClock fuel s'
    else some s

/-- What one window does, examples/ax25.go:84-126. -/
def window (threshold bitClock windowTime : K) (fuel : Nat) (s : Rx K) (diff : K) :
    Option (Rx K) :=
  let c := observe bitClock s.clk (level threshold diff)
  ticks bitClock fuel { s with clk := { c with currentTime := c.currentTime + windowTime } }

/-- The outer loop over the windows, examples/ax25.go:53-127. -/
def listen (threshold bitClock windowTime : K) (fuel : Nat) : Rx K → List K → Option (Rx K)
  | s, [] => some s
  | s, d :: ds =>
    match window threshold bitClock windowTime fuel s d with
    | none => none
    | some s' => listen threshold bitClock windowTime fuel s' ds

end

end Verif.Ax25.Clock
