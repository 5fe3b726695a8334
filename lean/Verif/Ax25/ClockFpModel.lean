import Verif.Ax25.ClockModel
import Verif.Fp.FpDiv

/-!
# Model: the bit clock of `examples/ax25.go` in double precision

The same lines as `ClockModel`, with the arithmetic that the program has: times are `float64`, and every sum and difference is rounded.
The input is, for each window, the `float32` number `diff` of line 82; its conversion to `float64` in line 84 is exact.
-/

namespace Verif.Ax25.Clock64

open Verif.Ax25 Verif.Ax25.Clock Verif.Fp

/-- `bitClock := 1.0 / float64(baud)`, examples/ax25.go:46 with `baud` of line 32. -/
def bitClock : Val := div binary64 (ofInt binary64 1) (ofInt binary64 1200)

/-- `windowTime := float64(window) / float64(sampleRate)`, examples/ax25.go:47 with lines 31 and 33. -/
def windowTime : Val := div binary64 (ofInt binary64 4) (ofInt binary64 44100)

/-- `bitClock/2.0`, examples/ax25.go:93. -/
def halfClock : Val := div binary64 bitClock (ofInt binary64 2)

/-- `a >= b` of floats: false when an operand is a NaN. -/
def ge (a b : Val) : Bool := decide (a ≠ .nan ∧ b ≠ .nan ∧ ¬ lt a b)

/-- The values at the start, examples/ax25.go:45-52. -/
def start : Rx Val := ⟨⟨.fin false 0, .fin false 0, 0, false⟩, newDecoder, []⟩

/-- The bit shown by one window, if it shows one, examples/ax25.go:84-88 with the threshold of line 39. -/
def level (diff : Val) : Option Int :=
  if lt (ofInt binary64 50) (Fp.abs diff) then some (if lt diff (.fin false 0) then 0 else 1) else none

/-- Take note of the bit of a window, examples/ax25.go:89-95. -/
def observe (c : Clk Val) : Option Int → Clk Val
  | none => c
  | some b =>
    if c.prevBit ≠ b then
      { c with transition := true, prevBit := b, timeDelta := sub binary64 halfClock c.currentTime }
    else c

/-- The clock part of one turn of the inner loop, examples/ax25.go:99-105 and 125, with the bit given to the decoder. -/
def tickClk (c : Clk Val) : Clk Val × Int :=
  if c.transition then
    (⟨add binary64 (sub binary64 c.currentTime bitClock) c.timeDelta, .fin false 0, c.prevBit, false⟩, 0)
  else (⟨sub binary64 c.currentTime bitClock, c.timeDelta, c.prevBit, false⟩, 1)

/-- One turn of the inner loop, examples/ax25.go:99-125; `none` is a panic in the decoder. -/
def tick (s : Rx Val) : Option (Rx Val) :=
  let (c, b) := tickClk s.clk
  match feed s.dec b with
  | none => none
  | some (d, o) => some ⟨c, d, s.out ++ [o]⟩

/-- The inner loop, examples/ax25.go:98-126; `none` when `fuel` tests of the loop condition were not enough (or the decoder panicked). -/
def ticks : Nat → Rx Val → Option (Rx Val)
  | 0, _ => none
  | fuel + 1, s =>
    if ge s.clk.currentTime bitClock then
      match tick s with
      | none => none
      | some s' => ticks fuel s'
    else some s

/-- What one window does, examples/ax25.go:84-126. -/
def window (fuel : Nat) (s : Rx Val) (l : Option Int) : Option (Rx Val) :=
  let c := observe s.clk l
  ticks fuel { s with clk := { c with currentTime := add binary64 c.currentTime windowTime } }

/-- The outer loop over the bits shown by the windows. -/
def hear (fuel : Nat) : Rx Val → List (Option Int) → Option (Rx Val)
  | s, [] => some s
  | s, l :: ls =>
    match window fuel s l with
    | none => none
    | some s' => hear fuel s' ls

/-- The outer loop over the windows, examples/ax25.go:53-127. -/
def listen (fuel : Nat) (s : Rx Val) (diffs : List Val) : Option (Rx Val) := hear fuel s (diffs.map level)

end Verif.Ax25.Clock64
