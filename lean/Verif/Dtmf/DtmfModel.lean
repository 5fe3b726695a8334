import Verif.Conv.SliceModel
import Verif.Dft.GoertzelModel

/-!
# Model of dsp/dtmf/dtmf.go

`S` is the type of samples (`float32`), `F` that of the detector states (`float64`); arithmetic and
order are parameters without laws.  The caller's samples are a window of a memory, because `Feed` writes
to them.
-/

namespace Verif.Dtmf
open Verif.Conv Verif.Dft

/-- `Keypad`, dsp/dtmf/dtmf.go:8-13. -/
def keypad : List Char := ['1', '2', '3', 'A', '4', '5', '6', 'B', '7', '8', '9', 'C', '*', '0', '#', 'D']

/-- `StdLowFreq`, dsp/dtmf/dtmf.go:14. -/
def stdLowFreq : List Nat := [697, 770, 852, 941]

/-- `StdHighFreq`, dsp/dtmf/dtmf.go:15. -/
def stdHighFreq : List Nat := [1209, 1336, 1477, 1633]

/-- The struct `DTMF`, dsp/dtmf/dtmf.go:18-24. -/
structure DTMF (F S : Type) where
  lowFreq : List (Gz F)
  highFreq : List (Gz F)
  nHigh : Nat
  blockSize : Nat
  w : List S

variable {F S : Type}

/-- `New`, dsp/dtmf/dtmf.go:26-40, for a block size that is not negative.  The detectors
(`NewGoertzel32`) are in exact real arithmetic; the window function receives a slice of `blockSize` zeros
and is modelled by the list it leaves there, which has the same length. -/
noncomputable def new (lowFreq highFreq : List Nat) (sampleRate blockSize : Nat) (window : Nat → ℝ) : DTMF ℝ ℝ :=
  let w := (List.range blockSize).map window
  { lowFreq := newGoertzel lowFreq sampleRate blockSize
    highFreq := newGoertzel highFreq sampleRate blockSize
    nHigh := highFreq.length
    blockSize := blockSize
    w := w }

/-- One turn of the loop of `max`, dsp/dtmf/dtmf.go:69-74: state is `(idx, lrg)`. -/
def maxStep [LT S] [DecidableLT S] (st : Nat × S) (x : S × Nat) : Nat × S :=
  if x.1 > st.2 then (x.2, x.1) else st

/-- `max`, dsp/dtmf/dtmf.go:66-76. -/
def maxOf [LT S] [DecidableLT S] [Zero S] (val : List S) : Nat × S :=
  val.zipIdx.foldl maxStep (0, 0)

/-- The loop dsp/dtmf/dtmf.go:51-53. -/
def applyWindow [Mul S] (w : List S) (m : Nat → S) (samples : Slice) : Option (Nat → S) :=
  forRange samples.len m fun i m => do
    let s ← samples.read m i
    let c ← w[i]?
    samples.write m i (s * c)

/-- Contents of a slice. -/
def contents (m : Nat → S) (s : Slice) : List S := (List.range s.len).map fun i => m (s.base + i)

/-- The statement dsp/dtmf/dtmf.go:48-50. -/
def trim (samples : Slice) (blockSize : Nat) : Option Slice :=
  if samples.len > blockSize then samples.take blockSize else some samples

/-- `DTMF.Feed`, dsp/dtmf/dtmf.go:47-64: the new state, the memory, the key and the threshold. -/
def DTMF.feed [Add F] [Sub F] [Mul F] [Zero F] [Mul S] [LT S] [DecidableLT S] [Zero S] (wide : S → F) (narrow : F → S)
    (d : DTMF F S) (m : Nat → S) (samples : Slice) : Option (DTMF F S × (Nat → S) × Nat × S) := do
  let samples ← trim samples d.blockSize
  let m ← applyWindow d.w m samples
  let low := reset d.lowFreq
  let high := reset d.highFreq
  let low := Verif.Dft.feed wide low (contents m samples)
  let high := Verif.Dft.feed wide high (contents m samples)
  let r := maxOf (magnitude narrow low)
  let c := maxOf (magnitude narrow high)
  let thresh1 := if c.2 < r.2 then c.2 else r.2
  some ({ d with lowFreq := low, highFreq := high }, m, r.1 * d.nHigh + c.1, thresh1)

end Verif.Dtmf
