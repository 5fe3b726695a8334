import Verif.Ax25.ClockFpModel
import Verif.Dtmf.DtmfFpModel

/-!
# Model: from the bytes to the number `diff` in `examples/ax25.go`

The lines before those of `ClockFpModel`: read a window of bytes, turn them into samples, shift them into the block, and compare two bins of the
block.  As `examples/ax25.go` does not type-check against the library (it calls `NewGoertzel` with `float32` samples), the program meant is
modelled, which has `Goertzel32`, frequencies of type `uint64` and `float32` samples and magnitudes.  `interp` is 1, so lines 66-74 are never run.
A call of `Read` is modelled by the bytes that it returns, at most as many as `buf` has.
-/

namespace Verif.Ax25.Ear

open Verif.Ax25 Verif.Fp Verif.Dft Verif.Dtmf

/-- `window`, examples/ax25.go:33. -/
def window : Nat := 4

/-- `sampleRate*interp`, examples/ax25.go:31, 34. -/
def rate : Nat := 44100

/-- `blockSize*interp`, examples/ax25.go:31-35. -/
def block : Nat := 44100 / 1200

/-- `int16(buf[i])|(int16(buf[i+1])<<8)`, examples/ax25.go:65. -/
def word (lo hi : Byte) : Int := (lo.zeroExtend 16 ||| (hi.zeroExtend 16 <<< 8)).toInt

/-- `float32(…) / 32768.0`, examples/ax25.go:65. -/
def sample (lo hi : Byte) : FVal binary32 := div binary32 (ofInt binary32 (word lo hi)) (ofInt binary32 32768)

/-- The samples of the bytes, examples/ax25.go:64-65, 75-76. -/
def samplesOf : List Byte → List (FVal binary32)
  | lo :: hi :: rest => sample lo hi :: samplesOf rest
  | _ => []

/-- The variables `buf` and `samples`. -/
structure Front where
  buf : List Byte
  samples : List (FVal binary32)

/-- Their values at the start, examples/ax25.go:41-42. -/
def Front.start : Front := ⟨List.replicate (window * 2) 0, List.replicate block (Val.fin false 0)⟩

/-- `rd.Read(buf)` has returned the bytes `r`: they replace the first bytes of `buf`, examples/ax25.go:54; then the samples are shifted by a window
and those of the whole of `buf` are written to the end, examples/ax25.go:61-77 (`copy` leaves the last four samples in place and the loop
overwrites them). -/
def Front.read (f : Front) (r : List Byte) : Front :=
  let buf := r ++ f.buf.drop r.length
  ⟨buf, f.samples.drop window ++ samplesOf buf⟩

/-- `NewGoertzel32([]uint64{1200, 2200}, sampleRate*interp, blockSize*interp)`, examples/ax25.go:37. -/
def detectors (other : Val → Nat) (cos sin : FVal binary64 → FVal binary64) : List (Gz (FVal binary64)) :=
  [1200, 2200].map fun f => newGzFp other cos sin f rate block

/-- What `diff` may be for a block, examples/ax25.go:79-82. -/
def Diff (other : Val → Nat) (cos sin : FVal binary64 → FVal binary64) (samples : List (FVal binary32)) (d : Val) : Prop :=
  ∃ v0 v1, MagnitudesFp (detectors other cos sin) samples [v0, v1] ∧ d = sub binary32 v0 v1

/-- What the numbers `diff` may be for the bytes that the calls of `Read` return, examples/ax25.go:53-82. -/
def Diffs (other : Val → Nat) (cos sin : FVal binary64 → FVal binary64) : Front → List (List Byte) → List Val → Prop
  | _, [], ds => ds = []
  | f, r :: rs, ds => ∃ d ds', ds = d :: ds' ∧ Diff other cos sin (f.read r).samples d ∧ Diffs other cos sin (f.read r) rs ds'

end Verif.Ax25.Ear
