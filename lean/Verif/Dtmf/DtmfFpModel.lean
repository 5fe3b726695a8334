import Verif.Dtmf.DtmfModel
import Verif.Dft.GoertzelFused
import Verif.Dft.BucketFp
import Verif.Window.WindowFpModel

/-!
# Model of dsp/dtmf/dtmf.go in floating point

Samples, window and results in single precision, detectors in double precision, every operation rounded.  The window and
the detectors are described by what any platform may compute, products being fused with sums or not.  `math.Cos` and
`math.Sin` are parameters, and so is the conversion of values that a `uint64` cannot hold.
-/

namespace Verif.Dtmf
open Verif.Fp Verif.Conv Verif.Dft Verif.Filt Verif.WinFp

/-- `<` of floating point numbers. -/
instance (φ : Format) : LT (FVal φ) := ⟨fun a b => Fp.lt a b⟩

instance (φ : Format) : DecidableLT (FVal φ) := fun a b => (inferInstance : DecidableRel Fp.lt) a b

/-- What `NewStandard`, dsp/dtmf/dtmf.go:42-44 and 26-40, may return. -/
def NewStandardFp (other : Val → Nat) (cos sin : FVal binary64 → FVal binary64) (sampleRate blockSize : Nat)
    (d : DTMF (FVal binary64) (FVal binary32)) : Prop :=
  ∃ es w, hammingFp cos blockSize = some es ∧ Stored32 es w ∧
    d = { lowFreq := stdLowFreq.map fun f => newGzFp other cos sin f sampleRate blockSize
          highFreq := stdHighFreq.map fun f => newGzFp other cos sin f sampleRate blockSize
          nHigh := stdHighFreq.length
          blockSize := blockSize
          w := w }

/-- What `Reset`, `Feed` and `Magnitude` of `Goertzel32` (dsp/goertzel.go:51-73), called as in dsp/dtmf/dtmf.go:54-59, may
return for the samples `xs`. -/
def MagnitudesFp (freq : List (Gz (FVal binary64))) (xs : List (FVal binary32)) (vs : List (FVal binary32)) : Prop :=
  List.Forall₂ (fun g v => ∃ st mag, After g (xs.map widen) st ∧ ReportsMagnitude g st mag ∧ v = narrow mag) freq vs

/-- What `DTMF.Feed`, dsp/dtmf/dtmf.go:47-64, may return: key and threshold. -/
def FeedFp (d : DTMF (FVal binary64) (FVal binary32)) (m : Nat → FVal binary32) (samples : Slice) (key : Nat)
    (thresh : FVal binary32) : Prop :=
  ∃ s m' low high, trim samples d.blockSize = some s ∧ applyWindow d.w m s = some m' ∧
    MagnitudesFp d.lowFreq (contents m' s) low ∧ MagnitudesFp d.highFreq (contents m' s) high ∧
    key = (maxOf low).1 * d.nHigh + (maxOf high).1 ∧ thresh = if (maxOf high).2 < (maxOf low).2 then (maxOf high).2 else (maxOf low).2

end Verif.Dtmf
