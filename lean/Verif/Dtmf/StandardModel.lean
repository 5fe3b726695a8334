import Verif.Dtmf.DtmfModel
import Verif.Window.WindowModel

/-!
# Model of `NewStandard`, dsp/dtmf/dtmf.go
-/

namespace Verif.Dtmf
open Verif.Conv Verif.Dft

/-- `NewStandard`, dsp/dtmf/dtmf.go:42-44, with `HammingWindowF32` (dsp/window.go:34-36, 89-108) in exact arithmetic;
`none` where an element of the window is not a number (a block of one sample). -/
noncomputable def newStandard (sampleRate blockSize : Nat) : Option (DTMF ℝ ℝ) :=
  (Verif.Window.hamming blockSize).bind fun w => (w.mapM id).map fun w =>
    new stdLowFreq stdHighFreq sampleRate blockSize fun i => w.getD i 0

end Verif.Dtmf
