import Verif.Dtmf.ToolModel
import Verif.Dtmf.DtmfFpModel
import Verif.Fp.FpDiv

/-!
# Model of the example programs examples/dtmf_file.go and examples/dtmf_live.go in floating point

Samples in single precision, detectors in double precision, every operation rounded, products fused with sums or not, as in
`FeedFp`.  A turn of the main loop is described by what any platform may make of the variables.  The detectors are `Reset` at the
beginning of `Feed`, so what they hold between two calls is not part of the state.  Short reads, the end of the file and read errors
are as in `fileLoop`.
-/

namespace Verif.Dtmf
open Verif.Fp Verif.Conv Verif.Dft

/-- `float32(…) / 32768.0`, examples/dtmf_file.go:45. -/
def conv16 (v : BitVec 16) : FVal binary32 := div binary32 (ofInt binary32 v.toInt) (ofInt binary32 32768)

/-- What one turn of the main loop, examples/dtmf_file.go:41-58 and examples/dtmf_live.go:50-61, may make of the samples `m` and of
`keys` with the new samples `x`.  `Feed` leaves the windowed block in `samples` (dsp/dtmf/dtmf.go:51-53). -/
def TurnFp (t : Tool) (d : DTMF (FVal binary64) (FVal binary32)) (m : Nat → FVal binary32) (keys : Keys) (x : Nat → FVal binary32)
    (m' : Nat → FVal binary32) (keys' : Keys) : Prop :=
  ∃ m1 key thresh s, shiftIn t m x = some m1 ∧ FeedFp d m1 ⟨0, t.blockSize⟩ key thresh ∧
    trim ⟨0, t.blockSize⟩ d.blockSize = some s ∧ applyWindow d.w m1 s = some m' ∧ press t keys key thresh = some keys'

/-- How examples/dtmf_file.go may end, and the keys then. -/
inductive EndedFp where
  | newline (keys : Keys)
  | fatal (keys : Keys)
  /-- still reading -/
  | reading (buf : Nat → BitVec 8) (m : Nat → FVal binary32) (keys : Keys)

/-- What the main loop of examples/dtmf_file.go:33-59 may do. -/
def FileFp (d : DTMF (FVal binary64) (FVal binary32)) (buf : Nat → BitVec 8) (m : Nat → FVal binary32) (keys : Keys) :
    List Got → EndedFp → Prop
  | [], r => r = .reading buf m keys
  | .eof :: _, r => r = .newline keys
  | .err :: _, r => r = .fatal keys
  | .data b :: rest, r =>
    let buf := overwrite buf b
    ∃ m' keys', TurnFp fileTool d m keys (fun i => conv16 (int16Of (buf (2 * i)) (buf (2 * i + 1)))) m' keys' ∧ FileFp d buf m' keys' rest r

end Verif.Dtmf
