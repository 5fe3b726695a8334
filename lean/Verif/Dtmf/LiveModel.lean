import Verif.Dtmf.DialModel

/-!
# Model of the main loop of examples/dtmf_live.go

The calls of portaudio and of `signal.Notify` before the loop (examples/dtmf_live.go:22-46) and the deferred calls are not modelled; of `stream.Read`
only this: it fills the whole of `inputBuf`, or returns an error.
-/

namespace Verif.Dtmf
open Verif.Fp Verif.Conv Verif.Dft

variable {F S : Type}

/-- What happens in one turn of the loop of examples/dtmf_live.go:47-69: `stream.Read` returns an error, or it fills `inputBuf` with `x`; then `sig` tells
whether a signal has arrived by the time of the `select`. -/
inductive Heard (S : Type) where
  | block (x : Nat → S) (sig : Bool)
  | err

/-- How examples/dtmf_live.go ends: with a newline after a signal, or with `log.Fatalf`. -/
inductive LiveEnd (F S : Type) where
  | newline (l : Loop F S)
  | fatal (l : Loop F S)
  /-- still listening -/
  | listening (l : Loop F S)

/-- The main loop of examples/dtmf_live.go:47-69. -/
def liveLoop [Add F] [Sub F] [Mul F] [Zero F] [Mul S] [LT S] [DecidableLT S] [Zero S] (wide : S → F) (narrow : F → S) (l : Loop F S) :
    List (Heard S) → Option (LiveEnd F S)
  | [] => some (.listening l)
  | .err :: _ => some (.fatal l)
  | .block x sig :: rest => (l.turn wide narrow liveTool x).bind fun l => if sig then some (.newline l) else liveLoop wide narrow l rest

/-- How examples/dtmf_live.go may end in floating point, and the keys then. -/
inductive LiveEndFp where
  | newline (keys : Keys)
  | fatal (keys : Keys)
  /-- still listening -/
  | listening (m : Nat → FVal binary32) (keys : Keys)

/-- What the main loop of examples/dtmf_live.go:47-69 may do, every operation rounded, products fused with sums or not. -/
def LiveFp (d : DTMF (FVal binary64) (FVal binary32)) (m : Nat → FVal binary32) (keys : Keys) : List (Heard (FVal binary32)) → LiveEndFp → Prop
  | [], r => r = .listening m keys
  | .err :: _, r => r = .fatal keys
  | .block x sig :: rest, r =>
    ∃ m' keys', TurnFp liveTool d m keys x m' keys' ∧ (if sig then r = .newline keys' else LiveFp d m' keys' rest r)

end Verif.Dtmf
