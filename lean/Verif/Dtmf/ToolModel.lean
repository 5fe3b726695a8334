import Verif.Dtmf.DtmfModel

/-!
# Model of the example programs examples/dtmf_file.go and examples/dtmf_live.go

`S` is the type of samples, `F` that of the detector states.  The variable `samples` is the memory from address 0 on.
`keyCount` is a natural number (it does not overflow).  Of portaudio only this is modelled: a successful `stream.Read`
fills the whole of `inputBuf`.
-/

namespace Verif.Dtmf
open Verif.Conv Verif.Dft

/-- The constants of a program: `blockSize`, `window` and the number in `keyCount == 9` or `keyCount == 10`. -/
structure Tool where
  blockSize : Nat
  window : Nat
  repeats : Nat

/-- examples/dtmf_file.go:13-15, 52. -/
def fileTool : Tool :=
  let sampleRate := 8000
  let blockSize := 205 * sampleRate / 8000
  ⟨blockSize, blockSize / 4, 9⟩

/-- examples/dtmf_live.go:14-16, 55. -/
def liveTool : Tool :=
  let sampleRate := 44100
  let blockSize := 205 * sampleRate / 8000
  ⟨blockSize, blockSize / 4, 10⟩

/-- The variables `lastKey`, `keyCount` and what has been printed. -/
structure Keys where
  lastKey : Int
  keyCount : Nat
  out : List Char

/-- examples/dtmf_file.go:17-18, examples/dtmf_live.go:18-19. -/
def Keys.start : Keys := ⟨-1, 0, []⟩

variable {F S : Type}

/-- examples/dtmf_file.go:50-58 and examples/dtmf_live.go:53-61 after the call of `Feed`. -/
def press [LT S] [DecidableLT S] [Zero S] (t : Tool) (st : Keys) (k : Nat) (thr : S) : Option Keys :=
  if (k : Int) = st.lastKey ∧ thr > 0 then
    let st := { st with keyCount := st.keyCount + 1 }
    if st.keyCount = t.repeats then (keypad[k]?).map fun c => { st with out := st.out ++ [c] }
    else some st
  else some { st with lastKey := k, keyCount := 0 }

/-- `copy(dst, src)` in one memory. -/
def copySlice (m : Nat → S) (dst src : Slice) : Nat → S :=
  fun a => if dst.base ≤ a ∧ a < dst.base + min dst.len src.len then m (src.base + (a - dst.base)) else m a

/-- examples/dtmf_file.go:41-48 and examples/dtmf_live.go:50-51: shift the samples and append those of `x`. -/
def shiftIn (t : Tool) (m : Nat → S) (x : Nat → S) : Option (Nat → S) := do
  let samples : Slice := ⟨0, t.blockSize⟩
  let src ← samples.drop t.window
  let m := copySlice m samples src
  let si := samples.len - t.window
  forRange t.window m fun i m => samples.write m (si + i) (x i)

/-- The variables of the main loop. -/
structure Loop (F S : Type) where
  d : DTMF F S
  m : Nat → S
  keys : Keys

/-- One turn of the main loop with the new samples `x`. -/
def Loop.turn [Add F] [Sub F] [Mul F] [Zero F] [Mul S] [LT S] [DecidableLT S] [Zero S] (wide : S → F) (narrow : F → S) (t : Tool)
    (l : Loop F S) (x : Nat → S) : Option (Loop F S) := do
  let m ← shiftIn t l.m x
  let r ← l.d.feed wide narrow m ⟨0, t.blockSize⟩
  let keys ← press t l.keys r.2.2.1 r.2.2.2
  some ⟨r.1, r.2.1, keys⟩

/-- `n` turns; `x j` are the samples of turn `j`. -/
def Loop.turns [Add F] [Sub F] [Mul F] [Zero F] [Mul S] [LT S] [DecidableLT S] [Zero S] (wide : S → F) (narrow : F → S) (t : Tool)
    (l : Loop F S) (x : Nat → Nat → S) (n : Nat) : Option (Loop F S) :=
  forRange n l fun j l => l.turn wide narrow t (x j)

/-- What `rd.Read(buf)` does: it stores some bytes at the start of the buffer, or returns an error. -/
inductive Got where
  | data (b : List (BitVec 8))
  | eof
  | err

/-- `int16(buf[i])|(int16(buf[i+1])<<8)`, examples/dtmf_file.go:45. -/
def int16Of (b0 b1 : BitVec 8) : BitVec 16 := b0.zeroExtend 16 ||| (b1.zeroExtend 16 <<< 8)

/-- The buffer after `Read` (examples/dtmf_file.go:34); the number of bytes is ignored. -/
def overwrite (buf : Nat → BitVec 8) (b : List (BitVec 8)) : Nat → BitVec 8 := fun i => (b[i]?).getD (buf i)

/-- How examples/dtmf_file.go ends: with a newline at the end of the file, or with `log.Fatal`. -/
inductive Ended (F S : Type) where
  | newline (l : Loop F S)
  | fatal (l : Loop F S)
  /-- still reading -/
  | reading (buf : Nat → BitVec 8) (l : Loop F S)

/-- The main loop of examples/dtmf_file.go:33-59.  `conv` is the conversion of line 45 from `int16`. -/
def fileLoop [Add F] [Sub F] [Mul F] [Zero F] [Mul S] [LT S] [DecidableLT S] [Zero S] (wide : S → F) (narrow : F → S)
    (conv : BitVec 16 → S) (buf : Nat → BitVec 8) (l : Loop F S) : List Got → Option (Ended F S)
  | [] => some (.reading buf l)
  | .eof :: _ => some (.newline l)
  | .err :: _ => some (.fatal l)
  | .data b :: rest =>
    let buf := overwrite buf b
    (l.turn wide narrow fileTool fun i => conv (int16Of (buf (2 * i)) (buf (2 * i + 1)))).bind fun l =>
      fileLoop wide narrow conv buf l rest

end Verif.Dtmf
