import Verif.Borip.LoopModel

/-!
# The loop of a connection in boripserver/main.go with errors of the writer

As `LoopModel`, but the connection takes only so many bytes and then returns an error from `Write`. A `bufio.Writer` passes its bytes on in their order, and
`sendResponse` ends with `Flush`; so the connection gets the reply, or the part of it that it takes. In `handleCommand` sending the reply is the last thing done
(boripserver/main.go:97-297), so that the state is that after the command also when the reply is not sent.
-/

namespace Verif.Borip

/-- boripserver/main.go:82-95 `sendResponse` on a connection that takes `room` more bytes (`none`: any number): what the connection gets, and the room left
if there was no error. -/
def send : Option Nat → Str → Str × Option (Option Nat)
  | none, r => (r, some none)
  | some w, r => if r.length ≤ w then (r, some (some (w - r.length))) else (r.take w, none)

/-- What ends the loop. -/
inductive LoopErr where
  | read (e : ReadErr)
  | write
  deriving DecidableEq

/-- boripserver/main.go:379-398, the turns of the loop: the bytes sent, what `client` is at the end, and the error that ends it. -/
def serveLoopW {F : Type} (lib : SLib F) (rtl : Nat → Rtl F) : Nat → Nat → Option Nat → Srv F → Rd → Str × Srv F × LoopErr
  | 0, _, _, s, _ => ([], s, .read .ended)
  | fuel + 1, n, room, s, rd =>
    match rd.readSlice with
    | (.error e, _) => ([], s, .read e)
    | (.ok raw, rd') =>
      let r := serveLine lib (rtl n) (s.now (rtl n)) raw
      match r.1 with
      | none => serveLoopW lib rtl fuel (n + 1) room r.2 rd'
      | some reply =>
        match send room reply with
        | (out, none) => (out, r.2, .write)
        | (out, some room') =>
          let t := serveLoopW lib rtl fuel (n + 1) room' r.2 rd'
          (out ++ t.1, t.2)

/-- boripserver/main.go:375-398 `loop` on a new connection. -/
def serveW {F : Type} (lib : SLib F) (rtl : Nat → Rtl F) (s : Srv F) (room : Option Nat) (chunks : List Str) : Str × Srv F × LoopErr :=
  match send room (response (lit "DEVICE") [lit "-"]) with
  | (out, none) => (out, s, .write)
  | (out, some room') =>
    let t := serveLoopW lib rtl (chunks.flatten.length + 1) 0 room' s ⟨[], chunks⟩
    (out ++ t.1, t.2)

end Verif.Borip
