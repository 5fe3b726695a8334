import Verif.Borip.LoopModel
import Verif.Borip.ServerModel

/-!
# The loop of a connection in boripserver/main.go with the channel that ends a stream

As `LoopModel`, with `client.closeChan` (type `Chan` of `ServerModel`): nil while there is no stream, open while one is going on, closed from `stopStreaming` on until the next
callback sets it to nil. `stopStreaming` closes it whenever it is not nil, and closing a closed channel panics. A callback comes between two lines only
(field `ended` of `Rtl`); the races with it are in `ServerModel` and `RaceModel`.
-/

namespace Verif.Borip

/-- boripserver/main.go:207-227 and 279-286: the commands that call `stopStreaming` when there is a stream. -/
def stopping (cmd : Str) (args : List Str) : Bool :=
  if cmd = lit "STOP" then true
  else if cmd = lit "DEVICE" then
    match args with
    | [] => true
    | hint :: _ => decide (hint = lit "-") || decide (hint = lit "!")
  else false

/-- boripserver/main.go:380-393: whether the line has such a command. -/
def stoppingLine {F : Type} (lib : SLib F) (raw : Str) : Bool :=
  match split ' ' (lib.trim raw) with
  | [] => false
  | cmd :: args => stopping (cmd.map Char.toUpper) args

/-- One turn of `loop`, boripserver/main.go:379-396, with `closeChan`: 303-308 closes it, 324 makes it. `none`: panic. -/
def serveLineC {F : Type} (lib : SLib F) (rtl : Rtl F) (s : Srv F) (c : Chan) (raw : Str) : Option (Option Str × Srv F × Chan) :=
  let c := if rtl.ended then .nil else c
  if stoppingLine lib raw && c == .closed then none
  else
    let r := serveLine lib rtl (s.now rtl) raw
    some (r.1, r.2, if stoppingLine lib raw && c == .opened then .closed else if c == .nil && r.2.streaming then .opened else c)

/-- boripserver/main.go:379-398, the turns of the loop: the replies, and how it ends. `none`: panic. -/
def serveLoopC {F : Type} (lib : SLib F) (rtl : Nat → Rtl F) : Nat → Nat → Srv F → Chan → Rd → List Str × Option (Srv F × Chan × ReadErr)
  | 0, _, s, c, _ => ([], some (s, c, .ended))
  | fuel + 1, n, s, c, rd =>
    match rd.readSlice with
    | (.error e, _) => ([], some (s, c, e))
    | (.ok raw, rd') =>
      match serveLineC lib (rtl n) s c raw with
      | none => ([], none)
      | some r =>
        let t := serveLoopC lib rtl fuel (n + 1) r.2.1 r.2.2 rd'
        (r.1.toList ++ t.1, t.2)

/-- boripserver/main.go:375-398 `loop` on a new connection. -/
def serveC {F : Type} (lib : SLib F) (rtl : Nat → Rtl F) (s : Srv F) (c : Chan) (chunks : List Str) : List Str × Option (Srv F × Chan × ReadErr) :=
  let t := serveLoopC lib rtl (chunks.flatten.length + 1) 0 s c ⟨[], chunks⟩
  (response (lit "DEVICE") [lit "-"] :: t.1, t.2)

end Verif.Borip
