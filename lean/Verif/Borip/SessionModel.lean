import Verif.Borip.LoopModel
import Verif.Borip.InteropProps

/-!
# Model of a session: client and server joined by a connection

The client reads its lines through a `bufio.Reader` too, with `ReadString`. The two directions of the connection
deliver the bytes in any pieces; each side is a function of the bytes it gets. The client writes one request per
call and flushes it (borip/client.go:328-333), so what it sends is the requests of its calls one after the other.
Each side reads until the other has closed the connection; errors of writing are in `SendModel` and `WriteModel`.
-/

namespace Verif.Borip

/-- `ReadString('\n')` of bufio, borip/client.go:89, 334: `ReadSlice` again and again while the buffer is full; `frags` is what
has been collected. At an error the text read so far is returned with it; the client does not use it. -/
def Rd.readString (rd : Rd) (frags : Str) : Option Str × Rd :=
  match newlineAt rd.buf with
  | some i => (some (frags ++ rd.buf.take (i + 1)), { rd with buf := rd.buf.drop (i + 1) })
  | none =>
    if hfull : rd.buf.length ≥ rdSize then Rd.readString { rd with buf := [] } (frags ++ rd.buf)
    else
      match h : rd.fill with
      | none => (none, { rd with buf := [] })
      | some rd' => rd'.readString frags
  termination_by (rd.todo, rd.buf.length)
  decreasing_by
    · apply Prod.Lex.right
      have : rdSize = 4096 := rfl
      simp only [List.length_nil]
      omega
    · apply Prod.Lex.left
      unfold Rd.fill at h
      split at h
      · cases h
      · rename_i ch rest hc
        split at h
        · cases h
          simp only [Rd.todo, hc, List.map_cons, List.sum_cons]
          omega
        · cases h
          simp only [Rd.todo, hc, List.map_cons, List.sum_cons, List.length_drop]
          omega

/-- What the next `n` reads of the client bring, borip/client.go:89-92 and 334. -/
def Rd.replies : Nat → Rd → List Reply
  | 0, _ => []
  | n + 1, rd =>
    match rd.readString [] with
    | (some l, rd') => .line l :: rd'.replies n
    | (none, rd') => .fail :: rd'.replies n

/-- The calls of the client with what they return; `none` if one panics. -/
def BorIP.performEach {F : Type} (lib : Lib F) (bor : BorIP F) : List (Op F) → Option (List (Except CErr (Value F)) × BorIP F)
  | [] => some ([], bor)
  | op :: ops => (bor.perform lib op).bind fun r => (r.2.performEach lib ops).map fun t => (r.1 :: t.1, t.2)

/-- The client of a session: `Dial` (borip/client.go:80-99), then the calls. -/
def clientSide {F : Type} (lib : Lib F) (ops : List (Op F)) (down : List Str) : Option (List (Except CErr (Value F)) × BorIP F) :=
  (dial (Rd.replies (ops.length + 1) ⟨[], down⟩)).bind fun bor => bor.performEach lib ops

/-- What the client writes, borip/client.go:328. -/
def written {F : Type} (lib : Lib F) (ops : List (Op F)) : Str := (ops.filterMap (Op.request lib)).flatten

end Verif.Borip
