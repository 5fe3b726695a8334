import Verif.Borip.SessionModel

/-!
# A session of the BorIP client with errors of writing

As `SessionModel`, but the connection takes only so many bytes from the client and then returns an error from `Write`. `command` (borip/client.go:323-336) returns
this error without reading; a `bufio.Writer` returns it again at every later call.
-/

namespace Verif.Borip

/-- What the exchanges of the calls bring on a connection that takes `w` more bytes, borip/client.go:326-336. -/
def repliesW {F : Type} (lib : Lib F) : Nat → List (Op F) → Rd → List Reply
  | _, [], _ => []
  | w, op :: ops, rd =>
    if ((op.request lib).getD []).length ≤ w then
      match rd.readString [] with
      | (some l, rd') => .line l :: repliesW lib (w - ((op.request lib).getD []).length) ops rd'
      | (none, rd') => .fail :: repliesW lib (w - ((op.request lib).getD []).length) ops rd'
    else List.replicate (ops.length + 1) .fail

/-- The client of a session on such a connection: `Dial` (borip/client.go:80-99) writes nothing, then the calls. -/
def clientSideW {F : Type} (lib : Lib F) (w : Nat) (ops : List (Op F)) (down : List Str) : Option (List (Except CErr (Value F)) × BorIP F) :=
  match Rd.readString ⟨[], down⟩ [] with
  | (none, _) => none
  | (some g, rd) => (dial (.line g :: repliesW lib w ops rd)).bind fun bor => bor.performEach lib ops

end Verif.Borip
