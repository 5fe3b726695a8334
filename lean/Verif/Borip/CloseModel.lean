import Verif.Borip.SessionModel

/-!
# A session of the BorIP client that ends with Close

`Close` (borip/client.go:338-346) sends STOP if the client believes that a stream is going on, and DEVICE ! if it has a device, and closes the connection.
-/

namespace Verif.Borip

/-- `Dial`, the calls and `Close`, on what the connection delivers: `Close` waits for two replies at most. -/
def clientClosed {F : Type} (lib : Lib F) (ops : List (Op F)) (down : List Str) : Option (List (Except CErr (Value F)) × BorIP F) :=
  (dial (Rd.replies (ops.length + 3) ⟨[], down⟩)).bind fun bor => bor.performEach lib (ops ++ [.close])

end Verif.Borip
