import Verif.Borip.InteropModel

/-!
# Model of the loop of a connection in boripserver/main.go

`client.loop` over the bytes of the connection, through a `bufio.Reader` of the default size. Of package bufio
`ReadSlice` and `fill` are modelled; a `Read` of the connection returns the next chunk or as much of it as
there is room for; when no chunk is left it returns an error (the end of the file or another). What the driver answers may differ from line to
line. Errors of the writer, which end the loop too, are left out; the texts logged are left out.
-/

namespace Verif.Borip

/-- The size of the buffer made by `bufio.NewReader` (boripserver/main.go:405). -/
def rdSize : Nat := 4096

/-- The reader: what is buffered, and what the connection will deliver. -/
structure Rd where
  buf : Str
  chunks : List Str

/-- The position of a newline in the buffer. -/
def newlineAt : Str → Option Nat
  | [] => none
  | x :: xs => if x = '\n' then some 0 else (newlineAt xs).map (· + 1)

/-- `fill` of bufio: one `Read` into the room left; `none` for an error -/
def Rd.fill (rd : Rd) : Option Rd :=
  match rd.chunks with
  | [] => none
  | ch :: rest =>
    if ch.length ≤ rdSize - rd.buf.length then some ⟨rd.buf ++ ch, rest⟩
    else some ⟨rd.buf ++ ch.take (rdSize - rd.buf.length), ch.drop (rdSize - rd.buf.length) :: rest⟩

inductive ReadErr where
  | ended
  | bufferFull
  deriving DecidableEq

/-- What is left to read, counted so that every `fill` with room makes it less. -/
def Rd.todo (rd : Rd) : Nat := (rd.chunks.map fun ch => ch.length + 1).sum

/-- `ReadSlice('\n')` of bufio, boripserver/main.go:380 -/
def Rd.readSlice (rd : Rd) : Except ReadErr Str × Rd :=
  match newlineAt rd.buf with
  | some i => (.ok (rd.buf.take (i + 1)), { rd with buf := rd.buf.drop (i + 1) })
  | none =>
    if rd.buf.length ≥ rdSize then (.error .bufferFull, { rd with buf := [] })
    else
      match h : rd.fill with
      | none => (.error .ended, { rd with buf := [] })
      | some rd' => rd'.readSlice
  termination_by rd.todo
  decreasing_by
    rename_i hroom
    unfold Rd.fill at h
    split at h
    · cases h
    · rename_i ch rest hc
      split at h
      · cases h
        simp only [Rd.todo, hc, List.map_cons, List.sum_cons]
        omega
      · cases h
        simp only [Rd.todo, hc, List.map_cons, List.sum_cons, List.length_drop]
        omega

/-- boripserver/main.go:379-398, the turns of the loop: the replies, what `client` is at the end, and the error that
ends it. `fuel` bounds the number of turns; `n` counts the lines. -/
def serveLoop {F : Type} (lib : SLib F) (rtl : Nat → Rtl F) : Nat → Nat → Srv F → Rd → List Str × Srv F × ReadErr
  | 0, _, s, _ => ([], s, .ended)
  | fuel + 1, n, s, rd =>
    match rd.readSlice with
    | (.error e, _) => ([], s, e)
    | (.ok raw, rd') =>
      let r := serveLine lib (rtl n) (s.now (rtl n)) raw
      let t := serveLoop lib rtl fuel (n + 1) r.2 rd'
      (r.1.toList ++ t.1, t.2)

/-- boripserver/main.go:375-398 `loop` on a new connection. Every turn takes a byte at least, so the number of
bytes is fuel enough. -/
def serve {F : Type} (lib : SLib F) (rtl : Nat → Rtl F) (s : Srv F) (chunks : List Str) : List Str × Srv F × ReadErr :=
  let t := serveLoop lib rtl (chunks.flatten.length + 1) 0 s ⟨[], chunks⟩
  (response (lit "DEVICE") [lit "-"] :: t.1, t.2)

end Verif.Borip
