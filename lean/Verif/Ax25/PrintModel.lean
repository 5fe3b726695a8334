import Verif.Ax25.HdlcModel
import Verif.Ax25.StringModel

/-!
# Model of what `examples/ax25.go` prints for the frames it receives

Without the flag `-v`. Text is a list of bytes. Of package encoding/hex `Dump` is written out, a row of sixteen bytes at a time.
-/

namespace Verif.Ax25

/-- The spaces that `hex.Dump` adds after a cell when `n` cells of the row are left: after the eighth and after the last one. -/
def dumpGap (n : Nat) : List Byte := if n = 8 ∨ n = 0 then lit " " else []

/-- The cells of a row of `hex.Dump`, `n` of them left; cells without a byte are blank. -/
def dumpCells : Nat → List Byte → List Byte
  | 0, _ => []
  | n + 1, [] => lit "   " ++ (dumpGap n ++ dumpCells n [])
  | n + 1, b :: bs => hex02 b ++ (lit " " ++ (dumpGap n ++ dumpCells n bs))

/-- The character of a byte in the right column of `hex.Dump`. -/
def dumpChar (b : Byte) : Byte := if b.toNat < 32 ∨ 126 < b.toNat then 46#8 else b

/-- The offset at the start of a row of `hex.Dump`: 32 bits, most significant byte first. -/
def dumpOffset (off : Nat) : List Byte :=
  hex02 (BitVec.ofNat 8 (off / 2 ^ 24)) ++ hex02 (BitVec.ofNat 8 (off / 2 ^ 16)) ++ hex02 (BitVec.ofNat 8 (off / 2 ^ 8)) ++ hex02 (BitVec.ofNat 8 off)

/-- A row of `hex.Dump` without the newline. -/
def dumpRow (off : Nat) (bs : List Byte) : List Byte :=
  dumpOffset off ++ (lit "  " ++ (dumpCells 16 bs ++ (lit "|" ++ (bs.map dumpChar ++ lit "|"))))

/-- The rows of `hex.Dump` from an offset on; the first argument bounds their number. -/
def dumpFrom : Nat → Nat → List Byte → List Byte
  | 0, _, _ => []
  | _ + 1, _, [] => []
  | fuel + 1, off, b :: bs => dumpRow off ((b :: bs).take 16) ++ (lit "\n" ++ dumpFrom fuel (off + 16) ((b :: bs).drop 16))

/-- `hex.Dump`. -/
def hexDump (bs : List Byte) : List Byte := dumpFrom bs.length 0 bs

/-- `%s` of an `Address`, examples/ax25.go:111, 118: its method `String`. -/
def Address.text (a : Address) : List Byte := addressString a.callsign a.ssid

/-- The repeaters with commas between them, examples/ax25.go:114-119. -/
def printVia : List Address → List Byte
  | [] => []
  | r :: rs => r.text ++ rs.flatMap fun r => lit "," ++ r.text

/-- The line with the addresses, examples/ax25.go:111-121, without the newline. -/
def printHead (f : Frame) : List Byte :=
  f.source.text ++ (lit " to " ++ (f.destination.text ++ if f.repeaters = [] then [] else lit " via " ++ printVia f.repeaters))

/-- What is printed for a frame, examples/ax25.go:111-123. -/
def printFrame (f : Frame) : List Byte := printHead f ++ (lit "\n" ++ hexDump f.info)

/-- What is printed for the frames that `Feed` returns one after the other, examples/ax25.go:106-124. -/
def printFrames (fs : List Frame) : List Byte := (fs.map printFrame).flatten

end Verif.Ax25
