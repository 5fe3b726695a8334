import Mathlib.Data.List.Basic

/-!
# Specification: bit-serial CRC-16/X.25

The textbook description of the frame check sequence of HDLC/X.25/AX.25, independent of the
table-driven code: bits are shifted in one at a time, least significant bit of each byte first,
through the reflected polynomial `0x8408` (x^16 + x^12 + x^5 + 1).
-/

namespace Verif.Ax25.Spec

/-- Shift one data bit into the CRC register. -/
def crcBit (r : BitVec 16) (b : Bool) : BitVec 16 :=
  if r.getLsbD 0 ^^ b then (r >>> 1) ^^^ 0x8408#16 else r >>> 1

/-- Shift a bit string into the CRC register. -/
def crcBits (r : BitVec 16) (bits : List Bool) : BitVec 16 := bits.foldl crcBit r

/-- The eight bits of a byte in order of transmission: least significant first. -/
def byteBits (b : BitVec 8) : List Bool :=
  [b.getLsbD 0, b.getLsbD 1, b.getLsbD 2, b.getLsbD 3, b.getLsbD 4, b.getLsbD 5, b.getLsbD 6,
    b.getLsbD 7]

/-- The transmitted bits of a byte string. -/
def bytesBits (bs : List (BitVec 8)) : List Bool := bs.flatMap byteBits

/-- The frame check sequence of a payload: the complemented CRC, low byte first. -/
def fcs (payload : List (BitVec 8)) : List (BitVec 8) :=
  let c := ~~~ crcBits 0xffff#16 (bytesBits payload)
  [c.setWidth 8, (c >>> 8).setWidth 8]

/-- A bit string (including its FCS bits) passes the check iff the register ends in the
"good" residue. -/
def goodBits (bits : List Bool) : Prop := crcBits 0xffff#16 bits = 0xf0b8#16

/-- Channel error: flip the bits of `m` where `e` is true. -/
def corrupt (m e : List Bool) : List Bool := List.zipWith (· ^^ ·) m e

end Verif.Ax25.Spec
