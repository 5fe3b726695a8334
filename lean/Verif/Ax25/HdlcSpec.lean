import Verif.Ax25.CrcSpec

/-!
# Specification: HDLC framing and AX.25 headers

An independent description of the *transmitter*: flags, bit stuffing, address fields.
-/

namespace Verif.Ax25.Spec

/-- The HDLC flag `01111110`. -/
def flag : List Bool := [false, true, true, true, true, true, true, false]

/-- Bit stuffing: after five consecutive ones a zero is inserted.  The first argument counts the
ones just sent. -/
def stuffFrom : Nat → List Bool → List Bool
  | _, [] => []
  | n, true :: bs => if n = 4 then true :: false :: stuffFrom 0 bs else true :: stuffFrom (n + 1) bs
  | _, false :: bs => false :: stuffFrom 0 bs

/-- The line bits of the contents of one frame. -/
def stuff (bits : List Bool) : List Bool := stuffFrom 0 bits

/-- Removal of stuffed zeros.  The first argument counts the ones just received. -/
def destuffFrom : Nat → List Bool → List Bool
  | _, [] => []
  | n, true :: bs => true :: destuffFrom (n + 1) bs
  | n, false :: bs => if n = 5 then destuffFrom 0 bs else false :: destuffFrom 0 bs

/-- Removal of stuffed zeros, starting after a flag. -/
def destuff (bits : List Bool) : List Bool := destuffFrom 0 bits

/-- The flag pattern occurs somewhere in `l`. -/
def HasFlag (l : List Bool) : Prop := flag <:+: l

/-- The argument of `Feed` for a bit. -/
def bitInt (b : Bool) : Int := if b then 1 else 0

/-- The line bits of a sequence of frames with single flags in between, after an opening flag. -/
def lineBits : List (List (BitVec 8)) → List Bool
  | [] => []
  | f :: fs => stuff (bytesBits f) ++ flag ++ lineBits fs

/-! ### AX.25 headers -/

/-- An address as a user writes it: call sign characters, SSID, and the top bit of the SSID octet
(command/response or has-been-repeated bit). -/
structure Station where
  call : List (BitVec 8)
  ssid : Nat
  top : Bool

/-- Call signs have at most six characters, each a seven-bit code other than blank; SSIDs are four
bits. -/
def Station.Valid (s : Station) : Prop :=
  s.call.length ≤ 6 ∧ (∀ c ∈ s.call, c.toNat < 128 ∧ c ≠ 0x20#8) ∧ s.ssid < 16

/-- Address octets: call sign padded with blanks and shifted left by one, then the SSID octet with
the extension bit `last`. -/
def encodeStation (s : Station) (last : Bool) : List (BitVec 8) :=
  ((s.call ++ List.replicate (6 - s.call.length) 0x20#8).map (fun c : BitVec 8 => c <<< 1)) ++
    [(if s.top then 0x80#8 else 0#8) ||| 0x60#8 ||| (BitVec.ofNat 8 s.ssid <<< 1) |||
      (if last then 1#8 else 0#8)]

/-- The repeater addresses; only the very last one carries the extension bit. -/
def encodeRepeaters : List Station → List (BitVec 8)
  | [] => []
  | [r] => encodeStation r true
  | r :: rs => encodeStation r false ++ encodeRepeaters rs

/-- A complete AX.25 frame without FCS: destination, source, repeaters, control octet, rest. -/
def encodeFrame (dst src : Station) (reps : List Station) (control : BitVec 8)
    (rest : List (BitVec 8)) : List (BitVec 8) :=
  encodeStation dst false ++ encodeStation src reps.isEmpty ++ encodeRepeaters reps ++
    control :: rest

end Verif.Ax25.Spec
