import Verif.Ax25.HdlcSpec

/-! # Specification: AX.25 control field and FlexNet compressed header -/

namespace Verif.Ax25.Spec

/-- The three kinds of control field of AX.25 2.2 (section 4.2), with the poll/final bit. -/
inductive Control where
  /-- information frame: N(S), N(R), P -/
  | i (ns nr : Nat) (p : Bool)
  /-- supervisory frame: kind (RR 0, RNR 1, REJ 2, SREJ 3), N(R), P/F -/
  | s (kind nr : Nat) (p : Bool)
  /-- unnumbered frame: modifier bits 2-3 and 5-7, P/F -/
  | u (lo hi : Nat) (p : Bool)
  deriving DecidableEq, Repr

/-- Ranges of the subfields. -/
def Control.Valid : Control → Prop
  | .i ns nr _ => ns < 8 ∧ nr < 8
  | .s k nr _ => k < 4 ∧ nr < 8
  | .u lo hi _ => lo < 4 ∧ hi < 8

/-- Figure 4.1a of the AX.25 2.2 specification, as a number. -/
def Control.toNat : Control → Nat
  | .i ns nr p => 0 + 2 * ns + 16 * p.toNat + 32 * nr
  | .s k nr p => 1 + 4 * k + 16 * p.toNat + 32 * nr
  | .u lo hi p => 3 + 4 * lo + 16 * p.toNat + 32 * hi

/-- The control octet. -/
def Control.encode (c : Control) : BitVec 8 := BitVec.ofNat 8 c.toNat

/-- The poll/final bit. -/
def Control.pf : Control → Bool
  | .i _ _ p => p
  | .s _ _ p => p
  | .u _ _ p => p

/-- A FlexNet compressed header: QSO number octet, second octet, six six-bit call sign codes
(character minus blank) and the SSID, packed most significant bit first into 40 bits. -/
def flexHeader (q r : BitVec 8) (c1 c2 c3 c4 c5 c6 : BitVec 6) (ssid : BitVec 4) :
    List (BitVec 8) :=
  let w : Nat := (((((c1.toNat * 64 + c2.toNat) * 64 + c3.toNat) * 64 + c4.toNat) * 64 + c5.toNat)
    * 64 + c6.toNat) * 16 + ssid.toNat
  [q, r, BitVec.ofNat 8 (w / 256 ^ 4), BitVec.ofNat 8 (w / 256 ^ 3), BitVec.ofNat 8 (w / 256 ^ 2),
    BitVec.ofNat 8 (w / 256), BitVec.ofNat 8 w]

/-- The call sign meant by six codes: characters, blanks omitted. -/
def flexCall (cs : List (BitVec 6)) : List (BitVec 8) :=
  (cs.filter (· ≠ 0#6)).map (fun c => c.setWidth 8 + 0x20#8)

end Verif.Ax25.Spec
