import Verif.Ax25.HdlcModel

/-!
# Model of the `String` methods of dsp/ax25/constants.go and dsp/ax25/hdlc.go

Strings are lists of bytes.  Of package fmt the verbs `%02x` (for a byte converted to `int`), `%s` and `%d` are written out.
-/

namespace Verif.Ax25

/-- Bytes of a string literal (ASCII). -/
def lit (s : String) : List Byte := s.toList.map fun c => BitVec.ofNat 8 c.toNat

/-- A digit in base 16, as fmt writes it for `%x`. -/
def hexDigit (n : Nat) : Byte := if n < 10 then BitVec.ofNat 8 (48 + n) else BitVec.ofNat 8 (87 + n)

/-- `fmt.Sprintf("%02x", int(b))` for a byte `b`. -/
def hex02 (b : Byte) : List Byte := [hexDigit (b.toNat / 16), hexDigit (b.toNat % 16)]

/-- `fmt.Sprintf("%d", n)` for an `int`. -/
def dec (n : Int) : List Byte :=
  let digits := (Nat.toDigits 10 n.natAbs).map fun c => BitVec.ofNat 8 c.toNat
  if n < 0 then 45#8 :: digits else digits

/-- A lookup in a Go map: the zero value `""` if the key is absent. -/
def lookup (m : List (Byte × String)) (k : Byte) : List Byte :=
  match m.find? (·.1 = k) with
  | some p => lit p.2
  | none => []

/-- `pidToString`, dsp/ax25/constants.go:9-39. -/
def pidToString : List (Byte × String) :=
  [(0x01#8, "ISO 8208/CCITT X.25 PLP"),
   (0x06#8, "Compressed TCP/IP. RFC 1144"),
   (0x07#8, "Uncompressed TCP/IP"),
   (0x08#8, "Segmentation fragment"),
   (0xc3#8, "TEXNET database protocol"),
   (0xc4#8, "Link Quality Protocol"),
   (0xca#8, "Appletalk"),
   (0xcb#8, "Appletalk ARP"),
   (0xcc#8, "ARPA Internet Protocol"),
   (0xcd#8, "ARPA Address Resolution"),
   (0xce#8, "FlexNet"),
   (0xcf#8, "NET/ROM"),
   (0xf0#8, "No Layer 3 Protocol Implemented")]

/-- `PID.String`, dsp/ax25/constants.go:41-46. -/
def pidString (pid : Byte) : List Byte :=
  let s := lookup pidToString pid
  if s ≠ [] then s else hex02 pid

/-- The constants dsp/ax25/constants.go:50-54. -/
def FrameType.code : FrameType → Byte
  | .iFrame => 0#8
  | .sFrame => 1#8
  | .uFrame => 2#8

/-- `FrameType.String`, dsp/ax25/constants.go:56-66. -/
def frameTypeString (t : Byte) : List Byte :=
  if t = 0#8 then lit "I"
  else if t = 1#8 then lit "S"
  else if t = 2#8 then lit "U"
  else hex02 t

/-- `UnnumberedTypeName`, dsp/ax25/constants.go:70-94. -/
def unnumberedTypeName : List (Byte × String) :=
  [(0x6f#8, "SABME"), (0x2f#8, "SABM"), (0x43#8, "DISC"), (0x0f#8, "DM"), (0x63#8, "UA"), (0x87#8, "FRMR"), (0x03#8, "UI"),
   (0xaf#8, "XID"), (0xe3#8, "TEST")]

/-- `UnnumberedType.String`, dsp/ax25/constants.go:96-101. -/
def unnumberedString (t : Byte) : List Byte :=
  let s := lookup unnumberedTypeName t
  if s ≠ [] then s else hex02 t

/-- `SupervisoryType.String`, dsp/ax25/constants.go:105-124. -/
def supervisoryString (t : Byte) : List Byte :=
  if t = 0x1#8 then lit "RR"
  else if t = 0x5#8 then lit "RNR"
  else if t = 0x9#8 then lit "REJ"
  else if t = 0xd#8 then lit "SREJ"
  else hex02 t

/-- `Address.String`, dsp/ax25/hdlc.go:12-14, for any `int` in the field `SSID`. -/
def addressString (callsign : List Byte) (ssid : Int) : List Byte := callsign ++ lit "-" ++ dec ssid

end Verif.Ax25
