import Verif.Ax25.HdlcModel

/-!
# Model of `dsp/ax25/hdlc.go` with the receive buffer as shared memory

`rxBuf` is a slice of one backing array of capacity 512 (`make([]byte, 0, 512)`,
dsp/ax25/hdlc.go:42) that is never reallocated (the append at line 216 is guarded by
`len < maxBufferSize = 512`) and only truncated (line 188).  `Frame.Info` (line 172) is a slice of
the same array.

Simplification: the in-place shifts of call sign octets by `parseAddress` (line 50) are not
written back; they only touch the address octets, which lie before the information field and are
not read again because the slice is truncated right after.
-/

namespace Verif.Ax25

/-- Decoder state with explicit backing array: `rxBuf` is `mem[0:len]`. -/
structure MDec where
  bitstream : Byte
  inFrame : Bool
  rxBitI : Nat
  rxBits : Byte
  mem : Nat → Byte
  len : Nat

/-- The contents of a slice `mem[off:off+k]`. -/
def readMem (mem : Nat → Byte) (off k : Nat) : List Byte := (List.range k).map fun i => mem (off + i)

/-- A decoder as `NewDecoder` makes it, dsp/ax25/hdlc.go:40-45. -/
def newMDec : MDec := ⟨0, false, 0, 0, fun _ => 0, 0⟩

/-- `Feed`, dsp/ax25/hdlc.go:178-221, on the backing array; the result is the frame and the
offset of its `Info` slice in the backing array. -/
def feedMem (d : MDec) (bit : Int) : MDec × Option (Frame × Nat) :=
  let bs : Byte := (d.bitstream <<< 1) ||| BitVec.ofInt 8 bit
  let d := { d with bitstream := bs }
  if bs &&& 0xff#8 = 0x7e#8 then
    let buf := readMem d.mem 0 d.len
    let out := if d.inFrame = true ∧ d.len > 2 then
      match processFrame buf with
      | some (some fr) => some (fr, d.len - 2 - fr.info.length)
      | _ => none
      else none
    ({ d with inFrame := true, len := 0, rxBits := 0, rxBitI := 0 }, out)
  else if bs &&& 0x7f#8 = 0x7f#8 then ({ d with inFrame := false }, none)
  else if d.inFrame = false then (d, none)
  else if bs &&& 0x3f#8 = 0x3e#8 then (d, none)
  else
    let rb := d.rxBits >>> 1
    let rb := if bit ≠ 0 then rb ||| 0x80#8 else rb
    let d := { d with rxBits := rb, rxBitI := d.rxBitI + 1 }
    if d.rxBitI = 8 then
      if d.len ≥ maxBufferSize then ({ d with inFrame := false }, none)
      else ({ d with mem := fun i => if i = d.len then d.rxBits else d.mem i, len := d.len + 1,
                     rxBits := 0, rxBitI := 0 }, none)
    else (d, none)

/-- Feed a sequence of bits, collecting the results. -/
def runMem : MDec → List Int → MDec × List (Option (Frame × Nat))
  | d, [] => (d, [])
  | d, b :: bits =>
    let (d1, o) := feedMem d b
    let (d2, os) := runMem d1 bits
    (d2, o :: os)

/-- The list-based view of a state. -/
def MDec.abs (d : MDec) : Dec := ⟨d.bitstream, d.inFrame, d.rxBitI, d.rxBits, readMem d.mem 0 d.len⟩

end Verif.Ax25
