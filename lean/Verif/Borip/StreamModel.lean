import Verif.Conv.ConvModel

/-!
# Model of the streaming callback of boripserver/main.go

The device driver calls the callback with one buffer after the other; it sends one datagram for each
8192 bytes of the buffer. Simplifications: `seq` is a natural number (the Go `int` would wrap after 2^63
packets; the bytes sent depend on its low 16 bits only); a failed `conn.Write` is ignored by the code,
and here counts as sent; the callback's test of the close channel is in `ServerModel`.
-/

namespace Verif.Borip
open Verif.Conv

/-- boripserver/main.go:31 `samplesPerPacket`. -/
def samplesPerPacket : Nat := 4096

/-- boripserver/main.go:36 `headerSize`. -/
def headerSize : Nat := 4

/-- boripserver/main.go:45 `flagStreamStart`. -/
def flagStreamStart : BitVec 8 := 0x10

/-- The variables captured by the callback, boripserver/main.go:327-331, the memory, and the datagrams
sent. -/
structure Stream where
  m : Nat → BitVec 8
  bufOut : Slice
  first : Bool
  seq : Nat
  sent : List (List (BitVec 8))

/-- boripserver/main.go:327-331; the output buffer is allocated at address `base`. -/
def startStream (m : Nat → BitVec 8) (base : Nat) : Stream where
  m := fun a => if a = base then flagStreamStart else if base < a ∧ a < base + (headerSize + samplesPerPacket * 2 * 2) then 0 else m a
  bufOut := ⟨base, headerSize + samplesPerPacket * 2 * 2⟩
  first := true
  seq := 0
  sent := []

/-- The bytes of a slice. -/
def bytesOf (m : Nat → BitVec 8) (s : Slice) : List (BitVec 8) := (List.range s.len).map fun i => m (s.base + i)

/-- boripserver/main.go:363-366 -/
def clearFirst (st : Stream) : Option Stream :=
  if st.first then (st.bufOut.write st.m 0 0).bind fun m => some { st with m := m, first := false } else some st

/-- boripserver/main.go:353-366, one turn of the loop. -/
def packet (st : Stream) (buf : Slice) (nValues : Nat) : Option Stream :=
  (st.bufOut.write st.m 2 (BitVec.ofNat 8 (st.seq &&& 0xff))).bind fun m =>
  (st.bufOut.write m 3 (BitVec.ofNat 8 (st.seq >>> 8))).bind fun m =>
  (buf.take nValues).bind fun input =>
  (st.bufOut.drop headerSize).bind fun output =>
  (ui8toi16b input output m).bind fun m =>
  (st.bufOut.take (headerSize + nValues * 2)).bind fun out =>
  clearFirst { st with m := m, seq := st.seq + 1, sent := st.sent ++ [bytesOf m out] }

/-- boripserver/main.go:348-351 -/
def valuesAt (len bufferOffset : Nat) : Nat :=
  if len - bufferOffset > samplesPerPacket * 2 then samplesPerPacket * 2 else len - bufferOffset

/-- boripserver/main.go:347-367, the loop. -/
def packets (st : Stream) (buf : Slice) (bufferOffset : Nat) : Option Stream :=
  if bufferOffset < buf.len then
    (packet st buf (valuesAt buf.len bufferOffset)).bind fun st => packets st buf (bufferOffset + samplesPerPacket * 2)
  else some st
  termination_by buf.len - bufferOffset
  decreasing_by unfold samplesPerPacket; omega

/-- One call of the callback with a buffer; before it the driver has written what it likes outside
the output buffer. -/
def callback (st : Stream) (driver : Nat → BitVec 8) (buf : Slice) : Option Stream :=
  packets { st with m := fun a => if st.bufOut.base ≤ a ∧ a < st.bufOut.base + st.bufOut.len then st.m a else driver a } buf 0

/-- A sequence of callbacks. -/
def stream (st : Stream) : List ((Nat → BitVec 8) × Slice) → Option Stream
  | [] => some st
  | (driver, buf) :: rest => (callback st driver buf).bind fun st => stream st rest

end Verif.Borip
