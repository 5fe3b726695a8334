/-!
# Model of borip/packet.go

The reader keeps one datagram in a fixed buffer and decodes 16-bit little-endian I/Q pairs from it.
Simplifications: the buffer is a function from indices to bytes with the fixed size checked at every
slice expression; `complex128` values are kept as the pair of integers they hold (the conversion of an
`int16` to `float64` is exact); a connection is the list of what its `ReadFrom` calls will return, and a
connection with nothing left returns an error.
-/

namespace Verif.Borip

/-- borip/packet.go:10 `defaultBufferSize`. -/
def defaultBufferSize : Nat := 256 * 1024

/-- borip/packet.go:11 `packetHeaderSize`. -/
def packetHeaderSize : Nat := 4

/-- borip/packet.go:28-32 `PacketHeader`. -/
structure PacketHeader where
  flags : UInt8
  notification : UInt8
  idx : UInt16
  deriving DecidableEq

/-- borip/packet.go:34-40 `PacketReader`, without the connection. -/
structure PacketReader where
  buf : Nat → UInt8
  bufI : Nat
  bufN : Nat
  withHeaders : Bool
  header : PacketHeader

/-- borip/packet.go:42-48 `NewPacketReader`. -/
def newPacketReader (withHeaders : Bool) : PacketReader where
  buf := fun _ => 0
  bufI := 0
  bufN := 0
  withHeaders := withHeaders
  header := ⟨0, 0, 0⟩

/-- One return of `net.PacketConn.ReadFrom`: a datagram, or an error after which the buffer may hold
the bytes given. -/
inductive Recv where
  | datagram (bytes : List UInt8)
  | error (junk : List UInt8)

/-- What copying a datagram to the start of the buffer leaves there (bytes that do not fit are lost). -/
def received (buf : Nat → UInt8) (bytes : List UInt8) : Nat → UInt8 := fun i =>
  match (bytes.take defaultBufferSize)[i]? with
  | some b => b
  | none => buf i

/-- encoding/binary `LittleEndian.Uint16(buf[i : i+2])`; fails when the slice expression is out of range. -/
def uint16At (buf : Nat → UInt8) (i : Nat) : Option UInt16 :=
  if i + 2 ≤ defaultBufferSize then some ((buf i).toUInt16 ||| ((buf (i + 1)).toUInt16 <<< 8)) else none

/-- Assignment `samples[idx] = v` with its bounds check. -/
def store {α : Type} (samples : List α) (idx : Nat) (v : α) : Option (List α) :=
  if idx < samples.length then some (samples.set idx v) else none

/-- borip/packet.go:74-80, the decoding loop; returns `bufI`, `idx` and the slice. -/
def drain (buf : Nat → UInt8) (bufN bufI idx : Nat) (samples : List (Int × Int)) : Option (Nat × Nat × List (Int × Int)) :=
  if bufI < bufN then
    (uint16At buf bufI).bind fun iReal =>
    (uint16At buf (bufI + 2)).bind fun qImag =>
    (store samples idx (iReal.toInt16.toInt, qImag.toInt16.toInt)).bind fun samples =>
    drain buf bufN (bufI + 4) (idx + 1) samples
  else some (bufI, idx, samples)
  termination_by bufN - bufI

/-- The two errors `ReadSamples` returns. -/
inductive Err where
  | conn
  | shortPacket
  deriving DecidableEq

/-- What a call of `ReadSamples` leaves: the returned count or error, the caller's slice, the reader and
the rest of the connection. -/
structure Outcome where
  result : Except Err Nat
  samples : List (Int × Int)
  rd : PacketReader
  conn : List Recv

/-- borip/packet.go:73-81, decoding what the buffer holds. -/
def decode (rd : PacketReader) (conn : List Recv) (samples : List (Int × Int)) : Option Outcome :=
  (drain rd.buf rd.bufN rd.bufI 0 samples).bind fun r =>
    some ⟨.ok r.2.1, r.2.2, { rd with bufI := r.1 }, conn⟩

/-- borip/packet.go:60-70, after a datagram of `n` bytes has been received. -/
def accept (rd : PacketReader) (bytes : List UInt8) : Except PacketReader PacketReader :=
  let n := min bytes.length defaultBufferSize
  let buf := received rd.buf bytes
  let rd := { rd with buf := buf, bufI := 0, bufN := n }
  if rd.withHeaders then
    if n < packetHeaderSize then .error rd
    else .ok { rd with
      header := ⟨buf 0, buf 1, (buf 2).toUInt16 ||| ((buf 3).toUInt16 <<< 8)⟩
      bufI := 4 }
  else .ok rd

/-- borip/packet.go:54-81 `ReadSamples`; `none` is a panic. -/
def readSamples (rd : PacketReader) (conn : List Recv) (samples : List (Int × Int)) : Option Outcome :=
  if rd.bufI ≥ rd.bufN then
    match conn with
    | [] => some ⟨.error .conn, samples, rd, []⟩
    | .error junk :: rest => some ⟨.error .conn, samples, { rd with buf := received rd.buf junk }, rest⟩
    | .datagram bytes :: rest =>
      match accept rd bytes with
      | .error rd => some ⟨.error .shortPacket, samples, rd, rest⟩
      | .ok rd => decode rd rest samples
  else decode rd conn samples

/-- Successive calls, one for each slice the caller passes. -/
def readAll (rd : PacketReader) (conn : List Recv) : List (List (Int × Int)) → Option (List Outcome)
  | [] => some []
  | s :: rest => (readSamples rd conn s).bind fun o => (readAll o.rd o.conn rest).bind fun os => some (o :: os)

end Verif.Borip
