import Verif.Borip.PacketModel
import Verif.Borip.ClientModel
import Verif.Fp.BitsModel
import Verif.Filt.IirFp

/-!
# Model of borip/example/rx.go

`polarDiscriminant` (lines 15-19) is called only from comments and modelled apart (`Demod/PolarFp`).  Simplifications: writing to the file and
syncing it do not fail; `net.ResolveUDPAddr` and `net.ListenUDP` are one parameter that says for which addresses both work;
printing is left out.  `log.Fatal` ends the program without running deferred calls.
-/

namespace Verif.Borip
open Verif.Fp

/-! ## The recording goroutine -/

/-- `binary.Write` of a `uint32` in little-endian order. -/
def le32 (b : BitVec 32) : List UInt8 :=
  [UInt8.ofNat b.toNat, UInt8.ofNat (b.toNat / 2 ^ 8), UInt8.ofNat (b.toNat / 2 ^ 16), UInt8.ofNat (b.toNat / 2 ^ 24)]

/-- borip/example/rx.go:166 and 169: the component, an `int16` converted to `float64` at borip/packet.go:77, converted to `float32`
and written. -/
def writeComponent (v : Int) : List UInt8 := le32 (toBits32 (Verif.Filt.narrow (ofInt binary64 v)))

/-- borip/example/rx.go:165-172, the loop from sample `i` on. -/
def writeFrom (samples : List (Int × Int)) (n i : Nat) (file : List UInt8) : Option (List UInt8) :=
  if i < n then
    samples[i]?.bind fun s => writeFrom samples n (i + 1) (file ++ writeComponent s.1 ++ writeComponent s.2)
  else some file
  termination_by n - i

/-- The variables of the goroutine, and what its connection and file hold. -/
structure Rec where
  rd : PacketReader
  conn : List Recv
  samples : List (Int × Int)
  file : List UInt8

/-- borip/example/rx.go:152-159, before the loop. -/
def Rec.start (headers : Bool) (conn : List Recv) : Rec := ⟨newPacketReader headers, conn, List.replicate 65536 (0, 0), []⟩

/-- borip/example/rx.go:160-176, one pass of the loop; an error ends the program and leaves the file as it is. -/
def Rec.step (r : Rec) : Option (Except (Err × List UInt8) Rec) :=
  (readSamples r.rd r.conn r.samples).bind fun o =>
    match o.result with
    | .error e => some (.error (e, r.file))
    | .ok n => (writeFrom o.samples n 0 r.file).bind fun file => some (.ok ⟨o.rd, o.conn, o.samples, file⟩)

/-- Passes of the loop. -/
def Rec.run : Nat → Rec → Option (Except (Err × List UInt8) Rec)
  | 0, r => some (.ok r)
  | n + 1, r => r.step.bind fun x =>
    match x with
    | .error e => some (.error e)
    | .ok r => r.run n

/-! ## The main function -/

/-- How the program ends. -/
inductive RxEnd where
  | fatal (e : CErr)
  /-- no socket for the address -/
  | noSocket
  /-- line 183, having recorded with these settings -/
  | done (headers : Bool) (dest : Str)
  deriving DecidableEq

/-- The ubiquitous `if err != nil { log.Fatal(err) }`. -/
def orFatal {F : Type} (r : Res F) (k : Value F → BorIP F → Option (RxEnd × BorIP F)) : Option (RxEnd × BorIP F) :=
  r.bind fun r =>
    match r with
    | (.error e, bor) => some (.fatal e, bor)
    | (.ok v, bor) => k v bor

/-- borip/example/rx.go:28-183, `main` after `Dial`, with the deferred `Close`. -/
def rxMain {F : Type} (lib : Lib F) (freq rate : F) (listen : Str → Bool) (bor : BorIP F) : Option (RxEnd × BorIP F) :=
  orFatal (bor.selectDevice lib "RTL".toList) fun dev bor =>
  orFatal (bor.setFrequency lib freq) fun _ bor =>
  orFatal (bor.frequency lib) fun _ bor =>
  match dev with
  | .device (some dev) =>
    dev.validAntennas[0]?.bind fun ant =>
    orFatal (bor.setAntenna lib ant) fun _ bor =>
    orFatal (bor.setRate lib rate) fun _ bor =>
    orFatal (bor.headerEnabled lib) fun headers bor =>
    orFatal (bor.setDestination lib "127.0.0.1:2288".toList) fun dest bor =>
    match headers, dest with
    | .bool headers, .str dest =>
      if listen dest then
        (bor.go lib).bind fun r => (r.2.close lib).bind fun r => (r.2.close lib).bind fun r => some (.done headers dest, r.2)
      else some (.noSocket, bor)
    | _, _ => none
  | _ => none

end Verif.Borip
