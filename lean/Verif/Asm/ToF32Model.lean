import Verif.Asm.AsmCore
import Verif.Conv.ConvModel

/-!
# Models of the amd64 routines `Ui8tof32`, `I8tof32` and `Ui8toc64`

Addresses are counted from the start of the slice: `ip` is the input pointer minus the input base,
`op` is the output pointer minus the output base divided by four (the pointers only move by whole
elements).  `addr` is the address of the output slice; it decides the alignment.  The memories are
indexed from the slice starts and extend beyond the slices, so that an out-of-bounds access is
visible.  `rEnd` and `wEnd` are one past the highest input byte read and output element written;
all accesses start at 0 and are contiguous.

Loop counters are natural numbers; 64-bit wrap-around is not modelled (lengths are far below
2^63).  The constant of `ANDQ $0xfffffff0` (conversion_avo_amd64.s:47) is taken as −16, which is
what the sign-extended 32-bit immediate means.
-/

namespace Verif.Asm
open Verif.Conv

variable {F D : Type}

/-- Machine state of the conversion routines. -/
structure St (F : Type) where
  ip : Nat
  op : Nat
  bx : Nat
  dx : Nat
  om : Nat → F
  rEnd : Nat
  wEnd : Nat

/-- Load sixteen bytes (`MOVOU (AX), X0`). -/
def load16 (im : Nat → BitVec 8) (ip : Nat) : Xmm := fun i => im (ip + i)

/-- Store four float lanes at element `o` (the memory effect of `MOVAPS X, (DX)`). -/
def store4 (om : Nat → F) (o : Nat) (lane : Nat → F) : Nat → F :=
  Function.update (Function.update (Function.update (Function.update om o (lane 0)) (o + 1) (lane 1))
    (o + 2) (lane 2)) (o + 3) (lane 3)

/-- The byte 0x80 in every lane (dsp/conversion_avo_amd64.s:52-54). -/
def x80 : Xmm := fun _ => 0x80#8

/-- One scalar element of `Ui8tof32`, dsp/conversion_avo_amd64.s:35-41 and 152-158. -/
def u8Step (o : FloatOps F D) (im : Nat → BitVec 8) (s : St F) : Option (St F) :=
  let si : Int := ((im s.ip).toNat : Int) - 0x80
  some { s with ip := s.ip + 1, op := s.op + 1, bx := s.bx + 1,
                om := Function.update s.om s.op (o.ofInt si),
                rEnd := max s.rEnd (s.ip + 1), wEnd := max s.wEnd (s.op + 1) }

/-- Sixteen elements with SSE4.1, dsp/conversion_avo_amd64.s:58-95.  The aligned stores fault when
the output pointer is not a multiple of 16. -/
def u8Sse4 (o : FloatOps F D) (addr : Nat) (im : Nat → BitVec 8) (s : St F) : Option (St F) :=
  if (addr + 4 * s.op) % 16 ≠ 0 then none else
  let x0 := psubb x80 (load16 im s.ip)
  let om := store4 s.om s.op fun k => o.ofInt (pmovsxbd x0 k).toInt
  let om := store4 om (s.op + 4) fun k => o.ofInt (pmovsxbd (pshufl 1 x0) k).toInt
  let om := store4 om (s.op + 8) fun k => o.ofInt (pmovsxbd (pshufl 2 x0) k).toInt
  let om := store4 om (s.op + 12) fun k => o.ofInt (pmovsxbd (pshufl 3 x0) k).toInt
  some { s with ip := s.ip + 16, op := s.op + 16, bx := s.bx + 16, om := om,
                rEnd := max s.rEnd (s.ip + 16), wEnd := max s.wEnd (s.op + 16) }

/-- Sixteen elements with SSE2, dsp/conversion_avo_amd64.s:107-142. -/
def u8Sse2 (o : FloatOps F D) (addr : Nat) (im : Nat → BitVec 8) (s : St F) : Option (St F) :=
  if (addr + 4 * s.op) % 16 ≠ 0 then none else
  let x0 := psubb x80 (load16 im s.ip)
  let x2 := punpcklbw x0
  let x3 := x2
  let om := store4 s.om s.op fun k => o.ofInt (psral 24 (punpcklwl x2) k).toInt
  let om := store4 om (s.op + 4) fun k => o.ofInt (psral 24 (punpckhwl x3) k).toInt
  let x0 := punpckhbw x0
  let x3 := x0
  let om := store4 om (s.op + 8) fun k => o.ofInt (psral 24 (punpcklwl x0) k).toInt
  let om := store4 om (s.op + 12) fun k => o.ofInt (psral 24 (punpckhwl x3) k).toInt
  some { s with ip := s.ip + 16, op := s.op + 16, bx := s.bx + 16, om := om,
                rEnd := max s.rEnd (s.ip + 16), wEnd := max s.wEnd (s.op + 16) }

/-- The tail of `Ui8tof32` from label `ui8tof32_stepper`, dsp/conversion_avo_amd64.s:147-163. -/
def u8Stepper (o : FloatOps F D) (im : Nat → BitVec 8) (cx : Nat) (s : St F) : Option (St F) :=
  if s.bx ≥ cx then some s
  else doWhile (u8Step o im) (fun s => decide (s.bx < cx)) (cx + 1) s

/-- `Ui8tof32` from label `ui8tof32_aligned`, dsp/conversion_avo_amd64.s:45-163. -/
def u8Aligned (o : FloatOps F D) (useSSE4 : Bool) (addr : Nat) (im : Nat → BitVec 8) (cx : Nat)
    (s : St F) : Option (St F) :=
  let si := cx - cx % 16
  if s.bx ≥ si then u8Stepper o im cx s
  else
    (doWhile (if useSSE4 then u8Sse4 o addr im else u8Sse2 o addr im) (fun s => decide (s.bx < si))
      (cx + 1) s).bind (u8Stepper o im cx)

/-- `Ui8tof32` on amd64, dsp/conversion_avo_amd64.s:7-163. -/
def ui8tof32Amd (o : FloatOps F D) (useSSE4 : Bool) (addr : Nat) (inLen outLen : Nat)
    (im : Nat → BitVec 8) (om : Nat → F) : Option (St F) :=
  let cx := if outLen ≥ inLen then inLen else outLen
  let s : St F := ⟨0, 0, 0, 0, om, 0, 0⟩
  if 32 ≥ cx then u8Stepper o im cx s
  else
    let si := addr % 16 / 4
    if si = 0 then u8Aligned o useSSE4 addr im cx s
    else
      let di := 4 - si
      (doWhile (u8Step o im) (fun s => decide (s.bx < di)) (cx + 1) s).bind
        (u8Aligned o useSSE4 addr im cx)

/-- `Ui8toc64` on amd64, dsp/conversion_amd64.s:463-470: a jump to `Ui8tof32` with the input length
rounded down to even and the output length doubled. -/
def ui8toc64Amd (o : FloatOps F D) (useSSE4 : Bool) (addr : Nat) (inLen outLen : Nat)
    (im : Nat → BitVec 8) (om : Nat → F) : Option (St F) :=
  ui8tof32Amd o useSSE4 addr (inLen - inLen % 2) (outLen * 2) im om

/-- One scalar element of `I8tof32`, dsp/conversion_amd64.s:345-350 and 450-455. -/
def i8Step (o : FloatOps F D) (im : Nat → BitVec 8) (s : St F) : Option (St F) :=
  some { s with ip := s.ip + 1, op := s.op + 1, bx := s.bx + 1,
                om := Function.update s.om s.op (o.ofInt (im s.ip).toInt),
                rEnd := max s.rEnd (s.ip + 1), wEnd := max s.wEnd (s.op + 1) }

/-- The alignment loop body with its down counter, dsp/conversion_amd64.s:344-352. -/
def i8AlignStep (o : FloatOps F D) (im : Nat → BitVec 8) (s : St F) : Option (St F) :=
  (i8Step o im s).map fun s => { s with dx := s.dx - 1 }

/-- Sixteen elements with SSE4.1, dsp/conversion_amd64.s:369-396. -/
def i8Sse4 (o : FloatOps F D) (addr : Nat) (im : Nat → BitVec 8) (s : St F) : Option (St F) :=
  if (addr + 4 * s.op) % 16 ≠ 0 then none else
  let x0 := load16 im s.ip
  let om := store4 s.om s.op fun k => o.ofInt (pmovsxbd x0 k).toInt
  let om := store4 om (s.op + 4) fun k => o.ofInt (pmovsxbd (pshufl 1 x0) k).toInt
  let om := store4 om (s.op + 8) fun k => o.ofInt (pmovsxbd (pshufl 2 x0) k).toInt
  let om := store4 om (s.op + 12) fun k => o.ofInt (pmovsxbd (pshufl 3 x0) k).toInt
  some { s with ip := s.ip + 16, op := s.op + 16, bx := s.bx + 16, om := om,
                rEnd := max s.rEnd (s.ip + 16), wEnd := max s.wEnd (s.op + 16) }

/-- Sixteen elements with SSE2, dsp/conversion_amd64.s:406-439. -/
def i8Sse2 (o : FloatOps F D) (addr : Nat) (im : Nat → BitVec 8) (s : St F) : Option (St F) :=
  if (addr + 4 * s.op) % 16 ≠ 0 then none else
  let x0 := load16 im s.ip
  let x1 := punpcklbw x0
  let x2 := x1
  let om := store4 s.om s.op fun k => o.ofInt (psral 24 (punpcklwl x1) k).toInt
  let om := store4 om (s.op + 4) fun k => o.ofInt (psral 24 (punpckhwl x2) k).toInt
  let x0 := punpckhbw x0
  let x2 := x0
  let om := store4 om (s.op + 8) fun k => o.ofInt (psral 24 (punpcklwl x0) k).toInt
  let om := store4 om (s.op + 12) fun k => o.ofInt (psral 24 (punpckhwl x2) k).toInt
  some { s with ip := s.ip + 16, op := s.op + 16, bx := s.bx + 16, om := om,
                rEnd := max s.rEnd (s.ip + 16), wEnd := max s.wEnd (s.op + 16) }

/-- The tail of `I8tof32`, dsp/conversion_amd64.s:445-460. -/
def i8Stepper (o : FloatOps F D) (im : Nat → BitVec 8) (cx : Nat) (s : St F) : Option (St F) :=
  if s.bx ≥ cx then some s
  else doWhile (i8Step o im) (fun s => decide (s.bx < cx)) (cx + 1) s

/-- `I8tof32` from label `i8tof32_aligned`, dsp/conversion_amd64.s:354-460. -/
def i8Aligned (o : FloatOps F D) (useSSE4 : Bool) (addr : Nat) (im : Nat → BitVec 8) (cx : Nat)
    (s : St F) : Option (St F) :=
  let dx := cx - cx % 16
  if s.bx ≥ dx then i8Stepper o im cx s
  else
    (doWhile (if useSSE4 then i8Sse4 o addr im else i8Sse2 o addr im) (fun s => decide (s.bx < dx))
      (cx + 1) s).bind (i8Stepper o im cx)

/-- `I8tof32` on amd64, dsp/conversion_amd64.s:317-460.  The register AX of the source is `bx`
here. -/
def i8tof32Amd (o : FloatOps F D) (useSSE4 : Bool) (addr : Nat) (inLen outLen : Nat)
    (im : Nat → BitVec 8) (om : Nat → F) : Option (St F) :=
  let cx := if inLen ≥ outLen then outLen else inLen
  let s : St F := ⟨0, 0, 0, 0, om, 0, 0⟩
  if 32 ≥ cx then i8Stepper o im cx s
  else
    let bp := addr % 16 / 4
    if bp = 0 then i8Aligned o useSSE4 addr im cx s
    else
      (doWhile (i8AlignStep o im) (fun s => decide (s.dx ≠ 0)) (cx + 1) { s with dx := 16 - bp }).bind
        (i8Aligned o useSSE4 addr im cx)

end Verif.Asm
