import Verif.Asm.FromI16Model
import Verif.Asm.ToF32Model

/-!
# Models of the 32-bit ARM conversions

dsp/conversion_arm.s.  `I8tof32`, `I16bleToF64` and `I16bleToF32` jump to the portable code.

The input pointer R1 and the ends it is compared with are 32-bit words; the loops go on while R1 is smaller as a
*signed* number (`CMP`, `BLT`).  Memories are indexed by byte address; a load or store of several bytes is at
consecutive addresses (not wrapping round at 2³²).  The output of the float and int16 routines is counted in
elements from the start of the output slice.  Lengths are natural numbers below 2³¹.  The machine words given with
`WORD` are taken to be the instructions named beside them; `PLD` (prefetch) has no effect.  `neon` and `vector` are
the variables `HaveNEON` and `UseVector`, dsp/cpu_arm.go:14-16.
-/

namespace Verif.Arm
open Verif.Conv Verif.Asm

variable {F D : Type}

/-- An address. -/
abbrev Addr := BitVec 32

/-- The address `k` bytes after `a`. -/
def Addr.plus (a : Addr) (k : Nat) : Addr := a + BitVec.ofNat 32 k

/-- Registers of `Ui8toi16` and the byte memory. -/
structure St8 where
  r1 : Addr
  r3 : Addr
  m : Nat → BitVec 8

/-- `ui8toi16_loop`, dsp/conversion_arm.s:19-24. -/
def i16Step32 (s : St8) : Option St8 :=
  let r0 := (s.m s.r1.toNat).zeroExtend 32 - 128#32
  let m := Function.update s.m s.r3.toNat (r0.truncate 8)
  let m := Function.update m (Addr.plus s.r3 1).toNat (r0.truncate 8)
  some ⟨Addr.plus s.r1 1, Addr.plus s.r3 2, m⟩

/-- `Ui8toi16`, dsp/conversion_arm.s:3-29; `outLen` is a number of 16-bit samples.  Input and output are in the
same memory. -/
def ui8toi16Arm (input : Addr) (inLen : Nat) (output : Addr) (outLen : Nat) (m : Nat → BitVec 8) : Option (Nat → BitVec 8) :=
  let r2 := if outLen < inLen then outLen else inLen
  if r2 = 0 then some m
  else (doWhile i16Step32 (fun s => s.r1.slt (Addr.plus input r2)) (r2 + 1) ⟨input, output, m⟩).map St8.m

/-- `Ui8toi16b`, dsp/conversion_arm.s:31-35; `outLen` is a number of bytes. -/
def ui8toi16bArm (input : Addr) (inLen : Nat) (output : Addr) (outLen : Nat) (m : Nat → BitVec 8) : Option (Nat → BitVec 8) :=
  ui8toi16Arm input inLen output (outLen / 2) m

/-- Registers of the other conversions: R1, the output position (R3) in elements, and the output memory. -/
structure StP (G : Type) where
  r1 : Addr
  dst : Nat
  om : Nat → G

/-- A block loop up to `R1 + m` (left out when `m` is zero) and a loop of single elements up to `R1 + n`:
dsp/conversion_arm.s:55-95 and 141-152, 103-139 and 141-152, 199-225 and 280-292, 230-273 and 280-292; `m` and `n`
are numbers of bytes. -/
def twoLoops {G : Type} (block step : StP G → Option (StP G)) (m n : Nat) (s : StP G) : Option (StP G) :=
  let r2 := Addr.plus s.r1 n
  let r4 := Addr.plus s.r1 m
  (if m = 0 then some s else doWhile block (fun s => s.r1.slt r4) (n + 1) s).bind fun s =>
    if r2 = s.r1 then some s else doWhile step (fun s => s.r1.slt r2) (n + 1) s

/-- The word at address `a`, least significant byte first. -/
def loadW (im : Nat → BitVec 8) (a : Nat) : BitVec 32 := im (a + 3) ++ im (a + 2) ++ im (a + 1) ++ im a
/-- Byte `k` of a word. -/
def byte (x : BitVec 32) (k : Nat) : BitVec 8 := x.extractLsb' (8 * k) 8
/-- `usub8`: the bytes subtracted each for itself. -/
def usub8 (x y : BitVec 32) : BitVec 32 :=
  (byte x 3 - byte y 3) ++ (byte x 2 - byte y 2) ++ (byte x 1 - byte y 1) ++ (byte x 0 - byte y 0)
/-- `sxtb rd, rm, ror #k` -/
def sxtb (x : BitVec 32) (k : Nat) : BitVec 32 := ((x.rotateRight k).truncate 8).signExtend 32

/-- `ui8tof32_loop`, dsp/conversion_arm.s:76-91. -/
def u8Word32 (o : FloatOps F D) (im : Nat → BitVec 8) (s : StP F) : Option (StP F) :=
  let r4 := usub8 (loadW im s.r1.toNat) 0x80808080#32
  let r5 := sxtb r4 8
  let r6 := sxtb r4 16
  let r7 := sxtb r4 24
  let r4 := sxtb r4 0
  some ⟨Addr.plus s.r1 4, s.dst + 4, store4 s.om s.dst fun k =>
    o.ofInt (if k = 0 then r4 else if k = 1 then r5 else if k = 2 then r6 else r7).toInt⟩

/-- `vsubl.u8 q, d, d0` with 128 in every byte of `d0`: eight 16-bit lanes, the differences of the zero-extended
bytes. -/
def vsublU8 (d : Nat → BitVec 8) : Nat → BitVec 16 := fun k => (d k).zeroExtend 16 - (128#8).zeroExtend 16
/-- `vmovl.s16 q, d` for the low (`h = 0`) or high (`h = 1`) half of eight lanes. -/
def vmovlS16 (q : Nat → BitVec 16) (h : Nat) : Nat → BitVec 32 := fun k => (q (4 * h + k)).signExtend 32
/-- `vcvt.f32.s32` -/
def vcvt (o : FloatOps F D) (q : Nat → BitVec 32) : Nat → F := fun k => o.ofInt (q k).toInt

/-- `ui8tof32_neon_loop`, dsp/conversion_arm.s:110-136: 32 bytes. -/
def u8Neon32 (o : FloatOps F D) (im : Nat → BitVec 8) (s : StP F) : Option (StP F) :=
  let r1 := s.r1.toNat
  let d28 := fun k => im (r1 + k)
  let d29 := fun k => im (r1 + 8 + k)
  let d30 := fun k => im (r1 + 16 + k)
  let d31 := fun k => im (r1 + 24 + k)
  let q10 := vsublU8 d28
  let q11 := vsublU8 d29
  let q12 := vsublU8 d30
  let q13 := vsublU8 d31
  let om := store4 s.om s.dst (vcvt o (vmovlS16 q10 0))
  let om := store4 om (s.dst + 4) (vcvt o (vmovlS16 q10 1))
  let om := store4 om (s.dst + 8) (vcvt o (vmovlS16 q11 0))
  let om := store4 om (s.dst + 12) (vcvt o (vmovlS16 q11 1))
  let om := store4 om (s.dst + 16) (vcvt o (vmovlS16 q12 0))
  let om := store4 om (s.dst + 20) (vcvt o (vmovlS16 q12 1))
  let om := store4 om (s.dst + 24) (vcvt o (vmovlS16 q13 0))
  let om := store4 om (s.dst + 28) (vcvt o (vmovlS16 q13 1))
  some ⟨Addr.plus s.r1 32, s.dst + 32, om⟩

/-- `ui8tof32_tail_loop`, dsp/conversion_arm.s:146-150. -/
def u8Tail32 (o : FloatOps F D) (im : Nat → BitVec 8) (s : StP F) : Option (StP F) :=
  let r4 := (im s.r1.toNat).zeroExtend 32 - 128#32
  some ⟨Addr.plus s.r1 1, s.dst + 1, Function.update s.om s.dst (o.ofInt r4.toInt)⟩

/-- `Ui8tof32`, dsp/conversion_arm.s:37-155. -/
def ui8tof32Arm (o : FloatOps F D) (neon : Bool) (input : Addr) (inLen outLen : Nat) (im : Nat → BitVec 8) (om : Nat → F) :
    Option (Nat → F) :=
  let r2 := if outLen < inLen then outLen else inLen
  if r2 = 0 then some om
  else if neon then (twoLoops (u8Neon32 o im) (u8Tail32 o im) (r2 - r2 % 64) r2 ⟨input, 0, om⟩).map StP.om
  else (twoLoops (u8Word32 o im) (u8Tail32 o im) (r2 - r2 % 4) r2 ⟨input, 0, om⟩).map StP.om

/-- `Ui8toc64`, dsp/conversion_arm.s:161-168; `outLen` is a number of complex samples, `om` holds their parts in
turn. -/
def ui8toc64Arm (o : FloatOps F D) (neon : Bool) (input : Addr) (inLen outLen : Nat) (im : Nat → BitVec 8) (om : Nat → F) :
    Option (Nat → F) :=
  ui8tof32Arm o neon input (inLen - inLen % 2) (outLen * 2) im om

/-- `w` floats loaded, multiplied, converted, their low 16 bits stored: dsp/conversion_arm.s:205-220 (`w = 4`)
and, with the multiplication in vector mode, 248-270 (`w = 8`).  `im a` is the float at address `a`. -/
def i16Block32 (o : CvtOps F) (scale : F) (w : Nat) (im : Nat → F) (s : StP (BitVec 16)) : Option (StP (BitVec 16)) :=
  let lane := fun k => o.cvtt (o.mul (im (s.r1.toNat + 4 * k)) scale)
  some ⟨Addr.plus s.r1 (4 * w), s.dst + w, fun a => if s.dst ≤ a ∧ a < s.dst + w then (lane (a - s.dst)).truncate 16 else s.om a⟩

/-- `f32toi16_tail_loop`, dsp/conversion_arm.s:285-290. -/
def i16Tail32 (o : CvtOps F) (scale : F) (im : Nat → F) (s : StP (BitVec 16)) : Option (StP (BitVec 16)) :=
  let r0 := o.cvtt (o.mul (im s.r1.toNat) scale)
  some ⟨Addr.plus s.r1 4, s.dst + 1, Function.update s.om s.dst (r0.truncate 16)⟩

/-- `F32toi16`, dsp/conversion_arm.s:170-295. -/
def f32toi16Arm (o : CvtOps F) (vector : Bool) (input : Addr) (inLen outLen : Nat) (scale : F) (im : Nat → F) (om : Nat → BitVec 16) :
    Option (Nat → BitVec 16) :=
  let r2 := if outLen < inLen then outLen else inLen
  if r2 = 0 then some om
  else
    let w := if vector then 8 else 4
    (twoLoops (i16Block32 o scale w im) (i16Tail32 o scale im) (4 * (r2 - r2 % w)) (4 * r2) ⟨input, 0, om⟩).map StP.om

/-- `F32toi16ble`, dsp/conversion_arm.s:298-302; `outBytes` is a number of bytes, `om` holds 16-bit words, which
the processor (little-endian) stores low byte first. -/
def f32toi16bleArm (o : CvtOps F) (vector : Bool) (input : Addr) (inLen outBytes : Nat) (scale : F) (im : Nat → F) (om : Nat → BitVec 16) :
    Option (Nat → BitVec 16) :=
  f32toi16Arm o vector input inLen (outBytes / 2) scale im om

end Verif.Arm
