import Verif.Mach.MachModel
import Verif.Cpu.ArchModel
import Verif.Cpu.CpuidModel

/-!
# The assembly of dsp/internal/cpu, instruction by instruction, and the Go code that calls it

dsp/internal/cpu/cpu_x86.s, cpu_arm64.s and cpu_s390x.s (cpu.s contains no code).  Programs are lists of lines (`Mach`), so that the
program counter is the line number of the source.  The argument frame `name+off(FP)` is memory at the address `fp + off`; an access to an
address that must not be read or written is a fault, and so is an instruction that the hardware does not have or does not permit.
General registers have 64 bits; on 386 only their low halves exist.
-/

namespace Verif.Cpu.Asm
open Verif.Mach

/-- Registers, memory with the addresses that can be read and written, and the address of the argument frame. -/
structure St (w : Nat) (R : Type) where
  reg : R → BitVec 64
  mem : BitVec w → BitVec 8
  rd : BitVec w → Bool
  wr : BitVec w → Bool
  fp : BitVec w

variable {w : Nat} {R : Type} [DecidableEq R]

/-- Set a register. -/
def St.set (s : St w R) (r : R) (v : BitVec 64) : St w R := { s with reg := Function.update s.reg r v }

/-- Byte `i` of a word, the least significant first. -/
def leByte {n : Nat} (v : BitVec n) (i : Nat) : BitVec 8 := v.extractLsb' (8 * i) 8

/-- Four bytes, least significant first. -/
def le32 (v : Nat → BitVec 8) : BitVec 32 := v 3 ++ v 2 ++ v 1 ++ v 0

/-- Eight bytes, least significant first. -/
def le64 (v : Nat → BitVec 8) : BitVec 64 := v 7 ++ v 6 ++ v 5 ++ v 4 ++ v 3 ++ v 2 ++ v 1 ++ v 0

/-- The bytes from an address on. -/
def from_ (mem : BitVec w → BitVec 8) (a : BitVec w) : Nat → BitVec 8 := fun i => mem (a + BitVec.ofNat w i)

/-! ## 386 and amd64 -/

/-- The registers that are used. -/
inductive XReg | AX | BX | CX | DX
  deriving DecidableEq

/-- What the hardware answers: `CPUID` for the values of EAX and ECX gives EAX, EBX, ECX, EDX; the extended control register XCR0; and
whether the operating system has set CR4.OSXSAVE, without which `XGETBV` is not permitted. -/
structure XHard where
  cpuid : BitVec 32 → BitVec 32 → BitVec 32 × BitVec 32 × BitVec 32 × BitVec 32
  xcr0 : BitVec 64
  osxsave : Bool

/-- `MOVL name+off(FP), r`; `MOVL $v, r`; `CPUID`; `XGETBV`; `MOVL r, name+off(FP)`. -/
inductive XIns
  | arg (off : Nat) (r : XReg)
  | imm (v : Nat) (r : XReg)
  | cpuid
  | xgetbv
  | res (r : XReg) (off : Nat)
  deriving DecidableEq

/-- The low half of a register. -/
def lo32 (v : BitVec 64) : BitVec 32 := v.setWidth 32

/-- The instructions.  A 32-bit result clears the upper half of a register.  `XGETBV` with another number than 0 in ECX is taken as a
fault. -/
def xExec (h : XHard) : XIns → St w XReg → Option (St w XReg)
  | .arg off r, s => (load s.rd s.mem (s.fp + BitVec.ofNat w off) 4).map fun v => s.set r ((le32 v).setWidth 64)
  | .imm v r, s => some (s.set r ((BitVec.ofNat 32 v).setWidth 64))
  | .cpuid, s =>
    let q := h.cpuid (lo32 (s.reg .AX)) (lo32 (s.reg .CX))
    some ((((s.set .AX (q.1.setWidth 64)).set .BX (q.2.1.setWidth 64)).set .CX (q.2.2.1.setWidth 64)).set .DX (q.2.2.2.setWidth 64))
  | .xgetbv, s =>
    if h.osxsave = true ∧ lo32 (s.reg .CX) = 0#32 then
      some ((s.set .AX ((lo32 h.xcr0).setWidth 64)).set .DX (h.xcr0 >>> 32))
    else none
  | .res r off, s =>
    (store s.wr s.mem (s.fp + BitVec.ofNat w off) 4 (leByte (lo32 (s.reg r)))).map fun m => { s with mem := m }

def xSem (h : XHard) : Sem (St w XReg) XIns Empty := ⟨xExec h, fun c => c.elim⟩

/-- dsp/internal/cpu/cpu_x86.s: `cpuid` lines 11-19, `xgetbv` lines 22-27 -/
def xProg : Prog Empty XIns Empty :=
  [.nop, .nop, .nop, .nop, .nop, .nop, .nop, .nop, .nop, .nop, .nop, .nop, .ins (.arg 0 .AX), .ins (.arg 4 .CX), .ins (.cpuid),
   .ins (.res .AX 8), .ins (.res .BX 12), .ins (.res .CX 16), .ins (.res .DX 20), .RET, .nop, .nop, .nop, .ins (.imm 0 .CX),
   .ins (.xgetbv), .ins (.res .AX 0), .ins (.res .DX 4), .RET]

/-- A call `cpuid(a, c)` of Go code (dsp/internal/cpu/cpu_x86.go:13) in the state `s`: the arguments are put into the frame and the
results taken from it. -/
def callCpuid (h : XHard) (s : St w XReg) (a c : BitVec 32) : Option (BitVec 32 × BitVec 32 × BitVec 32 × BitVec 32) :=
  let m := fill (fill s.mem s.fp 4 (leByte a)) (s.fp + BitVec.ofNat w 4) 4 (leByte c)
  match run (xSem h) xProg 9 11 { s with mem := m } with
  | .done t => some (le32 (from_ t.mem (s.fp + BitVec.ofNat w 8)), le32 (from_ t.mem (s.fp + BitVec.ofNat w 12)),
      le32 (from_ t.mem (s.fp + BitVec.ofNat w 16)), le32 (from_ t.mem (s.fp + BitVec.ofNat w 20)))
  | _ => none

/-- A call `xgetbv()`, dsp/internal/cpu/cpu_x86.go:16. -/
def callXgetbv (h : XHard) (s : St w XReg) : Option (BitVec 32 × BitVec 32) :=
  match run (xSem h) xProg 6 22 s with
  | .done t => some (le32 (from_ t.mem s.fp), le32 (from_ t.mem (s.fp + BitVec.ofNat w 4)))
  | _ => none

/-- dsp/internal/cpu/cpu_x86.go:44-115 `doinit` with its calls, without the table of options; `s i` is the state at the `i`-th call.
`none` is a fault in one of the calls.  The variables are `false` before.  The result has the value of `maxExtendedFunctionInformation`
(line 71) too. -/
def detectX86 (h : XHard) (s : Nat → St w XReg) : Option (X86 × BitVec 32) := do
  let q ← callCpuid h (s 0) 0#32 0#32
  let maxID := q.1
  if maxID < 1#32 then pure ({}, 0#32)
  else
    let e ← callCpuid h (s 1) 0x80000000#32 0#32
    let r ← callCpuid h (s 2) 1#32 0#32
    let ecx1 := r.2.2.1
    let edx1 := r.2.2.2
    let x : X86 := { hasSSE2 := isSet edx1 (1#32 <<< 26) }
    let x := { x with hasSSE3 := isSet ecx1 (1#32 <<< 0) }
    let x := { x with hasPCLMULQDQ := isSet ecx1 (1#32 <<< 1) }
    let x := { x with hasSSSE3 := isSet ecx1 (1#32 <<< 9) }
    let x := { x with hasSSE41 := isSet ecx1 (1#32 <<< 19) }
    let x := { x with hasSSE42 := isSet ecx1 (1#32 <<< 20) }
    let x := { x with hasPOPCNT := isSet ecx1 (1#32 <<< 23) }
    let x := { x with hasAES := isSet ecx1 (1#32 <<< 25) }
    let x := { x with hasOSXSAVE := isSet ecx1 (1#32 <<< 27) }
    let x := { x with hasFMA := isSet ecx1 (1#32 <<< 12) && x.hasOSXSAVE }
    let osSupportsAVX ← if x.hasOSXSAVE then do
        let g ← callXgetbv h (s 3)
        pure (isSet g.1 (1#32 <<< 1) && isSet g.1 (1#32 <<< 2))
      else pure false
    let x := { x with hasAVX := isSet ecx1 (1#32 <<< 28) && osSupportsAVX }
    if maxID < 7#32 then pure (x, e.1)
    else
      let r ← callCpuid h (s 4) 7#32 0#32
      let ebx7 := r.2.1
      let x := { x with hasBMI1 := isSet ebx7 (1#32 <<< 3) }
      let x := { x with hasAVX2 := isSet ebx7 (1#32 <<< 5) && osSupportsAVX }
      let x := { x with hasBMI2 := isSet ebx7 (1#32 <<< 8) }
      let x := { x with hasERMS := isSet ebx7 (1#32 <<< 9) }
      let x := { x with hasADX := isSet ebx7 (1#32 <<< 19) }
      pure (x, e.1)

/-! ## arm64 -/

/-- The system registers that are read. -/
inductive Sys | ID_AA64ISAR0_EL1 | MIDR_EL1
  deriving DecidableEq

/-- `MRS sys, Rn` and `MOVD Rn, ret+off(FP)`. -/
inductive AIns
  | mrs (x : Sys) (r : Fin 31)
  | res (r : Fin 31) (off : Nat)
  deriving DecidableEq

/-- The instructions; `mrs` gives the system registers, `none` where the kernel does not let a program read them. -/
def aExec (mrs : Sys → Option (BitVec 64)) : AIns → St w (Fin 31) → Option (St w (Fin 31))
  | .mrs x r, s => (mrs x).map fun v => s.set r v
  | .res r off, s => (store s.wr s.mem (s.fp + BitVec.ofNat w off) 8 (leByte (s.reg r))).map fun m => { s with mem := m }

def aSem (mrs : Sys → Option (BitVec 64)) : Sem (St w (Fin 31)) AIns Empty := ⟨aExec mrs, fun c => c.elim⟩

/-- dsp/internal/cpu/cpu_arm64.s: `getisar0` lines 8-12, `getMIDR` lines 15-18 -/
def aProg : Prog Empty AIns Empty :=
  [.nop, .nop, .nop, .nop, .nop, .nop, .nop, .nop, .nop, .nop, .ins (.mrs .ID_AA64ISAR0_EL1 0), .ins (.res 0 0), .RET, .nop,
   .nop, .nop, .ins (.mrs .MIDR_EL1 0), .ins (.res 0 0), .RET]

/-- A call `getisar0()` (line 8) or `getMIDR()` (line 15), dsp/internal/cpu/cpu_arm64.go:26-28; `line` is the line of its `TEXT`. -/
def callMrs (mrs : Sys → Option (BitVec 64)) (line : Nat) (s : St 64 (Fin 31)) : Option (BitVec 64) :=
  match run (aSem mrs) aProg 5 line s with
  | .done t => some (le64 (from_ t.mem s.fp))
  | _ => none

/-- dsp/internal/cpu/cpu_arm64_hwcap.go:25-59 `hwcapInit` with its call. -/
def detectHwcap (mrs : Sys → Option (BitVec 64)) (android : Bool) (hwcap : BitVec 64) (s : St 64 (Fin 31)) : Option Arch.ARM64 := do
  let x : Arch.ARM64 :=
    { hasAES := Arch.isSet hwcap (1#64 <<< 3)
      hasPMULL := Arch.isSet hwcap (1#64 <<< 4)
      hasSHA1 := Arch.isSet hwcap (1#64 <<< 5)
      hasSHA2 := Arch.isSet hwcap (1#64 <<< 6)
      hasCRC32 := Arch.isSet hwcap (1#64 <<< 7)
      hasCPUID := Arch.isSet hwcap (1#64 <<< 11)
      hasATOMICS := Arch.isSet hwcap (1#64 <<< 8) && !android }
  if x.hasCPUID then
    let midr ← callMrs mrs 15 s
    let x := if Arch.isPart midr 0xd0c then { x with isNeoverseN1 := true } else x
    let x := if Arch.isPart midr 0xd40 then { x with isZeus := true } else x
    pure x
  else pure x

/-- dsp/internal/cpu/cpu_arm64_freebsd.go:10-42 `osInit` with its call. -/
def detectFreeBSD (mrs : Sys → Option (BitVec 64)) (s : St 64 (Fin 31)) : Option Arch.ARM64 := do
  let isar0 ← callMrs mrs 8 s
  pure (Arch.osInitFreeBSD isar0).1

/-! ## s390x -/

/-- What the hardware has: whether `STFLE` is there, the number of doublewords of the facility list, the list, and the answer of each
query, `none` if the instruction is not there.  `zeros` says whether `STFLE` stores zeros behind a list that is shorter than asked for. -/
structure ZHard where
  stfle : Bool
  words : Nat
  list : Nat → BitVec 8
  zeros : Bool
  query : Arch.Query → Option (Nat → BitVec 8)

/-- The instructions given as numbers. -/
inductive ZOp
  | stfle
  | query (q : Arch.Query)
  deriving DecidableEq

/-- Formats (z/Architecture Principles of Operation), lowest bits first: `STFLE D2(B2)`; `KM R1,R2`; `KMC R1,R2`; `KMCTR R1,R3,R2`;
`KMA R1,R3,R2`; `KIMD R1,R2`; `KLMD R1,R2`; `KDSA R1,R2`. -/
def zFormats : List (ZOp × List Seg) :=
  [(.stfle,        [.f 12, .f 4, .k 16 0xb2b0]),
   (.query .km,    [.f 4, .f 4, .k 8 0, .k 16 0xb92e]),
   (.query .kmc,   [.f 4, .f 4, .k 8 0, .k 16 0xb92f]),
   (.query .kmctr, [.f 4, .f 4, .k 4 0, .f 4, .k 16 0xb92d]),
   (.query .kma,   [.f 4, .f 4, .k 4 0, .f 4, .k 16 0xb929]),
   (.query .kimd,  [.f 4, .f 4, .k 8 0, .k 16 0xb93e]),
   (.query .klmd,  [.f 4, .f 4, .k 8 0, .k 16 0xb93f]),
   (.query .kdsa,  [.f 4, .f 4, .k 8 0, .k 16 0xb93a])]

/-- `MOVD $ret+off(FP), Rn`; `MOVD $v, Rn`; `XC $n, (R1), (R2)`; `WORD $x`. -/
inductive ZIns
  | addr (off : Nat) (r : Fin 16)
  | imm (v : Nat) (r : Fin 16)
  | xc (n : Nat) (r1 r2 : Fin 16)
  | word (x : Nat)
  deriving DecidableEq

/-- `XC`: `n` bytes one after the other, from left to right. -/
def xorBytes (mem : BitVec 64 → BitVec 8) (a b : BitVec 64) : Nat → (BitVec 64 → BitVec 8)
  | 0 => mem
  | n + 1 =>
    let m := xorBytes mem a b n
    Function.update m (a + BitVec.ofNat 64 n) (m (a + BitVec.ofNat 64 n) ^^^ m (b + BitVec.ofNat 64 n))

/-- A register pair of a cipher instruction starts at an even register other than 0. -/
def pairOk (r : Nat) : Bool := r != 0 && r % 2 == 0

/-- The registers that an instruction may name: specification exceptions of the Principles of Operation.  The fields are R2, R1 and,
where there is one, R3. -/
def regsOk : Arch.Query → List Nat → Bool
  | .km, [r2, r1] => pairOk r1 && pairOk r2
  | .kmc, [r2, r1] => pairOk r1 && pairOk r2
  | .kmctr, [r2, r1, r3] => pairOk r1 && pairOk r2 && pairOk r3
  | .kma, [r2, r1, r3] => pairOk r1 && pairOk r2 && pairOk r3 && r3 != r1 && r3 != r2
  | .kimd, [r2, _] => pairOk r2
  | .klmd, [r2, _] => pairOk r2
  | .kdsa, [r2, _] => pairOk r2
  | _, _ => false

/-- The instructions.  `STFLE` needs an address that is a multiple of eight, takes the number of doublewords less one from the lowest
byte of R0 and leaves there the number it could have stored, less one.  A cipher instruction whose function code (the seven lowest bits
of R0) is zero stores 16 bytes at the address in R1; other function codes are not modelled (a fault here). -/
def zExec (h : ZHard) : ZIns → St 64 (Fin 16) → Option (St 64 (Fin 16))
  | .addr off r, s => some (s.set r (s.fp + BitVec.ofNat 64 off))
  | .imm v r, s => some (s.set r (BitVec.ofNat 64 v))
  | .xc n r1 r2, s =>
    if allBytes s.rd (s.reg r1) n && allBytes s.wr (s.reg r1) n && allBytes s.rd (s.reg r2) n then
      some { s with mem := xorBytes s.mem (s.reg r1) (s.reg r2) n }
    else none
  | .word x, s =>
    match decode zFormats x with
    | some (.stfle, [d, b]) =>
      let a := (if b = 0 then 0#64 else s.reg (Fin.ofNat 16 b)) + BitVec.ofNat 64 d
      let n := ((s.reg 0).setWidth 8).toNat + 1
      let k := min n h.words
      if h.stfle = false ∨ a.toNat % 8 ≠ 0 then none
      else
        (store s.wr s.mem a (if h.zeros then 8 * n else 8 * k) fun i => if i < 8 * k then h.list i else 0#8).map fun m =>
          { s.set 0 ((s.reg 0).extractLsb' 8 56 ++ BitVec.ofNat 8 (h.words - 1)) with mem := m }
    | some (.query q, fs) =>
      match h.query q with
      | none => none
      | some v =>
        if regsOk q fs = true ∧ (s.reg 0).setWidth 7 = 0#7 then
          (store s.wr s.mem (s.reg 1) 16 v).map fun m => { s with mem := m }
        else none
    | _ => none

def zSem (h : ZHard) : Sem (St 64 (Fin 16)) ZIns Empty := ⟨zExec h, fun c => c.elim⟩

/-- dsp/internal/cpu/cpu_s390x.s: `stfle` lines 8-13, `kmQuery` 16-20, `kmcQuery` 23-27, `kmctrQuery` 30-34, `kmaQuery` 37-41,
`kimdQuery` 44-48, `klmdQuery` 51-55, `kdsaQuery` 58-62 -/
def zProg : Prog Empty ZIns Empty :=
  [.nop, .nop, .nop, .nop, .nop, .nop, .nop, .nop, .nop, .ins (.addr 0 1), .ins (.imm 3 0), .ins (.xc 32 1 1),
   .ins (.word 0xb2b01000), .RET, .nop, .nop, .nop, .ins (.imm 0 0), .ins (.addr 0 1), .ins (.word 0xb92e0024), .RET, .nop, .nop,
   .nop, .ins (.imm 0 0), .ins (.addr 0 1), .ins (.word 0xb92f0024), .RET, .nop, .nop, .nop, .ins (.imm 0 0), .ins (.addr 0 1),
   .ins (.word 0xb92d4024), .RET, .nop, .nop, .nop, .ins (.imm 0 0), .ins (.addr 0 1), .ins (.word 0xb9296024), .RET, .nop, .nop,
   .nop, .ins (.imm 0 0), .ins (.addr 0 1), .ins (.word 0xb93e0024), .RET, .nop, .nop, .nop, .ins (.imm 0 0), .ins (.addr 0 1),
   .ins (.word 0xb93f0024), .RET, .nop, .nop, .nop, .ins (.imm 0 0), .ins (.addr 0 1), .ins (.word 0xb93a0008), .RET]

/-- The line of the `TEXT` of a query, dsp/internal/cpu/cpu_s390x.s. -/
def textLine : Arch.Query → Nat
  | .km => 16
  | .kmc => 23
  | .kmctr => 30
  | .kma => 37
  | .kimd => 44
  | .klmd => 51
  | .kdsa => 58

/-- A call `stfle()`, dsp/internal/cpu/cpu_s390x.go:128: the bytes of the result. -/
def callStfle (h : ZHard) (s : St 64 (Fin 16)) : Option (Nat → BitVec 8) :=
  match run (zSem h) zProg 6 8 s with
  | .done t => some (from_ t.mem s.fp)
  | _ => none

/-- A call of a query, dsp/internal/cpu/cpu_s390x.go:129-135. -/
def callQuery (h : ZHard) (q : Arch.Query) (s : St 64 (Fin 16)) : Option (Nat → BitVec 8) :=
  match run (zSem h) zProg 5 (textLine q) s with
  | .done t => some (from_ t.mem s.fp)
  | _ => none

/-- dsp/internal/cpu/cpu_s390x.go:137-201 `doinit` with its calls: the results of the calls are given to the model `doinitS390`, which
says which calls are made; `none` is a panic or a fault in one of the calls made. -/
def detectS390 (h : ZHard) (hwcap : BitVec 64) (s : St 64 (Fin 16)) (sq : Arch.Query → St 64 (Fin 16)) : Option Arch.S390X := do
  let b ← callStfle h s
  let (x, t) ← Arch.doinitS390 ⟨hwcap, b, fun q => (callQuery h q (sq q)).getD fun _ => 0#8⟩
  if t.all fun q => (callQuery h q (sq q)).isSome then pure x else none

end Verif.Cpu.Asm
