import Mathlib.Logic.Function.Basic
import Mathlib.Tactic.Common

/-!
# An instruction-level machine for the amd64 assembly of dsp

Instructions are written as in the sources (Go assembler order: source first, destination last).  A program is a list with
one entry for every line of the source file, so that the program counter `n` is the line `n + 1`; blank lines, comments and
directives are `nop`.

The state has the general registers the code uses (64 bits each), the vector registers as bytes (16 for `X`, 32 for `Y`), the
flags, the memory as a function from 64-bit addresses to bytes and the argument frame.  Arithmetic wraps around.  A flag that
the processor leaves undefined is `none`; a jump on it, an access outside the readable or writable addresses, an aligned access
to an address that is not a multiple of 16 and an operand form the model does not know are faults.

The argument frame (`name+off(FP)`) is a separate space of 64-bit words by offset: arguments do not overlap the data.
Floating-point operations are parameters (`Ops`) without laws.
-/

namespace Verif.X86

/-- The general registers used by the code. -/
inductive Reg | AX | BX | CX | DX | SI | DI | BP
  deriving DecidableEq, Repr

/-- Package variables read by the code (dsp/cpu_amd64.go). -/
inductive Sym | useSSE2 | useSSE4 | useAVX2
  deriving DecidableEq, Repr

/-- Operands; `R` and `X` are the names of general and vector registers. -/
inductive Op (R X : Type)
  | r (a : R)
  | x (a : X)
  | y (a : X)
  | i (v : Int)
  | m (base : R) (disp : Nat)
  | ix (base idx : R) (scale : Nat)
  | fp (off : Nat)
  | sb (s : Sym)
  deriving DecidableEq, Repr

/-- Mnemonics of the Go assembler. -/
inductive Mn
  | MOVQ | MOVL | MOVD | MOVB | MOVW | MOVBQZX | MOVBQSX | MOVWLSX | LEAQ
  | ADDQ | SUBQ | ANDQ | INCQ | DECQ | SHRQ | SHLQ | SARQ | CMPQ | CMPB
  | MOVSS | MOVSD | MOVOU | MOVUPS | MOVUPD | MOVO | MOVAPS | MOVHLPS | MOVHPS
  | PSUBB | PUNPCKLBW | PUNPCKHBW | PUNPCKLWL | PUNPCKHWL | PSHUFL | PSHUFD | PSRAL | PMOVSXBD | PMOVSXWD | PACKSSLW | XORPS
  | CVTSQ2SS | CVTSL2SS | CVTSL2SD | CVTTSS2SL | CVTPL2PS | CVTPL2PD | CVTTPS2PL
  | MULSS | MULSD | MULPS | MULPD | MAXPS | MINPS | UCOMISS
  | VMOVUPS | VMULPS | VMAXPS | VMINPS | VBROADCASTSS | VEXTRACTF128
  deriving DecidableEq, Repr

/-- Jumps. -/
inductive Jc | JMP | JZ | JNZ | JE | JNE | JGE | JLT | JG | JLS
  deriving DecidableEq, Repr

/-- One line of a source file. -/
inductive Line (L R X : Type)
  | nop
  | label (l : L)
  | ins (mn : Mn) (ops : List (Op R X))
  | j (c : Jc) (l : L)
  | RET
  deriving DecidableEq, Repr

/-- The vector registers are numbered. -/
abbrev POp := Op Reg Nat

/-! ## State -/

/-- The general registers. -/
structure Gpr where
  ax : BitVec 64
  bx : BitVec 64
  cx : BitVec 64
  dx : BitVec 64
  si : BitVec 64
  di : BitVec 64
  bp : BitVec 64

/-- Read a register. -/
def Gpr.get (g : Gpr) : Reg → BitVec 64
  | .AX => g.ax | .BX => g.bx | .CX => g.cx | .DX => g.dx | .SI => g.si | .DI => g.di | .BP => g.bp

/-- Write a register. -/
def Gpr.set (g : Gpr) (r : Reg) (v : BitVec 64) : Gpr :=
  match r with
  | .AX => { g with ax := v } | .BX => { g with bx := v } | .CX => { g with cx := v } | .DX => { g with dx := v }
  | .SI => { g with si := v } | .DI => { g with di := v } | .BP => { g with bp := v }

/-- A vector register: bytes 0–31, 0 lowest. -/
abbrev Vec := Nat → BitVec 8

/-- The flags; `none` is undefined. -/
structure Flags where
  zf : Option Bool
  sf : Option Bool
  of : Option Bool
  cf : Option Bool

/-- The machine state. -/
structure St where
  g : Gpr
  x : Nat → Vec
  fl : Flags
  mem : BitVec 64 → BitVec 8
  fp : Nat → BitVec 64

/-- Floating-point operations on bit patterns: `maxss a b` is the result of `MAXPS` with first operand (destination) `a` and second
operand (source) `b`; `ucom a b` are ZF and CF after comparing `a` with `b`. -/
structure Ops where
  cvt32 : Int → BitVec 32
  cvt64 : Int → BitVec 64
  trunc32 : BitVec 32 → BitVec 32
  mul32 : BitVec 32 → BitVec 32 → BitVec 32
  mul64 : BitVec 64 → BitVec 64 → BitVec 64
  maxss : BitVec 32 → BitVec 32 → BitVec 32
  minss : BitVec 32 → BitVec 32 → BitVec 32
  ucom : BitVec 32 → BitVec 32 → Bool × Bool

/-- What does not change during a run: floating point, accessible memory, the package variables. -/
structure Env where
  o : Ops
  rd : BitVec 64 → Bool
  wr : BitVec 64 → Bool
  sym : Sym → BitVec 8

/-! ## Memory and lanes -/

/-- All `n` bytes from `a` satisfy `p`. -/
def allBytes (p : BitVec 64 → Bool) (a : BitVec 64) (n : Nat) : Bool := (List.range n).all fun i => p (a + BitVec.ofNat 64 i)

/-- Overwrite `n` bytes from `a` by `v 0`, `v 1`, …; addresses wrap around. -/
def fill (mem : BitVec 64 → BitVec 8) (a : BitVec 64) (n : Nat) (v : Nat → BitVec 8) : BitVec 64 → BitVec 8 :=
  fun b => if (b - a).toNat < n then v (b - a).toNat else mem b

/-- Load `n` bytes; the other bytes are zero. -/
def Env.load (e : Env) (s : St) (a : BitVec 64) (n : Nat) : Option Vec :=
  if allBytes e.rd a n then some fun i => if i < n then s.mem (a + BitVec.ofNat 64 i) else 0 else none

/-- Store `n` bytes. -/
def Env.store (e : Env) (s : St) (a : BitVec 64) (n : Nat) (v : Vec) : Option St :=
  if allBytes e.wr a n then some { s with mem := fill s.mem a n v } else none

/-- Byte `k` of a number. -/
def byte {w : Nat} (v : BitVec w) (k : Nat) : BitVec 8 := v.extractLsb' (8 * k) 8

/-- The bytes of a 64-bit number. -/
def bytes64 (v : BitVec 64) : Vec := fun i => if i < 8 then byte v i else 0

/-- The bytes of a 32-bit number. -/
def bytes32 (v : BitVec 32) : Vec := fun i => if i < 4 then byte v i else 0

/-- The 16-bit lane `k` (little-endian). -/
def w16 (x : Vec) (k : Nat) : BitVec 16 := x (2 * k + 1) ++ x (2 * k)

/-- The 32-bit lane `k`. -/
def d32 (x : Vec) (k : Nat) : BitVec 32 := x (4 * k + 3) ++ x (4 * k + 2) ++ x (4 * k + 1) ++ x (4 * k)

/-- The 64-bit lane `k`. -/
def q64 (x : Vec) (k : Nat) : BitVec 64 := d32 x (2 * k + 1) ++ d32 x (2 * k)

/-- A vector from 32-bit lanes. -/
def of32 (f : Nat → BitVec 32) : Vec := fun i => byte (f (i / 4)) (i % 4)

/-- A vector from 64-bit lanes. -/
def of64 (f : Nat → BitVec 64) : Vec := fun i => byte (f (i / 8)) (i % 8)

/-- A vector from 16-bit lanes. -/
def of16 (f : Nat → BitVec 16) : Vec := fun i => byte (f (i / 2)) (i % 2)

/-- The first `n` bytes from `new`, the rest from `old`. -/
def low (n : Nat) (new old : Vec) : Vec := fun i => if i < n then new i else old i

/-- Saturate to 16 bits signed. -/
def sat16 (v : BitVec 32) : BitVec 16 := BitVec.ofInt 16 (max (-32768) (min 32767 v.toInt))

/-! ## Instructions -/

/-- Write a general register. -/
def St.setR (s : St) (r : Reg) (v : BitVec 64) : St := { s with g := s.g.set r v }

/-- Write a vector register. -/
def St.setX (s : St) (n : Nat) (v : Vec) : St := { s with x := Function.update s.x n v }

/-- Write the low 16 bytes of a vector register. -/
def St.setLow (s : St) (n : Nat) (v : Vec) : St := s.setX n (low 16 v (s.x n))

/-- Flags of `a - b` with result `a - b`. -/
def subFlags (a b : BitVec 64) : Flags :=
  ⟨some (a - b == 0), some (a - b).msb, some (a.msb != b.msb && (a - b).msb != a.msb), some (a.ult b)⟩

/-- Flags of `a + b`. -/
def addFlags (a b : BitVec 64) : Flags :=
  ⟨some (a + b == 0), some (a + b).msb, some (a.msb == b.msb && (a + b).msb != a.msb), some ((a + b).ult a)⟩

/-- Flags of a logical operation. -/
def logicFlags (v : BitVec 64) : Flags := ⟨some (v == 0), some v.msb, some false, some false⟩

/-- Flags of a shift by a count other than zero; the overflow and carry flags are taken as undefined. -/
def shiftFlags (v : BitVec 64) : Flags := ⟨some (v == 0), some v.msb, none, none⟩

/-- A 32-bit immediate, sign-extended. -/
def imm32 (v : Int) : BitVec 64 := (BitVec.ofInt 32 v).signExtend 64

/-- The value of a source operand of 64-bit arithmetic. -/
def St.src (s : St) : POp → Option (BitVec 64)
  | .r a => some (s.g.get a)
  | .i v => some (imm32 v)
  | _ => none

/-- The address of a memory operand. -/
def St.addr (s : St) : POp → Option (BitVec 64)
  | .m b d => some (s.g.get b + BitVec.ofNat 64 d)
  | .ix b i k => some (s.g.get b + s.g.get i * BitVec.ofNat 64 k)
  | _ => none

/-- Vector moves of `n` bytes without alignment between memory and registers. -/
def Env.vmove (e : Env) (s : St) (n : Nat) (ops : List POp) : Option St :=
  match ops with
  | [.x a, .x b] => some (s.setX b (low n (s.x a) (s.x b)))
  | [.y a, .y b] => some (s.setX b (low n (s.x a) (s.x b)))
  | [.m b d, .x a] => (e.load s (s.g.get b + BitVec.ofNat 64 d) n).map fun v => s.setX a (low n v (s.x a))
  | [.m b d, .y a] => (e.load s (s.g.get b + BitVec.ofNat 64 d) n).map fun v => s.setX a (low n v (s.x a))
  | [.x a, .m b d] => e.store s (s.g.get b + BitVec.ofNat 64 d) n (s.x a)
  | [.y a, .m b d] => e.store s (s.g.get b + BitVec.ofNat 64 d) n (s.x a)
  | _ => none

/-- Is the memory operand aligned to 16 bytes? -/
def St.aligned (s : St) (ops : List POp) : Bool :=
  ops.all fun p => match s.addr p with
    | some a => a.toNat % 16 == 0
    | none => true

/-- Lane-wise operation on `X` registers: `dst := f dst src` (bytes 0–15). -/
def St.vop2 (s : St) (ops : List POp) (f : Vec → Vec → Vec) : Option St :=
  match ops with
  | [.x a, .x b] => some (s.setLow b (f (s.x b) (s.x a)))
  | _ => none

/-- Lane-wise operation on three `Y` registers, `OP src2, src1, dst` (bytes 0–31). -/
def St.vop3 (s : St) (ops : List POp) (f : Vec → Vec → Vec) : Option St :=
  match ops with
  | [.y a, .y b, .y c] => some (s.setX c (low 32 (f (s.x b) (s.x a)) (s.x c)))
  | _ => none

/-- Write the low 32 bits of a register and clear the others. -/
def St.setR32 (s : St) (r : Reg) (v : BitVec 32) : St := s.setR r (v.setWidth 64)

/-- One instruction that is not a jump.  `MOVHPS X, X` has the encoding of `MOVLHPS`. -/
def Env.exec (e : Env) (s : St) (mn : Mn) (ops : List POp) : Option St :=
  match mn with
  | .MOVQ => match ops with
    | [.i v, .r d] => some (s.setR d (BitVec.ofInt 64 v))
    | [.r a, .r d] => some (s.setR d (s.g.get a))
    | [.fp n, .r d] => some (s.setR d (s.fp n))
    | [.r a, .fp n] => some { s with fp := Function.update s.fp n (s.g.get a) }
    | [.r a, .x d] => some (s.setLow d (bytes64 (s.g.get a)))
    | [.fp n, .x d] => some (s.setLow d (bytes64 (s.fp n)))
    | [.m b k, .x d] => (e.load s (s.g.get b + BitVec.ofNat 64 k) 8).map fun v => s.setLow d v
    | _ => none
  | .MOVL => match ops with
    | [.i v, .r d] => some (s.setR32 d (BitVec.ofInt 32 v))
    | [.r a, .x d] => some (s.setLow d (bytes32 ((s.g.get a).setWidth 32)))
    | _ => none
  | .MOVD => match ops with
    | [.r a, .x d] => some (s.setLow d (bytes32 ((s.g.get a).setWidth 32)))
    | _ => none
  | .MOVB => match ops with
    | [.r a, .m b k] => e.store s (s.g.get b + BitVec.ofNat 64 k) 1 (fun i => byte (s.g.get a) i)
    | _ => none
  | .MOVW => match ops with
    | [.r a, .m b k] => e.store s (s.g.get b + BitVec.ofNat 64 k) 2 (fun i => byte (s.g.get a) i)
    | _ => none
  | .MOVBQZX => match ops with
    | [.m b k, .r d] => (e.load s (s.g.get b + BitVec.ofNat 64 k) 1).map fun v => s.setR d ((v 0).setWidth 64)
    | _ => none
  | .MOVBQSX => match ops with
    | [.m b k, .r d] => (e.load s (s.g.get b + BitVec.ofNat 64 k) 1).map fun v => s.setR d ((v 0).signExtend 64)
    | _ => none
  | .MOVWLSX => match ops with
    | [.m b k, .r d] => (e.load s (s.g.get b + BitVec.ofNat 64 k) 2).map fun v => s.setR32 d ((w16 v 0).signExtend 32)
    | _ => none
  | .LEAQ => match ops with
    | [p, .r d] => (s.addr p).map fun a => s.setR d a
    | _ => none
  | .ADDQ => match ops with
    | [p, .r d] => (s.src p).map fun v => { s.setR d (s.g.get d + v) with fl := addFlags (s.g.get d) v }
    | _ => none
  | .SUBQ => match ops with
    | [p, .r d] => (s.src p).map fun v => { s.setR d (s.g.get d - v) with fl := subFlags (s.g.get d) v }
    | _ => none
  | .ANDQ => match ops with
    | [p, .r d] => (s.src p).map fun v => { s.setR d (s.g.get d &&& v) with fl := logicFlags (s.g.get d &&& v) }
    | _ => none
  | .INCQ => match ops with
    | [.r d] => some { s.setR d (s.g.get d + 1) with fl := { addFlags (s.g.get d) 1 with cf := s.fl.cf } }
    | _ => none
  | .DECQ => match ops with
    | [.r d] => some { s.setR d (s.g.get d - 1) with fl := { subFlags (s.g.get d) 1 with cf := s.fl.cf } }
    | _ => none
  | .SHRQ => match ops with
    | [.i k, .r d] => some { s.setR d (s.g.get d >>> k.toNat) with fl := shiftFlags (s.g.get d >>> k.toNat) }
    | _ => none
  | .SHLQ => match ops with
    | [.i k, .r d] => some { s.setR d (s.g.get d <<< k.toNat) with fl := shiftFlags (s.g.get d <<< k.toNat) }
    | _ => none
  | .SARQ => match ops with
    | [.i k, .r d] => some { s.setR d ((s.g.get d).sshiftRight k.toNat) with fl := shiftFlags ((s.g.get d).sshiftRight k.toNat) }
    | _ => none
  | .CMPQ => match ops with
    | [.r a, .r b] => some { s with fl := subFlags (s.g.get a) (s.g.get b) }
    | _ => none
  | .CMPB => match ops with
    | [.sb v, .i k] =>
      let a := (e.sym v).signExtend 64
      let b := (BitVec.ofInt 8 k).signExtend 64
      some { s with fl := ⟨some (a == b), none, none, none⟩ }
    | _ => none
  | .MOVSS => match ops with
    | [.fp n, .x d] => some (s.setLow d (bytes32 ((s.fp n).setWidth 32)))
    | [.m b k, .x d] => (e.load s (s.g.get b + BitVec.ofNat 64 k) 4).map fun v => s.setLow d v
    | [.x a, .m b k] => e.store s (s.g.get b + BitVec.ofNat 64 k) 4 (s.x a)
    | [.x a, .fp n] => some { s with fp := Function.update s.fp n ((s.fp n).extractLsb' 32 32 ++ d32 (s.x a) 0) }
    | _ => none
  | .MOVSD => match ops with
    | [.x a, .m b k] => e.store s (s.g.get b + BitVec.ofNat 64 k) 8 (s.x a)
    | _ => none
  | .MOVOU => e.vmove s 16 ops
  | .MOVUPS => e.vmove s 16 ops
  | .MOVUPD => e.vmove s 16 ops
  | .MOVO => if s.aligned ops then e.vmove s 16 ops else none
  | .MOVAPS => if s.aligned ops then e.vmove s 16 ops else none
  | .MOVHLPS => s.vop2 ops fun d a => fun i => if i < 8 then a (8 + i) else d i
  | .MOVHPS => s.vop2 ops fun d a => fun i => if i < 8 then d i else a (i - 8)
  | .PSUBB => s.vop2 ops fun d a => fun i => d i - a i
  | .PUNPCKLBW => s.vop2 ops fun d a => fun i => if i % 2 = 0 then d (i / 2) else a (i / 2)
  | .PUNPCKHBW => s.vop2 ops fun d a => fun i => if i % 2 = 0 then d (8 + i / 2) else a (8 + i / 2)
  | .PUNPCKLWL => s.vop2 ops fun d a => fun i => if i / 2 % 2 = 0 then d (2 * (i / 4) + i % 2) else a (2 * (i / 4) + i % 2)
  | .PUNPCKHWL => s.vop2 ops fun d a => fun i => if i / 2 % 2 = 0 then d (8 + 2 * (i / 4) + i % 2) else a (8 + 2 * (i / 4) + i % 2)
  | .PSHUFL => match ops with
    | [.i k, .x a, .x b] => some (s.setLow b fun i => s.x a (4 * (k.toNat / 4 ^ (i / 4) % 4) + i % 4))
    | _ => none
  | .PSHUFD => match ops with
    | [.i k, .x a, .x b] => some (s.setLow b fun i => s.x a (4 * (k.toNat / 4 ^ (i / 4) % 4) + i % 4))
    | _ => none
  | .PSRAL => match ops with
    | [.i k, .x b] => some (s.setLow b (of32 fun l => (d32 (s.x b) l).sshiftRight k.toNat))
    | _ => none
  | .PMOVSXBD => s.vop2 ops fun _ a => of32 fun l => (a l).signExtend 32
  | .PMOVSXWD => s.vop2 ops fun _ a => of32 fun l => (w16 a l).signExtend 32
  | .PACKSSLW => s.vop2 ops fun d a => of16 fun l => if l < 4 then sat16 (d32 d l) else sat16 (d32 a (l - 4))
  | .XORPS => s.vop2 ops fun d a => fun i => d i ^^^ a i
  | .CVTSQ2SS => match ops with
    | [.r a, .x b] => some (s.setX b (low 4 (bytes32 (e.o.cvt32 (s.g.get a).toInt)) (s.x b)))
    | _ => none
  | .CVTSL2SS => match ops with
    | [.r a, .x b] => some (s.setX b (low 4 (bytes32 (e.o.cvt32 ((s.g.get a).setWidth 32).toInt)) (s.x b)))
    | _ => none
  | .CVTSL2SD => match ops with
    | [.r a, .x b] => some (s.setX b (low 8 (bytes64 (e.o.cvt64 ((s.g.get a).setWidth 32).toInt)) (s.x b)))
    | _ => none
  | .CVTTSS2SL => match ops with
    | [.x a, .r d] => some (s.setR32 d (e.o.trunc32 (d32 (s.x a) 0)))
    | _ => none
  | .CVTPL2PS => s.vop2 ops fun _ a => of32 fun l => e.o.cvt32 (d32 a l).toInt
  | .CVTPL2PD => s.vop2 ops fun _ a => of64 fun l => e.o.cvt64 (d32 a l).toInt
  | .CVTTPS2PL => s.vop2 ops fun _ a => of32 fun l => e.o.trunc32 (d32 a l)
  | .MULSS => s.vop2 ops fun d a => low 4 (bytes32 (e.o.mul32 (d32 d 0) (d32 a 0))) d
  | .MULSD => s.vop2 ops fun d a => low 8 (bytes64 (e.o.mul64 (q64 d 0) (q64 a 0))) d
  | .MULPS => s.vop2 ops fun d a => of32 fun l => e.o.mul32 (d32 d l) (d32 a l)
  | .MULPD => s.vop2 ops fun d a => of64 fun l => e.o.mul64 (q64 d l) (q64 a l)
  | .MAXPS => s.vop2 ops fun d a => of32 fun l => e.o.maxss (d32 d l) (d32 a l)
  | .MINPS => s.vop2 ops fun d a => of32 fun l => e.o.minss (d32 d l) (d32 a l)
  | .UCOMISS => match ops with
    | [.x a, .x b] =>
      let f := e.o.ucom (d32 (s.x b) 0) (d32 (s.x a) 0)
      some { s with fl := ⟨some f.1, some false, some false, some f.2⟩ }
    | _ => none
  | .VMOVUPS => e.vmove s 32 ops
  | .VMULPS => s.vop3 ops fun d a => of32 fun l => e.o.mul32 (d32 d l) (d32 a l)
  | .VMAXPS => s.vop3 ops fun d a => of32 fun l => e.o.maxss (d32 d l) (d32 a l)
  | .VMINPS => s.vop3 ops fun d a => of32 fun l => e.o.minss (d32 d l) (d32 a l)
  | .VBROADCASTSS => match ops with
    | [.x a, .y b] => some (s.setX b (low 32 (fun i => s.x a (i % 4)) (s.x b)))
    | _ => none
  | .VEXTRACTF128 => match ops with
    | [.i 1, .y a, .x b] => some (s.setX b (fun i => if i < 16 then s.x a (16 + i) else 0))
    | _ => none

/-- Is the jump taken? -/
def Flags.taken (f : Flags) : Jc → Option Bool
  | .JMP => some true
  | .JZ => f.zf
  | .JE => f.zf
  | .JNZ => f.zf.map not
  | .JNE => f.zf.map not
  | .JGE => f.sf.bind fun a => f.of.map fun b => a == b
  | .JLT => f.sf.bind fun a => f.of.map fun b => a != b
  | .JG => f.zf.bind fun z => f.sf.bind fun a => f.of.map fun b => !z && a == b
  | .JLS => f.cf.bind fun c => f.zf.map fun z => c || z

/-! ## Programs -/

variable {L : Type} [DecidableEq L]

/-- A program. -/
abbrev Prog (L : Type) := List (Line L Reg Nat)

/-- The line of a label. -/
def Prog.line (p : Prog L) (l : L) : Option Nat := p.idxOf? (.label l)

/-- Outcome of a run: returned, jumped to a routine `l` outside of the program, faulted, or not yet finished. -/
inductive Out (L : Type)
  | done (s : St)
  | tail (l : L) (s : St)
  | fault
  | more (pc : Nat) (s : St)

/-- One line. -/
def step (e : Env) (p : Prog L) (pc : Nat) (s : St) : Out L :=
  match p[pc]? with
  | none => .fault
  | some .nop => .more (pc + 1) s
  | some (.label _) => .more (pc + 1) s
  | some .RET => .done s
  | some (.ins mn ops) => match e.exec s mn ops with
    | some s' => .more (pc + 1) s'
    | none => .fault
  | some (.j c l) => match s.fl.taken c with
    | none => .fault
    | some true => match p.line l with
      | some t => .more t s
      | none => .tail l s
    | some false => .more (pc + 1) s

/-- Run at most `fuel` lines. -/
def run (e : Env) (p : Prog L) : Nat → Nat → St → Out L
  | 0, pc, s => .more pc s
  | fuel + 1, pc, s => match step e p pc s with
    | .more pc' s' => run e p fuel pc' s'
    | r => r

end Verif.X86
