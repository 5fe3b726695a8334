import Verif.Mach.MachModel
import Verif.X86.X86Model

/-!
# An instruction-level machine for the arm64 assembly of dsp

Instructions are written as in the sources (Go assembler order: destination last; `CMP a, b` compares `b` with `a`).  Instructions
the assembler did not know are given in the sources as numbers (`WORD $0x…`); here they are decoded bit by bit (`formats`).

The state has the 31 general registers (64 bits), the 32 vector registers (only bytes 0–15 mean anything), the flags, the memory
as a function from 64-bit addresses to bytes and the argument frame.  An access outside the readable or writable addresses, a word
that is not decoded and an operand form the model does not know are faults.  No access has to be aligned (SCTLR_EL1.A = 0).

The argument frame (`name+off(FP)`) is a separate space of 64-bit words by offset.  Floating-point operations are parameters (`Ops`)
without laws.
-/

namespace Verif.A64
open Verif.Mach
open Verif.X86 (Vec byte d32 w16 of32 of16 bytes32)

/-! ## Instruction words -/

/-- The instructions given as numbers. -/
inductive WOp
  | dupB | ldpQ | stpQ | subB | prfm | sxtlB | sxtl2B | sxtlH | sxtl2H | scvtf4 | fmulE | fmax4 | fmin4 | fmaxv | fminv
  deriving DecidableEq, Repr

/-- Formats of the instruction words (Arm Architecture Reference Manual for A-profile, C7.2), lowest bits first.
`dup Vd.16B, Wn`; `ldp`/`stp Qt, Qt2, [Xn, imm]`; `sub Vd.16B`; `prfm`; `sshll Vd.8H, Vn.8B, 0` and `sshll2`, the same for `.4S, .4H`;
`scvtf Vd.4S`; `fmul Vd.4S, Vn.4S, Vm.S[i]` (`M:Rm` is the register, `H:L` the lane); `fmax`, `fmin`, `fmaxv`, `fminv`. -/
def formats : List (WOp × List Seg) :=
  [(.dupB,   [.f 5, .f 5, .k 6 0b000011, .k 5 0b00001, .k 11 0b01001110000]),
   (.ldpQ,   [.f 5, .f 5, .f 5, .f 7, .k 10 0b1010110101]),
   (.stpQ,   [.f 5, .f 5, .f 5, .f 7, .k 10 0b1010110100]),
   (.subB,   [.f 5, .f 5, .k 6 0b100001, .f 5, .k 11 0b01101110001]),
   (.prfm,   [.f 5, .f 5, .f 12, .k 10 0b1111100110]),
   (.sxtlB,  [.f 5, .f 5, .k 6 0b101001, .k 7 0b0001000, .k 9 0b000011110]),
   (.sxtl2B, [.f 5, .f 5, .k 6 0b101001, .k 7 0b0001000, .k 9 0b010011110]),
   (.sxtlH,  [.f 5, .f 5, .k 6 0b101001, .k 7 0b0010000, .k 9 0b000011110]),
   (.sxtl2H, [.f 5, .f 5, .k 6 0b101001, .k 7 0b0010000, .k 9 0b010011110]),
   (.scvtf4, [.f 5, .f 5, .k 6 0b110110, .k 5 0b00001, .k 11 0b01001110001]),
   (.fmulE,  [.f 5, .f 5, .k 1 0, .f 1, .k 4 0b1001, .f 5, .f 1, .k 10 0b0100111110]),
   (.fmax4,  [.f 5, .f 5, .k 6 0b111101, .f 5, .k 11 0b01001110001]),
   (.fmin4,  [.f 5, .f 5, .k 6 0b111101, .f 5, .k 11 0b01001110101]),
   (.fmaxv,  [.f 5, .f 5, .k 6 0b111110, .k 5 0b10000, .k 11 0b01101110001]),
   (.fminv,  [.f 5, .f 5, .k 6 0b111110, .k 5 0b10000, .k 11 0b01101110101])]

/-! ## State -/

/-- The condition flags. -/
structure Flags where
  n : Bool
  z : Bool
  c : Bool
  v : Bool
  deriving DecidableEq, Repr

/-- The machine state. -/
structure St where
  x : Nat → BitVec 64
  v : Nat → Vec
  fl : Flags
  mem : BitVec 64 → BitVec 8
  fp : Nat → BitVec 64

/-- Floating-point operations on bit patterns. -/
structure Ops where
  cvt : Int → BitVec 32
  mul : BitVec 32 → BitVec 32 → BitVec 32
  max : BitVec 32 → BitVec 32 → BitVec 32
  min : BitVec 32 → BitVec 32 → BitVec 32

/-- What does not change during a run: floating point and accessible memory. -/
structure Env where
  o : Ops
  rd : BitVec 64 → Bool
  wr : BitVec 64 → Bool

/-- Write a general register. -/
def St.setX (s : St) (r : Nat) (a : BitVec 64) : St := { s with x := Function.update s.x r a }

/-- Write a vector register. -/
def St.setV (s : St) (r : Nat) (a : Vec) : St := { s with v := Function.update s.v r a }

/-- Flags of `a - b`; C is set when there is no borrow. -/
def subFlags (a b : BitVec 64) : Flags :=
  ⟨(a - b).msb, a - b == 0, !a.ult b, a.msb != b.msb && (a - b).msb != a.msb⟩

/-! ## Execution -/

/-- The offset of a pair of 16-byte registers: a signed field of seven bits, scaled by 16. -/
def pairOff (imm : Nat) : BitVec 64 := (BitVec.ofNat 7 imm).signExtend 64 * 16

/-- Lanes combined pairwise (`Reduce` of the manual). -/
def across (op : BitVec 32 → BitVec 32 → BitVec 32) (x : Vec) : BitVec 32 := op (op (d32 x 0) (d32 x 1)) (op (d32 x 2) (d32 x 3))

/-- The instructions given as numbers; register number 31 as base or source would be SP or ZR and does not occur. -/
def Env.word (e : Env) (s : St) (o : WOp) (fs : List Nat) : Option St :=
  match o with
  | .dupB => match fs with
    | [d, n] => some (s.setV d fun _ => byte (s.x n) 0)
    | _ => none
  | .ldpQ => match fs with
    | [t, n, t2, imm] => if t = t2 then none else
      (load e.rd s.mem (s.x n + pairOff imm) 16).bind fun a => (load e.rd s.mem (s.x n + pairOff imm + BitVec.ofNat 64 16) 16).map fun b => (s.setV t a).setV t2 b
    | _ => none
  | .stpQ => match fs with
    | [t, n, t2, imm] => (store e.wr s.mem (s.x n + pairOff imm) 16 (s.v t)).bind fun m =>
      (store e.wr m (s.x n + pairOff imm + BitVec.ofNat 64 16) 16 (s.v t2)).map fun m => { s with mem := m }
    | _ => none
  | .subB => match fs with
    | [d, n, m] => some (s.setV d fun i => s.v n i - s.v m i)
    | _ => none
  | .prfm => some s
  | .sxtlB => match fs with
    | [d, n] => some (s.setV d (of16 fun l => (s.v n l).signExtend 16))
    | _ => none
  | .sxtl2B => match fs with
    | [d, n] => some (s.setV d (of16 fun l => (s.v n (8 + l)).signExtend 16))
    | _ => none
  | .sxtlH => match fs with
    | [d, n] => some (s.setV d (of32 fun l => (w16 (s.v n) l).signExtend 32))
    | _ => none
  | .sxtl2H => match fs with
    | [d, n] => some (s.setV d (of32 fun l => (w16 (s.v n) (4 + l)).signExtend 32))
    | _ => none
  | .scvtf4 => match fs with
    | [d, n] => some (s.setV d (of32 fun l => e.o.cvt (d32 (s.v n) l).toInt))
    | _ => none
  | .fmulE => match fs with
    | [d, n, h, m, l] => some (s.setV d (of32 fun i => e.o.mul (d32 (s.v n) i) (d32 (s.v m) (2 * h + l))))
    | _ => none
  | .fmax4 => match fs with
    | [d, n, m] => some (s.setV d (of32 fun l => e.o.max (d32 (s.v n) l) (d32 (s.v m) l)))
    | _ => none
  | .fmin4 => match fs with
    | [d, n, m] => some (s.setV d (of32 fun l => e.o.min (d32 (s.v n) l) (d32 (s.v m) l)))
    | _ => none
  | .fmaxv => match fs with
    | [d, n] => some (s.setV d (bytes32 (across e.o.max (s.v n))))
    | _ => none
  | .fminv => match fs with
    | [d, n] => some (s.setV d (bytes32 (across e.o.min (s.v n))))
    | _ => none

/-- Operands of the Go assembler: `R`, `ZR`, `F`, immediate, `disp(R)` and `off(FP)`. -/
inductive Op
  | r (n : Nat)
  | zr
  | f (n : Nat)
  | i (v : Int)
  | m (base disp : Nat)
  | fp (off : Nat)
  deriving DecidableEq, Repr

/-- Mnemonics of the Go assembler; `FMOVSP` is `FMOVS.P` (the base register is advanced after the access). -/
inductive Mn | MOVD | MOVW | MOVBU | ADD | SUB | SUBS | CMP | SCVTFS | FMOVS | FMOVSP | FMULS | FMAXS | FMINS
  deriving DecidableEq, Repr

/-- An instruction. -/
inductive Ins
  | op (mn : Mn) (ops : List Op)
  | WORD (x : Nat)
  deriving DecidableEq, Repr

/-- Conditions of jumps. -/
inductive Cond | B | BEQ | BNE | BLT | BGE
  deriving DecidableEq, Repr

/-- The value of a source operand of 64-bit arithmetic. -/
def St.src (s : St) : Op → Option (BitVec 64)
  | .r n => some (s.x n)
  | .zr => some 0
  | .i v => some (BitVec.ofInt 64 v)
  | _ => none

/-- Instructions with Go mnemonics.  A write of a single-precision register clears the rest of the vector register. -/
def Env.go (e : Env) (s : St) (mn : Mn) (ops : List Op) : Option St :=
  match mn with
  | .MOVD => match ops with
    | [.fp n, .r d] => some (s.setX d (s.fp n))
    | [.r a, .r d] => some (s.setX d (s.x a))
    | _ => none
  | .MOVW => match ops with
    | [.i v, .r d] => some (s.setX d ((BitVec.ofInt 32 v).signExtend 64))
    | _ => none
  | .MOVBU => match ops with
    | [.m b k, .r d] => (load e.rd s.mem (s.x b + BitVec.ofNat 64 k) 1).map fun v => s.setX d ((v 0).setWidth 64)
    | _ => none
  | .ADD => match ops with
    | [p, .r d] => (s.src p).map fun v => s.setX d (s.x d + v)
    | _ => none
  | .SUB => match ops with
    | [p, .r d] => (s.src p).map fun v => s.setX d (s.x d - v)
    | [p, .r n, .r d] => (s.src p).map fun v => s.setX d (s.x n - v)
    | _ => none
  | .SUBS => match ops with
    | [p, .r d] => (s.src p).map fun v => { s.setX d (s.x d - v) with fl := subFlags (s.x d) v }
    | _ => none
  | .CMP => match ops with
    | [p, .r d] => (s.src p).map fun v => { s with fl := subFlags (s.x d) v }
    | _ => none
  | .SCVTFS => match ops with
    | [.r a, .f d] => some (s.setV d (bytes32 (e.o.cvt (s.x a).toInt)))
    | _ => none
  | .FMOVS => match ops with
    | [.fp n, .f d] => some (s.setV d (bytes32 ((s.fp n).setWidth 32)))
    | [.r a, .f d] => some (s.setV d (bytes32 ((s.x a).setWidth 32)))
    | [.m b k, .f d] => (load e.rd s.mem (s.x b + BitVec.ofNat 64 k) 4).map fun v => s.setV d v
    | [.f a, .m b k] => (store e.wr s.mem (s.x b + BitVec.ofNat 64 k) 4 (s.v a)).map fun m => { s with mem := m }
    | [.f a, .fp n] => some { s with fp := Function.update s.fp n ((s.fp n).extractLsb' 32 32 ++ d32 (s.v a) 0) }
    | _ => none
  | .FMOVSP => match ops with
    | [.m b k, .f d] => (load e.rd s.mem (s.x b) 4).map fun v => (s.setV d v).setX b (s.x b + BitVec.ofNat 64 k)
    | [.f a, .m b k] => (store e.wr s.mem (s.x b) 4 (s.v a)).map fun m => { s.setX b (s.x b + BitVec.ofNat 64 k) with mem := m }
    | _ => none
  | .FMULS => match ops with
    | [.f m, .f n, .f d] => some (s.setV d (bytes32 (e.o.mul (d32 (s.v n) 0) (d32 (s.v m) 0))))
    | _ => none
  | .FMAXS => match ops with
    | [.f m, .f n, .f d] => some (s.setV d (bytes32 (e.o.max (d32 (s.v n) 0) (d32 (s.v m) 0))))
    | _ => none
  | .FMINS => match ops with
    | [.f m, .f n, .f d] => some (s.setV d (bytes32 (e.o.min (d32 (s.v n) 0) (d32 (s.v m) 0))))
    | _ => none

/-- One instruction. -/
def Env.exec (e : Env) (i : Ins) (s : St) : Option St :=
  match i with
  | .op mn ops => e.go s mn ops
  | .WORD x => match decode formats x with
    | some (o, fs) => e.word s o fs
    | none => none

/-- Is the jump taken? -/
def Flags.taken (f : Flags) : Cond → Bool
  | .B => true
  | .BEQ => f.z
  | .BNE => !f.z
  | .BLT => f.n != f.v
  | .BGE => f.n == f.v

/-- The machine. -/
def sem (e : Env) : Sem St Ins Cond := ⟨e.exec, fun c s => s.fl.taken c⟩

end Verif.A64
