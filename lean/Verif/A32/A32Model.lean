import Verif.Mach.MachModel
import Verif.X86.X86Model

/-!
# An instruction-level machine for the 32-bit ARM assembly of dsp

Instructions are written as in the sources (Go assembler order: destination last; `CMP a, b` compares `b` with `a`; `SUB a, b, c` is `c = b - a`).
Instructions the assembler did not know are given in the sources as numbers (`WORD $0x…`); here they are decoded bit by bit (`formats`).

The state has the general registers (32 bits), the 64 words of the floating-point registers (`s0`–`s31`; the register `d n` is the words `2n`
and `2n+1`, `q n` the words `4n`–`4n+3`; `F n` of the Go assembler is `s(2n)` in single precision), the flags, FPSCR, the memory as a function
from 32-bit addresses to bytes and the argument frame.  An access outside the readable or writable addresses, a word that is not decoded and an
operand form the model does not know are faults.  Loads and stores of floating-point registers and of lists of registers must be aligned to four
bytes; the others and the NEON loads and stores need not (SCTLR.A = 0).

The argument frame (`name+off(FP)`) is a separate space of 32-bit words by offset.  Floating-point operations are parameters (`Ops`)
without laws; those of NEON are different ones, since NEON flushes denormal numbers to zero.  The operations do not depend on FPSCR: an
instruction that would change the rounding mode or any other control bit except LEN and STRIDE is a fault.
-/

namespace Verif.A32
open Verif.Mach
open Verif.X86 (Vec byte d32 w16 of32 of16 bytes32)

/-! ## Instruction words -/

/-- The instructions given as numbers. -/
inductive WOp
  | usub8 | sxtb | vmovSR | vmovRS | vcvtF | vcvtI | vldmS | vstmS | vldmD | vstmD | vstr | vdup8 | vld1 | vst1 | vsublU8 | vmovlS16 | vcvtQ
  | vmul | vmla | vsqrt | vneg | vmov | vcmpe | vcmpe0 | vmrs | vmsr | vmulQ | vmaxQ | vpmaxD
  deriving DecidableEq, Repr

/-- Formats of the instruction words (Arm Architecture Reference Manual, ARMv7-A, A8.8), lowest bits first.  The last field of all but
the NEON instructions is the condition.  `usub8 Rd, Rn, Rm`; `sxtb Rd, Rm, ror`; `vmov` of two words between general and single
registers; `vcvt` between `s32` and `f32`; `vldmia`/`vstmia Rn!` of single and double registers; `vstr Sd, [Rn, +imm]`;
`vdup.8 Qd, Rt`; `vld1.32`/`vst1.32` of four double registers with write-back; `vsubl.u8`; `vmovl.s16`; `vcvt.f32.s32 Qd`;
arithmetic in single precision; `vcmpe`; `vmrs`, `vmsr`; `vmul.f32 Qd, Qn, Dm[x]`; `vmax.f32 Qd`; `vpmax.f32 Dd`. -/
def formats : List (WOp × List Seg) :=
  [(.usub8,   [.f 4, .k 8 0b11111111, .f 4, .f 4, .k 8 0b01100101, .f 4]),
   (.sxtb,    [.f 4, .k 6 0b000111, .f 2, .f 4, .k 12 0b011010101111, .f 4]),
   (.vmovSR,  [.f 4, .k 1 1, .f 1, .k 6 0b101000, .f 4, .f 4, .k 8 0b11000100, .f 4]),
   (.vmovRS,  [.f 4, .k 1 1, .f 1, .k 6 0b101000, .f 4, .f 4, .k 8 0b11000101, .f 4]),
   (.vcvtF,   [.f 4, .k 1 0, .f 1, .k 6 0b101011, .f 4, .k 6 0b111000, .f 1, .k 5 0b11101, .f 4]),
   (.vcvtI,   [.f 4, .k 1 0, .f 1, .k 6 0b101011, .f 4, .k 6 0b111101, .f 1, .k 5 0b11101, .f 4]),
   (.vldmS,   [.f 8, .k 4 0b1010, .f 4, .f 4, .k 2 0b11, .f 1, .k 5 0b11001, .f 4]),
   (.vstmS,   [.f 8, .k 4 0b1010, .f 4, .f 4, .k 2 0b10, .f 1, .k 5 0b11001, .f 4]),
   (.vldmD,   [.f 8, .k 4 0b1011, .f 4, .f 4, .k 2 0b11, .f 1, .k 5 0b11001, .f 4]),
   (.vstmD,   [.f 8, .k 4 0b1011, .f 4, .f 4, .k 2 0b10, .f 1, .k 5 0b11001, .f 4]),
   (.vstr,    [.f 8, .k 4 0b1010, .f 4, .f 4, .k 2 0b00, .f 1, .k 5 0b11011, .f 4]),
   (.vdup8,   [.k 7 0b0010000, .f 1, .k 4 0b1011, .f 4, .f 4, .k 8 0b11101110, .f 4]),
   (.vld1,    [.k 12 0b001010001101, .f 4, .f 4, .k 2 0b10, .f 1, .k 9 0b111101000]),
   (.vst1,    [.k 12 0b001010001101, .f 4, .f 4, .k 2 0b00, .f 1, .k 9 0b111101000]),
   (.vsublU8, [.f 4, .k 1 0, .f 1, .k 1 0, .f 1, .k 4 0b0010, .f 4, .f 4, .k 2 0b00, .f 1, .k 9 0b111100111]),
   (.vmovlS16,[.f 4, .k 1 1, .f 1, .k 6 0b101000, .f 4, .k 6 0b010000, .f 1, .k 9 0b111100101]),
   (.vcvtQ,   [.f 4, .k 1 0, .f 1, .k 6 0b011001, .f 4, .k 6 0b111011, .f 1, .k 9 0b111100111]),
   (.vmul,    [.f 4, .k 1 0, .f 1, .k 1 0, .f 1, .k 4 0b1010, .f 4, .f 4, .k 2 0b10, .f 1, .k 5 0b11100, .f 4]),
   (.vmla,    [.f 4, .k 1 0, .f 1, .k 1 0, .f 1, .k 4 0b1010, .f 4, .f 4, .k 2 0b00, .f 1, .k 5 0b11100, .f 4]),
   (.vsqrt,   [.f 4, .k 1 0, .f 1, .k 6 0b101011, .f 4, .k 6 0b110001, .f 1, .k 5 0b11101, .f 4]),
   (.vneg,    [.f 4, .k 1 0, .f 1, .k 6 0b101001, .f 4, .k 6 0b110001, .f 1, .k 5 0b11101, .f 4]),
   (.vmov,    [.f 4, .k 1 0, .f 1, .k 6 0b101001, .f 4, .k 6 0b110000, .f 1, .k 5 0b11101, .f 4]),
   (.vcmpe,   [.f 4, .k 1 0, .f 1, .k 6 0b101011, .f 4, .k 6 0b110100, .f 1, .k 5 0b11101, .f 4]),
   (.vcmpe0,  [.k 12 0b101011000000, .f 4, .k 6 0b110101, .f 1, .k 5 0b11101, .f 4]),
   (.vmrs,    [.k 12 0b101000010000, .f 4, .k 12 0b111011110001, .f 4]),
   (.vmsr,    [.k 12 0b101000010000, .f 4, .k 12 0b111011100001, .f 4]),
   (.vmulQ,   [.f 4, .k 1 0, .f 1, .k 1 1, .f 1, .k 4 0b1001, .f 4, .f 4, .k 2 0b10, .f 1, .k 9 0b111100111]),
   (.vmaxQ,   [.f 4, .k 1 0, .f 1, .k 1 1, .f 1, .k 4 0b1111, .f 4, .f 4, .k 2 0b00, .f 1, .k 9 0b111100100]),
   (.vpmaxD,  [.f 4, .k 1 0, .f 1, .k 1 0, .f 1, .k 4 0b1111, .f 4, .f 4, .k 2 0b00, .f 1, .k 9 0b111100110])]

/-! ## State -/

/-- The condition flags. -/
structure Flags where
  n : Bool
  z : Bool
  c : Bool
  v : Bool
  deriving DecidableEq, Repr

/-- The machine state: general registers, words of the floating-point registers, flags, FPSCR, memory, argument frame. -/
structure St where
  r : Nat → BitVec 32
  v : Nat → BitVec 32
  fl : Flags
  fpscr : BitVec 32
  mem : BitVec 32 → BitVec 8
  fp : Nat → BitVec 32

/-- How two floating-point numbers compare. -/
inductive Rel | lt | eq | gt | un
  deriving DecidableEq, Repr

/-- Floating-point operations on bit patterns; `ncvt`, `nmul`, `nmax` are those of NEON.  `cmp a b` compares `a` with `b`. -/
structure Ops where
  cvt : Int → BitVec 32
  toInt : BitVec 32 → BitVec 32
  add : BitVec 32 → BitVec 32 → BitVec 32
  sub : BitVec 32 → BitVec 32 → BitVec 32
  mul : BitVec 32 → BitVec 32 → BitVec 32
  div : BitVec 32 → BitVec 32 → BitVec 32
  sqrt : BitVec 32 → BitVec 32
  cmp : BitVec 32 → BitVec 32 → Rel
  ncvt : Int → BitVec 32
  nmul : BitVec 32 → BitVec 32 → BitVec 32
  nmax : BitVec 32 → BitVec 32 → BitVec 32

/-- Variables of the package, dsp/cpu_arm.go:13-16. -/
inductive Var | HaveNEON | UseVector
  deriving DecidableEq, Repr

/-- Operands of the Go assembler: `R`, `R<<k`, `R>>k`, `F`, integer immediate, floating-point immediate (as its single-precision bits),
`disp(R)`, `off(FP)`, a variable and `[Ra-Rb]`. -/
inductive Op
  | r (n : Nat)
  | sl (n k : Nat)
  | sr (n k : Nat)
  | f (n : Nat)
  | i (v : Int)
  | fi (b : Nat)
  | m (base disp : Nat)
  | fp (off : Nat)
  | sb (x : Var)
  | rl (lo hi : Nat)
  deriving DecidableEq, Repr

/-- What does not change during a run: floating point, accessible memory, the variables, the meaning of the two STRIDE bits, and
what is left in the assembler's temporary register `R11` by an instruction that has to load an operand's address. -/
structure Env where
  o : Ops
  rd : BitVec 32 → Bool
  wr : BitVec 32 → Bool
  var : Var → BitVec 8
  strideOf : BitVec 2 → Option Nat
  tmp : Op → BitVec 32

/-- Write a general register. -/
def St.setR (s : St) (r : Nat) (a : BitVec 32) : St := { s with r := Function.update s.r r a }

/-- Write one word of the floating-point registers. -/
def St.setV (s : St) (r : Nat) (a : BitVec 32) : St := { s with v := Function.update s.v r a }

/-- Write `k` words of the floating-point registers from `r` on. -/
def St.setVs (s : St) (r k : Nat) (a : Nat → BitVec 32) : St := { s with v := fun j => if r ≤ j ∧ j < r + k then a (j - r) else s.v j }

/-- The bytes of the floating-point registers from word `r` on. -/
def St.vb (s : St) (r : Nat) : Vec := of32 fun l => s.v (r + l)

/-- Flags of `a - b`; C is set when there is no borrow. -/
def subFlags (a b : BitVec 32) : Flags :=
  ⟨(a - b).msb, a - b == 0, !a.ult b, a.msb != b.msb && (a - b).msb != a.msb⟩

/-- Flags of a comparison of floating-point numbers. -/
def Rel.flags : Rel → Flags
  | .lt => ⟨true, false, false, false⟩
  | .eq => ⟨false, true, true, false⟩
  | .gt => ⟨false, false, true, false⟩
  | .un => ⟨false, false, true, true⟩

/-- Conditions of instructions and jumps. -/
inductive Cond | AL | EQ | NE | LT | GE | GT | LE
  deriving DecidableEq, Repr

/-- Does the condition hold? -/
def Flags.taken (f : Flags) : Cond → Bool
  | .AL => true
  | .EQ => f.z
  | .NE => !f.z
  | .LT => f.n != f.v
  | .GE => f.n == f.v
  | .GT => !f.z && f.n == f.v
  | .LE => f.z || f.n != f.v

/-- The conditions by their number in the instruction word. -/
def condOf : Nat → Option Cond
  | 0 => some .EQ
  | 1 => some .NE
  | 10 => some .GE
  | 11 => some .LT
  | 12 => some .GT
  | 13 => some .LE
  | 14 => some .AL
  | _ => none

/-! ## Execution -/

/-- An instruction with a condition. -/
def St.cond (s : St) (c : Cond) (t : Option St) : Option St := if s.fl.taken c then t else some s

/-- An instruction word with a condition. -/
def St.when (s : St) (c : Nat) (t : Option St) : Option St := match condOf c with
  | some c => s.cond c t
  | none => none

/-- Load `4 * k` bytes; the address must be aligned. -/
def Env.ldw (e : Env) (s : St) (a : BitVec 32) (k : Nat) : Option Vec := if a.toNat % 4 = 0 then load e.rd s.mem a (4 * k) else none

/-- Store `4 * k` bytes; the address must be aligned. -/
def Env.stw (e : Env) (s : St) (a : BitVec 32) (k : Nat) (v : Vec) : Option St :=
  if a.toNat % 4 = 0 then (store e.wr s.mem a (4 * k) v).map fun m => { s with mem := m } else none

/-- The offsets of the registers of a vector operation with destination `s d`: one register if LEN is 0 (a length of 1) or `d` is in the
first bank of eight; a vector must not come back to its first register. -/
def Env.lanes (e : Env) (s : St) (d : Nat) : Option (List Nat) :=
  if s.fpscr.extractLsb' 16 3 = 0 ∨ d < 8 then some [0] else
  (e.strideOf (s.fpscr.extractLsb' 20 2)).bind fun t =>
    if ((s.fpscr.extractLsb' 16 3).toNat + 1) * t ≤ 8 then some ((List.range ((s.fpscr.extractLsb' 16 3).toNat + 1)).map (· * t)) else none

/-- The register `i` after `r` in its bank of eight. -/
def bank (r i : Nat) : Nat := 8 * (r / 8) + (r % 8 + i) % 8

/-- The same, but a register of the first bank is used for all lanes. -/
def bank0 (r i : Nat) : Nat := if r < 8 then r else bank r i

/-- Floating-point arithmetic `d = f d n m`, over vectors when FPSCR says so. -/
def Env.vfp (e : Env) (s : St) (f : BitVec 32 → BitVec 32 → BitVec 32 → BitVec 32) (d n m : Nat) : Option St :=
  (e.lanes s d).map fun l => l.foldl (fun t i => t.setV (bank d i) (f (s.v (bank d i)) (s.v (bank n i)) (s.v (bank0 m i)))) s

/-- The result of a comparison goes to the flags in FPSCR. -/
def St.setRel (s : St) (r : Rel) : St :=
  { s with fpscr := BitVec.ofBool r.flags.n ++ BitVec.ofBool r.flags.z ++ BitVec.ofBool r.flags.c ++ BitVec.ofBool r.flags.v ++ s.fpscr.extractLsb' 0 28 }

/-- The flags in FPSCR. -/
def St.fpFlags (s : St) : Flags := ⟨s.fpscr.getLsbD 31, s.fpscr.getLsbD 30, s.fpscr.getLsbD 29, s.fpscr.getLsbD 28⟩

/-- Absolute value. -/
def fabs (a : BitVec 32) : BitVec 32 := a &&& 0x7fffffff

/-- Change of sign. -/
def fneg (a : BitVec 32) : BitVec 32 := a ^^^ 0x80000000

/-- The instructions given as numbers.  Register number 15 would be PC and occurs only in `vmrs`, where it stands for the flags. -/
def Env.word (e : Env) (s : St) (o : WOp) (fs : List Nat) : Option St :=
  match o with
  | .usub8 => match fs with
    | [m, d, n, c] => s.when c (some (s.setR d (d32 (fun i => byte (s.r n) i - byte (s.r m) i) 0)))
    | _ => none
  | .sxtb => match fs with
    | [m, k, d, c] => s.when c (some (s.setR d ((byte (s.r m) k).signExtend 32)))
    | _ => none
  | .vmovSR => match fs with
    | [v, b, t, t2, c] => s.when c (some ((s.setV (2 * v + b) (s.r t)).setV (2 * v + b + 1) (s.r t2)))
    | _ => none
  | .vmovRS => match fs with
    | [v, b, t, t2, c] => if t = t2 then none else s.when c (some ((s.setR t (s.v (2 * v + b))).setR t2 (s.v (2 * v + b + 1))))
    | _ => none
  | .vcvtF => match fs with
    | [m, b, d, a, c] => s.when c (some (s.setV (2 * d + a) (e.o.cvt (s.v (2 * m + b)).toInt)))
    | _ => none
  | .vcvtI => match fs with
    | [m, b, d, a, c] => s.when c (some (s.setV (2 * d + a) (e.o.toInt (s.v (2 * m + b)))))
    | _ => none
  | .vldmS => match fs with
    | [k, d, n, a, c] => s.when c ((e.ldw s (s.r n) k).map fun x => (s.setVs (2 * d + a) k (d32 x)).setR n (s.r n + BitVec.ofNat 32 (4 * k)))
    | _ => none
  | .vstmS => match fs with
    | [k, d, n, a, c] => s.when c ((e.stw s (s.r n) k (s.vb (2 * d + a))).map fun t => t.setR n (s.r n + BitVec.ofNat 32 (4 * k)))
    | _ => none
  | .vldmD => match fs with
    | [k, d, n, a, c] => if k % 2 = 1 then none else
      s.when c ((e.ldw s (s.r n) k).map fun x => (s.setVs (2 * (16 * a + d)) k (d32 x)).setR n (s.r n + BitVec.ofNat 32 (4 * k)))
    | _ => none
  | .vstmD => match fs with
    | [k, d, n, a, c] => if k % 2 = 1 then none else
      s.when c ((e.stw s (s.r n) k (s.vb (2 * (16 * a + d)))).map fun t => t.setR n (s.r n + BitVec.ofNat 32 (4 * k)))
    | _ => none
  | .vstr => match fs with
    | [k, d, n, a, c] => s.when c (e.stw s (s.r n + BitVec.ofNat 32 (4 * k)) 1 (s.vb (2 * d + a)))
    | _ => none
  | .vdup8 => match fs with
    | [a, t, d, c] => if d % 2 = 1 then none else s.when c (some (s.setVs (2 * (16 * a + d)) 4 (d32 fun _ => byte (s.r t) 0)))
    | _ => none
  | .vld1 => match fs with
    | [d, n, a] => (load e.rd s.mem (s.r n) 32).map fun x => (s.setVs (2 * (16 * a + d)) 8 (d32 x)).setR n (s.r n + BitVec.ofNat 32 32)
    | _ => none
  | .vst1 => match fs with
    | [d, n, a] => (store e.wr s.mem (s.r n) 32 (s.vb (2 * (16 * a + d)))).map fun m => { s.setR n (s.r n + BitVec.ofNat 32 32) with mem := m }
    | _ => none
  | .vsublU8 => match fs with
    | [m, b, p, d, n, a] => if d % 2 = 1 then none else some (s.setVs (2 * (16 * a + d)) 4
        (d32 (of16 fun l => (s.vb (2 * (16 * p + n)) l).setWidth 16 - (s.vb (2 * (16 * b + m)) l).setWidth 16)))
    | _ => none
  | .vmovlS16 => match fs with
    | [m, b, d, a] => if d % 2 = 1 then none else some (s.setVs (2 * (16 * a + d)) 4 fun l => (w16 (s.vb (2 * (16 * b + m))) l).signExtend 32)
    | _ => none
  | .vcvtQ => match fs with
    | [m, b, d, a] => if d % 2 = 1 ∨ m % 2 = 1 then none else some (s.setVs (2 * (16 * a + d)) 4 fun l => e.o.ncvt (s.v (2 * (16 * b + m) + l)).toInt)
    | _ => none
  | .vmul => match fs with
    | [m, b, p, d, n, a, c] => s.when c (e.vfp s (fun _ x y => e.o.mul x y) (2 * d + a) (2 * n + p) (2 * m + b))
    | _ => none
  | .vmla => match fs with
    | [m, b, p, d, n, a, c] => s.when c (e.vfp s (fun z x y => e.o.add z (e.o.mul x y)) (2 * d + a) (2 * n + p) (2 * m + b))
    | _ => none
  | .vsqrt => match fs with
    | [m, b, d, a, c] => s.when c (e.vfp s (fun _ _ y => e.o.sqrt y) (2 * d + a) (2 * d + a) (2 * m + b))
    | _ => none
  | .vneg => match fs with
    | [m, b, d, a, c] => s.when c (e.vfp s (fun _ _ y => fneg y) (2 * d + a) (2 * d + a) (2 * m + b))
    | _ => none
  | .vmov => match fs with
    | [m, b, d, a, c] => s.when c (e.vfp s (fun _ _ y => y) (2 * d + a) (2 * d + a) (2 * m + b))
    | _ => none
  | .vcmpe => match fs with
    | [m, b, d, a, c] => s.when c (some (s.setRel (e.o.cmp (s.v (2 * d + a)) (s.v (2 * m + b)))))
    | _ => none
  | .vcmpe0 => match fs with
    | [d, a, c] => s.when c (some (s.setRel (e.o.cmp (s.v (2 * d + a)) 0)))
    | _ => none
  | .vmrs => match fs with
    | [t, c] => s.when c (if t = 15 then some { s with fl := s.fpFlags } else some (s.setR t s.fpscr))
    | _ => none
  | .vmsr => match fs with
    | [t, c] => s.when c (if (s.r t ^^^ s.fpscr) &&& 0x0fc8ffff = 0 then some { s with fpscr := s.r t } else none)
    | _ => none
  | .vmulQ => match fs with
    | [m, b, p, d, n, a] => if d % 2 = 1 ∨ n % 2 = 1 then none else
      some (s.setVs (2 * (16 * a + d)) 4 fun l => e.o.nmul (s.v (2 * (16 * p + n) + l)) (s.v (2 * m + b)))
    | _ => none
  | .vmaxQ => match fs with
    | [m, b, p, d, n, a] => if d % 2 = 1 ∨ n % 2 = 1 ∨ m % 2 = 1 then none else
      some (s.setVs (2 * (16 * a + d)) 4 fun l => e.o.nmax (s.v (2 * (16 * p + n) + l)) (s.v (2 * (16 * b + m) + l)))
    | _ => none
  | .vpmaxD => match fs with
    | [m, b, p, d, n, a] => some ((s.setV (2 * (16 * a + d)) (e.o.nmax (s.v (2 * (16 * p + n))) (s.v (2 * (16 * p + n) + 1)))).setV (2 * (16 * a + d) + 1)
        (e.o.nmax (s.v (2 * (16 * b + m))) (s.v (2 * (16 * b + m) + 1))))
    | _ => none

/-- Mnemonics of the Go assembler; `MOVMIA` and `MOVMIAW` are `MOVM.IA` and `MOVM.IA.W`. -/
inductive Mn | MOVW | MOVBU | MOVH | MOVHU | MOVF | MOVWF | MOVFW | ADD | SUB | AND | BIC | ORR | EOR | MVN | CMP | TEQ | PLD | MOVMIA | MOVMIAW
  | ADDF | SUBF | MULF | DIVF | ABSF | SQRTF
  deriving DecidableEq, Repr

/-- An instruction. -/
inductive Ins
  | op (mn : Mn) (ops : List Op)
  | opc (c : Cond) (mn : Mn) (ops : List Op)
  | WORD (x : Nat)
  deriving DecidableEq, Repr

/-- The value of a source operand of integer arithmetic. -/
def St.src (s : St) : Op → Option (BitVec 32)
  | .r n => some (s.r n)
  | .sl n k => some (s.r n <<< k)
  | .sr n k => some (s.r n >>> k)
  | .i v => some (BitVec.ofInt 32 v)
  | _ => none

/-- Integer arithmetic: `op a, d` is `d = f d a`, `op a, n, d` is `d = f n a`. -/
def St.alu (s : St) (f : BitVec 32 → BitVec 32 → BitVec 32) (ops : List Op) : Option St :=
  match ops with
  | [p, .r d] => (s.src p).map fun v => s.setR d (f (s.r d) v)
  | [p, .r n, .r d] => (s.src p).map fun v => s.setR d (f (s.r n) v)
  | _ => none

/-- Floating-point arithmetic: `op m, d` is `d = f d m`, `op m, n, d` is `d = f n m`. -/
def Env.fpu (e : Env) (s : St) (f : BitVec 32 → BitVec 32 → BitVec 32) (ops : List Op) : Option St :=
  match ops with
  | [.f m, .f d] => e.vfp s (fun _ x y => f x y) (2 * d) (2 * d) (2 * m)
  | [.f m, .f n, .f d] => e.vfp s (fun _ x y => f x y) (2 * d) (2 * n) (2 * m)
  | _ => none

/-- Instructions with Go mnemonics.  `MOVWF` from and `MOVFW` to a general register go through the assembler's temporary register `F15`
(`s30`); operands whose address has to be loaded go through `R11`. -/
def Env.go (e : Env) (s : St) (mn : Mn) (ops : List Op) : Option St :=
  match mn with
  | .MOVW => match ops with
    | [.fp n, .r d] => some (s.setR d (s.fp n))
    | [.r a, .fp n] => some { s with fp := Function.update s.fp n (s.r a) }
    | [.m b k, .r d] => (load e.rd s.mem (s.r b + BitVec.ofNat 32 k) 4).map fun x => s.setR d (d32 x 0)
    | [.r a, .m b k] => (store e.wr s.mem (s.r b + BitVec.ofNat 32 k) 4 (bytes32 (s.r a))).map fun m => { s with mem := m }
    | [.r a, .f d] => some (s.setV (2 * d) (s.r a))
    | [p, .r d] => (s.src p).map fun v => s.setR d v
    | _ => none
  | .MOVBU => match ops with
    | [.m b k, .r d] => (load e.rd s.mem (s.r b + BitVec.ofNat 32 k) 1).map fun x => s.setR d ((x 0).setWidth 32)
    | [.r a, .m b k] => (store e.wr s.mem (s.r b + BitVec.ofNat 32 k) 1 (bytes32 (s.r a))).map fun m => { s with mem := m }
    | [.sb x, .r d] => some ((s.setR 11 (e.tmp (.sb x))).setR d ((e.var x).setWidth 32))
    | _ => none
  | .MOVH => match ops with
    | [.r a, .m b k] => (store e.wr s.mem (s.r b + BitVec.ofNat 32 k) 2 (bytes32 (s.r a))).map fun m => { s with mem := m }
    | _ => none
  | .MOVHU => match ops with
    | [.r a, .m b k] => (store e.wr s.mem (s.r b + BitVec.ofNat 32 k) 2 (bytes32 (s.r a))).map fun m => { s with mem := m }
    | _ => none
  | .MOVF => match ops with
    | [.fp n, .f d] => some (s.setV (2 * d) (s.fp n))
    | [.f a, .fp n] => some { s with fp := Function.update s.fp n (s.v (2 * a)) }
    | [.m b k, .f d] => (e.ldw s (s.r b + BitVec.ofNat 32 k) 1).map fun x => s.setV (2 * d) (d32 x 0)
    | [.f a, .m b k] => e.stw s (s.r b + BitVec.ofNat 32 k) 1 (bytes32 (s.v (2 * a)))
    | [.f a, .f d] => e.vfp s (fun _ _ y => y) (2 * d) (2 * d) (2 * a)
    | [.fi b, .f d] => some ((s.setR 11 (e.tmp (.fi b))).setV (2 * d) (BitVec.ofNat 32 b))
    | _ => none
  | .MOVWF => match ops with
    | [.r a, .f d] => some ((s.setV 30 (s.r a)).setV (2 * d) (e.o.cvt (s.r a).toInt))
    | [.f a, .f d] => some (s.setV (2 * d) (e.o.cvt (s.v (2 * a)).toInt))
    | _ => none
  | .MOVFW => match ops with
    | [.f a, .r d] => some ((s.setV 30 (e.o.toInt (s.v (2 * a)))).setR d (e.o.toInt (s.v (2 * a))))
    | _ => none
  | .ADD => s.alu (fun x y => x + y) ops
  | .SUB => s.alu (fun x y => x - y) ops
  | .AND => s.alu (fun x y => x &&& y) ops
  | .BIC => s.alu (fun x y => x &&& ~~~y) ops
  | .ORR => s.alu (fun x y => x ||| y) ops
  | .EOR => s.alu (fun x y => x ^^^ y) ops
  | .MVN => match ops with
    | [p, .r d] => (s.src p).map fun v => s.setR d (~~~v)
    | _ => none
  | .CMP => match ops with
    | [p, .r d] => (s.src p).map fun v => { s with fl := subFlags (s.r d) v }
    | _ => none
  | .TEQ => match ops with
    | [.i 0, .r d] => some { s with fl := { s.fl with n := (s.r d).msb, z := s.r d == 0 } }
    | _ => none
  | .PLD => some s
  | .MOVMIA => match ops with
    | [.m b 0, .rl lo hi] => (e.ldw s (s.r b) (hi + 1 - lo)).map fun x =>
      { s with r := fun j => if lo ≤ j ∧ j ≤ hi then d32 x (j - lo) else s.r j }
    | _ => none
  | .MOVMIAW => match ops with
    | [.rl lo hi, .m b 0] => (e.stw s (s.r b) (hi + 1 - lo) (of32 fun l => s.r (lo + l))).map fun t =>
      t.setR b (s.r b + BitVec.ofNat 32 (4 * (hi + 1 - lo)))
    | _ => none
  | .ADDF => e.fpu s e.o.add ops
  | .SUBF => e.fpu s e.o.sub ops
  | .MULF => e.fpu s e.o.mul ops
  | .DIVF => e.fpu s e.o.div ops
  | .ABSF => e.fpu s (fun _ y => fabs y) ops
  | .SQRTF => e.fpu s (fun _ y => e.o.sqrt y) ops

/-- One instruction. -/
def Env.exec (e : Env) (i : Ins) (s : St) : Option St :=
  match i with
  | .op mn ops => e.go s mn ops
  | .opc c mn ops => s.cond c (e.go s mn ops)
  | .WORD x => match decode formats x with
    | some (o, fs) => e.word s o fs
    | none => none

/-- The machine. -/
def sem (e : Env) : Sem St Ins Cond := ⟨e.exec, fun c s => s.fl.taken c⟩

end Verif.A32
