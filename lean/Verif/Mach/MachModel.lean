import Mathlib.Logic.Function.Basic
import Mathlib.Tactic.Common

/-!
# Line-by-line machines for the ARM assembly of dsp

What does not depend on the processor: a program is a list with one entry for every line of the source file and one before them, so that the
program counter is the line number; blank lines, comments and directives are `nop`.  The meaning of instructions and conditions is given by
a `Sem`.  Memory is a function from addresses of `w` bits to bytes; address arithmetic wraps around.
-/

namespace Verif.Mach

/-- One line of a source file: `L` are the labels, `I` the instructions, `C` the conditions of jumps. -/
inductive Line (L I C : Type)
  | nop
  | label (l : L)
  | ins (i : I)
  | j (c : C) (l : L)
  | RET
  deriving DecidableEq, Repr

/-- The meaning of instructions (`none` is a fault) and conditions on states. -/
structure Sem (S I C : Type) where
  exec : I → S → Option S
  taken : C → S → Bool

variable {L I C S : Type} [DecidableEq L] [DecidableEq I] [DecidableEq C]

/-- A program. -/
abbrev Prog (L I C : Type) := List (Line L I C)

/-- The line of a label.  Labels of the sources are local to a TEXT block; where two blocks of a file use the same label
(dsp/math32_arm64.s, VMaxF32 and VMinF32), they are given different names here. -/
def Prog.line (p : Prog L I C) (l : L) : Option Nat := p.idxOf? (.label l)

/-- Outcome of a run: returned, jumped to a routine `l` outside of the program, faulted, or not yet finished. -/
inductive Out (L S : Type)
  | done (s : S)
  | tail (l : L) (s : S)
  | fault
  | more (pc : Nat) (s : S)

/-- One line. -/
def step (m : Sem S I C) (p : Prog L I C) (pc : Nat) (s : S) : Out L S :=
  match p[pc]? with
  | none => .fault
  | some .nop => .more (pc + 1) s
  | some (.label _) => .more (pc + 1) s
  | some .RET => .done s
  | some (.ins i) => match m.exec i s with
    | some s' => .more (pc + 1) s'
    | none => .fault
  | some (.j c l) => if m.taken c s then match p.line l with
      | some t => .more t s
      | none => .tail l s
    else .more (pc + 1) s

/-- Run at most `fuel` lines. -/
def run (m : Sem S I C) (p : Prog L I C) : Nat → Nat → S → Out L S
  | 0, pc, s => .more pc s
  | fuel + 1, pc, s => match step m p pc s with
    | .more pc' s' => run m p fuel pc' s'
    | r => r

/-! ## Memory -/

variable {w : Nat}

/-- All `n` bytes from `a` satisfy `p`. -/
def allBytes (p : BitVec w → Bool) (a : BitVec w) (n : Nat) : Bool := (List.range n).all fun i => p (a + BitVec.ofNat w i)

/-- Overwrite `n` bytes from `a` by `v 0`, `v 1`, …; addresses wrap around. -/
def fill (mem : BitVec w → BitVec 8) (a : BitVec w) (n : Nat) (v : Nat → BitVec 8) : BitVec w → BitVec 8 :=
  fun b => if (b - a).toNat < n then v (b - a).toNat else mem b

/-- Load `n` bytes; the other bytes are zero. -/
def load (rd : BitVec w → Bool) (mem : BitVec w → BitVec 8) (a : BitVec w) (n : Nat) : Option (Nat → BitVec 8) :=
  if allBytes rd a n then some fun i => if i < n then mem (a + BitVec.ofNat w i) else 0 else none

/-- Store `n` bytes. -/
def store (wr : BitVec w → Bool) (mem : BitVec w → BitVec 8) (a : BitVec w) (n : Nat) (v : Nat → BitVec 8) : Option (BitVec w → BitVec 8) :=
  if allBytes wr a n then some (fill mem a n v) else none

/-! ## Instruction words -/

/-- A piece of an instruction word, from the lowest bit up: `len` bits with the value `val`, or a field of `len` bits. -/
inductive Seg
  | k (len val : Nat)
  | f (len : Nat)
  deriving DecidableEq, Repr

/-- The fields of the word `x` if it has the format. -/
def parse : List Seg → Nat → Option (List Nat)
  | [], x => if x = 0 then some [] else none
  | .k n v :: r, x => if x % 2 ^ n = v then parse r (x / 2 ^ n) else none
  | .f n :: r, x => (parse r (x / 2 ^ n)).map (x % 2 ^ n :: ·)

/-- The word with the given fields. -/
def build : List Seg → List Nat → Option Nat
  | [], [] => some 0
  | [], _ :: _ => none
  | .k n v :: r, fs => if v < 2 ^ n then (build r fs).map (v + 2 ^ n * ·) else none
  | .f _ :: _, [] => none
  | .f n :: r, a :: fs => if a < 2 ^ n then (build r fs).map (a + 2 ^ n * ·) else none

/-- The first format that fits. -/
def decode {O : Type} (fmt : List (O × List Seg)) (x : Nat) : Option (O × List Nat) :=
  fmt.findSome? fun q => (parse q.2 x).map fun fs => (q.1, fs)

end Verif.Mach
