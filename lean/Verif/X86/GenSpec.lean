import Verif.X86.X86Model

/-!
# Running a program when only the places of its registers are known

What it means for a program with some register names to do the same as the program with others. An instruction is known only by its
mnemonic, its operands without the names of the registers, the registers it reads and the register it writes; what it computes is
arbitrary.
-/

namespace Verif.X86.Gen

variable {L R X R' X' : Type}

/-- A register of either kind. -/
inductive Any (R X : Type)
  | gp (a : R)
  | xm (a : X)
  deriving DecidableEq

/-- Other names of registers in an operand. -/
def mapOp (f : R → R') (h : X → X') : Op R X → Op R' X'
  | .r a => .r (f a)
  | .x a => .x (h a)
  | .y a => .y (h a)
  | .i v => .i v
  | .m b d => .m (f b) d
  | .ix b i k => .ix (f b) (f i) k
  | .fp n => .fp n
  | .sb v => .sb v

/-- Other names of registers in a line. -/
def mapLine (f : R → R') (h : X → X') : Line L R X → Line L R' X'
  | .nop => .nop
  | .label l => .label l
  | .ins mn ops => .ins mn (ops.map (mapOp f h))
  | .j c l => .j c l
  | .RET => .RET

/-- The registers whose values an operand used as a source needs. -/
def srcs : Op R X → List (Any R X)
  | .r a => [.gp a]
  | .x a => [.xm a]
  | .y a => [.xm a]
  | .m b _ => [.gp b]
  | .ix b i _ => [.gp b, .gp i]
  | _ => []

/-- The registers whose values a memory operand used as a destination needs. -/
def bases : Op R X → List (Any R X)
  | .m b _ => [.gp b]
  | .ix b i _ => [.gp b, .gp i]
  | _ => []

/-- The register that is written. -/
def dst : Op R X → Option (Any R X)
  | .r a => some (.gp a)
  | .x a => some (.xm a)
  | .y a => some (.xm a)
  | _ => none

/-- Does the instruction write a register at all? -/
def _root_.Verif.X86.Mn.compares : Mn → Bool
  | .CMPQ | .CMPB | .UCOMISS => true
  | _ => false

/-- Does the result depend on nothing but the sources? (All instructions on vector registers that leave part of the register unchanged
are counted as dependent, with the exception of those that write all sixteen bytes of an `X` register.) -/
def _root_.Verif.X86.Mn.fresh : Mn → Bool
  | .MOVQ | .MOVL | .MOVD | .MOVBQZX | .MOVBQSX | .MOVWLSX | .LEAQ | .MOVOU | .MOVO | .MOVUPS | .MOVUPD | .MOVAPS
  | .PSHUFL | .PSHUFD | .PMOVSXBD | .PMOVSXWD | .CVTPL2PS | .CVTPL2PD | .CVTTPS2PL | .CVTTSS2SL => true
  | _ => false

/-- The registers read by a line. -/
def reads : Line L R X → List (Any R X)
  | .ins mn ops =>
    if mn.compares then ops.flatMap srcs
    else ops.dropLast.flatMap srcs ++ (ops.getLast?.map fun d => if mn.fresh then bases d else srcs d).getD []
  | _ => []

/-- The register written by a line. -/
def writes : Line L R X → Option (Any R X)
  | .ins mn ops => if mn.compares then none else ops.getLast?.bind dst
  | _ => none

/-- What the instructions do: from the line without names of registers, the values read, and everything else in the machine (memory,
flags, frame) to the value written, everything else, and whether a jump is taken. `none` is a fault. -/
abbrev Sem (L V M : Type) := Line L Unit Unit → List V → M → Option (V × M × Bool)

/-- Where a run stands: at a line, finished, or faulted. -/
inductive Pos
  | at (pc : Nat)
  | done
  | fault
  deriving DecidableEq

/-- A line without the names of its registers. -/
def shape : Line L R X → Line L Unit Unit := mapLine (fun _ => ()) (fun _ => ())

variable [DecidableEq L] [DecidableEq R] [DecidableEq X]

/-- The line of a label. -/
def target (p : List (Line L R X)) (l : L) : Option Nat := p.findIdx? fun x => match x with | .label k => k == l | _ => false

/-- One step with the registers `ρ` and everything else `m`. -/
def step {V M : Type} (sem : Sem L V M) (p : List (Line L R X)) (pc : Nat) (ρ : Any R X → V) (m : M) : Pos × (Any R X → V) × M :=
  match p[pc]? with
  | none => (.fault, ρ, m)
  | some .RET => (.done, ρ, m)
  | some ln =>
    match sem (shape ln) ((reads ln).map ρ) m with
    | none => (.fault, ρ, m)
    | some (v, m', taken) =>
      let ρ' := match writes ln with
        | some d => Function.update ρ d v
        | none => ρ
      match ln with
      | .j c l =>
        if taken || c == .JMP then
          match target p l with
          | some q => (.at q, ρ', m')
          | none => (.fault, ρ', m')
        else (.at (pc + 1), ρ', m')
      | _ => (.at (pc + 1), ρ', m')

/-- `n` steps. -/
def run {V M : Type} (sem : Sem L V M) (p : List (Line L R X)) : Nat → Pos × (Any R X → V) × M → Pos × (Any R X → V) × M
  | 0, s => s
  | n + 1, (.at pc, ρ, m) => run sem p n (step sem p pc ρ m)
  | _ + 1, s => s

/-- The lines that can follow line `pc`. -/
def succ (p : List (Line L R X)) (pc : Nat) : List Nat :=
  match p[pc]? with
  | none => []
  | some .RET => []
  | some (.j c l) => (target p l).toList ++ if c == .JMP then [] else [pc + 1]
  | some _ => [pc + 1]

/-- The value of register `v` at line `pc` is needed: some path leads to a line that reads it without one that writes it before. -/
inductive Live (p : List (Line L R X)) (v : Any R X) : Nat → Prop
  | here {pc ln} : p[pc]? = some ln → v ∈ reads ln → Live p v pc
  | next {pc ln q} : p[pc]? = some ln → writes ln ≠ some v → q ∈ succ p pc → Live p v q → Live p v pc

end Verif.X86.Gen
