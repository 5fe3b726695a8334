import Verif.A32.WordSpec
import Verif.A32.ConvModel
import Verif.A32.MathModel
import Verif.A32.DemodModel
import Verif.A32.UtilModel
import Verif.A32.DownModel
import Verif.Mach.MachLemmas

/-!
# Property C124: the numbers in the 32-bit ARM sources are the instructions named beside them
-/

namespace Verif.A32
open Verif.Mach

/-- The `WORD` lines of a program with their line numbers. -/
def words {L : Type} (p : Prog L Ins Cond) : List (Nat × Nat) :=
  p.zipIdx.filterMap fun q => match q.1 with
    | .ins (.WORD x) => some (q.2, x)
    | _ => none

theorem distinct : Distinct formats := by unfold Distinct; decide +kernel

/-- **C124, the decoder.** For every number and every instruction of the table with any fields: the number is decoded to it exactly when it is its
encoding.  So a number is never decoded in two ways, and every encoding is decoded. -/
theorem C124_decode (x : Nat) (o : WOp) (fs : List Nat) :
    decode formats x = some (o, fs) ↔ ∃ q, (o, q) ∈ formats ∧ build q fs = some x := decode_iff distinct x o fs

/-- Line by line: the word is decoded, and the disassembly is the comment. -/
def agree (ws : List (Nat × Nat)) (cs : List (Nat × Name × Cond × List Arg)) : Prop :=
  ws.map (fun q => (q.1, (decode formats q.2).bind fun r => disasm r.1 r.2)) = cs.map fun c => (c.1, some c.2)

instance (ws : List (Nat × Nat)) (cs : List (Nat × Name × Cond × List Arg)) : Decidable (agree ws cs) := by unfold agree; infer_instance

/-- **C124, the sources.** Every `WORD` of the five files decodes to the instruction in the comment beside it. -/
theorem C124_comments : agree (words Conv.prog) convComments ∧ agree (words Math.prog) mathComments ∧ agree (words Demod.prog) demodComments ∧
    words Util.prog = [] ∧ words Down.prog = [] := by decide +kernel

/-- The same said without lists: a `WORD` line has a comment, and the comment is what the word does. -/
theorem agree_line {L : Type} {p : Prog L Ins Cond} {cs : List (Nat × Name × Cond × List Arg)} (h : agree (words p) cs) {n x : Nat}
    (hx : p[n]? = some (.ins (.WORD x))) : ∃ c o fs, (n, c) ∈ cs ∧ decode formats x = some (o, fs) ∧ disasm o fs = some c := by
  have hw : (n, x) ∈ words p := by
    unfold words
    rw [List.mem_filterMap]
    exact ⟨(.ins (.WORD x), n), List.mem_zipIdx_iff_getElem?.2 hx, rfl⟩
  have hm := List.mem_map_of_mem (f := fun q => (q.1, (decode formats q.2).bind fun r => disasm r.1 r.2)) hw
  rw [h, List.mem_map] at hm
  obtain ⟨c, h1, h2⟩ := hm
  obtain ⟨e1, e2⟩ := Prod.mk.inj h2
  have e2 := e2.symm
  rw [Option.bind_eq_some_iff] at e2
  obtain ⟨⟨o, fs⟩, e3, e4⟩ := e2
  simp only at e1
  exact ⟨c.2, o, fs, by rw [← e1]; exact h1, e3, e4⟩

/-- **C124.** -/
theorem C124_line {n x : Nat} :
    (Conv.prog[n]? = some (.ins (.WORD x)) → ∃ c o fs, (n, c) ∈ convComments ∧ decode formats x = some (o, fs) ∧ disasm o fs = some c) ∧
    (Math.prog[n]? = some (.ins (.WORD x)) → ∃ c o fs, (n, c) ∈ mathComments ∧ decode formats x = some (o, fs) ∧ disasm o fs = some c) ∧
    (Demod.prog[n]? = some (.ins (.WORD x)) → ∃ c o fs, (n, c) ∈ demodComments ∧ decode formats x = some (o, fs) ∧ disasm o fs = some c) :=
  ⟨agree_line C124_comments.1, agree_line C124_comments.2.1, agree_line C124_comments.2.2.1⟩

/-! ### Examples -/

/-- dsp/conversion_arm.s:124: the destination is in the upper half of the registers, `D` is set. -/
example : Conv.prog[124]? = some (.ins (.WORD 0xf2d00a3b)) ∧ (124, Name.vmovlS16, Cond.AL, [Arg.q 8, .d 27]) ∈ convComments := by decide +kernel
/-- dsp/math32_arm.s:47: a conditional instruction. -/
example : Math.prog[47]? = some (.ins (.WORD 0xbeb11a41)) ∧ (47, Name.vneg, Cond.LT, [Arg.s 2, .s 2]) ∈ mathComments := by decide +kernel
/-- `vldmia r0!, {s8-s15}` put together from its fields. -/
example : ∃ q, (WOp.vldmS, q) ∈ formats ∧ build q [8, 4, 0, 0, 14] = some 0xecb04a08 := (C124_decode _ _ _).1 (by decide +kernel)
/-- Not an instruction of the table: `bx lr`. -/
example : decode formats 0xe12fff1e = none := by decide +kernel

end Verif.A32
