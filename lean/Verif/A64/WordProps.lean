import Verif.A64.WordSpec
import Verif.A64.ConvModel
import Verif.A64.MathModel
import Verif.Mach.MachLemmas

/-!
# Property C120: the numbers in the arm64 sources are the instructions named beside them
-/

namespace Verif.A64
open Verif.Mach

/-- The `WORD` lines of a program with their line numbers. -/
def words {L : Type} (p : Prog L Ins Cond) : List (Nat × Nat) :=
  p.zipIdx.filterMap fun q => match q.1 with
    | .ins (.WORD x) => some (q.2, x)
    | _ => none

theorem distinct : Distinct formats := by unfold Distinct; decide +kernel

/-- **C120, the decoder.** For every number and every instruction of the table with any fields: the number is decoded to it exactly when it is its
encoding.  So a number is never decoded in two ways, and every encoding is decoded. -/
theorem C120_decode (x : Nat) (o : WOp) (fs : List Nat) :
    decode formats x = some (o, fs) ↔ ∃ q, (o, q) ∈ formats ∧ build q fs = some x := decode_iff distinct x o fs

/-- Line by line: the word is decoded, and the disassembly is the comment. -/
def agree (ws : List (Nat × Nat)) (cs : List (Nat × Name × List Arg)) : Prop :=
  ws.map (fun q => (q.1, (decode formats q.2).bind fun r => disasm r.1 r.2)) = cs.map fun c => (c.1, some c.2)

instance (ws : List (Nat × Nat)) (cs : List (Nat × Name × List Arg)) : Decidable (agree ws cs) := by unfold agree; infer_instance

/-- **C120, the sources.** Every `WORD` of the two files decodes to the instruction in the comment beside it. -/
theorem C120_comments : agree (words Conv.prog) convComments ∧ agree (words Math.prog) mathComments := by decide +kernel

/-- The same said without lists: a `WORD` line has a comment, and the comment is what the word does. -/
theorem agree_line {L : Type} {p : Prog L Ins Cond} {cs : List (Nat × Name × List Arg)} (h : agree (words p) cs) {n x : Nat}
    (hx : p[n]? = some (.ins (.WORD x))) : ∃ c o fs, (n, c) ∈ cs ∧ decode formats x = some (o, fs) ∧ disasm o fs = some c := by
  have hw : (n, x) ∈ words p := by
    unfold words
    rw [List.mem_filterMap]
    exact ⟨(.ins (.WORD x), n), List.mem_zipIdx_iff_getElem?.2 hx, rfl⟩
  have hm := List.mem_map_of_mem (f := fun q => (q.1, (decode formats q.2).bind fun r => disasm r.1 r.2)) hw
  rw [h, List.mem_map] at hm
  obtain ⟨c, h1, h2⟩ := hm
  obtain ⟨e1, e2⟩ := Prod.mk.inj h2
  have e2 := e2.symm
  rw [Option.bind_eq_some_iff] at e2
  obtain ⟨⟨o, fs⟩, e3, e4⟩ := e2
  simp only at e1
  exact ⟨c.2, o, fs, by rw [← e1]; exact h1, e3, e4⟩

/-- **C120.** -/
theorem C120_line {n x : Nat} :
    (Conv.prog[n]? = some (.ins (.WORD x)) → ∃ c o fs, (n, c) ∈ convComments ∧ decode formats x = some (o, fs) ∧ disasm o fs = some c) ∧
    (Math.prog[n]? = some (.ins (.WORD x)) → ∃ c o fs, (n, c) ∈ mathComments ∧ decode formats x = some (o, fs) ∧ disasm o fs = some c) :=
  ⟨agree_line C120_comments.1, agree_line C120_comments.2⟩

/-! ### Examples -/

/-- dsp/conversion_arm64.s:63: the offset of the last store is negative. -/
example : Conv.prog[63]? = some (.ins (.WORD 0xad3f2047)) ∧ (63, Name.stp, [Arg.q 7, .q 8, .m 2 (-32)]) ∈ convComments := by decide +kernel
/-- The line commented out, dsp/conversion_arm64.s:60, would have stored at offset 96 from the old pointer. -/
example : decode formats 0xad032047 = some (.stpQ, [7, 2, 8, 6]) := by decide +kernel
/-- `ldp q1, q2, [x0]` put together from its fields. -/
example : ∃ q, (WOp.ldpQ, q) ∈ formats ∧ build q [1, 0, 2, 0] = some 0xad400801 := (C120_decode _ _ _).1 (by decide +kernel)
/-- Not an instruction of the table: `ret`. -/
example : decode formats 0xd65f03c0 = none := by decide +kernel

end Verif.A64
