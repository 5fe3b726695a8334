import Verif.A32.A32Spec
import Verif.A32.ConvModel

/-!
# The run of `Ui8toi16` on 32-bit ARM, instruction by instruction
-/

namespace Verif.A32.Conv
open Verif.A32 Verif.Mach
open Verif.X86 (Vec byte d32 w16 of32 of16 bytes32)

/-! ### Basic blocks -/

/-- dsp/conversion_arm.s:3-14. -/
abbrev b3 : List (Line Lbl Ins Cond) :=
  [.label .Ui8toi16,
   .ins (.op .MOVW [.fp 0, .r 1]),
   .ins (.op .MOVW [.fp 4, .r 2]),
   .ins (.op .MOVW [.fp 12, .r 3]),
   .ins (.op .MOVW [.fp 16, .r 4]), .nop, .nop,
   .ins (.op .CMP [.r 2, .r 4]),
   .ins (.opc .LT .MOVW [.r 4, .r 2]), .nop, .nop,
   .ins (.op .TEQ [.i 0, .r 2])]

theorem h3 : (prog.drop 3).take b3.length = b3 := by decide +kernel

/-- dsp/conversion_arm.s:16-16. -/
abbrev b16 : List (Line Lbl Ins Cond) :=
  [.ins (.op .ADD [.r 1, .r 2])]

theorem h16 : (prog.drop 16).take b16.length = b16 := by decide +kernel

/-- dsp/conversion_arm.s:18-25. -/
abbrev b18 : List (Line Lbl Ins Cond) :=
  [.label .ui8toi16_loop,
   .ins (.op .MOVBU [.m 1 0, .r 0]),
   .ins (.op .ADD [.i 1, .r 1]),
   .ins (.op .SUB [.i 128, .r 0]),
   .ins (.op .MOVBU [.r 0, .m 3 0]),
   .ins (.op .MOVBU [.r 0, .m 3 1]),
   .ins (.op .ADD [.i 2, .r 3]),
   .ins (.op .CMP [.r 2, .r 1])]

theorem h18 : (prog.drop 18).take b18.length = b18 := by decide +kernel

/-- dsp/conversion_arm.s:28-28. -/
abbrev b28 : List (Line Lbl Ins Cond) :=
  [.label .ui8toi16_done]

theorem h28 : (prog.drop 28).take b28.length = b28 := by decide +kernel

/-- dsp/conversion_arm.s:31-34. -/
abbrev b31 : List (Line Lbl Ins Cond) :=
  [.label .Ui8toi16b,
   .ins (.op .MOVW [.fp 16, .r 4]),
   .ins (.op .MOVW [.sr 4 1, .r 4]),
   .ins (.op .MOVW [.r 4, .fp 16])]

theorem h31 : (prog.drop 31).take b31.length = b31 := by decide +kernel

/-! ### Invariant -/

namespace Ui16

variable {e : Env} {m0 : BitVec 32 → BitVec 8} {ib ob : BitVec 32} {n : Nat} {f0 : Nat → BitVec 32}

/-- The output bytes. -/
def want (m0 : BitVec 32 → BitVec 8) (ib : BitVec 32) (j : Nat) : BitVec 8 := m0 (ib + BitVec.ofNat 32 (j / 2)) - 0x80#8

/-- `k` elements of `n` are done. -/
structure Inv (m0 : BitVec 32 → BitVec 8) (ib ob : BitVec 32) (f0 : Nat → BitVec 32) (n k : Nat) (s : St) : Prop where
  r1 : s.r 1 = ib + BitVec.ofNat 32 k
  r2 : s.r 2 = ib + BitVec.ofNat 32 n
  r3 : s.r 3 = ob + BitVec.ofNat 32 (2 * k)
  fp : s.fp = f0
  mem : s.mem = fill m0 ob (2 * k) (want m0 ib)

theorem low_byte (b : BitVec 8) (i : Nat) (h : i < 1) : bytes32 (b.setWidth 32 - BitVec.ofNat 32 128) i = b - 0x80#8 := by
  obtain rfl : i = 0 := by omega
  unfold bytes32 byte
  rw [if_pos (by decide)]
  apply BitVec.eq_of_toNat_eq
  simp only [BitVec.extractLsb'_toNat, BitVec.toNat_sub, BitVec.toNat_setWidth, BitVec.toNat_ofNat, Nat.shiftRight_zero, Nat.mul_zero]
  have := b.isLt
  omega

theorem one {v : Nat} (h : Io e.rd e.wr ib ob n v (fun _ => v)) (hv : v = 2 * n) {k : Nat} (hk : k < n) {s : St} (hi : Inv m0 ib ob f0 n k s) :
    ∃ s', blk (sem e) b18 s = some s' ∧ Inv m0 ib ob f0 n (k + 1) s' ∧ s'.fl = subFlags (ib + BitVec.ofNat 32 (k + 1)) (ib + BitVec.ofNat 32 n) := by
  ar [hi.r1, hi.r2, hi.r3, h.load hi.mem rfl (show k + 1 ≤ n by omega) (fun _ _ => by omega)]
  rw [h.store hi.mem (len := 1) rfl (by omega) ?_]
  rotate_left
  · intro i hi'
    rw [low_byte _ _ hi']
    simp only [inp, want, Nat.zero_lt_one, if_true, Nat.add_zero]
    rw [show (2 * k + i) / 2 = k by omega]
  ar [hi.r1, hi.r2, hi.r3, adv]
  rw [h.store rfl (len := 1) rfl (by omega) ?_]
  rotate_left
  · intro i hi'
    rw [low_byte _ _ hi']
    simp only [inp, want, Nat.zero_lt_one, if_true, Nat.add_zero]
    rw [show (2 * k + 1 + i) / 2 = k by omega]
  ar [hi.r1, hi.r2, hi.r3, adv]
  refine ⟨_, rfl, ⟨?_, ?_, ?_, hi.fp, rfl⟩, rfl⟩
  · ar []
  · ar [hi.r2]
  · ar []
    rw [show 2 * (k + 1) = 2 * k + 2 by omega]

/-- The whole routine. -/
theorem routine {nin nout v : Nat} (hn : n = min nin nout) (hv : v = 2 * n) {s : St} (ha : Args s ib ob nin nout)
    (h : Io e.rd e.wr ib ob n v (fun _ => v)) (he : ib.toNat + n < 2 ^ 32) :
    ∃ s', Returns (sem e) prog 3 s s' ∧ s'.fp = s.fp ∧ s'.mem = fill s.mem ob (2 * Arm.converted ib.toNat 1 1 0 n) (want s.mem ib) := by
  have hin := ha.hin
  have hout := ha.hout
  obtain ⟨s1, g1, e1⟩ : ∃ s', blk (sem e) b3 s = some s' ∧ (s'.r 1 = ib ∧ s'.r 2 = BitVec.ofNat 32 n ∧ s'.r 3 = ob ∧ s'.fp = s.fp ∧ s'.mem = s.mem ∧
      s'.fl.z = decide (n = 0)) := by
    ar [ha.f1, ha.f2, ha.f3, ha.f4, St.cond, taken_lt hout hin]
    by_cases c : nout < nin
    · rw [decide_eq_true c, if_pos rfl]
      obtain rfl : n = nout := by omega
      ar []
      refine ⟨_, rfl, ?_, ?_, ?_, rfl, rfl, ?_⟩ <;> ar [beq_zero (show n < 2 ^ 32 by omega)]
    · rw [decide_eq_false c, if_neg (by decide)]
      obtain rfl : n = nin := by omega
      ar []
      refine ⟨_, rfl, ?_, ?_, ?_, rfl, rfl, ?_⟩ <;> ar [beq_zero (show n < 2 ^ 32 by omega)]
  obtain ⟨q1, q2, q3, q4, q5, q6⟩ := e1
  have hb := reach_branch (m := sem e) (p := prog) (s := s1) (pc := 15) (t := 28) .EQ .ui8toi16_done (by decide +kernel) (by decide +kernel)
    (b := decide (n = 0)) q6
  have fin : ∀ s', Returns (sem e) prog 28 s' s' := fun s' => (reach_blk (p := prog) (m := sem e) (pc := 28) (s := s') (s' := s')
    [.label .ui8toi16_done] (by decide +kernel) rfl).returns (returns_ret (by decide +kernel))
  by_cases c : n = 0
  · rw [decide_eq_true c, if_pos rfl] at hb
    refine ⟨s1, ((reach_blk b3 h3 g1).trans hb).returns (fin s1), q4, ?_⟩
    subst c
    simp only [Arm.converted, if_true, Nat.mul_zero, fill_zero]
    exact q5
  · rw [decide_eq_false c, if_neg (by decide)] at hb
    obtain ⟨s2, g2, i2⟩ : ∃ s', blk (sem e) b16 s1 = some s' ∧ Inv s.mem ib ob s.fp n 0 s' := by
      ar [q1, q2]
      refine ⟨_, rfl, ?_, ?_, ?_, q4, ?_⟩
      · ar [q1]
      · ar []; exact BitVec.add_comm _ _
      · ar [q3]
      · rw [Nat.mul_zero, fill_zero]; exact q5
    have r17 : Reach (sem e) prog 17 s2 18 s2 := reach_blk (p := prog) (m := sem e) (pc := 17) [.nop] (by decide +kernel) rfl
    obtain ⟨s3, i3, r3⟩ := aloop (e := e) (p := prog) (a := 18) (b := 27) (Inv s.mem ib ob s.fp n) ib 1 0 1 n (by decide) (by omega) (by decide)
      (by omega) (one_dvd _) (fun x t hx hp => by
        obtain ⟨t', g, i, f⟩ := one h hv (by omega) hp
        refine ⟨t', i, (reach_blk b18 h18 g).trans ?_⟩
        exact reach_branch (m := sem e) (p := prog) (s := t') (pc := 26) (t := 18) .LT .ui8toi16_loop (by decide +kernel) (by decide +kernel)
          (by
            show t'.fl.taken .LT = _
            rw [f, taken_slt, Nat.one_mul, Nat.one_mul])) s2 i2
    have r27 : Reach (sem e) prog 27 s3 28 s3 := reach_blk (p := prog) (m := sem e) (pc := 27) [.nop] (by decide +kernel) rfl
    refine ⟨s3, (((reach_blk b3 h3 g1).trans hb).trans ((reach_blk b16 h16 g2).trans (r17.trans (r3.trans r27)))).returns (fin s3), i3.fp, ?_⟩
    rw [i3.mem, Arm.converted]
    simp only [if_true]
    rw [if_neg (show ¬ 0 = n from fun h => c h.symm)]

end Ui16

end Verif.A32.Conv
