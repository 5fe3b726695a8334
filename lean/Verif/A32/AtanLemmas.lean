import Verif.A32.A32Spec
import Verif.A32.MathModel
import Verif.Arm.AtanModel

/-!
# The runs of `FastAtan2` and `FastAtan2_2` on 32-bit ARM, instruction by instruction
-/

namespace Verif.A32.Math
open Verif.A32 Verif.Mach
open Verif.Arm (AOps Const fatan2Tail fastAtan2Arm fastAtan2_2Arm)

namespace Atan

/-- The outcome of a comparison as in the structured model. -/
def ord : Rel → Option Ordering
  | .lt => some .lt
  | .eq => some .eq
  | .gt => some .gt
  | .un => none

/-- The constants as the assembler rounds them. -/
def bits : Const → BitVec 32
  | .zero => 0
  | .one => 0x3f800000
  | .tiny => 0x1e3ce508
  | .c1963 => 0x3e4902de
  | .c9817 => 0x3f7b50b1
  | .c28 => 0x3e8f5c29
  | .pi => 0x40490fdb
  | .halfPi => 0x3fc90fdb
  | .negHalfPi => 0xbfc90fdb
  | .quarterPi => 0x3f490fdb
  | .threeQuarterPi => 0x4016cbe4

/-- The arithmetic of the unit. -/
def ops (o : Ops) : AOps (BitVec 32) :=
  ⟨o.add, o.sub, o.mul, o.div, fneg, fabs, fun a b => ord (o.cmp a b), bits⟩

/-- Memory, frame and the control bits of FPSCR are as in `t`. -/
structure Kept (t s : St) : Prop where
  mem : s.mem = t.mem
  fp : s.fp = t.fp
  scr : ∀ k n, k + n ≤ 28 → s.fpscr.extractLsb' k n = t.fpscr.extractLsb' k n

theorem Kept.refl (s : St) : Kept s s := ⟨rfl, rfl, fun _ _ _ => rfl⟩

variable {e : Env} {t : St}

/-- dsp/math32_arm.s:10-20. -/
abbrev b10 : List (Line Lbl Ins Cond) :=
  [.label .FastAtan2,
   .ins (.op .MOVF [.fp 0, .f 6]),
   .ins (.op .MOVF [.fp 4, .f 4]), .nop,
   .ins (.op .ABSF [.f 6, .f 2]), .nop,
   .ins (.op .MOVF [.fi 0x1e3ce508, .f 0]),
   .ins (.op .ADDF [.f 0, .f 2]), .nop,
   .ins (.WORD 0xeeb54ac0),
   .ins (.WORD 0xeef1fa10)]

theorem h10 : (prog.drop 10).take b10.length = b10 := by decide +kernel

/-- dsp/math32_arm.s:23-26. -/
abbrev b23 : List (Line Lbl Ins Cond) :=
  [.nop,
   .ins (.op .ADDF [.f 2, .f 4, .f 1]),
   .ins (.op .SUBF [.f 4, .f 2, .f 4]),
   .ins (.op .MOVF [.fi 0x4016cbe4, .f 3])]

theorem h23 : (prog.drop 23).take b23.length = b23 := by decide +kernel

/-- dsp/math32_arm.s:29-33. -/
abbrev b29 : List (Line Lbl Ins Cond) :=
  [.label .fatan2_pos_x,
   .ins (.op .SUBF [.f 2, .f 4, .f 1]),
   .ins (.op .ADDF [.f 2, .f 4, .f 4]),
   .ins (.op .MOVF [.fi 0x3f490fdb, .f 3]), .nop]

theorem h29 : (prog.drop 29).take b29.length = b29 := by decide +kernel

/-- dsp/math32_arm.s:34-44. -/
abbrev b34 : List (Line Lbl Ins Cond) :=
  [.label .fatan2_2,
   .ins (.op .DIVF [.f 4, .f 1, .f 2]), .nop,
   .ins (.op .MOVF [.fi 0x3e4902de, .f 1]),
   .ins (.op .MULF [.f 2, .f 1]),
   .ins (.op .MULF [.f 2, .f 1]),
   .ins (.op .MOVF [.fi 0x3f7b50b1, .f 0]),
   .ins (.op .SUBF [.f 0, .f 1]),
   .ins (.op .MULF [.f 2, .f 1]),
   .ins (.op .ADDF [.f 3, .f 1]), .nop]

theorem h34 : (prog.drop 34).take b34.length = b34 := by decide +kernel

/-- dsp/math32_arm.s:45-48. -/
abbrev b45 : List (Line Lbl Ins Cond) :=
  [.ins (.WORD 0xeeb56ac0),
   .ins (.WORD 0xeef1fa10),
   .ins (.WORD 0xbeb11a41),
   .ins (.op .MOVF [.f 1, .fp 8])]

theorem h45 : (prog.drop 45).take b45.length = b45 := by decide +kernel

/-- dsp/math32_arm.s:51-53. -/
abbrev b51 : List (Line Lbl Ins Cond) :=
  [.label .fatan2_zero_x,
   .ins (.WORD 0xeeb56ac0),
   .ins (.WORD 0xeef1fa10)]

theorem h51 : (prog.drop 51).take b51.length = b51 := by decide +kernel

/-- dsp/math32_arm.s:56-56. -/
abbrev b56 : List (Line Lbl Ins Cond) :=
  [.ins (.op .MOVF [.f 6, .fp 8])]

theorem h56 : (prog.drop 56).take b56.length = b56 := by decide +kernel

/-- dsp/math32_arm.s:59-61. -/
abbrev b59 : List (Line Lbl Ins Cond) :=
  [.label .fatan2_neg_y,
   .ins (.op .MOVF [.fi 0xbfc90fdb, .f 6]),
   .ins (.op .MOVF [.f 6, .fp 8])]

theorem h59 : (prog.drop 59).take b59.length = b59 := by decide +kernel

/-- dsp/math32_arm.s:64-66. -/
abbrev b64 : List (Line Lbl Ins Cond) :=
  [.label .fatan2_pos_y,
   .ins (.op .MOVF [.fi 0x3fc90fdb, .f 6]),
   .ins (.op .MOVF [.f 6, .fp 8])]

theorem h64 : (prog.drop 64).take b64.length = b64 := by decide +kernel

/-- dsp/math32_arm.s:70-74. -/
abbrev b70 : List (Line Lbl Ins Cond) :=
  [.label .FastAtan2_2,
   .ins (.op .MOVF [.fp 4, .f 6]),
   .ins (.op .MOVF [.fp 0, .f 3]),
   .ins (.WORD 0xeeb56ac0),
   .ins (.WORD 0xeef1fa10)]

theorem h70 : (prog.drop 70).take b70.length = b70 := by decide +kernel

/-- dsp/math32_arm.s:76-84. -/
abbrev b76 : List (Line Lbl Ins Cond) :=
  [.nop, .nop,
   .ins (.op .DIVF [.f 6, .f 3, .f 1]),
   .ins (.op .MULF [.f 1, .f 1, .f 2]),
   .ins (.op .MOVF [.fi 0x3f800000, .f 0]), .nop, .nop,
   .ins (.WORD 0xeeb42ac0),
   .ins (.WORD 0xeef1fa10)]

theorem h76 : (prog.drop 76).take b76.length = b76 := by decide +kernel

/-- dsp/math32_arm.s:86-93. -/
abbrev b86 : List (Line Lbl Ins Cond) :=
  [.nop, .nop,
   .ins (.op .MOVF [.fi 0x3e8f5c29, .f 4]),
   .ins (.op .MULF [.f 4, .f 2]),
   .ins (.op .ADDF [.f 0, .f 2]),
   .ins (.op .DIVF [.f 2, .f 1, .f 2]),
   .ins (.WORD 0xeeb56ac0),
   .ins (.WORD 0xeef1fa10)]

theorem h86 : (prog.drop 86).take b86.length = b86 := by decide +kernel

/-- dsp/math32_arm.s:95-97. -/
abbrev b95 : List (Line Lbl Ins Cond) :=
  [.ins (.op .MOVF [.fi 0x40490fdb, .f 1]),
   .ins (.WORD 0xeeb53ac0),
   .ins (.WORD 0xeef1fa10)]

theorem h95 : (prog.drop 95).take b95.length = b95 := by decide +kernel

/-- dsp/math32_arm.s:98-100. -/
abbrev b98 : List (Line Lbl Ins Cond) :=
  [.ins (.opc .LT .SUBF [.f 1, .f 2]),
   .ins (.opc .GE .ADDF [.f 1, .f 2]), .nop]

theorem h98 : (prog.drop 98).take b98.length = b98 := by decide +kernel

/-- dsp/math32_arm.s:101-102. -/
abbrev b101 : List (Line Lbl Ins Cond) :=
  [.label .fatan22_6,
   .ins (.op .MOVF [.f 2, .fp 8])]

theorem h101 : (prog.drop 101).take b101.length = b101 := by decide +kernel

/-- dsp/math32_arm.s:105-114. -/
abbrev b105 : List (Line Lbl Ins Cond) :=
  [.label .fatan22_5, .nop,
   .ins (.op .MOVF [.fi 0x3e8f5c29, .f 4]),
   .ins (.op .ADDF [.f 4, .f 2]),
   .ins (.op .DIVF [.f 2, .f 1, .f 2]),
   .ins (.op .MOVF [.fi 0x3fc90fdb, .f 1]),
   .ins (.op .SUBF [.f 2, .f 1, .f 2]),
   .ins (.op .MOVF [.fi 0x40490fdb, .f 1]),
   .ins (.WORD 0xeeb53ac0),
   .ins (.WORD 0xeef1fa10)]

theorem h105 : (prog.drop 105).take b105.length = b105 := by decide +kernel

/-- dsp/math32_arm.s:115-116. -/
abbrev b115 : List (Line Lbl Ins Cond) :=
  [.ins (.opc .LT .SUBF [.f 1, .f 2]),
   .ins (.op .MOVF [.f 2, .fp 8])]

theorem h115 : (prog.drop 115).take b115.length = b115 := by decide +kernel

/-- dsp/math32_arm.s:119-126. -/
abbrev b119 : List (Line Lbl Ins Cond) :=
  [.label .fatan22_zero_x,
   .ins (.WORD 0xeeb53ac0),
   .ins (.WORD 0xeef1fa10), .nop, .nop, .nop, .nop, .nop]

theorem h119 : (prog.drop 119).take b119.length = b119 := by decide +kernel

/-- dsp/math32_arm.s:129-129. -/
abbrev b129 : List (Line Lbl Ins Cond) :=
  [.ins (.op .MOVF [.f 6, .fp 8])]

theorem h129 : (prog.drop 129).take b129.length = b129 := by decide +kernel

/-- dsp/math32_arm.s:132-134. -/
abbrev b132 : List (Line Lbl Ins Cond) :=
  [.label .fatan22_neg_pi2,
   .ins (.op .MOVF [.fi 0xbfc90fdb, .f 6]),
   .ins (.op .MOVF [.f 6, .fp 8])]

theorem h132 : (prog.drop 132).take b132.length = b132 := by decide +kernel

/-- dsp/math32_arm.s:137-139. -/
abbrev b137 : List (Line Lbl Ins Cond) :=
  [.label .fatan22_pi2,
   .ins (.op .MOVF [.fi 0x3fc90fdb, .f 6]),
   .ins (.op .MOVF [.f 6, .fp 8])]

theorem h137 : (prog.drop 137).take b137.length = b137 := by decide +kernel

/-! ### `FastAtan2` -/

theorem start (s : St) : ∃ s', blk (sem e) b10 s = some s' ∧ Kept s s' ∧ s'.v 12 = s.fp 0 ∧ s'.v 8 = s.fp 4 ∧
    s'.v 4 = e.o.add (fabs (s.fp 0)) 0x1e3ce508 ∧ s'.fl = (e.o.cmp (s.fp 4) 0).flags := by
  ar [Env.fpu, vfp_low (show (4 : Nat) < 8 by decide), weeb54ac0, weef1fa10, fpFlags_setRel]
  refine ⟨_, rfl, ⟨rfl, rfl, fun k n h => setRel_bits _ _ k n h⟩, ?_, ?_, ?_, ?_⟩ <;> ar [St.setRel] <;> rfl

theorem left {s : St} (hk : Kept t s) (hL : t.fpscr.extractLsb' 16 3 = 0) : ∃ s', blk (sem e) b23 s = some s' ∧ Kept t s' ∧ s'.v 12 = s.v 12 ∧
    s'.v 8 = e.o.sub (s.v 4) (s.v 8) ∧ s'.v 2 = e.o.add (s.v 8) (s.v 4) ∧ s'.v 6 = 0x4016cbe4 := by
  have h : ∀ w f d n m, e.vfp { s with v := w } f d n m = _ := fun w f d n m => vfp_one (s := { s with v := w }) ((hk.scr 16 3 (by decide)).trans hL)
  ar [Env.fpu, vfp_low (show (2 : Nat) < 8 by decide), h]
  refine ⟨_, rfl, ⟨hk.mem, hk.fp, hk.scr⟩, ?_, ?_, ?_, ?_⟩ <;> ar [] <;> rfl

theorem right {s : St} (hk : Kept t s) (hL : t.fpscr.extractLsb' 16 3 = 0) : ∃ s', blk (sem e) b29 s = some s' ∧ Kept t s' ∧ s'.v 12 = s.v 12 ∧
    s'.v 8 = e.o.add (s.v 8) (s.v 4) ∧ s'.v 2 = e.o.sub (s.v 8) (s.v 4) ∧ s'.v 6 = 0x3f490fdb := by
  have h : ∀ w f d n m, e.vfp { s with v := w } f d n m = _ := fun w f d n m => vfp_one (s := { s with v := w }) ((hk.scr 16 3 (by decide)).trans hL)
  ar [Env.fpu, vfp_low (show (2 : Nat) < 8 by decide), h]
  refine ⟨_, rfl, ⟨hk.mem, hk.fp, hk.scr⟩, ?_, ?_, ?_, ?_⟩ <;> ar [] <;> rfl

/-- The polynomial. -/
def poly (o : Ops) (a b c : BitVec 32) : BitVec 32 :=
  o.add (o.mul (o.sub (o.mul (o.mul 0x3e4902de (o.div b a)) (o.div b a)) 0x3f7b50b1) (o.div b a)) c

theorem mid {s : St} (hk : Kept t s) : ∃ s', blk (sem e) b34 s = some s' ∧ Kept t s' ∧ s'.v 12 = s.v 12 ∧
    s'.v 2 = poly e.o (s.v 8) (s.v 2) (s.v 6) := by
  ar [Env.fpu, vfp_low (show (2 : Nat) < 8 by decide), vfp_low (show (4 : Nat) < 8 by decide)]
  refine ⟨_, rfl, ⟨hk.mem, hk.fp, hk.scr⟩, ?_, ?_⟩
  · ar []
  · ar []
    rfl

theorem sign {s : St} (hk : Kept t s) : ∃ s', Reach (sem e) prog 45 s 49 s' ∧ s'.mem = t.mem ∧ (∀ k n, k + n ≤ 28 → s'.fpscr.extractLsb' k n = t.fpscr.extractLsb' k n) ∧
    s'.fp = Function.update t.fp 8 (if (e.o.cmp (s.v 12) 0).flags.taken .LT then fneg (s.v 2) else s.v 2) := by
  obtain ⟨s', g, h⟩ : ∃ s', blk (sem e) b45 s = some s' ∧ s'.mem = t.mem ∧ (∀ k n, k + n ≤ 28 → s'.fpscr.extractLsb' k n = t.fpscr.extractLsb' k n) ∧
      s'.fp = Function.update t.fp 8 (if (e.o.cmp (s.v 12) 0).flags.taken .LT then fneg (s.v 2) else s.v 2) := by
    ar [weeb56ac0, weef1fa10, wbeb11a41, fpFlags_setRel, when_lt]
    by_cases c : (e.o.cmp (s.v 12) 0).flags.taken .LT = true
    · ar [c, vfp_low (show (2 : Nat) < 8 by decide)]
      refine ⟨_, rfl, hk.mem, fun k n h => (setRel_bits _ _ k n h).trans (hk.scr k n h), ?_⟩
      simp only [← hk.fp]
      rfl
    · ar [c]
      refine ⟨_, rfl, hk.mem, fun k n h => (setRel_bits _ _ k n h).trans (hk.scr k n h), ?_⟩
      simp only [← hk.fp]
      rfl
  exact ⟨s', reach_blk b45 h45 g, h⟩
/-- The end of both branches is that of the structured model. -/
theorem tail {s : St} (hk : Kept t s) : ∃ s', Returns (sem e) prog 34 s s' ∧ s'.mem = t.mem ∧ (∀ k n, k + n ≤ 28 → s'.fpscr.extractLsb' k n = t.fpscr.extractLsb' k n) ∧
    s'.fp = Function.update t.fp 8 (fatan2Tail (ops e.o) (s.v 12) (s.v 8) (s.v 2) (s.v 6)) := by
  obtain ⟨s1, g1, k1, a1, b1⟩ := mid (e := e) hk
  obtain ⟨s2, g2, h1, h2, h3⟩ := sign (e := e) k1
  refine ⟨s2, ((reach_blk b34 h34 g1).trans g2).returns (returns_ret (by decide +kernel)), h1, h2, ?_⟩
  rw [h3, a1, b1]
  congr 1
  unfold fatan2Tail
  simp only [ops, show bits .zero = (0 : BitVec 32) from rfl]
  cases e.o.cmp (s.v 12) 0 <;> rfl

theorem zero_y {s : St} (hk : Kept t s) : ∃ s', Returns (sem e) prog 51 s s' ∧ s'.mem = t.mem ∧ (∀ k n, k + n ≤ 28 → s'.fpscr.extractLsb' k n = t.fpscr.extractLsb' k n) ∧
    s'.fp = Function.update t.fp 8 (if (e.o.cmp (s.v 12) 0).flags.taken .GT then 0x3fc90fdb else
      if (e.o.cmp (s.v 12) 0).flags.taken .LT then 0xbfc90fdb else s.v 12) := by
  obtain ⟨s1, g1, k1, a1, f1⟩ : ∃ s', blk (sem e) b51 s = some s' ∧ Kept t s' ∧ s'.v 12 = s.v 12 ∧ s'.fl = (e.o.cmp (s.v 12) 0).flags := by
    ar [weeb56ac0, weef1fa10, fpFlags_setRel]
    exact ⟨_, rfl, ⟨hk.mem, hk.fp, fun k n h => (setRel_bits _ _ k n h).trans (hk.scr k n h)⟩, rfl, rfl⟩
  rw [← f1, ← a1]
  have r1 := (reach_blk b51 h51 g1).trans (reach_branch (m := sem e) (p := prog) (s := s1) (pc := 54) (t := 64) .GT .fatan2_pos_y (by decide +kernel)
    (by decide +kernel) (b := s1.fl.taken .GT) rfl)
  cases c : s1.fl.taken .GT with
  | true =>
    rw [c, if_pos rfl] at r1
    refine ⟨{ s1 with r := Function.update s1.r 11 (e.tmp (.fi 0x3fc90fdb)), v := Function.update s1.v 12 0x3fc90fdb, fp := Function.update s1.fp 8 0x3fc90fdb },
      (r1.trans (reach_blk b64 h64 ?_)).returns (returns_ret (by decide +kernel)), k1.mem, k1.scr, ?_⟩
    · ar []; rfl
    · simp only [k1.fp]; rfl
  | false =>
    rw [c, if_neg (by decide)] at r1
    replace r1 := r1.trans (reach_branch (m := sem e) (p := prog) (s := s1) (pc := 55) (t := 59) .LT .fatan2_neg_y (by decide +kernel)
      (by decide +kernel) (b := s1.fl.taken .LT) rfl)
    cases c2 : s1.fl.taken .LT with
    | true =>
      rw [c2, if_pos rfl] at r1
      refine ⟨{ s1 with r := Function.update s1.r 11 (e.tmp (.fi 0xbfc90fdb)), v := Function.update s1.v 12 0xbfc90fdb, fp := Function.update s1.fp 8 0xbfc90fdb },
        (r1.trans (reach_blk b59 h59 ?_)).returns (returns_ret (by decide +kernel)), k1.mem, k1.scr, ?_⟩
      · ar []; rfl
      · simp only [k1.fp]; rfl
    | false =>
      rw [c2, if_neg (by decide)] at r1
      refine ⟨{ s1 with fp := Function.update s1.fp 8 (s1.v 12) }, (r1.trans (reach_blk b56 h56 ?_)).returns (returns_ret (by decide +kernel)), k1.mem, k1.scr, ?_⟩
      · ar []
      · simp only [k1.fp]; rfl

/-- The whole of `FastAtan2`. -/
theorem routine {s : St} (hL : s.fpscr.extractLsb' 16 3 = 0) : ∃ s', Returns (sem e) prog 10 s s' ∧ s'.mem = s.mem ∧
    (∀ k n, k + n ≤ 28 → s'.fpscr.extractLsb' k n = s.fpscr.extractLsb' k n) ∧
    s'.fp = Function.update s.fp 8 (fastAtan2Arm (ops e.o) (s.fp 0) (s.fp 4)) := by
  obtain ⟨s1, g1, k1, a1, b1, c1, f1⟩ := start (e := e) s
  have z : bits .zero = 0 := rfl
  have r1 := (reach_blk b10 h10 g1).trans (reach_branch (m := sem e) (p := prog) (s := s1) (pc := 21) (t := 29) .GT .fatan2_pos_x (by decide +kernel)
    (by decide +kernel) (b := s1.fl.taken .GT) rfl)
  cases hr : e.o.cmp (s.fp 4) 0 with
  | gt =>
    rw [f1, hr, show Rel.gt.flags.taken .GT = true from rfl, if_pos rfl] at r1
    obtain ⟨s2, g2, k2, a2, b2, c2, d2⟩ := right (e := e) k1 hL
    obtain ⟨s3, h1, h2, h3, h4⟩ := tail (e := e) k2
    refine ⟨s3, (r1.trans (reach_blk b29 h29 g2)).returns h1, h2, h3, ?_⟩
    rw [h4, a2, b2, c2, d2, a1, b1, c1]
    unfold fastAtan2Arm
    simp only [ops, z, hr]
    rfl
  | eq =>
    rw [f1, hr, show Rel.eq.flags.taken .GT = false from rfl, if_neg (by decide)] at r1
    replace r1 := r1.trans (reach_branch (m := sem e) (p := prog) (s := s1) (pc := 22) (t := 51) .EQ .fatan2_zero_x (by decide +kernel)
      (by decide +kernel) (b := s1.fl.taken .EQ) rfl)
    rw [f1, hr, show Rel.eq.flags.taken .EQ = true from rfl, if_pos rfl] at r1
    obtain ⟨s3, h1, h2, h3, h4⟩ := zero_y (e := e) k1
    refine ⟨s3, r1.returns h1, h2, h3, ?_⟩
    rw [h4, a1]
    unfold fastAtan2Arm
    simp only [ops, z, hr]
    cases e.o.cmp (s.fp 0) 0 <;> rfl
  | lt =>
    rw [f1, hr, show Rel.lt.flags.taken .GT = false from rfl, if_neg (by decide)] at r1
    replace r1 := r1.trans (reach_branch (m := sem e) (p := prog) (s := s1) (pc := 22) (t := 51) .EQ .fatan2_zero_x (by decide +kernel)
      (by decide +kernel) (b := s1.fl.taken .EQ) rfl)
    rw [f1, hr, show Rel.lt.flags.taken .EQ = false from rfl, if_neg (by decide)] at r1
    obtain ⟨s2, g2, k2, a2, b2, c2, d2⟩ := left (e := e) k1 hL
    replace r1 := (r1.trans (reach_blk b23 h23 g2)).trans (reach_branch (m := sem e) (p := prog) (s := s2) (pc := 27) (t := 34) .AL .fatan2_2 (by decide +kernel)
      (by decide +kernel) (b := true) rfl)
    obtain ⟨s3, h1, h2, h3, h4⟩ := tail (e := e) k2
    refine ⟨s3, r1.returns h1, h2, h3, ?_⟩
    rw [h4, a2, b2, c2, d2, a1, b1, c1]
    unfold fastAtan2Arm
    simp only [ops, z, hr]
    rfl
  | un =>
    rw [f1, hr, show Rel.un.flags.taken .GT = false from rfl, if_neg (by decide)] at r1
    replace r1 := r1.trans (reach_branch (m := sem e) (p := prog) (s := s1) (pc := 22) (t := 51) .EQ .fatan2_zero_x (by decide +kernel)
      (by decide +kernel) (b := s1.fl.taken .EQ) rfl)
    rw [f1, hr, show Rel.un.flags.taken .EQ = false from rfl, if_neg (by decide)] at r1
    obtain ⟨s2, g2, k2, a2, b2, c2, d2⟩ := left (e := e) k1 hL
    replace r1 := (r1.trans (reach_blk b23 h23 g2)).trans (reach_branch (m := sem e) (p := prog) (s := s2) (pc := 27) (t := 34) .AL .fatan2_2 (by decide +kernel)
      (by decide +kernel) (b := true) rfl)
    obtain ⟨s3, h1, h2, h3, h4⟩ := tail (e := e) k2
    refine ⟨s3, r1.returns h1, h2, h3, ?_⟩
    rw [h4, a2, b2, c2, d2, a1, b1, c1]
    unfold fastAtan2Arm
    simp only [ops, z, hr]
    rfl

/-! ### `FastAtan2_2` -/

theorem start2 (s : St) : ∃ s', blk (sem e) b70 s = some s' ∧ Kept s s' ∧ s'.v 12 = s.fp 4 ∧ s'.v 6 = s.fp 0 ∧ s'.fl = (e.o.cmp (s.fp 4) 0).flags := by
  ar [weeb56ac0, weef1fa10, fpFlags_setRel]
  refine ⟨_, rfl, ⟨rfl, rfl, fun k n h => setRel_bits _ _ k n h⟩, ?_, ?_, ?_⟩ <;> ar [St.setRel]

theorem quot {s : St} (hk : Kept t s) : ∃ s', blk (sem e) b76 s = some s' ∧ Kept t s' ∧ s'.v 12 = s.v 12 ∧ s'.v 6 = s.v 6 ∧
    s'.v 2 = e.o.div (s.v 6) (s.v 12) ∧ s'.v 4 = e.o.mul (e.o.div (s.v 6) (s.v 12)) (e.o.div (s.v 6) (s.v 12)) ∧ s'.v 0 = 0x3f800000 ∧
    s'.fl = (e.o.cmp (e.o.mul (e.o.div (s.v 6) (s.v 12)) (e.o.div (s.v 6) (s.v 12))) 0x3f800000).flags := by
  ar [Env.fpu, vfp_low (show (2 : Nat) < 8 by decide), vfp_low (show (4 : Nat) < 8 by decide), weeb42ac0, weef1fa10, fpFlags_setRel]
  refine ⟨_, rfl, ⟨hk.mem, hk.fp, fun k n h => (setRel_bits _ _ k n h).trans (hk.scr k n h)⟩, ?_, ?_, ?_, ?_, ?_, ?_⟩ <;> ar [St.setRel] <;> rfl

theorem inner {s : St} (hk : Kept t s) : ∃ s', blk (sem e) b86 s = some s' ∧ Kept t s' ∧ s'.v 12 = s.v 12 ∧ s'.v 6 = s.v 6 ∧
    s'.v 4 = e.o.div (s.v 2) (e.o.add (e.o.mul (s.v 4) 0x3e8f5c29) (s.v 0)) ∧ s'.fl = (e.o.cmp (s.v 12) 0).flags := by
  ar [Env.fpu, vfp_low (show (4 : Nat) < 8 by decide), weeb56ac0, weef1fa10, fpFlags_setRel]
  refine ⟨_, rfl, ⟨hk.mem, hk.fp, fun k n h => (setRel_bits _ _ k n h).trans (hk.scr k n h)⟩, ?_, ?_, ?_, ?_⟩ <;> ar [St.setRel] <;> rfl

theorem turn {s : St} (hk : Kept t s) : ∃ s', Reach (sem e) prog 95 s 101 s' ∧ Kept t s' ∧ s'.v 4 = (if (e.o.cmp (s.v 6) 0).flags.taken .LT then
    e.o.sub (s.v 4) 0x40490fdb else if (e.o.cmp (s.v 6) 0).flags.taken .GE then e.o.add (s.v 4) 0x40490fdb else s.v 4) := by
  obtain ⟨s1, g1, k1, a1, b1, f1⟩ : ∃ s', blk (sem e) b95 s = some s' ∧ Kept t s' ∧ s'.v 4 = s.v 4 ∧ s'.v 2 = 0x40490fdb ∧
      s'.fl = (e.o.cmp (s.v 6) 0).flags := by
    ar [weeb53ac0, weef1fa10, fpFlags_setRel]
    refine ⟨_, rfl, ⟨hk.mem, hk.fp, fun k n h => (setRel_bits _ _ k n h).trans (hk.scr k n h)⟩, ?_, ?_, ?_⟩ <;> ar [St.setRel] <;> rfl
  rw [← f1, ← a1]
  obtain ⟨s2, g2, h2⟩ : ∃ s', blk (sem e) b98 s1 = some s' ∧ Kept t s' ∧ s'.v 4 = (if s1.fl.taken .LT then
    e.o.sub (s1.v 4) 0x40490fdb else if s1.fl.taken .GE then e.o.add (s1.v 4) 0x40490fdb else s1.v 4) := by
    have x : s1.fl.taken .GE = !s1.fl.taken .LT := by simp [Flags.taken, bne]
    rw [x]
    cases c : s1.fl.taken .LT with
    | true =>
      rw [c] at x
      ar [Env.fpu, St.cond, vfp_low (show (4 : Nat) < 8 by decide), c, x, Bool.not_true, Bool.false_eq_true]
      exact ⟨_, rfl, ⟨k1.mem, k1.fp, k1.scr⟩, by ar [b1]⟩
    | false =>
      rw [c] at x
      ar [Env.fpu, St.cond, vfp_low (show (4 : Nat) < 8 by decide), c, x, Bool.not_false, Bool.false_eq_true]
      exact ⟨_, rfl, ⟨k1.mem, k1.fp, k1.scr⟩, by ar [b1]⟩
  exact ⟨s2, (reach_blk b95 h95 g1).trans (reach_blk b98 h98 g2), h2⟩

theorem out2 {s : St} (hk : Kept t s) : ∃ s', Returns (sem e) prog 101 s s' ∧ s'.mem = t.mem ∧
    (∀ k n, k + n ≤ 28 → s'.fpscr.extractLsb' k n = t.fpscr.extractLsb' k n) ∧ s'.fp = Function.update t.fp 8 (s.v 4) := by
  refine ⟨{ s with fp := Function.update s.fp 8 (s.v 4) }, (reach_blk b101 h101 ?_).returns (returns_ret (by decide +kernel)), hk.mem, hk.scr, ?_⟩
  · ar []
  · simp only [hk.fp]

theorem outer {s : St} (hk : Kept t s) : ∃ s', Returns (sem e) prog 105 s s' ∧ s'.mem = t.mem ∧
    (∀ k n, k + n ≤ 28 → s'.fpscr.extractLsb' k n = t.fpscr.extractLsb' k n) ∧ s'.fp = Function.update t.fp 8 (if (e.o.cmp (s.v 6) 0).flags.taken .LT then
      e.o.sub (e.o.sub 0x3fc90fdb (e.o.div (s.v 2) (e.o.add (s.v 4) 0x3e8f5c29))) 0x40490fdb
      else e.o.sub 0x3fc90fdb (e.o.div (s.v 2) (e.o.add (s.v 4) 0x3e8f5c29))) := by
  obtain ⟨s1, g1, k1, a1, b1, f1⟩ : ∃ s', blk (sem e) b105 s = some s' ∧ Kept t s' ∧ s'.v 4 = e.o.sub 0x3fc90fdb (e.o.div (s.v 2) (e.o.add (s.v 4) 0x3e8f5c29)) ∧
      s'.v 2 = 0x40490fdb ∧ s'.fl = (e.o.cmp (s.v 6) 0).flags := by
    ar [Env.fpu, vfp_low (show (4 : Nat) < 8 by decide), weeb53ac0, weef1fa10, fpFlags_setRel]
    refine ⟨_, rfl, ⟨hk.mem, hk.fp, fun k n h => (setRel_bits _ _ k n h).trans (hk.scr k n h)⟩, ?_, ?_, ?_⟩ <;> ar [St.setRel] <;> rfl
  rw [← f1, ← a1]
  obtain ⟨s2, g2, h2⟩ : ∃ s', blk (sem e) b115 s1 = some s' ∧ s'.mem = t.mem ∧
      (∀ k n, k + n ≤ 28 → s'.fpscr.extractLsb' k n = t.fpscr.extractLsb' k n) ∧ s'.fp = Function.update t.fp 8 (if s1.fl.taken .LT then
      e.o.sub (s1.v 4) 0x40490fdb else s1.v 4) := by
    cases c : s1.fl.taken .LT with
    | true =>
      ar [Env.fpu, St.cond, vfp_low (show (4 : Nat) < 8 by decide), c]
      exact ⟨_, rfl, k1.mem, k1.scr, by simp only [k1.fp, b1]⟩
    | false =>
      ar [Env.fpu, St.cond, vfp_low (show (4 : Nat) < 8 by decide), c, Bool.false_eq_true]
      exact ⟨_, rfl, k1.mem, k1.scr, by simp only [k1.fp]⟩
  exact ⟨s2, ((reach_blk b105 h105 g1).trans (reach_blk b115 h115 g2)).returns (returns_ret (by decide +kernel)), h2⟩

theorem zero_x {s : St} (hk : Kept t s) : ∃ s', Returns (sem e) prog 119 s s' ∧ s'.mem = t.mem ∧ (∀ k n, k + n ≤ 28 → s'.fpscr.extractLsb' k n = t.fpscr.extractLsb' k n) ∧
    s'.fp = Function.update t.fp 8 (if (e.o.cmp (s.v 6) 0).flags.taken .GT then 0x3fc90fdb else
      if (e.o.cmp (s.v 6) 0).flags.taken .LT then 0xbfc90fdb else s.v 12) := by
  obtain ⟨s1, g1, k1, a1, f1⟩ : ∃ s', blk (sem e) b119 s = some s' ∧ Kept t s' ∧ s'.v 12 = s.v 12 ∧ s'.fl = (e.o.cmp (s.v 6) 0).flags := by
    ar [weeb53ac0, weef1fa10, fpFlags_setRel]
    exact ⟨_, rfl, ⟨hk.mem, hk.fp, fun k n h => (setRel_bits _ _ k n h).trans (hk.scr k n h)⟩, rfl, rfl⟩
  rw [← f1, ← a1]
  have r1 := (reach_blk b119 h119 g1).trans (reach_branch (m := sem e) (p := prog) (s := s1) (pc := 127) (t := 137) .GT .fatan22_pi2 (by decide +kernel)
    (by decide +kernel) (b := s1.fl.taken .GT) rfl)
  cases c : s1.fl.taken .GT with
  | true =>
    rw [c, if_pos rfl] at r1
    refine ⟨{ s1 with r := Function.update s1.r 11 (e.tmp (.fi 0x3fc90fdb)), v := Function.update s1.v 12 0x3fc90fdb, fp := Function.update s1.fp 8 0x3fc90fdb },
      (r1.trans (reach_blk b137 h137 ?_)).returns (returns_ret (by decide +kernel)), k1.mem, k1.scr, ?_⟩
    · ar []; rfl
    · simp only [k1.fp]; rfl
  | false =>
    rw [c, if_neg (by decide)] at r1
    replace r1 := r1.trans (reach_branch (m := sem e) (p := prog) (s := s1) (pc := 128) (t := 132) .LT .fatan22_neg_pi2 (by decide +kernel)
      (by decide +kernel) (b := s1.fl.taken .LT) rfl)
    cases c2 : s1.fl.taken .LT with
    | true =>
      rw [c2, if_pos rfl] at r1
      refine ⟨{ s1 with r := Function.update s1.r 11 (e.tmp (.fi 0xbfc90fdb)), v := Function.update s1.v 12 0xbfc90fdb, fp := Function.update s1.fp 8 0xbfc90fdb },
        (r1.trans (reach_blk b132 h132 ?_)).returns (returns_ret (by decide +kernel)), k1.mem, k1.scr, ?_⟩
      · ar []; rfl
      · simp only [k1.fp]; rfl
    | false =>
      rw [c2, if_neg (by decide)] at r1
      refine ⟨{ s1 with fp := Function.update s1.fp 8 (s1.v 12) }, (r1.trans (reach_blk b129 h129 ?_)).returns (returns_ret (by decide +kernel)), k1.mem, k1.scr, ?_⟩
      · ar []
      · simp only [k1.fp]; rfl

/-- The whole of `FastAtan2_2`. -/
theorem routine2 (s : St) : ∃ s', Returns (sem e) prog 70 s s' ∧ s'.mem = s.mem ∧
    (∀ k n, k + n ≤ 28 → s'.fpscr.extractLsb' k n = s.fpscr.extractLsb' k n) ∧
    s'.fp = Function.update s.fp 8 (fastAtan2_2Arm (ops e.o) (s.fp 0) (s.fp 4)) := by
  obtain ⟨s1, g1, k1, a1, b1, f1⟩ := start2 (e := e) s
  have z : bits .zero = 0 := rfl
  have o : bits .one = 0x3f800000 := rfl
  have r1 := (reach_blk b70 h70 g1).trans (reach_branch (m := sem e) (p := prog) (s := s1) (pc := 75) (t := 119) .EQ .fatan22_zero_x (by decide +kernel)
    (by decide +kernel) (b := s1.fl.taken .EQ) rfl)
  by_cases hr : e.o.cmp (s.fp 4) 0 = .eq
  · rw [f1, hr, show Rel.eq.flags.taken .EQ = true from rfl, if_pos rfl] at r1
    obtain ⟨s3, h1, h2, h3, h4⟩ := zero_x (e := e) k1
    refine ⟨s3, r1.returns h1, h2, h3, ?_⟩
    rw [h4, a1, b1]
    unfold fastAtan2_2Arm
    simp only [ops, z, hr]
    cases e.o.cmp (s.fp 0) 0 <;> rfl
  · rw [f1, rel_eq, decide_eq_false hr, if_neg (by decide)] at r1
    obtain ⟨s2, g2, k2, a2, b2, c2, d2, o2, f2⟩ := quot (e := e) k1
    rw [a1, b1] at c2 d2 f2
    rw [a1] at a2
    rw [b1] at b2
    replace r1 := (r1.trans (reach_blk b76 h76 g2)).trans (reach_branch (m := sem e) (p := prog) (s := s2) (pc := 85) (t := 105) .GT .fatan22_5 (by decide +kernel)
      (by decide +kernel) (b := s2.fl.taken .GT) rfl)
    have hne : (Arm.Flags.ofCmp (ord (e.o.cmp (s.fp 4) 0))).eq = false := by
      revert hr
      cases e.o.cmp (s.fp 4) 0 <;> simp [ord, Arm.Flags.ofCmp, Arm.Flags.eq]
    unfold fastAtan2_2Arm
    simp only [ops, z, o, hne, Bool.false_eq_true, ↓reduceIte]
    by_cases hg : e.o.cmp (e.o.mul (e.o.div (s.fp 0) (s.fp 4)) (e.o.div (s.fp 0) (s.fp 4))) 0x3f800000 = .gt
    · rw [f2, hg, show Rel.gt.flags.taken .GT = true from rfl, if_pos rfl] at r1
      obtain ⟨s3, h1, h2, h3, h4⟩ := outer (e := e) k2
      refine ⟨s3, r1.returns h1, h2, h3, ?_⟩
      rw [h4, b2, c2, d2]
      simp only [hg]
      cases e.o.cmp (s.fp 0) 0 <;> rfl
    · rw [f2, rel_gt, decide_eq_false hg, if_neg (by decide)] at r1
      obtain ⟨s3, g3, k3, a3, b3, c3, f3⟩ := inner (e := e) k2
      rw [a2] at f3
      rw [c2, d2, o2] at c3
      replace r1 := (r1.trans (reach_blk b86 h86 g3)).trans (reach_branch (m := sem e) (p := prog) (s := s3) (pc := 94) (t := 101) .GE .fatan22_6 (by decide +kernel)
        (by decide +kernel) (b := s3.fl.taken .GE) rfl)
      have hng : (Arm.Flags.ofCmp (ord (e.o.cmp (e.o.mul (e.o.div (s.fp 0) (s.fp 4)) (e.o.div (s.fp 0) (s.fp 4))) 0x3f800000))).gt = false := by
        revert hg
        cases e.o.cmp (e.o.mul (e.o.div (s.fp 0) (s.fp 4)) (e.o.div (s.fp 0) (s.fp 4))) 0x3f800000 <;> simp [ord, Arm.Flags.ofCmp, Arm.Flags.gt]
      have hge : (Arm.Flags.ofCmp (ord (e.o.cmp (s.fp 4) 0))).ge = s3.fl.taken .GE := by
        rw [f3]
        cases e.o.cmp (s.fp 4) 0 <;> rfl
      simp only [hng, hge, Bool.false_eq_true, ↓reduceIte]
      cases c : s3.fl.taken .GE with
      | true =>
        rw [c, if_pos rfl] at r1
        obtain ⟨s4, h1, h2, h3, h4⟩ := out2 (e := e) k3
        refine ⟨s4, r1.returns h1, h2, h3, ?_⟩
        rw [h4, c3]
        rfl
      | false =>
        rw [c, if_neg (by decide)] at r1
        obtain ⟨s4, g4, k4, v4⟩ := turn (e := e) k3
        obtain ⟨s5, h1, h2, h3, h4⟩ := out2 (e := e) k4
        refine ⟨s5, (r1.trans g4).returns h1, h2, h3, ?_⟩
        rw [h4, v4, c3, b3, b2]
        cases e.o.cmp (s.fp 0) 0 <;> rfl

end Atan
end Verif.A32.Math
