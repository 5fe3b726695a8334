import Verif.A32.AtanLemmas
import Verif.A32.DemodModel

/-!
# The run of `fmDemodulateAsm` on 32-bit ARM, instruction by instruction
-/

namespace Verif.A32.Demod
open Verif.A32 Verif.Mach
open Verif.X86 (Vec byte d32 of32 bytes32)
open Verif.Arm (AOps Const fatan2Tail fastAtan2Arm)
open Verif.A32.Math.Atan (ops bits ord poly)

/-! ### Basic blocks -/

/-- dsp/demod_arm.s:3-14. -/
abbrev b3 : List (Line Lbl Ins Cond) :=
  [.label .fmDemodulateAsm,
   .ins (.op .MOVW [.fp 4, .r 1]),
   .ins (.op .MOVW [.fp 8, .r 2]),
   .ins (.op .MOVW [.fp 16, .r 3]),
   .ins (.op .MOVW [.fp 20, .r 4]), .nop, .nop,
   .ins (.op .CMP [.r 2, .r 4]),
   .ins (.opc .LT .MOVW [.r 4, .r 2]), .nop, .nop,
   .ins (.op .TEQ [.i 0, .r 2])]

theorem h3 : (prog.drop 3).take b3.length = b3 := by decide +kernel

/-- dsp/demod_arm.s:16-20. -/
abbrev b16 : List (Line Lbl Ins Cond) :=
  [.nop,
   .ins (.op .MOVW [.fp 0, .r 0]),
   .ins (.op .MOVF [.m 0 0, .f 5]),
   .ins (.op .MOVF [.m 0 4, .f 1]), .nop]

theorem h16 : (prog.drop 16).take b16.length = b16 := by decide +kernel

/-- dsp/demod_arm.s:21-35. -/
abbrev b21 : List (Line Lbl Ins Cond) :=
  [.label .fmDemod_loop,
   .ins (.op .MOVF [.m 1 0, .f 2]),
   .ins (.op .MOVF [.m 1 4, .f 3]),
   .ins (.op .ADD [.i 8, .r 1]), .nop,
   .ins (.op .MULF [.f 3, .f 5, .f 6]),
   .ins (.op .MULF [.f 2, .f 1, .f 0]),
   .ins (.op .MULF [.f 2, .f 5, .f 4]),
   .ins (.op .MULF [.f 3, .f 1, .f 7]),
   .ins (.op .SUBF [.f 0, .f 6]),
   .ins (.op .ADDF [.f 7, .f 4]), .nop,
   .ins (.op .MOVF [.f 2, .f 5]),
   .ins (.op .MOVF [.f 3, .f 1]), .nop]

theorem h21 : (prog.drop 21).take b21.length = b21 := by decide +kernel

/-- dsp/demod_arm.s:36-42. -/
abbrev b36 : List (Line Lbl Ins Cond) :=
  [.nop, .nop,
   .ins (.op .ABSF [.f 6, .f 2]),
   .ins (.op .MOVF [.fi 0x1e3ce508, .f 0]),
   .ins (.op .ADDF [.f 0, .f 2]),
   .ins (.WORD 0xeeb54ac0),
   .ins (.WORD 0xeef1fa10)]

theorem h36 : (prog.drop 36).take b36.length = b36 := by decide +kernel

/-- dsp/demod_arm.s:45-47. -/
abbrev b45 : List (Line Lbl Ins Cond) :=
  [.ins (.op .ADDF [.f 2, .f 4, .f 7]),
   .ins (.op .SUBF [.f 4, .f 2, .f 4]),
   .ins (.op .MOVF [.fi 0x4016cbe4, .f 3])]

theorem h45 : (prog.drop 45).take b45.length = b45 := by decide +kernel

/-- dsp/demod_arm.s:50-54. -/
abbrev b50 : List (Line Lbl Ins Cond) :=
  [.label .fmDemod_atan_pos_x,
   .ins (.op .SUBF [.f 2, .f 4, .f 7]),
   .ins (.op .ADDF [.f 2, .f 4, .f 4]),
   .ins (.op .MOVF [.fi 0x3f490fdb, .f 3]), .nop]

theorem h50 : (prog.drop 50).take b50.length = b50 := by decide +kernel

/-- dsp/demod_arm.s:55-63. -/
abbrev b55 : List (Line Lbl Ins Cond) :=
  [.label .fmDemod_atan_1,
   .ins (.op .DIVF [.f 4, .f 7, .f 2]),
   .ins (.op .MOVF [.fi 0x3e4902de, .f 7]),
   .ins (.op .MULF [.f 2, .f 7]),
   .ins (.op .MULF [.f 2, .f 7]),
   .ins (.op .MOVF [.fi 0x3f7b50b1, .f 0]),
   .ins (.op .SUBF [.f 0, .f 7]),
   .ins (.op .MULF [.f 2, .f 7]),
   .ins (.op .ADDF [.f 3, .f 7])]

theorem h55 : (prog.drop 55).take b55.length = b55 := by decide +kernel

/-- dsp/demod_arm.s:64-66. -/
abbrev b64 : List (Line Lbl Ins Cond) :=
  [.ins (.WORD 0xeeb56ac0),
   .ins (.WORD 0xeef1fa10),
   .ins (.WORD 0xbeb17a47)]

theorem h64 : (prog.drop 64).take b64.length = b64 := by decide +kernel

/-- dsp/demod_arm.s:67-67. -/
abbrev b67 : List (Line Lbl Ins Cond) :=
  [.ins (.op .MOVF [.f 7, .m 3 0])]

theorem h67 : (prog.drop 67).take b67.length = b67 := by decide +kernel

/-- dsp/demod_arm.s:70-72. -/
abbrev b70 : List (Line Lbl Ins Cond) :=
  [.label .fmDemod_atan_zero_x,
   .ins (.WORD 0xeeb56ac0),
   .ins (.WORD 0xeef1fa10)]

theorem h70 : (prog.drop 70).take b70.length = b70 := by decide +kernel

/-- dsp/demod_arm.s:73-74. -/
abbrev b73 : List (Line Lbl Ins Cond) :=
  [.ins (.opc .LT .MOVF [.fi 0xbfc90fdb, .f 6]),
   .ins (.opc .GT .MOVF [.fi 0x3fc90fdb, .f 6])]

theorem h73 : (prog.drop 73).take b73.length = b73 := by decide +kernel

/-- dsp/demod_arm.s:75-76. -/
abbrev b75 : List (Line Lbl Ins Cond) :=
  [.ins (.op .MOVF [.f 6, .m 3 0]), .nop]

theorem h75 : (prog.drop 75).take b75.length = b75 := by decide +kernel

/-- dsp/demod_arm.s:77-84. -/
abbrev b77 : List (Line Lbl Ins Cond) :=
  [.label .fmDemod_atan_done, .nop, .nop, .nop,
   .ins (.op .ADD [.i 4, .r 3]), .nop,
   .ins (.op .SUB [.i 1, .r 2]),
   .ins (.op .TEQ [.i 0, .r 2])]

theorem h77 : (prog.drop 77).take b77.length = b77 := by decide +kernel

/-- dsp/demod_arm.s:86-87. -/
abbrev b86 : List (Line Lbl Ins Cond) :=
  [.nop,
   .ins (.op .MOVF [.f 5, .m 0 0])]

theorem h86 : (prog.drop 86).take b86.length = b86 := by decide +kernel

/-- dsp/demod_arm.s:88-89. -/
abbrev b88 : List (Line Lbl Ins Cond) :=
  [.ins (.op .MOVF [.f 1, .m 0 4]), .nop]

theorem h88 : (prog.drop 88).take b88.length = b88 := by decide +kernel

/-- dsp/demod_arm.s:90-92. -/
abbrev b90 : List (Line Lbl Ins Cond) :=
  [.label .fmDemod_done,
   .ins (.op .MOVW [.fp 8, .r 0]),
   .ins (.op .MOVW [.r 0, .fp 28])]

theorem h90 : (prog.drop 90).take b90.length = b90 := by decide +kernel

variable {e : Env} {m0 : BitVec 32 → BitVec 8} {fi ib ob F : BitVec 32} {n : Nat} {f0 : Nat → BitVec 32}

/-! ### Memory -/

theorem d32_word (m : BitVec 32 → BitVec 8) (a : BitVec 32) : d32 (inp m a 0 4) 0 = u32at m a := by
  have := u32at_d32 m a 0
  rw [Nat.mul_zero, adv0] at this
  rw [this]
  unfold d32 inp
  simp only [Nat.mul_zero, Nat.zero_add, show (0 : Nat) < 4 by decide, show (1 : Nat) < 4 by decide, show (2 : Nat) < 4 by decide, show (3 : Nat) < 4 by decide, if_true]

theorem d32_at (m : BitVec 32 → BitVec 8) (b : BitVec 32) (k : Nat) : d32 (inp m b k 4) 0 = u32at m (b + BitVec.ofNat 32 k) := by
  rw [← d32_word]
  unfold inp d32
  simp only [adv, Nat.zero_add]

theorem ldw_word {s : St} {a : BitVec 32} (ha : a.toNat % 4 = 0) (hr : ∀ i < 4, e.rd (a + BitVec.ofNat 32 i) = true) :
    e.ldw s a 1 = some (inp s.mem a 0 4) := by
  unfold Env.ldw Mach.load inp
  rw [if_pos ha, if_pos]
  · simp only [Nat.zero_add]
  · unfold allBytes
    rw [List.all_eq_true]
    intro i hi
    exact hr i (by simpa using hi)

theorem stw_word {s : St} {a w : BitVec 32} (ha : a.toNat % 4 = 0) (hr : ∀ i < 4, e.wr (a + BitVec.ofNat 32 i) = true) :
    e.stw s a 1 (bytes32 w) = some { s with mem := fill s.mem a 4 (bytes32 w) } := by
  unfold Env.stw Mach.store
  rw [if_pos ha, if_pos]
  · rfl
  · unfold allBytes
    rw [List.all_eq_true]
    intro i hi
    exact hr i (by simpa using hi)

/-! ### Invariant -/

/-- Sample `i`. -/
def sample (m0 : BitVec 32 → BitVec 8) (ib : BitVec 32) (i : Nat) : BitVec 32 × BitVec 32 :=
  (u32at m0 (ib + BitVec.ofNat 32 (8 * i)), u32at m0 (ib + BitVec.ofNat 32 (8 * i + 4)))

/-- The sample before sample `i`: for the first one that of the last call. -/
def prev (m0 : BitVec 32 → BitVec 8) (fi ib : BitVec 32) : Nat → BitVec 32 × BitVec 32
  | 0 => (u32at m0 fi, u32at m0 (fi + BitVec.ofNat 32 4))
  | i + 1 => sample m0 ib i

/-- The two parts of the product of a sample with the conjugate of the one before. -/
def prodY (o : Ops) (a b : BitVec 32 × BitVec 32) : BitVec 32 := o.sub (o.mul b.1 a.2) (o.mul b.2 a.1)
def prodX (o : Ops) (a b : BitVec 32 × BitVec 32) : BitVec 32 := o.add (o.mul b.1 a.1) (o.mul b.2 a.2)

/-- Output `i`. -/
def angle (e : Env) (m0 : BitVec 32 → BitVec 8) (fi ib : BitVec 32) (i : Nat) : BitVec 32 :=
  fastAtan2Arm (ops e.o) (prodY e.o (sample m0 ib i) (prev m0 fi ib i)) (prodX e.o (sample m0 ib i) (prev m0 fi ib i))

/-- The output bytes. -/
def want (e : Env) (m0 : BitVec 32 → BitVec 8) (fi ib : BitVec 32) (j : Nat) : BitVec 8 := byte (angle e m0 fi ib (j / 4)) (j % 4)

/-- `a` samples read, the output pointer at `b`, `c` left, `t` written. -/
structure Inv (e : Env) (m0 : BitVec 32 → BitVec 8) (fi ib ob F : BitVec 32) (f0 : Nat → BitVec 32) (a b c t : Nat) (s : St) : Prop where
  r0 : s.r 0 = fi
  r1 : s.r 1 = ib + BitVec.ofNat 32 (8 * a)
  r2 : s.r 2 = BitVec.ofNat 32 c
  r3 : s.r 3 = ob + BitVec.ofNat 32 (4 * b)
  re : s.v 10 = (prev m0 fi ib a).1
  im : s.v 2 = (prev m0 fi ib a).2
  fp : s.fp = f0
  mem : s.mem = fill m0 ob (4 * t) (want e m0 fi ib)
  scr : ∀ k n, k + n ≤ 28 → s.fpscr.extractLsb' k n = F.extractLsb' k n

/-- The state seen by the arctangent has not changed but for the registers it uses. -/
structure Same (t s : St) : Prop where
  r : ∀ i < 4, s.r i = t.r i
  re : s.v 10 = t.v 10
  im : s.v 2 = t.v 2
  fp : s.fp = t.fp
  mem : s.mem = t.mem
  scr : ∀ k n, k + n ≤ 28 → s.fpscr.extractLsb' k n = t.fpscr.extractLsb' k n

theorem Inv.same {a b c t : Nat} {s s' : St} (h : Inv e m0 fi ib ob F f0 a b c t s) (k : Same s s') : Inv e m0 fi ib ob F f0 a b c t s' :=
  ⟨(k.r 0 (by decide)).trans h.r0, (k.r 1 (by decide)).trans h.r1, (k.r 2 (by decide)).trans h.r2, (k.r 3 (by decide)).trans h.r3, k.re.trans h.re,
    k.im.trans h.im, k.fp.trans h.fp, k.mem.trans h.mem, fun i j hij => (k.scr i j hij).trans (h.scr i j hij)⟩

theorem r4 {p : Nat → Prop} (h0 : p 0) (h1 : p 1) (h2 : p 2) (h3 : p 3) : ∀ i < 4, p i := by
  intro i hi
  obtain rfl | rfl | rfl | rfl : i = 0 ∨ i = 1 ∨ i = 2 ∨ i = 3 := by omega
  all_goals assumption

/-- How far the output may have got when an input byte is read. -/
abbrev lim (w : Nat) (_ : Nat) : Nat := w

/-- One sample: read it and multiply. -/
theorem read (h : Io e.rd e.wr ib ob (8 * n) (4 * n) (lim (4 * n))) (hi4 : ib.toNat % 4 = 0) (hL : F.extractLsb' 16 3 = 0) {k : Nat} (hk : k < n) {s : St}
    (hi : Inv e m0 fi ib ob F f0 k k (n - k) k s) :
    ∃ s', blk (sem e) b21 s = some s' ∧ Inv e m0 fi ib ob F f0 (k + 1) k (n - k) k s' ∧
      s'.v 12 = prodY e.o (sample m0 ib k) (prev m0 fi ib k) ∧ s'.v 8 = prodX e.o (sample m0 ib k) (prev m0 fi ib k) := by
  have hr := h.r_le
  have hv : ∀ w r f d n m, e.vfp { s with v := w, r := r } f d n m = _ := fun w r f d n m =>
    vfp_one (s := { s with v := w, r := r }) ((hi.scr 16 3 (by decide)).trans hL)
  ar [hi.r1, Env.ldw, adv, aligned hi4 (show 8 * k % 4 = 0 by omega),
    h.load hi.mem rfl (show 8 * k + 4 ≤ 8 * n by omega) (fun _ _ => by simp only [lim]; omega), aligned hi4 (show (8 * k + 4) % 4 = 0 by omega),
    h.load hi.mem rfl (show 8 * k + 4 + 4 ≤ 8 * n by omega) (fun _ _ => by simp only [lim]; omega), Env.fpu, hv, d32_at]
  refine ⟨_, rfl, ⟨?_, ?_, ?_, ?_, ?_, ?_, hi.fp, hi.mem, hi.scr⟩, ?_, ?_⟩
  · ar [hi.r0]
  · ar []; rfl
  · ar [hi.r2]
  · ar [hi.r3]
  · ar []; rfl
  · ar []; rfl
  · ar [hi.re, hi.im]; rfl
  · ar [hi.re, hi.im]; rfl

/-! ### The arctangent -/

theorem Same.refl (s : St) : Same s s := ⟨fun _ _ => rfl, rfl, rfl, rfl, rfl, fun _ _ _ => rfl⟩

theorem Same.trans {a b c : St} (h : Same a b) (k : Same b c) : Same a c :=
  ⟨fun i hi => (k.r i hi).trans (h.r i hi), k.re.trans h.re, k.im.trans h.im, k.fp.trans h.fp, k.mem.trans h.mem,
    fun i j hij => (k.scr i j hij).trans (h.scr i j hij)⟩

theorem start (s : St) : ∃ s', blk (sem e) b36 s = some s' ∧ Same s s' ∧ s'.v 12 = s.v 12 ∧ s'.v 8 = s.v 8 ∧
    s'.v 4 = e.o.add (fabs (s.v 12)) 0x1e3ce508 ∧ s'.fl = (e.o.cmp (s.v 8) 0).flags := by
  ar [Env.fpu, vfp_low (show (4 : Nat) < 8 by decide), weeb54ac0, weef1fa10, fpFlags_setRel]
  refine ⟨_, rfl, ⟨r4 ?_ ?_ ?_ ?_, ?_, ?_, rfl, rfl, fun k n h => setRel_bits _ _ k n h⟩, ?_, ?_, ?_, ?_⟩ <;> ar [St.setRel] <;> rfl

theorem left {s : St} (hL : s.fpscr.extractLsb' 16 3 = 0) : ∃ s', blk (sem e) b45 s = some s' ∧ Same s s' ∧ s'.v 12 = s.v 12 ∧
    s'.v 8 = e.o.sub (s.v 4) (s.v 8) ∧ s'.v 14 = e.o.add (s.v 8) (s.v 4) ∧ s'.v 6 = 0x4016cbe4 := by
  have h : ∀ w f d n m, e.vfp { s with v := w } f d n m = _ := fun w f d n m => vfp_one (s := { s with v := w }) hL
  ar [Env.fpu, vfp_one hL, h]
  refine ⟨_, rfl, ⟨r4 ?_ ?_ ?_ ?_, ?_, ?_, rfl, rfl, fun k n h => rfl⟩, ?_, ?_, ?_, ?_⟩ <;> ar [] <;> rfl

theorem right {s : St} (hL : s.fpscr.extractLsb' 16 3 = 0) : ∃ s', blk (sem e) b50 s = some s' ∧ Same s s' ∧ s'.v 12 = s.v 12 ∧
    s'.v 8 = e.o.add (s.v 8) (s.v 4) ∧ s'.v 14 = e.o.sub (s.v 8) (s.v 4) ∧ s'.v 6 = 0x3f490fdb := by
  have h : ∀ w f d n m, e.vfp { s with v := w } f d n m = _ := fun w f d n m => vfp_one (s := { s with v := w }) hL
  ar [Env.fpu, vfp_one hL, h]
  refine ⟨_, rfl, ⟨r4 ?_ ?_ ?_ ?_, ?_, ?_, rfl, rfl, fun k n h => rfl⟩, ?_, ?_, ?_, ?_⟩ <;> ar [] <;> rfl

theorem mid {s : St} (hL : s.fpscr.extractLsb' 16 3 = 0) : ∃ s', blk (sem e) b55 s = some s' ∧ Same s s' ∧ s'.v 12 = s.v 12 ∧
    s'.v 14 = poly e.o (s.v 8) (s.v 14) (s.v 6) := by
  have h : ∀ w r f d n m, e.vfp { s with v := w, r := r } f d n m = _ := fun w r f d n m => vfp_one (s := { s with v := w, r := r }) hL
  ar [Env.fpu, vfp_low (show (4 : Nat) < 8 by decide), h]
  refine ⟨_, rfl, ⟨r4 ?_ ?_ ?_ ?_, ?_, ?_, rfl, rfl, fun k n h => rfl⟩, ?_, ?_⟩ <;> ar [] <;> rfl

theorem sign {s : St} (hL : s.fpscr.extractLsb' 16 3 = 0) : ∃ s', blk (sem e) b64 s = some s' ∧ Same s s' ∧
    s'.v 14 = if (e.o.cmp (s.v 12) 0).flags.taken .LT then fneg (s.v 14) else s.v 14 := by
  have h : ∀ r fl f d n m, e.vfp { s.setRel r with fl := fl } f d n m = _ := fun r fl f d n m =>
    vfp_one (s := { s.setRel r with fl := fl }) ((setRel_bits s r 16 3 (by decide)).trans hL)
  ar [weeb56ac0, weef1fa10, wbeb17a47, fpFlags_setRel, when_lt]
  by_cases c : (e.o.cmp (s.v 12) 0).flags.taken .LT = true
  · ar [c, h]
    refine ⟨_, rfl, ⟨r4 ?_ ?_ ?_ ?_, ?_, ?_, rfl, rfl, fun k n h => setRel_bits _ _ k n h⟩, ?_⟩ <;> ar [St.setRel] <;> rfl
  · ar [c]
    exact ⟨_, rfl, ⟨fun _ _ => rfl, rfl, rfl, rfl, rfl, fun k n h => setRel_bits _ _ k n h⟩, rfl⟩

/-- Both branches end as in the structured model. -/
theorem tail {s : St} (hL : s.fpscr.extractLsb' 16 3 = 0) : ∃ s', Reach (sem e) prog 55 s 67 s' ∧ Same s s' ∧
    s'.v 14 = fatan2Tail (ops e.o) (s.v 12) (s.v 8) (s.v 14) (s.v 6) := by
  obtain ⟨s1, g1, k1, a1, b1⟩ := mid (e := e) hL
  obtain ⟨s2, g2, k2, a2⟩ := sign (e := e) ((k1.scr 16 3 (by decide)).trans hL)
  refine ⟨s2, (reach_blk b55 h55 g1).trans (reach_blk b64 h64 g2), k1.trans k2, ?_⟩
  rw [a2, a1, b1]
  unfold fatan2Tail
  simp only [ops, show bits .zero = (0 : BitVec 32) from rfl]
  cases e.o.cmp (s.v 12) 0 <;> rfl

theorem zero_y (s : St) : ∃ s', Reach (sem e) prog 70 s 75 s' ∧ Same s s' ∧
    s'.v 12 = (if (e.o.cmp (s.v 12) 0).flags.taken .GT then 0x3fc90fdb else
      if (e.o.cmp (s.v 12) 0).flags.taken .LT then 0xbfc90fdb else s.v 12) := by
  obtain ⟨s1, g1, k1, a1, f1⟩ : ∃ s', blk (sem e) b70 s = some s' ∧ Same s s' ∧ s'.v 12 = s.v 12 ∧ s'.fl = (e.o.cmp (s.v 12) 0).flags := by
    ar [weeb56ac0, weef1fa10, fpFlags_setRel]
    exact ⟨_, rfl, ⟨fun _ _ => rfl, rfl, rfl, rfl, rfl, fun k n h => setRel_bits _ _ k n h⟩, rfl, rfl⟩
  obtain ⟨s2, g2, k2, a2⟩ : ∃ s', blk (sem e) b73 s1 = some s' ∧ Same s1 s' ∧ s'.v 12 = (if s1.fl.taken .GT then 0x3fc90fdb else
      if s1.fl.taken .LT then 0xbfc90fdb else s1.v 12) := by
    generalize e.o.cmp (s.v 12) 0 = r at f1
    have l : s1.fl.taken .LT = decide (r = .lt ∨ r = .un) := by rw [f1, rel_lt]
    have g : s1.fl.taken .GT = decide (r = .gt) := by rw [f1, rel_gt]
    clear f1
    cases r
    all_goals
      simp only [reduceCtorEq, or_self, or_true, or_false, true_or, false_or, decide_true, decide_false] at l g
      ar [St.cond, l, g, Bool.false_eq_true]
      refine ⟨_, rfl, ⟨r4 ?_ ?_ ?_ ?_, ?_, ?_, rfl, rfl, fun k n h => rfl⟩, ?_⟩ <;> ar [] <;> rfl
  rw [f1, a1] at a2
  exact ⟨s2, (reach_blk b70 h70 g1).trans (reach_blk b73 h73 g2), k1.trans k2, a2⟩

/-- The arctangent up to the store, which is at line 67 or 75. -/
theorem atan {s : St} (hL : s.fpscr.extractLsb' 16 3 = 0) : ∃ s', Same s s' ∧
    (Reach (sem e) prog 36 s 67 s' ∧ s'.v 14 = fastAtan2Arm (ops e.o) (s.v 12) (s.v 8) ∨
     Reach (sem e) prog 36 s 75 s' ∧ s'.v 12 = fastAtan2Arm (ops e.o) (s.v 12) (s.v 8)) := by
  obtain ⟨s1, g1, k1, a1, b1, c1, f1⟩ := start (e := e) s
  have z : bits .zero = 0 := rfl
  have hL1 := (k1.scr 16 3 (by decide)).trans hL
  have r1 := (reach_blk b36 h36 g1).trans (reach_branch (m := sem e) (p := prog) (s := s1) (pc := 43) (t := 70) .EQ .fmDemod_atan_zero_x (by decide +kernel)
    (by decide +kernel) (b := s1.fl.taken .EQ) rfl)
  by_cases hr : e.o.cmp (s.v 8) 0 = .eq
  · rw [f1, hr, show Rel.eq.flags.taken .EQ = true from rfl, if_pos rfl] at r1
    obtain ⟨s2, h2, k2, a2⟩ := zero_y (e := e) s1
    refine ⟨s2, k1.trans k2, Or.inr ⟨r1.trans h2, ?_⟩⟩
    rw [a2, a1]
    unfold fastAtan2Arm
    simp only [ops, z, hr]
    cases e.o.cmp (s.v 12) 0 <;> rfl
  rw [f1, rel_eq, decide_eq_false hr, if_neg (by decide)] at r1
  replace r1 := r1.trans (reach_branch (m := sem e) (p := prog) (s := s1) (pc := 44) (t := 50) .GT .fmDemod_atan_pos_x (by decide +kernel)
    (by decide +kernel) (b := s1.fl.taken .GT) rfl)
  by_cases hg : e.o.cmp (s.v 8) 0 = .gt
  · rw [f1, hg, show Rel.gt.flags.taken .GT = true from rfl, if_pos rfl] at r1
    obtain ⟨s2, g2, k2, a2, b2, c2, d2⟩ := right (e := e) hL1
    obtain ⟨s3, h3, k3, a3⟩ := tail (e := e) ((k2.scr 16 3 (by decide)).trans hL1)
    refine ⟨s3, (k1.trans k2).trans k3, Or.inl ⟨(r1.trans (reach_blk b50 h50 g2)).trans h3, ?_⟩⟩
    rw [a3, a2, b2, c2, d2, a1, b1, c1]
    unfold fastAtan2Arm
    simp only [ops, z, hg]
    rfl
  · rw [f1, rel_gt, decide_eq_false hg, if_neg (by decide)] at r1
    obtain ⟨s2, g2, k2, a2, b2, c2, d2⟩ := left (e := e) hL1
    replace r1 := (r1.trans (reach_blk b45 h45 g2)).trans (reach_branch (m := sem e) (p := prog) (s := s2) (pc := 48) (t := 55) .AL .fmDemod_atan_1 (by decide +kernel)
      (by decide +kernel) (b := true) rfl)
    obtain ⟨s3, h3, k3, a3⟩ := tail (e := e) ((k2.scr 16 3 (by decide)).trans hL1)
    refine ⟨s3, (k1.trans k2).trans k3, Or.inl ⟨r1.trans h3, ?_⟩⟩
    rw [a3, a2, b2, c2, d2, a1, b1, c1]
    unfold fastAtan2Arm
    simp only [ops, z]
    revert hr hg
    cases e.o.cmp (s.v 8) 0
    · intros; rfl
    · intro h; exact absurd rfl h
    · intro _ h; exact absurd rfl h
    · intros; rfl

/-! ### The loop -/

/-- One sample. -/
theorem one (h : Io e.rd e.wr ib ob (8 * n) (4 * n) (lim (4 * n))) (hi4 : ib.toNat % 4 = 0) (ho4 : ob.toNat % 4 = 0) (hL : F.extractLsb' 16 3 = 0)
    {k : Nat} (hk : k < n) {s : St} (hi : Inv e m0 fi ib ob F f0 k k (n - k) k s) :
    ∃ s', Reach (sem e) prog 21 s 85 s' ∧ Inv e m0 fi ib ob F f0 (k + 1) (k + 1) (n - (k + 1)) (k + 1) s' ∧
      s'.fl.z = (BitVec.ofNat 32 (n - (k + 1)) == 0) := by
  have hr := h.r_le
  obtain ⟨s1, g1, i1, y1, x1⟩ := read h hi4 hL hk hi
  obtain ⟨s2, k2, hv⟩ := atan (e := e) ((i1.scr 16 3 (by decide)).trans hL)
  rw [y1, x1] at hv
  have i2 := i1.same k2
  have st : ∀ w, w = angle e m0 fi ib k → e.stw s2 (ob + BitVec.ofNat 32 (4 * k)) 1 (bytes32 w) =
      some { s2 with mem := fill m0 ob (4 * (k + 1)) (want e m0 fi ib) } := by
    intro w hw
    rw [stw_io h ho4 i2.mem rfl (by omega) (by omega) ?_]
    · rfl
    · intro i hi'
      simp only [bytes32, show i < 4 by omega, if_true, want]
      rw [hw, show (4 * k + i) / 4 = k by omega, show (4 * k + i) % 4 = i by omega]
  obtain ⟨s3, r3, i3⟩ : ∃ s3, Reach (sem e) prog 21 s 77 s3 ∧ Inv e m0 fi ib ob F f0 (k + 1) k (n - k) (k + 1) s3 := by
    refine ⟨{ s2 with mem := fill m0 ob (4 * (k + 1)) (want e m0 fi ib) }, ?_, ⟨i2.r0, i2.r1, i2.r2, i2.r3, i2.re, i2.im, i2.fp, rfl, i2.scr⟩⟩
    rcases hv with ⟨hv, hx⟩ | ⟨hv, hx⟩
    · refine ((reach_blk b21 h21 g1).trans hv).trans ((reach_blk b67 h67 ?_).trans (reach_branch (m := sem e) (p := prog) (pc := 68) (t := 77) .AL
        .fmDemod_atan_done (by decide +kernel) (by decide +kernel) (b := true) rfl))
      ar [i2.r3, adv0]
      rw [st _ hx]
      rfl
    · refine ((reach_blk b21 h21 g1).trans hv).trans (reach_blk b75 h75 ?_)
      ar [i2.r3, adv0]
      rw [st _ hx]
      rfl
  obtain ⟨s4, g4, i4, f4⟩ : ∃ s', blk (sem e) b77 s3 = some s' ∧ Inv e m0 fi ib ob F f0 (k + 1) (k + 1) (n - (k + 1)) (k + 1) s' ∧
      s'.fl.z = (BitVec.ofNat 32 (n - (k + 1)) == 0) := by
    ar [i3.r2, i3.r3, sub32 (show 1 ≤ n - k by omega) (show n - k < 2 ^ 32 by omega), Nat.sub_sub, adv]
    refine ⟨_, rfl, ⟨?_, ?_, ?_, ?_, i3.re, i3.im, i3.fp, i3.mem, i3.scr⟩, ?_⟩
    · ar [i3.r0]
    · ar [i3.r1]
    · ar []
    · ar []; rfl
    · rfl
  exact ⟨s4, r3.trans (reach_blk b77 h77 g4), i4, f4⟩

theorem loop (h : Io e.rd e.wr ib ob (8 * n) (4 * n) (lim (4 * n))) (hn : n < 2 ^ 31) (hi4 : ib.toNat % 4 = 0) (ho4 : ob.toNat % 4 = 0)
    (hL : F.extractLsb' 16 3 = 0) (h0 : 0 < n) {s : St} (hi : Inv e m0 fi ib ob F f0 0 0 n 0 s) :
    ∃ s', Inv e m0 fi ib ob F f0 n n 0 n s' ∧ Reach (sem e) prog 21 s 86 s' := by
  have main := dloop (m := sem e) (p := prog) (a := 21) (b := 86) (fun x s => Inv e m0 fi ib ob F f0 x x (n - x) x s) n 1 (by omega) ?_ 0 s (by omega) hi
  · obtain ⟨k', s', g1, g2, g3, _, _, g6⟩ := main
    obtain rfl : k' = n := by omega
    rw [Nat.sub_self] at g1
    exact ⟨s', g1, g6⟩
  · rintro x s hx hp
    obtain ⟨s', e1, i1, f1⟩ := one h hi4 ho4 hL (by omega) hp
    refine ⟨s', i1, ?_⟩
    have h2 := e1.trans (reach_branch (m := sem e) (p := prog) (pc := 85) (s := s') (t := 21) .NE .fmDemod_loop (by decide +kernel) (by decide +kernel)
      (b := decide (x + 2 * 1 ≤ n)) (by
        show (!s'.fl.z) = _
        rw [f1, beq_zero (by omega), ← decide_not]
        congr 1
        exact propext (by omega)))
    by_cases c : x + 2 * 1 ≤ n
    · rw [if_pos c]
      rwa [decide_eq_true c, if_pos rfl] at h2
    · rw [if_neg c]
      rwa [decide_eq_false c, if_neg (by decide)] at h2

/-! ### The routine -/

/-- The memory with a complex number stored at `a`. -/
def put (m : BitVec 32 → BitVec 8) (a : BitVec 32) (x : BitVec 32 × BitVec 32) : BitVec 32 → BitVec 8 :=
  fill (fill m a 4 (bytes32 x.1)) (a + BitVec.ofNat 32 4) 4 (bytes32 x.2)

theorem routine {nin nout : Nat} {s : St} (hi : nin < 2 ^ 31) (ho : nout < 2 ^ 31) (f1 : s.fp 0 = fi) (f2 : s.fp 4 = ib) (f3 : s.fp 8 = BitVec.ofNat 32 nin)
    (f4 : s.fp 16 = ob) (f5 : s.fp 20 = BitVec.ofNat 32 nout) (hn : n = min nin nout) (hL : s.fpscr.extractLsb' 16 3 = 0)
    (h : Io e.rd e.wr ib ob (8 * n) (4 * n) (lim (4 * n))) (hi4 : ib.toNat % 4 = 0) (ho4 : ob.toNat % 4 = 0) (hf4 : fi.toNat % 4 = 0)
    (hr : ∀ i < 8, e.rd (fi + BitVec.ofNat 32 i) = true) (hw : ∀ i < 8, e.wr (fi + BitVec.ofNat 32 i) = true) :
    ∃ s', Returns (sem e) prog 3 s s' ∧ s'.fp = Function.update s.fp 28 (BitVec.ofNat 32 nin) ∧
      (∀ k n, k + n ≤ 28 → s'.fpscr.extractLsb' k n = s.fpscr.extractLsb' k n) ∧
      s'.mem = if n = 0 then s.mem else put (fill s.mem ob (4 * n) (want e s.mem fi ib)) fi (prev s.mem fi ib n) := by
  have done : ∀ {s1 : St}, s1.fp = s.fp → (∀ k n, k + n ≤ 28 → s1.fpscr.extractLsb' k n = s.fpscr.extractLsb' k n) →
      s1.mem = (if n = 0 then s.mem else put (fill s.mem ob (4 * n) (want e s.mem fi ib)) fi (prev s.mem fi ib n)) → Reach (sem e) prog 3 s 90 s1 →
      ∃ s', Returns (sem e) prog 3 s s' ∧ s'.fp = Function.update s.fp 28 (BitVec.ofNat 32 nin) ∧
      (∀ k n, k + n ≤ 28 → s'.fpscr.extractLsb' k n = s.fpscr.extractLsb' k n) ∧
      s'.mem = if n = 0 then s.mem else put (fill s.mem ob (4 * n) (want e s.mem fi ib)) fi (prev s.mem fi ib n) := by
    intro s1 a1 a2 a3 a4
    refine ⟨{ s1 with r := Function.update s1.r 0 (s1.fp 8), fp := Function.update s1.fp 28 (s1.fp 8) },
      (a4.trans (reach_blk b90 h90 ?_)).returns (returns_ret (by decide +kernel)), ?_, a2, a3⟩
    · ar []
    · simp only [a1, f3]
  obtain ⟨s1, g1, p1, p2, p3, p4, p5, p6, z1⟩ : ∃ s', blk (sem e) b3 s = some s' ∧ s'.r 1 = ib ∧ s'.r 2 = BitVec.ofNat 32 n ∧ s'.r 3 = ob ∧ s'.fp = s.fp ∧
      s'.mem = s.mem ∧ s'.fpscr = s.fpscr ∧ s'.fl.z = (BitVec.ofNat 32 n == 0) := by
    ar [f2, f3, f4, f5, St.cond, taken_lt ho hi, decide_eq_true_eq]
    by_cases c : nout < nin
    · obtain rfl : n = nout := by omega
      ar [if_pos c]
      refine ⟨_, rfl, ?_, ?_, ?_, rfl, rfl, rfl, ?_⟩ <;> ar [] <;> rfl
    · obtain rfl : n = nin := by omega
      ar [if_neg c]
      refine ⟨_, rfl, ?_, ?_, ?_, rfl, rfl, rfl, ?_⟩ <;> ar [] <;> rfl
  have r1 := (reach_blk b3 h3 g1).trans (reach_branch (m := sem e) (p := prog) (s := s1) (pc := 15) (t := 90) .EQ .fmDemod_done (by decide +kernel)
    (by decide +kernel) (b := decide (n = 0)) (z1.trans (beq_zero (by omega))))
  by_cases c0 : n = 0
  · rw [decide_eq_true c0, if_pos rfl] at r1
    exact done p4 (fun k n _ => by rw [p6]) (by rw [p5, if_pos c0]) r1
  rw [decide_eq_false c0, if_neg (by decide)] at r1
  obtain ⟨s2, g2, i2⟩ : ∃ s', blk (sem e) b16 s1 = some s' ∧ Inv e s.mem fi ib ob s.fpscr s.fp 0 0 n 0 s' := by
    have q1 : fi.toNat % 4 = 0 := hf4
    have q2 : (fi + BitVec.ofNat 32 4).toNat % 4 = 0 := aligned hf4 rfl
    have l1 : ∀ r v, e.ldw { s1 with r := r, v := v } fi 1 = some (inp s.mem fi 0 4) := fun r v => by
      rw [ldw_word q1 (fun i hi => hr i (by omega))]
      simp only [p5]
    have l2 : ∀ r v, e.ldw { s1 with r := r, v := v } (fi + BitVec.ofNat 32 4) 1 = some (inp s.mem (fi + BitVec.ofNat 32 4) 0 4) := fun r v => by
      rw [ldw_word q2 (fun i hi => by rw [adv]; exact hr _ (by omega))]
      simp only [p5]
    ar [show s1.fp 0 = fi by rw [p4, f1], l1, l2, d32_word]
    refine ⟨_, rfl, ⟨?_, ?_, ?_, ?_, ?_, ?_, p4, ?_, fun k n _ => by rw [← p6]⟩⟩
    · ar []
    · ar [p1, Nat.mul_zero]
    · ar [p2]
    · ar [p3, Nat.mul_zero]
    · ar []; rfl
    · ar []; rfl
    · rw [Nat.mul_zero]; exact p5.trans (fill_zero ..).symm
  obtain ⟨s3, i3, r3⟩ := loop h (by omega) hi4 ho4 hL (by omega) i2
  have r2 := (r1.trans (reach_blk b16 h16 g2)).trans r3
  refine done (s1 := { s3 with mem := put s3.mem fi (prev s.mem fi ib n) }) i3.fp i3.scr (by rw [if_neg c0, ← i3.mem]) (r2.trans ?_)
  refine (reach_blk (s' := { s3 with mem := fill s3.mem fi 4 (bytes32 (prev s.mem fi ib n).1) }) b86 h86 ?_).trans (reach_blk b88 h88 ?_)
  · ar [i3.r0, i3.re]
    rw [stw_word hf4 (fun i hi => hw i (by omega))]
    rfl
  · ar [i3.r0, i3.im]
    rw [stw_word (aligned hf4 rfl) (fun i hi => by rw [adv]; exact hw _ (by omega))]
    rfl

end Verif.A32.Demod
