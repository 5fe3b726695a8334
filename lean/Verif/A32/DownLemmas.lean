import Verif.A32.DemodLemmas
import Verif.A32.DownModel

/-!
# The runs of the decimating filters on 32-bit ARM, instruction by instruction
-/

namespace Verif.A32.Down
open Verif.A32 Verif.Mach
open Verif.A32.Demod (sample d32_at ldw_word stw_word)
open Verif.X86 (Vec byte d32 of32 bytes32)

/-! ### Basic blocks -/

/-- dsp/downsample_arm.s:3-11. -/
abbrev b3 : List (Line Lbl Ins Cond) :=
  [.label .lowPassDownsampleComplexFilterAsm,
   .ins (.op .MOVW [.fp 0, .r 3]),
   .ins (.op .MOVW [.m 3 0, .r 8]),
   .ins (.op .MOVW [.m 3 12, .r 7]),
   .ins (.op .MOVW [.fp 8, .r 2]),
   .ins (.op .MOVW [.fp 4, .r 5]),
   .ins (.op .MOVW [.r 5, .r 6]),
   .ins (.op .MOVF [.m 3 4, .f 0]),
   .ins (.op .MOVF [.m 3 8, .f 1])]

theorem h3 : (prog.drop 3).take b3.length = b3 := by decide +kernel

/-- dsp/downsample_arm.s:14-16. -/
abbrev b14 : List (Line Lbl Ins Cond) :=
  [.label .complexLoop,
   .ins (.op .SUB [.i 1, .r 2]), .nop]

theorem h14 : (prog.drop 14).take b14.length = b14 := by decide +kernel

/-- dsp/downsample_arm.s:17-18. -/
abbrev b17 : List (Line Lbl Ins Cond) :=
  [.label .complexLoopStart,
   .ins (.op .TEQ [.i 0, .r 2])]

theorem h17 : (prog.drop 17).take b17.length = b17 := by decide +kernel

/-- dsp/downsample_arm.s:20-34. -/
abbrev b20 : List (Line Lbl Ins Cond) :=
  [.nop, .nop,
   .ins (.op .MOVF [.m 5 0, .f 2]),
   .ins (.op .MOVF [.m 5 4, .f 3]),
   .ins (.op .ADD [.i 8, .r 5]), .nop, .nop,
   .ins (.op .ADDF [.f 2, .f 0]),
   .ins (.op .ADDF [.f 3, .f 1]), .nop, .nop,
   .ins (.op .ADD [.i 1, .r 7]), .nop, .nop,
   .ins (.op .CMP [.r 8, .r 7])]

theorem h20 : (prog.drop 20).take b20.length = b20 := by decide +kernel

/-- dsp/downsample_arm.s:36-38. -/
abbrev b36 : List (Line Lbl Ins Cond) :=
  [.nop, .nop,
   .ins (.op .MOVF [.f 0, .m 6 0])]

theorem h36 : (prog.drop 36).take b36.length = b36 := by decide +kernel

/-- dsp/downsample_arm.s:39-48. -/
abbrev b39 : List (Line Lbl Ins Cond) :=
  [.ins (.op .MOVF [.f 1, .m 6 4]),
   .ins (.op .ADD [.i 8, .r 6]), .nop, .nop,
   .ins (.op .MOVW [.i 0, .r 7]), .nop, .nop,
   .ins (.op .MOVF [.fi 0x00000000, .f 0]),
   .ins (.op .MOVF [.fi 0x00000000, .f 1]), .nop]

theorem h39 : (prog.drop 39).take b39.length = b39 := by decide +kernel

/-- dsp/downsample_arm.s:51-52. -/
abbrev b51 : List (Line Lbl Ins Cond) :=
  [.label .complexLoopEnd,
   .ins (.op .MOVW [.r 7, .m 3 12])]

theorem h51 : (prog.drop 51).take b51.length = b51 := by decide +kernel

/-- dsp/downsample_arm.s:53-53. -/
abbrev b53 : List (Line Lbl Ins Cond) :=
  [.ins (.op .MOVF [.f 0, .m 3 4])]

theorem h53 : (prog.drop 53).take b53.length = b53 := by decide +kernel

/-- dsp/downsample_arm.s:54-55. -/
abbrev b54 : List (Line Lbl Ins Cond) :=
  [.ins (.op .MOVF [.f 1, .m 3 8]), .nop]

theorem h54 : (prog.drop 54).take b54.length = b54 := by decide +kernel

/-- dsp/downsample_arm.s:56-63. -/
abbrev b56 : List (Line Lbl Ins Cond) :=
  [.ins (.op .MOVW [.fp 4, .r 0]),
   .ins (.op .SUB [.r 0, .r 6]),
   .ins (.op .MOVW [.sr 6 3, .r 6]),
   .ins (.op .MOVW [.r 6, .fp 20]),
   .ins (.op .MOVW [.fp 12, .r 4]),
   .ins (.op .MOVW [.r 4, .fp 24]),
   .ins (.op .MOVW [.fp 4, .r 0]),
   .ins (.op .MOVW [.r 0, .fp 16])]

theorem h56 : (prog.drop 56).take b56.length = b56 := by decide +kernel

/-- dsp/downsample_arm.s:66-86. -/
abbrev b66 : List (Line Lbl Ins Cond) :=
  [.label .lowPassDownsampleRationalFilterAsm,
   .ins (.op .MOVW [.fp 0, .r 4]), .nop,
   .ins (.op .MOVW [.m 4 4, .r 7]),
   .ins (.op .MOVW [.r 7, .f 4]),
   .ins (.op .MOVWF [.f 4, .f 4]), .nop,
   .ins (.op .MOVW [.m 4 0, .r 8]),
   .ins (.op .MOVW [.r 8, .f 3]),
   .ins (.op .MOVWF [.f 3, .f 3]), .nop,
   .ins (.op .DIVF [.f 3, .f 4]), .nop,
   .ins (.op .MOVF [.m 4 8, .f 3]),
   .ins (.op .MOVW [.m 4 12, .r 2]), .nop,
   .ins (.op .MOVW [.fp 4, .r 5]),
   .ins (.op .MOVW [.r 5, .r 6]),
   .ins (.op .MOVW [.fp 8, .r 3]),
   .ins (.op .ADD [.sl 3 2, .r 5, .r 3]), .nop]

theorem h66 : (prog.drop 66).take b66.length = b66 := by decide +kernel

/-- dsp/downsample_arm.s:87-88. -/
abbrev b87 : List (Line Lbl Ins Cond) :=
  [.label .rationalLoop,
   .ins (.op .CMP [.r 5, .r 3])]

theorem h87 : (prog.drop 87).take b87.length = b87 := by decide +kernel

/-- dsp/downsample_arm.s:90-97. -/
abbrev b90 : List (Line Lbl Ins Cond) :=
  [.nop,
   .ins (.op .MOVF [.m 5 0, .f 0]),
   .ins (.op .ADD [.i 4, .r 5]), .nop,
   .ins (.op .ADDF [.f 0, .f 3]),
   .ins (.op .ADD [.r 7, .r 2]), .nop,
   .ins (.op .CMP [.r 8, .r 2])]

theorem h90 : (prog.drop 90).take b90.length = b90 := by decide +kernel

/-- dsp/downsample_arm.s:99-102. -/
abbrev b99 : List (Line Lbl Ins Cond) :=
  [.nop,
   .ins (.op .MULF [.f 4, .f 3]), .nop,
   .ins (.op .MOVF [.f 3, .m 6 0])]

theorem h99 : (prog.drop 99).take b99.length = b99 := by decide +kernel

/-- dsp/downsample_arm.s:103-107. -/
abbrev b103 : List (Line Lbl Ins Cond) :=
  [.ins (.op .ADD [.i 4, .r 6]), .nop,
   .ins (.op .SUB [.r 8, .r 2]),
   .ins (.op .MOVF [.fi 0x00000000, .f 3]), .nop]

theorem h103 : (prog.drop 103).take b103.length = b103 := by decide +kernel

/-- dsp/downsample_arm.s:110-111. -/
abbrev b110 : List (Line Lbl Ins Cond) :=
  [.label .rationalLoopEnd,
   .ins (.op .MOVW [.r 2, .m 4 12])]

theorem h110 : (prog.drop 110).take b110.length = b110 := by decide +kernel

/-- dsp/downsample_arm.s:112-113. -/
abbrev b112 : List (Line Lbl Ins Cond) :=
  [.ins (.op .MOVF [.f 3, .m 4 8]), .nop]

theorem h112 : (prog.drop 112).take b112.length = b112 := by decide +kernel

/-- dsp/downsample_arm.s:114-121. -/
abbrev b114 : List (Line Lbl Ins Cond) :=
  [.ins (.op .MOVW [.fp 4, .r 0]),
   .ins (.op .SUB [.r 0, .r 6]),
   .ins (.op .MOVW [.sr 6 2, .r 6]),
   .ins (.op .MOVW [.r 6, .fp 20]),
   .ins (.op .MOVW [.fp 12, .r 4]),
   .ins (.op .MOVW [.r 4, .fp 24]),
   .ins (.op .MOVW [.fp 4, .r 0]),
   .ins (.op .MOVW [.r 0, .fp 16])]

theorem h114 : (prog.drop 114).take b114.length = b114 := by decide +kernel


/-! ### Memory -/

variable {e : Env} {m0 : BitVec 32 → BitVec 8} {fi ib : BitVec 32} {n : Nat} {f0 : Nat → BitVec 32}

theorem fill_congr (m : BitVec 32 → BitVec 8) (b : BitVec 32) {k : Nat} {f g : Nat → BitVec 8} (h : ∀ i < k, f i = g i) : fill m b k f = fill m b k g := by
  funext a
  unfold fill
  split
  · exact h _ ‹_›
  · rfl

/-- The bytes of a list of complex numbers. -/
def bytesC (l : List (BitVec 32 × BitVec 32)) (j : Nat) : BitVec 8 :=
  byte (if j % 8 < 4 then (l.getD (j / 8) (0, 0)).1 else (l.getD (j / 8) (0, 0)).2) (j % 4)

/-- The bytes of a list of numbers. -/
def bytesF (l : List (BitVec 32)) (j : Nat) : BitVec 8 := byte (l.getD (j / 4) 0) (j % 4)

theorem bytesC_append (l : List (BitVec 32 × BitVec 32)) (x : BitVec 32 × BitVec 32) {j : Nat} (h : j < 8 * l.length) :
    bytesC l j = bytesC (l ++ [x]) j := by
  unfold bytesC
  simp only [List.getD_eq_getElem?_getD]
  rw [List.getElem?_append_left (by omega)]

theorem bytesF_append (l : List (BitVec 32)) (x : BitVec 32) {j : Nat} (h : j < 4 * l.length) : bytesF l j = bytesF (l ++ [x]) j := by
  unfold bytesF
  simp only [List.getD_eq_getElem?_getD]
  rw [List.getElem?_append_left (by omega)]

/-- Load a word with `MOVW`. -/
theorem load_word {m : BitVec 32 → BitVec 8} {a : BitVec 32} (hr : ∀ i < 4, e.rd (a + BitVec.ofNat 32 i) = true) :
    Mach.load e.rd m a 4 = some (inp m a 0 4) := by
  unfold Mach.load inp
  rw [if_pos]
  · simp only [Nat.zero_add]
  · unfold allBytes
    rw [List.all_eq_true]
    intro i hi
    exact hr i (by simpa using hi)

theorem store_word {m : BitVec 32 → BitVec 8} {a w : BitVec 32} (hr : ∀ i < 4, e.wr (a + BitVec.ofNat 32 i) = true) :
    Mach.store e.wr m a 4 (bytes32 w) = some (fill m a 4 (bytes32 w)) := by
  unfold Mach.store
  rw [if_pos]
  unfold allBytes
  rw [List.all_eq_true]
  intro i hi
  exact hr i (by simpa using hi)

/-- The filter can be read and written and is aligned. -/
structure Filt (e : Env) (fi : BitVec 32) : Prop where
  al : fi.toNat % 4 = 0
  rd : ∀ i < 16, e.rd (fi + BitVec.ofNat 32 i) = true
  wr : ∀ i < 16, e.wr (fi + BitVec.ofNat 32 i) = true

/-- The slice can be read and written and is aligned. -/
structure Place (e : Env) (ib : BitVec 32) (v : Nat) : Prop where
  small : v < 2 ^ 32
  al : ib.toNat % 4 = 0
  rd : ∀ i < v, e.rd (ib + BitVec.ofNat 32 i) = true
  wr : ∀ i < v, e.wr (ib + BitVec.ofNat 32 i) = true

theorem Place.io {v : Nat} (h : Place e ib v) : Io e.rd e.wr ib ib v v id :=
  ⟨h.small, h.small, h.rd, h.wr, fun i hi => by
    have := h.small
    rw [BitVec.add_comm, BitVec.add_sub_cancel, toNat32 (by omega)]
    exact le_refl _⟩

/-! ### The complex filter -/

/-- One sample: sum, counter and outputs. -/
def stepC (o : Ops) (D : BitVec 32) (t : (BitVec 32 × BitVec 32) × BitVec 32 × List (BitVec 32 × BitVec 32)) (x : BitVec 32 × BitVec 32) :
    (BitVec 32 × BitVec 32) × BitVec 32 × List (BitVec 32 × BitVec 32) :=
  if (t.2.1 + 1#32).slt D then ((o.add t.1.1 x.1, o.add t.1.2 x.2), t.2.1 + 1#32, t.2.2)
  else ((0, 0), 0, t.2.2 ++ [(o.add t.1.1 x.1, o.add t.1.2 x.2)])

/-- After `k` samples. -/
def runC (o : Ops) (D : BitVec 32) (a : BitVec 32 × BitVec 32) (p : BitVec 32) (m0 : BitVec 32 → BitVec 8) (ib : BitVec 32) :
    Nat → (BitVec 32 × BitVec 32) × BitVec 32 × List (BitVec 32 × BitVec 32)
  | 0 => (a, p, [])
  | k + 1 => stepC o D (runC o D a p m0 ib k) (sample m0 ib k)

theorem runC_len (o : Ops) (D : BitVec 32) (a : BitVec 32 × BitVec 32) (p : BitVec 32) (m0 : BitVec 32 → BitVec 8) (ib : BitVec 32) (k : Nat) :
    (runC o D a p m0 ib k).2.2.length ≤ k := by
  induction k with
  | zero => exact le_refl _
  | succ k ih =>
    rw [runC, stepC]
    split
    · exact Nat.le_succ_of_le ih
    · simpa using ih

/-- `k` of `n` samples are used; `t` is where the registers stand. -/
structure InvC (m0 : BitVec 32 → BitVec 8) (fi ib D : BitVec 32) (f0 : Nat → BitVec 32) (c k : Nat)
    (t : (BitVec 32 × BitVec 32) × BitVec 32 × List (BitVec 32 × BitVec 32)) (s : St) : Prop where
  r2 : s.r 2 = BitVec.ofNat 32 c
  r3 : s.r 3 = fi
  r5 : s.r 5 = ib + BitVec.ofNat 32 (8 * k)
  r6 : s.r 6 = ib + BitVec.ofNat 32 (8 * t.2.2.length)
  r7 : s.r 7 = t.2.1
  r8 : s.r 8 = D
  re : s.v 0 = t.1.1
  im : s.v 2 = t.1.2
  fp : s.fp = f0
  mem : s.mem = fill m0 ib (8 * t.2.2.length) (bytesC t.2.2)

variable {D : BitVec 32}

/-- Read a sample and add it. -/
theorem addC (h : Place e ib (8 * n)) {k c : Nat} (hk : k < n) {t : (BitVec 32 × BitVec 32) × BitVec 32 × List (BitVec 32 × BitVec 32)}
    (ht : t.2.2.length ≤ k) {s : St} (hi : InvC m0 fi ib D f0 c k t s) :
    ∃ s', blk (sem e) b20 s = some s' ∧
      InvC m0 fi ib D f0 c (k + 1) ((e.o.add t.1.1 (sample m0 ib k).1, e.o.add t.1.2 (sample m0 ib k).2), t.2.1 + 1#32, t.2.2) s' ∧
      s'.fl = subFlags (t.2.1 + 1#32) D := by
  have hv : ∀ w r (f : BitVec 32 → BitVec 32 → BitVec 32 → BitVec 32) d n m, d < 8 → e.vfp { s with v := w, r := r } f d n m = _ := fun w r f d n m hd =>
    vfp_low (s := { s with v := w, r := r }) hd
  ar [hi.r5, hi.r7, hi.r8, Env.ldw, adv, aligned h.al (show 8 * k % 4 = 0 by omega),
    h.io.load hi.mem rfl (show 8 * k + 4 ≤ 8 * n by omega) (fun _ _ => by simp only [id]; omega), aligned h.al (show (8 * k + 4) % 4 = 0 by omega),
    h.io.load hi.mem rfl (show 8 * k + 4 + 4 ≤ 8 * n by omega) (fun _ _ => by simp only [id]; omega), Env.fpu, d32_at]
  rw [hv _ _ _ _ _ _ (by decide)]
  ar []
  rw [hv _ _ _ _ _ _ (by decide)]
  ar [hi.r7, hi.r8]
  refine ⟨_, rfl, ⟨?_, ?_, ?_, ?_, ?_, ?_, ?_, ?_, hi.fp, hi.mem⟩, ?_⟩
  · ar [hi.r2]
  · ar [hi.r3]
  · ar []; rfl
  · ar [hi.r6]
  · ar []
  · ar [hi.r8]
  · ar [hi.re]; rfl
  · ar [hi.im]; rfl
  · rfl

theorem getD_last {α : Type} (l : List α) (x d : α) : (l ++ [x]).getD l.length d = x := by
  rw [List.getD_eq_getElem?_getD, List.getElem?_append_right (le_refl _), Nat.sub_self]
  rfl

/-- Store the sum and begin the next one. -/
theorem emitC (h : Place e ib (8 * n)) {k c : Nat} {t : (BitVec 32 × BitVec 32) × BitVec 32 × List (BitVec 32 × BitVec 32)}
    (ht : t.2.2.length < n) {s : St} (hi : InvC m0 fi ib D f0 c k t s) :
    ∃ s', Reach (sem e) prog 36 s 49 s' ∧ InvC m0 fi ib D f0 c k ((0, 0), 0, t.2.2 ++ [t.1]) s' := by
  have hs := h.small
  have hm := hi.mem
  rw [fill_congr _ _ (fun i hi' => bytesC_append t.2.2 t.1 hi')] at hm
  obtain ⟨s1, g1, e1⟩ : ∃ s', blk (sem e) b36 s = some s' ∧ s' = { s with mem := fill m0 ib (8 * t.2.2.length + 4 * 1) (bytesC (t.2.2 ++ [t.1])) } := by
    ar [hi.r6]
    rw [stw_io h.io h.al hm rfl (by omega) (by omega) ?_]
    · exact ⟨_, rfl, rfl⟩
    · intro i hi'
      rw [hi.re]
      simp only [bytes32, show i < 4 by omega, if_true, bytesC]
      rw [show (8 * t.2.2.length + i) / 8 = t.2.2.length by omega, show (8 * t.2.2.length + i) % 4 = i by omega, if_pos (by omega), getD_last]
  have hm1 : s1.mem = fill m0 ib (8 * t.2.2.length + 4) (bytesC (t.2.2 ++ [t.1])) := by rw [e1]
  obtain ⟨s2, g2, i2⟩ : ∃ s', blk (sem e) b39 s1 = some s' ∧ InvC m0 fi ib D f0 c k ((0, 0), 0, t.2.2 ++ [t.1]) s' := by
    have a6 : s1.r 6 = ib + BitVec.ofNat 32 (8 * t.2.2.length) := by rw [e1]; exact hi.r6
    have a2 : s1.v 2 = t.1.2 := by rw [e1]; exact hi.im
    ar [a6, adv]
    rw [stw_io h.io h.al hm1 rfl (by omega) (by omega) ?_]
    · ar [e1, hi.r6, adv]
      refine ⟨_, rfl, ⟨?_, ?_, ?_, ?_, ?_, ?_, ?_, ?_, hi.fp, ?_⟩⟩
      · ar [hi.r2]
      · ar [hi.r3]
      · ar [hi.r5]
      · ar [List.length_append, List.length_singleton, Nat.mul_add]
      · ar []; rfl
      · ar [hi.r8]
      · ar []; rfl
      · ar []; rfl
      · simp only [List.length_append, List.length_singleton, Nat.mul_add, Nat.reduceMul, Nat.add_assoc, Nat.reduceAdd]
    · intro i hi'
      rw [a2]
      simp only [bytes32, show i < 4 by omega, if_true, bytesC]
      rw [show (8 * t.2.2.length + 4 + i) / 8 = t.2.2.length by omega, show (8 * t.2.2.length + 4 + i) % 4 = i by omega, if_neg (by omega), getD_last]
  exact ⟨s2, (reach_blk b36 h36 g1).trans (reach_blk b39 h39 g2), i2⟩

/-- Count down. -/
theorem countC {k c : Nat} (hc : 0 < c) (hc2 : c < 2 ^ 32) {t : (BitVec 32 × BitVec 32) × BitVec 32 × List (BitVec 32 × BitVec 32)} {s : St}
    (hi : InvC m0 fi ib D f0 c k t s) : ∃ s', Reach (sem e) prog 14 s 17 s' ∧ InvC m0 fi ib D f0 (c - 1) k t s' := by
  obtain ⟨s1, g1, i1⟩ : ∃ s', blk (sem e) b14 s = some s' ∧ InvC m0 fi ib D f0 (c - 1) k t s' := by
    ar [hi.r2, sub32 (show 1 ≤ c by omega) hc2]
    refine ⟨_, rfl, ⟨?_, ?_, ?_, ?_, ?_, ?_, hi.re, hi.im, hi.fp, hi.mem⟩⟩
    · ar []
    · ar [hi.r3]
    · ar [hi.r5]
    · ar [hi.r6]
    · ar [hi.r7]
    · ar [hi.r8]
  exact ⟨s1, reach_blk b14 h14 g1, i1⟩

/-- Is there another sample? -/
theorem testC {k c : Nat} (hc : c < 2 ^ 32) {t : (BitVec 32 × BitVec 32) × BitVec 32 × List (BitVec 32 × BitVec 32)} {s : St}
    (hi : InvC m0 fi ib D f0 c k t s) : ∃ s', Reach (sem e) prog 17 s (if c = 0 then 51 else 20) s' ∧ InvC m0 fi ib D f0 c k t s' := by
  obtain ⟨s1, g1, i1, z1⟩ : ∃ s', blk (sem e) b17 s = some s' ∧ InvC m0 fi ib D f0 c k t s' ∧ s'.fl.z = decide (c = 0) := by
    ar [hi.r2, beq_zero hc]
    exact ⟨_, rfl, ⟨hi.r2, hi.r3, hi.r5, hi.r6, hi.r7, hi.r8, hi.re, hi.im, hi.fp, hi.mem⟩, rfl⟩
  have hb := reach_branch (m := sem e) (p := prog) (s := s1) (pc := 19) (t := 51) .EQ .complexLoopEnd (by decide +kernel) (by decide +kernel)
    (b := decide (c = 0)) z1
  refine ⟨s1, (reach_blk b17 h17 g1).trans ?_, i1⟩
  simpa using hb

theorem oneC (h : Place e ib (8 * n)) (hn : n < 2 ^ 32) {k : Nat} (hk : k < n) {t : (BitVec 32 × BitVec 32) × BitVec 32 × List (BitVec 32 × BitVec 32)}
    (ht : t.2.2.length ≤ k) {s : St} (hi : InvC m0 fi ib D f0 (n - k) k t s) :
    ∃ s', Reach (sem e) prog 17 s 17 s' ∧ InvC m0 fi ib D f0 (n - (k + 1)) (k + 1) (stepC e.o D t (sample m0 ib k)) s' := by
  obtain ⟨s1, r1, i1⟩ := testC (e := e) (by omega) hi
  rw [if_neg (by omega)] at r1
  obtain ⟨s2, g2, i2, f2⟩ := addC h hk ht i1
  have hb := reach_branch (m := sem e) (p := prog) (s := s2) (pc := 35) (t := 14) .LT .complexLoop (by decide +kernel) (by decide +kernel)
    (b := (t.2.1 + 1#32).slt D) (by show s2.fl.taken .LT = _; rw [f2, taken_slt])
  have r2 := (r1.trans (reach_blk b20 h20 g2)).trans hb
  unfold stepC
  by_cases c : (t.2.1 + 1#32).slt D = true
  · rw [if_pos c] at r2 ⊢
    obtain ⟨s3, r3, i3⟩ := countC (e := e) (by omega) (by omega) i2
    exact ⟨s3, r2.trans r3, by rwa [Nat.sub_sub] at i3⟩
  · rw [if_neg c] at r2 ⊢
    obtain ⟨s3, r3, i3⟩ := emitC h (by simp only; omega) i2
    have hj := reach_branch (m := sem e) (p := prog) (s := s3) (pc := 49) (t := 14) .AL .complexLoop (by decide +kernel) (by decide +kernel) (b := true) rfl
    obtain ⟨s4, r4, i4⟩ := countC (e := e) (by omega) (by omega) i3
    exact ⟨s4, ((r2.trans r3).trans hj).trans r4, by rwa [Nat.sub_sub] at i4⟩

theorem loopC (h : Place e ib (8 * n)) (hn : n < 2 ^ 32) {a : BitVec 32 × BitVec 32} {p : BitVec 32} {s : St} (hi : InvC m0 fi ib D f0 n 0 (a, p, []) s)
    (k : Nat) (hk : k ≤ n) : ∃ s', Reach (sem e) prog 17 s 17 s' ∧ InvC m0 fi ib D f0 (n - k) k (runC e.o D a p m0 ib k) s' := by
  induction k with
  | zero => exact ⟨s, Reach.refl _ _ _ _, hi⟩
  | succ k ih =>
    obtain ⟨s1, r1, i1⟩ := ih (by omega)
    obtain ⟨s2, r2, i2⟩ := oneC h hn (by omega) (runC_len ..) i1
    exact ⟨s2, r1.trans r2, i2⟩

/-- The memory with a word stored at `a`. -/
def put (m : BitVec 32 → BitVec 8) (a w : BitVec 32) : BitVec 32 → BitVec 8 := fill m a 4 (bytes32 w)

/-- The frame afterwards: a slice with `k` elements is returned. -/
def ret (f : Nat → BitVec 32) (k : Nat) : Nat → BitVec 32 :=
  Function.update (Function.update (Function.update f 20 (BitVec.ofNat 32 k)) 24 (f 12)) 16 (f 4)

theorem routineC {s : St} (hn : n < 2 ^ 31) (a0 : s.fp 0 = fi) (a1 : s.fp 4 = ib) (a2 : s.fp 8 = BitVec.ofNat 32 n) (hf : Filt e fi) (h : Place e ib (8 * n))
    {t : (BitVec 32 × BitVec 32) × BitVec 32 × List (BitVec 32 × BitVec 32)}
    (ht : t = runC e.o (u32at s.mem fi) (u32at s.mem (fi + BitVec.ofNat 32 4), u32at s.mem (fi + BitVec.ofNat 32 8)) (u32at s.mem (fi + BitVec.ofNat 32 12))
      s.mem ib n) :
    ∃ s', Returns (sem e) prog 3 s s' ∧ s'.fp = ret s.fp t.2.2.length ∧ s'.mem = put (put (put (fill s.mem ib (8 * t.2.2.length) (bytesC t.2.2))
      (fi + BitVec.ofNat 32 12) t.2.1) (fi + BitVec.ofNat 32 4) t.1.1) (fi + BitVec.ofNat 32 8) t.1.2 := by
  have q1 : (fi + BitVec.ofNat 32 4).toNat % 4 = 0 := aligned hf.al rfl
  have q2 : (fi + BitVec.ofNat 32 8).toNat % 4 = 0 := aligned hf.al rfl
  obtain ⟨s1, g1, i1⟩ : ∃ s', blk (sem e) b3 s = some s' ∧ InvC s.mem fi ib (u32at s.mem fi) s.fp n 0
      ((u32at s.mem (fi + BitVec.ofNat 32 4), u32at s.mem (fi + BitVec.ofNat 32 8)), u32at s.mem (fi + BitVec.ofNat 32 12), []) s' := by
    have l0 : Mach.load e.rd s.mem fi 4 = some (inp s.mem fi 0 4) := load_word (fun i hi => hf.rd i (by omega))
    have l3 : Mach.load e.rd s.mem (fi + BitVec.ofNat 32 12) 4 = some (inp s.mem (fi + BitVec.ofNat 32 12) 0 4) :=
      load_word (fun i hi => by rw [adv]; exact hf.rd _ (by omega))
    have l1 : ∀ r v, e.ldw { s with r := r, v := v } (fi + BitVec.ofNat 32 4) 1 = some (inp s.mem (fi + BitVec.ofNat 32 4) 0 4) := fun r v =>
      ldw_word (s := { s with r := r, v := v }) q1 (fun i hi => by rw [adv]; exact hf.rd _ (by omega))
    have l2 : ∀ r v, e.ldw { s with r := r, v := v } (fi + BitVec.ofNat 32 8) 1 = some (inp s.mem (fi + BitVec.ofNat 32 8) 0 4) := fun r v =>
      ldw_word (s := { s with r := r, v := v }) q2 (fun i hi => by rw [adv]; exact hf.rd _ (by omega))
    ar [a0, a1, a2, l0, l3]
    rw [l1]
    ar []
    rw [l2]
    ar [d32_at]
    refine ⟨_, rfl, ⟨?_, ?_, ?_, ?_, ?_, ?_, ?_, ?_, rfl, ?_⟩⟩
    · ar []
    · ar []
    · ar [Nat.mul_zero]
    · ar [List.length_nil, Nat.mul_zero]
    · ar []
    · ar []
    · ar []
    · ar []
    · rw [List.length_nil, Nat.mul_zero, fill_zero]
  have hj := reach_branch (m := sem e) (p := prog) (s := s1) (pc := 12) (t := 17) .AL .complexLoopStart (by decide +kernel) (by decide +kernel) (b := true) rfl
  obtain ⟨s2, r2, i2⟩ := loopC h (by omega) i1 n (le_refl _)
  rw [← ht, Nat.sub_self] at i2
  obtain ⟨s3, r3, i3⟩ := testC (e := e) (by omega) i2
  rw [if_pos rfl] at r3
  have hl : t.2.2.length ≤ n := ht ▸ runC_len ..
  have hs := h.small
  obtain ⟨s4, g4, e4⟩ : ∃ s', blk (sem e) b51 s3 = some s' ∧ s' = { s3 with mem := put s3.mem (fi + BitVec.ofNat 32 12) t.2.1 } := by
    ar [i3.r3, i3.r7, store_word (e := e) (m := s3.mem) (a := fi + BitVec.ofNat 32 12) (w := t.2.1) (fun i hi => by rw [adv]; exact hf.wr _ (by omega))]
    exact ⟨_, rfl, rfl⟩
  obtain ⟨s5, g5, e5⟩ : ∃ s', blk (sem e) b53 s4 = some s' ∧ s' = { s4 with mem := put s4.mem (fi + BitVec.ofNat 32 4) t.1.1 } := by
    ar [show s4.r 3 = fi by rw [e4]; exact i3.r3, show s4.v 0 = t.1.1 by rw [e4]; exact i3.re]
    rw [stw_word q1 (fun i hi => by rw [adv]; exact hf.wr _ (by omega))]
    exact ⟨_, rfl, rfl⟩
  obtain ⟨s6, g6, e6⟩ : ∃ s', blk (sem e) b54 s5 = some s' ∧ s' = { s5 with mem := put s5.mem (fi + BitVec.ofNat 32 8) t.1.2 } := by
    ar [show s5.r 3 = fi by rw [e5, e4]; exact i3.r3, show s5.v 2 = t.1.2 by rw [e5, e4]; exact i3.im]
    rw [stw_word q2 (fun i hi => by rw [adv]; exact hf.wr _ (by omega))]
    exact ⟨_, rfl, rfl⟩
  obtain ⟨s7, g7, e7, m7⟩ : ∃ s', blk (sem e) b56 s6 = some s' ∧ s'.fp = ret s.fp t.2.2.length ∧ s'.mem = s6.mem := by
    have p6 : s6.fp = s.fp := by rw [e6, e5, e4]; exact i3.fp
    have a6 : s6.r 6 = ib + BitVec.ofNat 32 (8 * t.2.2.length) := by rw [e6, e5, e4]; exact i3.r6
    ar [p6, a6, a1, show ib + BitVec.ofNat 32 (8 * t.2.2.length) - ib = BitVec.ofNat 32 (8 * t.2.2.length) by rw [BitVec.add_comm, BitVec.add_sub_cancel],
      shr32 (show 8 * t.2.2.length < 2 ^ 32 by omega), show 8 * t.2.2.length / 2 ^ 3 = t.2.2.length by omega]
    refine ⟨_, rfl, ?_, rfl⟩
    unfold ret
    rw [a1]
  refine ⟨s7, (((reach_blk b3 h3 g1).trans hj).trans ((r2.trans r3).trans ((reach_blk b51 h51 g4).trans ((reach_blk b53 h53 g5).trans
    ((reach_blk b54 h54 g6).trans (reach_blk b56 h56 g7)))))).returns (returns_ret (by decide +kernel)), e7, ?_⟩
  rw [m7, e6, e5, e4, ← i3.mem]

/-! ### The rational filter -/

/-- The word at place `k` of the slice. -/
def value (m0 : BitVec 32 → BitVec 8) (ib : BitVec 32) (k : Nat) : BitVec 32 := u32at m0 (ib + BitVec.ofNat 32 (4 * k))

/-- One sample: sum, phase and outputs. -/
def stepQ (o : Ops) (q slow fast : BitVec 32) (t : BitVec 32 × BitVec 32 × List (BitVec 32)) (x : BitVec 32) : BitVec 32 × BitVec 32 × List (BitVec 32) :=
  if (t.2.1 + slow).slt fast then (o.add t.1 x, t.2.1 + slow, t.2.2) else (0, t.2.1 + slow - fast, t.2.2 ++ [o.mul (o.add t.1 x) q])

/-- After `k` samples. -/
def runQ (o : Ops) (q slow fast a p : BitVec 32) (m0 : BitVec 32 → BitVec 8) (ib : BitVec 32) : Nat → BitVec 32 × BitVec 32 × List (BitVec 32)
  | 0 => (a, p, [])
  | k + 1 => stepQ o q slow fast (runQ o q slow fast a p m0 ib k) (value m0 ib k)

theorem runQ_len (o : Ops) (q slow fast a p : BitVec 32) (m0 : BitVec 32 → BitVec 8) (ib : BitVec 32) (k : Nat) :
    (runQ o q slow fast a p m0 ib k).2.2.length ≤ k := by
  induction k with
  | zero => exact le_refl _
  | succ k ih =>
    rw [runQ, stepQ]
    split
    · exact Nat.le_succ_of_le ih
    · simpa using ih

/-- `k` samples are used; `t` is where the registers stand. -/
structure InvQ (m0 : BitVec 32 → BitVec 8) (fi ib q slow fast z : BitVec 32) (f0 : Nat → BitVec 32) (k : Nat)
    (t : BitVec 32 × BitVec 32 × List (BitVec 32)) (s : St) : Prop where
  r2 : s.r 2 = t.2.1
  r3 : s.r 3 = z
  r4 : s.r 4 = fi
  r5 : s.r 5 = ib + BitVec.ofNat 32 (4 * k)
  r6 : s.r 6 = ib + BitVec.ofNat 32 (4 * t.2.2.length)
  r7 : s.r 7 = slow
  r8 : s.r 8 = fast
  f3 : s.v 6 = t.1
  f4 : s.v 8 = q
  fp : s.fp = f0
  mem : s.mem = fill m0 ib (4 * t.2.2.length) (bytesF t.2.2)

variable {q slow fast z : BitVec 32}

theorem addQ (h : Place e ib (4 * n)) {k : Nat} (hk : k < n) {t : BitVec 32 × BitVec 32 × List (BitVec 32)}
    (ht : t.2.2.length ≤ k) {s : St} (hi : InvQ m0 fi ib q slow fast z f0 k t s) :
    ∃ s', blk (sem e) b90 s = some s' ∧ InvQ m0 fi ib q slow fast z f0 (k + 1) (e.o.add t.1 (value m0 ib k), t.2.1 + slow, t.2.2) s' ∧
      s'.fl = subFlags (t.2.1 + slow) fast := by
  have hv : ∀ w r (f : BitVec 32 → BitVec 32 → BitVec 32 → BitVec 32) d n m, d < 8 → e.vfp { s with v := w, r := r } f d n m = _ := fun w r f d n m hd =>
    vfp_low (s := { s with v := w, r := r }) hd
  ar [hi.r5, hi.r7, hi.r8, hi.r2, Env.ldw, adv, aligned h.al (show 4 * k % 4 = 0 by omega),
    h.io.load hi.mem rfl (show 4 * k + 4 ≤ 4 * n by omega) (fun _ _ => by simp only [id]; omega), Env.fpu, d32_at]
  rw [hv _ _ _ _ _ _ (by decide)]
  ar [hi.r2, hi.r7, hi.r8]
  refine ⟨_, rfl, ⟨?_, ?_, ?_, ?_, ?_, ?_, ?_, ?_, ?_, hi.fp, hi.mem⟩, ?_⟩
  · ar []
  · ar [hi.r3]
  · ar [hi.r4]
  · ar []; rfl
  · ar [hi.r6]
  · ar [hi.r7]
  · ar [hi.r8]
  · ar [hi.f3]; rfl
  · ar [hi.f4]
  · rfl

theorem emitQ (h : Place e ib (4 * n)) {k : Nat} {t : BitVec 32 × BitVec 32 × List (BitVec 32)}
    (ht : t.2.2.length < n) {s : St} (hi : InvQ m0 fi ib q slow fast z f0 k t s) :
    ∃ s', Reach (sem e) prog 99 s 108 s' ∧ InvQ m0 fi ib q slow fast z f0 k (0, t.2.1 - fast, t.2.2 ++ [e.o.mul t.1 q]) s' := by
  have hs := h.small
  have hm := hi.mem
  rw [fill_congr _ _ (fun i hi' => bytesF_append t.2.2 (e.o.mul t.1 q) hi')] at hm
  obtain ⟨s1, g1, e1⟩ : ∃ s', blk (sem e) b99 s = some s' ∧
      s' = { s with v := Function.update s.v 6 (e.o.mul t.1 q), mem := fill m0 ib (4 * t.2.2.length + 4 * 1) (bytesF (t.2.2 ++ [e.o.mul t.1 q])) } := by
    have st : ∀ v w, w = e.o.mul t.1 q → e.stw { s with v := v } (ib + BitVec.ofNat 32 (4 * t.2.2.length)) 1 (bytes32 w) =
        some { s with v := v, mem := fill m0 ib (4 * t.2.2.length + 4 * 1) (bytesF (t.2.2 ++ [e.o.mul t.1 q])) } := by
      intro v w hw
      rw [stw_io (s := { s with v := v }) h.io h.al hm rfl (by omega) (by omega) ?_]
      intro i hi'
      simp only [bytes32, show i < 4 by omega, if_true, bytesF]
      rw [hw, show (4 * t.2.2.length + i) / 4 = t.2.2.length by omega, show (4 * t.2.2.length + i) % 4 = i by omega, getD_last]
    ar [Env.fpu, vfp_low (show (6 : Nat) < 8 by decide), hi.r6, hi.f3, hi.f4]
    rw [st _ _ rfl]
    exact ⟨_, rfl, rfl⟩
  obtain ⟨s2, g2, i2⟩ : ∃ s', blk (sem e) b103 s1 = some s' ∧ InvQ m0 fi ib q slow fast z f0 k (0, t.2.1 - fast, t.2.2 ++ [e.o.mul t.1 q]) s' := by
    ar [e1, hi.r6, hi.r2, hi.r8, adv]
    refine ⟨_, rfl, ⟨?_, ?_, ?_, ?_, ?_, ?_, ?_, ?_, ?_, hi.fp, ?_⟩⟩
    · ar []
    · ar [hi.r3]
    · ar [hi.r4]
    · ar [hi.r5]
    · ar [List.length_append, List.length_singleton, Nat.mul_add]
    · ar [hi.r7]
    · ar [hi.r8]
    · ar []; rfl
    · ar [hi.f4]
    · simp only [List.length_append, List.length_singleton, Nat.mul_add, Nat.reduceMul, Nat.add_assoc, Nat.reduceAdd]
  exact ⟨s2, (reach_blk b99 h99 g1).trans (reach_blk b103 h103 g2), i2⟩

theorem testQ {k : Nat} {t : BitVec 32 × BitVec 32 × List (BitVec 32)} {s : St} (hi : InvQ m0 fi ib q slow fast z f0 k t s) {b : Bool}
    (hb : (ib + BitVec.ofNat 32 (4 * k)).slt z = b) :
    ∃ s', Reach (sem e) prog 87 s (if b then 90 else 110) s' ∧ InvQ m0 fi ib q slow fast z f0 k t s' := by
  obtain ⟨s1, g1, i1, z1⟩ : ∃ s', blk (sem e) b87 s = some s' ∧ InvQ m0 fi ib q slow fast z f0 k t s' ∧ s'.fl = subFlags z (ib + BitVec.ofNat 32 (4 * k)) := by
    ar [hi.r3, hi.r5]
    exact ⟨_, rfl, ⟨hi.r2, hi.r3, hi.r4, hi.r5, hi.r6, hi.r7, hi.r8, hi.f3, hi.f4, hi.fp, hi.mem⟩, rfl⟩
  have hj := reach_branch (m := sem e) (p := prog) (s := s1) (pc := 89) (t := 110) .LE .rationalLoopEnd (by decide +kernel) (by decide +kernel)
    (b := !b) (by show s1.fl.taken .LE = _; rw [z1, taken_sle, hb])
  refine ⟨s1, (reach_blk b87 h87 g1).trans ?_, i1⟩
  cases b
  · exact hj
  · exact hj

theorem oneQ (h : Place e ib (4 * n)) {k : Nat} (hk : k < n) {t : BitVec 32 × BitVec 32 × List (BitVec 32)} (ht : t.2.2.length ≤ k) {s : St}
    (hi : InvQ m0 fi ib q slow fast z f0 k t s) (hb : (ib + BitVec.ofNat 32 (4 * k)).slt z = true) :
    ∃ s', Reach (sem e) prog 87 s 87 s' ∧ InvQ m0 fi ib q slow fast z f0 (k + 1) (stepQ e.o q slow fast t (value m0 ib k)) s' := by
  obtain ⟨s1, r1, i1⟩ := testQ (e := e) hi hb
  rw [if_pos rfl] at r1
  obtain ⟨s2, g2, i2, f2⟩ := addQ h hk ht i1
  have hb := reach_branch (m := sem e) (p := prog) (s := s2) (pc := 98) (t := 87) .LT .rationalLoop (by decide +kernel) (by decide +kernel)
    (b := (t.2.1 + slow).slt fast) (by show s2.fl.taken .LT = _; rw [f2, taken_slt])
  have r2 := (r1.trans (reach_blk b90 h90 g2)).trans hb
  unfold stepQ
  by_cases c : (t.2.1 + slow).slt fast = true
  · rw [if_pos c] at r2 ⊢
    exact ⟨s2, r2, i2⟩
  · rw [if_neg c] at r2 ⊢
    obtain ⟨s3, r3, i3⟩ := emitQ h (by simp only; omega) i2
    have hj := reach_branch (m := sem e) (p := prog) (s := s3) (pc := 108) (t := 87) .AL .rationalLoop (by decide +kernel) (by decide +kernel) (b := true) rfl
    exact ⟨s3, (r2.trans r3).trans hj, i3⟩

/-- The samples that are used when `n` of them begin at address `p`: none if the end of the slice is on the other side of 2³¹, since addresses are
compared as signed numbers. -/
def passed (p n : Nat) : Nat := if p < 2 ^ 31 ∧ 2 ^ 31 ≤ p + 4 * n then 0 else n

theorem passed_le (p n : Nat) : passed p n ≤ n := by unfold passed; split <;> omega

theorem passed_cond {ib : BitVec 32} {n k : Nat} (hq : ib.toNat + 4 * n < 2 ^ 32) (hk : k ≤ passed ib.toNat n) :
    (ib + BitVec.ofNat 32 (4 * k)).slt (ib + BitVec.ofNat 32 (4 * n)) = decide (k < passed ib.toNat n) := by
  have hp := passed_le ib.toNat n
  have ea : ∀ j, ib + BitVec.ofNat 32 j = BitVec.ofNat 32 (ib.toNat + j) := fun j => by rw [BitVec.ofNat_add, BitVec.ofNat_toNat, BitVec.setWidth_eq]
  rw [ea, ea, slt_addr _ _ (by omega) hq]
  congr 1
  apply propext
  unfold passed at *
  split at hk
  · rw [if_pos ‹_›]
    omega
  · rw [if_neg ‹_›]
    omega

theorem loopQ (h : Place e ib (4 * n)) (hq : ib.toNat + 4 * n < 2 ^ 32) {a p : BitVec 32} {s : St}
    (hi : InvQ m0 fi ib q slow fast (ib + BitVec.ofNat 32 (4 * n)) f0 0 (a, p, []) s) (k : Nat) (hk : k ≤ passed ib.toNat n) :
    ∃ s', Reach (sem e) prog 87 s 87 s' ∧ InvQ m0 fi ib q slow fast (ib + BitVec.ofNat 32 (4 * n)) f0 k (runQ e.o q slow fast a p m0 ib k) s' := by
  have hp := passed_le ib.toNat n
  induction k with
  | zero => exact ⟨s, Reach.refl _ _ _ _, hi⟩
  | succ k ih =>
    obtain ⟨s1, r1, i1⟩ := ih (by omega)
    obtain ⟨s2, r2, i2⟩ := oneQ h (by omega) (runQ_len ..) i1 (by rw [passed_cond hq (by omega), decide_eq_true_eq]; omega)
    exact ⟨s2, r1.trans r2, i2⟩

theorem routineQ {s : St} (a0 : s.fp 0 = fi) (a1 : s.fp 4 = ib) (a2 : s.fp 8 = BitVec.ofNat 32 n) (hf : Filt e fi) (h : Place e ib (4 * n))
    (hq : ib.toNat + 4 * n < 2 ^ 32) (hL : s.fpscr.extractLsb' 16 3 = 0) (slow_eq : slow = u32at s.mem (fi + BitVec.ofNat 32 4))
    (fast_eq : fast = u32at s.mem fi) {t : BitVec 32 × BitVec 32 × List (BitVec 32)}
    (ht : t = runQ e.o (e.o.div (e.o.cvt slow.toInt) (e.o.cvt fast.toInt)) slow fast (u32at s.mem (fi + BitVec.ofNat 32 8))
      (u32at s.mem (fi + BitVec.ofNat 32 12)) s.mem ib (passed ib.toNat n)) :
    ∃ s', Returns (sem e) prog 66 s s' ∧ s'.fp = ret s.fp t.2.2.length ∧ s'.mem = put (put (fill s.mem ib (4 * t.2.2.length) (bytesF t.2.2))
      (fi + BitVec.ofNat 32 12) t.2.1) (fi + BitVec.ofNat 32 8) t.1 := by
  have q2 : (fi + BitVec.ofNat 32 8).toNat % 4 = 0 := aligned hf.al rfl
  have hp := passed_le ib.toNat n
  obtain ⟨s1, g1, i1⟩ : ∃ s', blk (sem e) b66 s = some s' ∧ InvQ s.mem fi ib (e.o.div (e.o.cvt slow.toInt) (e.o.cvt fast.toInt)) slow fast
      (ib + BitVec.ofNat 32 (4 * n)) s.fp 0 (u32at s.mem (fi + BitVec.ofNat 32 8), u32at s.mem (fi + BitVec.ofNat 32 12), []) s' := by
    have l0 : Mach.load e.rd s.mem fi 4 = some (inp s.mem fi 0 4) := load_word (fun i hi => hf.rd i (by omega))
    have l1 : Mach.load e.rd s.mem (fi + BitVec.ofNat 32 4) 4 = some (inp s.mem (fi + BitVec.ofNat 32 4) 0 4) :=
      load_word (fun i hi => by rw [adv]; exact hf.rd _ (by omega))
    have l3 : Mach.load e.rd s.mem (fi + BitVec.ofNat 32 12) 4 = some (inp s.mem (fi + BitVec.ofNat 32 12) 0 4) :=
      load_word (fun i hi => by rw [adv]; exact hf.rd _ (by omega))
    have l2 : ∀ r v, e.ldw { s with r := r, v := v } (fi + BitVec.ofNat 32 8) 1 = some (inp s.mem (fi + BitVec.ofNat 32 8) 0 4) := fun r v =>
      ldw_word (s := { s with r := r, v := v }) q2 (fun i hi => by rw [adv]; exact hf.rd _ (by omega))
    have hv : ∀ w r f d n m, e.vfp { s with v := w, r := r } f d n m = _ := fun w r f d n m => vfp_one (s := { s with v := w, r := r }) hL
    ar [a0, a1, a2, l0, l1, l3, Env.fpu, hv]
    rw [l2]
    ar [a1, a2, l3, d32_at, shl32]
    refine ⟨_, rfl, ⟨?_, ?_, ?_, ?_, ?_, ?_, ?_, ?_, ?_, rfl, ?_⟩⟩
    · ar []
    · ar []; rfl
    · ar []
    · ar [Nat.mul_zero]
    · ar [List.length_nil, Nat.mul_zero]
    · ar [slow_eq]
    · ar [fast_eq]
    · ar []
    · ar [slow_eq, fast_eq]
    · rw [List.length_nil, Nat.mul_zero, fill_zero]
  obtain ⟨s2, r2, i2⟩ := loopQ h hq i1 _ (le_refl _)
  rw [← ht] at i2
  obtain ⟨s3, r3, i3⟩ := testQ (e := e) i2 (passed_cond hq (le_refl _))
  rw [decide_eq_false (lt_irrefl _), if_neg (by decide)] at r3
  have hl : t.2.2.length ≤ n := le_trans (ht ▸ runQ_len ..) hp
  have hs := h.small
  obtain ⟨s4, g4, e4⟩ : ∃ s', blk (sem e) b110 s3 = some s' ∧ s' = { s3 with mem := put s3.mem (fi + BitVec.ofNat 32 12) t.2.1 } := by
    ar [i3.r4, i3.r2, store_word (e := e) (m := s3.mem) (a := fi + BitVec.ofNat 32 12) (w := t.2.1) (fun i hi => by rw [adv]; exact hf.wr _ (by omega))]
    exact ⟨_, rfl, rfl⟩
  obtain ⟨s5, g5, e5⟩ : ∃ s', blk (sem e) b112 s4 = some s' ∧ s' = { s4 with mem := put s4.mem (fi + BitVec.ofNat 32 8) t.1 } := by
    ar [show s4.r 4 = fi by rw [e4]; exact i3.r4, show s4.v 6 = t.1 by rw [e4]; exact i3.f3]
    rw [stw_word q2 (fun i hi => by rw [adv]; exact hf.wr _ (by omega))]
    exact ⟨_, rfl, rfl⟩
  obtain ⟨s7, g7, e7, m7⟩ : ∃ s', blk (sem e) b114 s5 = some s' ∧ s'.fp = ret s.fp t.2.2.length ∧ s'.mem = s5.mem := by
    have p6 : s5.fp = s.fp := by rw [e5, e4]; exact i3.fp
    have a6 : s5.r 6 = ib + BitVec.ofNat 32 (4 * t.2.2.length) := by rw [e5, e4]; exact i3.r6
    ar [p6, a6, a1, show ib + BitVec.ofNat 32 (4 * t.2.2.length) - ib = BitVec.ofNat 32 (4 * t.2.2.length) by rw [BitVec.add_comm, BitVec.add_sub_cancel],
      shr32 (show 4 * t.2.2.length < 2 ^ 32 by omega), show 4 * t.2.2.length / 2 ^ 2 = t.2.2.length by omega]
    refine ⟨_, rfl, ?_, rfl⟩
    unfold ret
    rw [a1]
  refine ⟨s7, ((reach_blk b66 h66 g1).trans ((r2.trans r3).trans ((reach_blk b110 h110 g4).trans ((reach_blk b112 h112 g5).trans
    (reach_blk b114 h114 g7))))).returns (returns_ret (by decide +kernel)), e7, ?_⟩
  rw [m7, e5, e4, ← i3.mem]

end Verif.A32.Down
