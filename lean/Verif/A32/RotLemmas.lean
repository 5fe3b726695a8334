import Verif.A32.A32Spec
import Verif.A32.UtilModel

/-!
# The runs of the quarter-turn filters on 32-bit ARM, instruction by instruction
-/

namespace Verif.A32.Util
open Verif.A32 Verif.Mach
open Verif.X86 (Vec byte d32 w16 of32 of16 bytes32)

/-! ### Basic blocks -/

/-- dsp/util_arm.s:3-8. -/
abbrev b3 : List (Line Lbl Ins Cond) :=
  [.label .rotate90FilterAsm,
   .ins (.op .MOVW [.fp 8, .r 7]),
   .ins (.op .MOVW [.fp 4, .r 8]),
   .ins (.op .AND [.i (-4), .r 7]), .nop,
   .ins (.op .TEQ [.i 0, .r 7])]

theorem h3 : (prog.drop 3).take b3.length = b3 := by decide +kernel

/-- dsp/util_arm.s:11-12. -/
abbrev b11 : List (Line Lbl Ins Cond) :=
  [.ins (.op .ADD [.sl 7 3, .r 8, .r 7]), .nop]

theorem h11 : (prog.drop 11).take b11.length = b11 := by decide +kernel

/-- dsp/util_arm.s:13-34. -/
abbrev b13 : List (Line Lbl Ins Cond) :=
  [.label .r90_loop, .nop,
   .ins (.op .ADD [.i 8, .r 8]), .nop,
   .ins (.op .MOVMIA [.m 8 0, .rl 0 5]), .nop, .nop,
   .ins (.op .MOVW [.r 0, .r 6]),
   .ins (.op .EOR [.i 0x80000000, .r 1, .r 0]),
   .ins (.op .MOVW [.r 6, .r 1]), .nop, .nop,
   .ins (.op .EOR [.i 0x80000000, .r 2]),
   .ins (.op .EOR [.i 0x80000000, .r 3]), .nop, .nop,
   .ins (.op .EOR [.i 0x80000000, .r 4, .r 6]),
   .ins (.op .MOVW [.r 5, .r 4]),
   .ins (.op .MOVW [.r 6, .r 5]),
   .ins (.op .MOVMIAW [.rl 0 5, .m 8 0]), .nop,
   .ins (.op .CMP [.r 8, .r 7])]

theorem h13 : (prog.drop 13).take b13.length = b13 := by decide +kernel

/-- dsp/util_arm.s:37-43. -/
abbrev b37 : List (Line Lbl Ins Cond) :=
  [.label .r90_end,
   .ins (.op .MOVW [.fp 4, .r 0]),
   .ins (.op .MOVW [.r 0, .fp 16]),
   .ins (.op .MOVW [.fp 8, .r 0]),
   .ins (.op .MOVW [.r 0, .fp 20]),
   .ins (.op .MOVW [.fp 12, .r 0]),
   .ins (.op .MOVW [.r 0, .fp 24])]

theorem h37 : (prog.drop 37).take b37.length = b37 := by decide +kernel

/-- dsp/util_arm.s:46-51. -/
abbrev b46 : List (Line Lbl Ins Cond) :=
  [.label .i32Rotate90FilterAsm,
   .ins (.op .MOVW [.fp 8, .r 7]),
   .ins (.op .MOVW [.fp 4, .r 8]),
   .ins (.op .AND [.i (-4), .r 7]), .nop,
   .ins (.op .TEQ [.i 0, .r 7])]

theorem h46 : (prog.drop 46).take b46.length = b46 := by decide +kernel

/-- dsp/util_arm.s:54-55. -/
abbrev b54 : List (Line Lbl Ins Cond) :=
  [.ins (.op .ADD [.sl 7 2, .r 8, .r 7]), .nop]

theorem h54 : (prog.drop 54).take b54.length = b54 := by decide +kernel

/-- dsp/util_arm.s:56-77. -/
abbrev b56 : List (Line Lbl Ins Cond) :=
  [.label .i32r90_loop, .nop,
   .ins (.op .ADD [.i 8, .r 8]), .nop,
   .ins (.op .MOVMIA [.m 8 0, .rl 0 5]), .nop, .nop,
   .ins (.op .MOVW [.r 0, .r 6]),
   .ins (.op .MVN [.r 1, .r 0]),
   .ins (.op .MOVW [.r 6, .r 1]), .nop, .nop,
   .ins (.op .MVN [.r 2, .r 2]),
   .ins (.op .MVN [.r 3, .r 3]), .nop, .nop,
   .ins (.op .MVN [.r 4, .r 6]),
   .ins (.op .MOVW [.r 5, .r 4]),
   .ins (.op .MOVW [.r 6, .r 5]),
   .ins (.op .MOVMIAW [.rl 0 5, .m 8 0]), .nop,
   .ins (.op .CMP [.r 8, .r 7])]

theorem h56 : (prog.drop 56).take b56.length = b56 := by decide +kernel

/-- dsp/util_arm.s:80-86. -/
abbrev b80 : List (Line Lbl Ins Cond) :=
  [.label .i32r90_end,
   .ins (.op .MOVW [.fp 4, .r 0]),
   .ins (.op .MOVW [.r 0, .fp 16]),
   .ins (.op .MOVW [.fp 8, .r 0]),
   .ins (.op .MOVW [.r 0, .fp 20]),
   .ins (.op .MOVW [.fp 12, .r 0]),
   .ins (.op .MOVW [.r 0, .fp 24])]

theorem h80 : (prog.drop 80).take b80.length = b80 := by decide +kernel

/-! ### One group of four samples -/

variable {e : Env} {m0 : BitVec 32 → BitVec 8} {ib lim : BitVec 32} {f0 : Nat → BitVec 32} {neg : BitVec 32 → BitVec 32}

/-- Word `j` of the slice. -/
def wordAt (m0 : BitVec 32 → BitVec 8) (ib : BitVec 32) (j : Nat) : BitVec 32 := d32 (fun i => m0 (ib + BitVec.ofNat 32 i)) j

/-- Word `j` of the slice when its samples are turned. -/
def turn (neg : BitVec 32 → BitVec 32) (w : Nat → BitVec 32) (j : Nat) : BitVec 32 :=
  if j % 8 = 2 then neg (w (j + 1)) else if j % 8 = 3 then w (j - 1) else if j % 8 = 4 ∨ j % 8 = 5 then neg (w j) else
  if j % 8 = 6 then w (j + 1) else if j % 8 = 7 then neg (w (j - 1)) else w j

/-- The bytes of the slice when its samples are turned. -/
def want (neg : BitVec 32 → BitVec 32) (m0 : BitVec 32 → BitVec 8) (ib : BitVec 32) (j : Nat) : BitVec 8 :=
  byte (turn neg (wordAt m0 ib) (j / 4)) (j % 4)

/-- `k` groups are turned. -/
structure Inv (neg : BitVec 32 → BitVec 32) (m0 : BitVec 32 → BitVec 8) (ib lim : BitVec 32) (f0 : Nat → BitVec 32) (k : Nat) (s : St) : Prop where
  r7 : s.r 7 = lim
  r8 : s.r 8 = ib + BitVec.ofNat 32 (32 * k)
  fp : s.fp = f0
  mem : s.mem = fill m0 ib (32 * k) (want neg m0 ib)

theorem want_keep {k i : Nat} (h : i < 8) : want neg m0 ib (32 * k + i) = m0 (ib + BitVec.ofNat 32 (32 * k + i)) := by
  unfold want turn wordAt
  rw [if_neg (by omega), if_neg (by omega), if_neg (by omega), if_neg (by omega), if_neg (by omega), byte_d32 _ _ _ (by omega)]
  congr 3
  omega

/-- The first sample of a group stays as it is. -/
theorem fill_keep {k : Nat} (h : 32 * k + 8 ≤ 2 ^ 32) :
    fill m0 ib (32 * k) (want neg m0 ib) = fill m0 ib (32 * k + 8) (want neg m0 ib) := by
  rw [← fill_fill _ _ _ 8 _ (fun i => want neg m0 ib (32 * k + i)) h fun _ _ => rfl]
  funext a
  by_cases c : (a - (ib + BitVec.ofNat 32 (32 * k))).toNat < 8
  · obtain ⟨i, hi⟩ : ∃ i, i = (a - (ib + BitVec.ofNat 32 (32 * k))).toNat := ⟨_, rfl⟩
    have ea : a = ib + BitVec.ofNat 32 (32 * k) + BitVec.ofNat 32 i := by
      rw [hi, BitVec.ofNat_toNat, BitVec.setWidth_eq, BitVec.add_comm _ (a - _), BitVec.sub_add_cancel]
    rw [← hi] at c
    rw [ea, fill_in c (by decide), want_keep c, adv]
    exact fill_out (by rw [BitVec.add_comm, BitVec.add_sub_cancel, toNat32 (by omega)]; omega)
  · exact (fill_out (by omega)).symm

theorem inp_d32 {k l n : Nat} (hk : 4 * l + 3 < n) : d32 (inp m0 ib (4 * k) n) l = wordAt m0 ib (k + l) := by
  unfold wordAt d32 inp
  rw [if_pos (by omega), if_pos (by omega), if_pos (by omega), if_pos (by omega), show 4 * k + (4 * l + 3) = 4 * (k + l) + 3 by omega,
    show 4 * k + (4 * l + 2) = 4 * (k + l) + 2 by omega, show 4 * k + (4 * l + 1) = 4 * (k + l) + 1 by omega, show 4 * k + 4 * l = 4 * (k + l) by omega]

theorem six_want {r : Nat → BitVec 32} {k : Nat} (h0 : r 0 = neg (wordAt m0 ib (8 * k + 3))) (h1 : r 1 = wordAt m0 ib (8 * k + 2))
    (h2 : r 2 = neg (wordAt m0 ib (8 * k + 4))) (h3 : r 3 = neg (wordAt m0 ib (8 * k + 5))) (h4 : r 4 = wordAt m0 ib (8 * k + 7))
    (h5 : r 5 = neg (wordAt m0 ib (8 * k + 6))) (i : Nat) (hi : i < 4 * 6) : of32 r i = want neg m0 ib (32 * k + 8 + i) := by
  unfold of32 want
  rw [show (32 * k + 8 + i) % 4 = i % 4 by omega]
  congr 1
  have : i / 4 = 0 ∨ i / 4 = 1 ∨ i / 4 = 2 ∨ i / 4 = 3 ∨ i / 4 = 4 ∨ i / 4 = 5 := by omega
  have e : (32 * k + 8 + i) / 4 = 8 * k + 2 + i / 4 := by omega
  rw [e]
  obtain h | h | h | h | h | h := this <;> rw [h] <;> unfold turn
  · rw [if_pos (by omega), h0]
  · rw [if_neg (by omega), if_pos (by omega), h1]
    rfl
  · rw [if_neg (by omega), if_neg (by omega), if_pos (by omega), h2]
  · rw [if_neg (by omega), if_neg (by omega), if_pos (by omega), h3]
  · rw [if_neg (by omega), if_neg (by omega), if_neg (by omega), if_pos (by omega), h4]
  · rw [if_neg (by omega), if_neg (by omega), if_neg (by omega), if_neg (by omega), if_pos (by omega), h5]
    rfl

/-- The slice can be read and written and is aligned. -/
structure Place (e : Env) (ib : BitVec 32) (v : Nat) : Prop where
  small : v < 2 ^ 32
  al : ib.toNat % 4 = 0
  rd : ∀ i < v, e.rd (ib + BitVec.ofNat 32 i) = true
  wr : ∀ i < v, e.wr (ib + BitVec.ofNat 32 i) = true

theorem Place.io {v : Nat} (h : Place e ib v) : Io e.rd e.wr ib ib v v id :=
  ⟨h.small, h.small, h.rd, h.wr, fun i hi => by
    have := h.small
    rw [BitVec.add_comm, BitVec.add_sub_cancel, toNat32 (by omega)]
    exact le_refl _⟩

theorem oneF {v k : Nat} (h : Place e ib v) (hk : 32 * (k + 1) ≤ v) {s : St} (hi : Inv fneg m0 ib lim f0 k s) :
    ∃ s', blk (sem e) b13 s = some s' ∧ Inv fneg m0 ib lim f0 (k + 1) s' ∧ s'.fl = subFlags lim (ib + BitVec.ofNat 32 (32 * (k + 1))) := by
  have hm := hi.mem
  have hv := h.small
  rw [fill_keep (by omega)] at hm
  have ld := h.io.load hm (a := ib + BitVec.ofNat 32 (32 * k + 8)) rfl (len := 24) (by omega) (fun i hi => by simp only [id]; omega)
  have w : ∀ l, 4 * l + 3 < 24 → d32 (inp m0 ib (32 * k + 8) 24) l = wordAt m0 ib (8 * k + (2 + l)) := by
    intro l hl
    rw [show 32 * k + 8 = 4 * (8 * k + 2) by omega, inp_d32 hl, Nat.add_assoc]
  ar [hi.r7, hi.r8, adv, Env.ldw, aligned h.al (show (32 * k + 8) % 4 = 0 by omega), ld, show (5 + 1 - 0) = 6 from rfl, Nat.reduceLeDiff, and_true, true_and,
    Nat.sub_zero, Nat.le_refl, Nat.zero_le, and_false, and_self]
  simp only [w 0 (by decide), w 1 (by decide), w 2 (by decide), w 3 (by decide), w 4 (by decide), w 5 (by decide), Nat.reduceAdd]
  have st : ∀ r q, (∀ i < 4 * 6, of32 q i = want fneg m0 ib (32 * k + 8 + i)) → e.stw { s with r := r } (ib + BitVec.ofNat 32 (32 * k + 8)) 6 (of32 q) =
      some { s with r := r, mem := fill m0 ib (32 * k + 8 + 4 * 6) (want fneg m0 ib) } :=
    fun r q hq => stw_io (s := { s with r := r }) h.io h.al hm rfl (by omega) (by omega) hq
  rw [st _ _ (six_want ?_ ?_ ?_ ?_ ?_ ?_)]
  rotate_left
  all_goals try rfl
  ar []
  refine ⟨_, rfl, ⟨?_, ?_, hi.fp, ?_⟩, ?_⟩
  · ar [hi.r7, Nat.reduceLeDiff, and_false]
  · ar [adv]
    rw [show 32 * k + 8 + 24 = 32 * (k + 1) by omega]
  · show fill _ _ _ _ = fill _ _ _ _
    rw [show 32 * k + 8 + 4 * 6 = 32 * (k + 1) by omega]
  · ar [hi.r7, adv, Nat.reduceLeDiff, and_false]
    rw [show 32 * k + 8 + 24 = 32 * (k + 1) by omega]

theorem oneI {v k : Nat} (h : Place e ib v) (hk : 32 * (k + 1) ≤ v) {s : St} (hi : Inv (fun x => ~~~x) m0 ib lim f0 k s) :
    ∃ s', blk (sem e) b56 s = some s' ∧ Inv (fun x => ~~~x) m0 ib lim f0 (k + 1) s' ∧ s'.fl = subFlags lim (ib + BitVec.ofNat 32 (32 * (k + 1))) := by
  have hm := hi.mem
  have hv := h.small
  rw [fill_keep (by omega)] at hm
  have ld := h.io.load hm (a := ib + BitVec.ofNat 32 (32 * k + 8)) rfl (len := 24) (by omega) (fun i hi => by simp only [id]; omega)
  have w : ∀ l, 4 * l + 3 < 24 → d32 (inp m0 ib (32 * k + 8) 24) l = wordAt m0 ib (8 * k + (2 + l)) := by
    intro l hl
    rw [show 32 * k + 8 = 4 * (8 * k + 2) by omega, inp_d32 hl, Nat.add_assoc]
  ar [hi.r7, hi.r8, adv, Env.ldw, aligned h.al (show (32 * k + 8) % 4 = 0 by omega), ld, show (5 + 1 - 0) = 6 from rfl, Nat.reduceLeDiff, and_true, true_and,
    Nat.sub_zero, Nat.le_refl, Nat.zero_le, and_false, and_self]
  simp only [w 0 (by decide), w 1 (by decide), w 2 (by decide), w 3 (by decide), w 4 (by decide), w 5 (by decide), Nat.reduceAdd]
  have st : ∀ r q, (∀ i < 4 * 6, of32 q i = want (fun x => ~~~x) m0 ib (32 * k + 8 + i)) → e.stw { s with r := r } (ib + BitVec.ofNat 32 (32 * k + 8)) 6 (of32 q) =
      some { s with r := r, mem := fill m0 ib (32 * k + 8 + 4 * 6) (want (fun x => ~~~x) m0 ib) } :=
    fun r q hq => stw_io (s := { s with r := r }) h.io h.al hm rfl (by omega) (by omega) hq
  rw [st _ _ (six_want ?_ ?_ ?_ ?_ ?_ ?_)]
  rotate_left
  all_goals try rfl
  ar []
  refine ⟨_, rfl, ⟨?_, ?_, hi.fp, ?_⟩, ?_⟩
  · ar [hi.r7, Nat.reduceLeDiff, and_false]
  · ar [adv]
    rw [show 32 * k + 8 + 24 = 32 * (k + 1) by omega]
  · show fill _ _ _ _ = fill _ _ _ _
    rw [show 32 * k + 8 + 4 * 6 = 32 * (k + 1) by omega]
  · ar [hi.r7, adv, Nat.reduceLeDiff, and_false]
    rw [show 32 * k + 8 + 24 = 32 * (k + 1) by omega]

/-! ### The loop -/

/-- The groups that are turned when the end is `L` bytes after `p`: the addresses are compared as signed numbers. -/
def turns (p L : Nat) : Nat := if L = 0 then 0 else if p + 32 < 2 ^ 31 ∧ 2 ^ 31 ≤ p + L then 1 else (L + 31) / 32

theorem turns_cond {p L x : Nat} (hL : L ≠ 0) (hp : p + 32 * turns p L < 2 ^ 32) (hq : p + L < 2 ^ 32)
    (hs : L % 32 = 0 ∨ p + 32 * ((L + 31) / 32) < 2 ^ 31 ∨ 2 ^ 31 ≤ p + L) (hx : x < turns p L) :
    (BitVec.ofNat 32 (p + 32 * (x + 1))).slt (BitVec.ofNat 32 (p + L)) = decide (x + 1 < turns p L) := by
  rw [slt_addr _ _ (by omega) hq]
  congr 1
  apply propext
  unfold turns at *
  rw [if_neg hL] at *
  split at hx
  · rw [if_pos ‹_›]
    omega
  · rw [if_neg ‹_›] at hp ⊢
    omega

theorem gloop {a b : Nat} (P : Nat → St → Prop) (n : Nat)
    (body : ∀ x s, x < n → P x s → ∃ s', P (x + 1) s' ∧ Reach (sem e) prog a s (if decide (x + 1 < n) then a else b) s') :
    ∀ (d x : Nat) (s : St), x + d + 1 = n → P x s → ∃ s', P n s' ∧ Reach (sem e) prog a s b s' := by
  intro d
  induction d with
  | zero =>
    intro x s hx hp
    obtain ⟨s', h1, h2⟩ := body x s (by omega) hp
    rw [decide_eq_false (by omega)] at h2
    obtain rfl : x + 1 = n := by omega
    exact ⟨s', h1, by simpa using h2⟩
  | succ d ih =>
    intro x s hx hp
    obtain ⟨s', h1, h2⟩ := body x s (by omega) hp
    rw [decide_eq_true (by omega), if_pos rfl] at h2
    obtain ⟨s'', h3, h4⟩ := ih (x + 1) s' (by omega) h1
    exact ⟨s'', h3, h2.trans h4⟩

/-! ### The routines -/

/-- The frame of a call: the slice with `len` elements at `ib`. -/
structure Call (s : St) (ib : BitVec 32) (len : Nat) : Prop where
  hl : len < 2 ^ 31
  a1 : s.fp 4 = ib
  a2 : s.fp 8 = BitVec.ofNat 32 len

/-- The frame afterwards: the slice is returned. -/
def ret (f : Nat → BitVec 32) : Nat → BitVec 32 := Function.update (Function.update (Function.update f 16 (f 4)) 20 (f 8)) 24 (f 12)

theorem finF (s : St) : ∃ s', Returns (sem e) prog 37 s s' ∧ s'.fp = ret s.fp ∧ s'.mem = s.mem := by
  obtain ⟨s', g, h⟩ : ∃ s', blk (sem e) b37 s = some s' ∧ s'.fp = ret s.fp ∧ s'.mem = s.mem := by
    ar []
    exact ⟨_, rfl, rfl, rfl⟩
  exact ⟨s', (reach_blk b37 h37 g).returns (returns_ret (by decide +kernel)), h⟩

theorem finI (s : St) : ∃ s', Returns (sem e) prog 80 s s' ∧ s'.fp = ret s.fp ∧ s'.mem = s.mem := by
  obtain ⟨s', g, h⟩ : ∃ s', blk (sem e) b80 s = some s' ∧ s'.fp = ret s.fp ∧ s'.mem = s.mem := by
    ar []
    exact ⟨_, rfl, rfl, rfl⟩
  exact ⟨s', (reach_blk b80 h80 g).returns (returns_ret (by decide +kernel)), h⟩

theorem routineF {s : St} {len : Nat} (ha : Call s ib len) (h : Place e ib (32 * turns ib.toNat (8 * (len - len % 4))))
    (hp : ib.toNat + 32 * turns ib.toNat (8 * (len - len % 4)) < 2 ^ 32) (hq : ib.toNat + 8 * (len - len % 4) < 2 ^ 32) :
    ∃ s', Returns (sem e) prog 3 s s' ∧ s'.fp = ret s.fp ∧
      s'.mem = fill s.mem ib (32 * turns ib.toNat (8 * (len - len % 4))) (want fneg s.mem ib) := by
  have hl := ha.hl
  obtain ⟨s1, g1, q1, q2, q3, q4, q5⟩ : ∃ s', blk (sem e) b3 s = some s' ∧ s'.r 7 = BitVec.ofNat 32 (len - len % 4) ∧ s'.r 8 = ib ∧ s'.fp = s.fp ∧
      s'.mem = s.mem ∧ s'.fl.z = decide (len - len % 4 = 0) := by
    ar [ha.a1, ha.a2, andN4]
    refine ⟨_, rfl, ?_, ?_, rfl, rfl, ?_⟩ <;> ar [beq_zero (show len - len % 4 < 2 ^ 32 by omega)]
  have hb := reach_branch (m := sem e) (p := prog) (s := s1) (pc := 9) (t := 37) .EQ .r90_end (by decide +kernel) (by decide +kernel)
    (b := decide (len - len % 4 = 0)) q5
  by_cases c : len - len % 4 = 0
  · rw [decide_eq_true c, if_pos rfl] at hb
    obtain ⟨s', f1, f2, f3⟩ := finF (e := e) s1
    refine ⟨s', ((reach_blk b3 h3 g1).trans hb).returns f1, by rw [f2, q3], ?_⟩
    rw [f3, q4, c, Nat.mul_zero, turns, if_pos rfl, Nat.mul_zero, fill_zero]
  · rw [decide_eq_false c, if_neg (by decide)] at hb
    have hL : 8 * (len - len % 4) ≠ 0 := by omega
    have ht : 0 < turns ib.toNat (8 * (len - len % 4)) := by
      unfold turns
      rw [if_neg hL]
      split <;> omega
    have r10 : Reach (sem e) prog 10 s1 11 s1 := reach_blk (p := prog) (m := sem e) (pc := 10) [.nop] (by decide +kernel) rfl
    obtain ⟨s2, g2, i2⟩ : ∃ s', blk (sem e) b11 s1 = some s' ∧
        Inv fneg s.mem ib (BitVec.ofNat 32 (ib.toNat + 8 * (len - len % 4))) s.fp 0 s' := by
      ar [q1, q2, shl32]
      refine ⟨_, rfl, ?_, ?_, q3, ?_⟩
      · ar []
        rw [BitVec.ofNat_add, BitVec.ofNat_toNat, BitVec.setWidth_eq]
        rfl
      · ar [q2, Nat.mul_zero]
      · rw [Nat.mul_zero, fill_zero]; exact q4
    obtain ⟨s3, i3, r3⟩ := gloop (e := e) (a := 13) (b := 36) _ (turns ib.toNat (8 * (len - len % 4))) (fun x t hx hp' => by
        obtain ⟨t', g, i, f⟩ := oneF h (by omega) hp'
        refine ⟨t', i, (reach_blk b13 h13 g).trans ?_⟩
        exact reach_branch (m := sem e) (p := prog) (s := t') (pc := 35) (t := 13) .GT .r90_loop (by decide +kernel) (by decide +kernel)
          (by
            show t'.fl.taken .GT = _
            rw [f, taken_sgt, ← turns_cond hL hp hq (Or.inl (by omega)) hx, BitVec.ofNat_add (ib.toNat) (32 * (x + 1)), BitVec.ofNat_toNat, BitVec.setWidth_eq]))
      (turns ib.toNat (8 * (len - len % 4)) - 1) 0 s2 (by omega) i2
    have r36 : Reach (sem e) prog 36 s3 37 s3 := reach_blk (p := prog) (m := sem e) (pc := 36) [.nop] (by decide +kernel) rfl
    obtain ⟨s', f1, f2, f3⟩ := finF (e := e) s3
    exact ⟨s', (((reach_blk b3 h3 g1).trans hb).trans (r10.trans ((reach_blk b11 h11 g2).trans (r3.trans r36)))).returns f1, by rw [f2, i3.fp],
      by rw [f3, i3.mem]⟩

theorem routineI {s : St} {len : Nat} (ha : Call s ib len) (h : Place e ib (32 * turns ib.toNat (4 * (len - len % 4))))
    (hp : ib.toNat + 32 * turns ib.toNat (4 * (len - len % 4)) < 2 ^ 32) (hq : ib.toNat + 4 * (len - len % 4) < 2 ^ 32)
    (hs : 4 * (len - len % 4) % 32 = 0 ∨ ib.toNat + 32 * ((4 * (len - len % 4) + 31) / 32) < 2 ^ 31 ∨ 2 ^ 31 ≤ ib.toNat + 4 * (len - len % 4)) :
    ∃ s', Returns (sem e) prog 46 s s' ∧ s'.fp = ret s.fp ∧
      s'.mem = fill s.mem ib (32 * turns ib.toNat (4 * (len - len % 4))) (want (fun x => ~~~x) s.mem ib) := by
  have hl := ha.hl
  obtain ⟨s1, g1, q1, q2, q3, q4, q5⟩ : ∃ s', blk (sem e) b46 s = some s' ∧ s'.r 7 = BitVec.ofNat 32 (len - len % 4) ∧ s'.r 8 = ib ∧ s'.fp = s.fp ∧
      s'.mem = s.mem ∧ s'.fl.z = decide (len - len % 4 = 0) := by
    ar [ha.a1, ha.a2, andN4]
    refine ⟨_, rfl, ?_, ?_, rfl, rfl, ?_⟩ <;> ar [beq_zero (show len - len % 4 < 2 ^ 32 by omega)]
  have hb := reach_branch (m := sem e) (p := prog) (s := s1) (pc := 52) (t := 80) .EQ .i32r90_end (by decide +kernel) (by decide +kernel)
    (b := decide (len - len % 4 = 0)) q5
  by_cases c : len - len % 4 = 0
  · rw [decide_eq_true c, if_pos rfl] at hb
    obtain ⟨s', f1, f2, f3⟩ := finI (e := e) s1
    refine ⟨s', ((reach_blk b46 h46 g1).trans hb).returns f1, by rw [f2, q3], ?_⟩
    rw [f3, q4, c, Nat.mul_zero, turns, if_pos rfl, Nat.mul_zero, fill_zero]
  · rw [decide_eq_false c, if_neg (by decide)] at hb
    have hL : 4 * (len - len % 4) ≠ 0 := by omega
    have ht : 0 < turns ib.toNat (4 * (len - len % 4)) := by
      unfold turns
      rw [if_neg hL]
      split <;> omega
    have r10 : Reach (sem e) prog 53 s1 54 s1 := reach_blk (p := prog) (m := sem e) (pc := 53) [.nop] (by decide +kernel) rfl
    obtain ⟨s2, g2, i2⟩ : ∃ s', blk (sem e) b54 s1 = some s' ∧
        Inv (fun x => ~~~x) s.mem ib (BitVec.ofNat 32 (ib.toNat + 4 * (len - len % 4))) s.fp 0 s' := by
      ar [q1, q2, shl32]
      refine ⟨_, rfl, ?_, ?_, q3, ?_⟩
      · ar []
        rw [BitVec.ofNat_add, BitVec.ofNat_toNat, BitVec.setWidth_eq]
        rfl
      · ar [q2, Nat.mul_zero]
      · rw [Nat.mul_zero, fill_zero]; exact q4
    obtain ⟨s3, i3, r3⟩ := gloop (e := e) (a := 56) (b := 79) _ (turns ib.toNat (4 * (len - len % 4))) (fun x t hx hp' => by
        obtain ⟨t', g, i, f⟩ := oneI h (by omega) hp'
        refine ⟨t', i, (reach_blk b56 h56 g).trans ?_⟩
        exact reach_branch (m := sem e) (p := prog) (s := t') (pc := 78) (t := 56) .GT .i32r90_loop (by decide +kernel) (by decide +kernel)
          (by
            show t'.fl.taken .GT = _
            rw [f, taken_sgt, ← turns_cond hL hp hq hs hx, BitVec.ofNat_add (ib.toNat) (32 * (x + 1)), BitVec.ofNat_toNat, BitVec.setWidth_eq]))
      (turns ib.toNat (4 * (len - len % 4)) - 1) 0 s2 (by omega) i2
    have r36 : Reach (sem e) prog 79 s3 80 s3 := reach_blk (p := prog) (m := sem e) (pc := 79) [.nop] (by decide +kernel) rfl
    obtain ⟨s', f1, f2, f3⟩ := finI (e := e) s3
    exact ⟨s', (((reach_blk b46 h46 g1).trans hb).trans (r10.trans ((reach_blk b54 h54 g2).trans (r3.trans r36)))).returns f1, by rw [f2, i3.fp],
      by rw [f3, i3.mem]⟩

end Verif.A32.Util
