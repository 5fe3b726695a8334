import Verif.A64.A64Lemmas
import Verif.A64.ConvModel
import Verif.X86.AvoLemmas

/-!
# The run of `Ui8tof32` on arm64, instruction by instruction
-/

namespace Verif.A64.Conv
open Verif.A64 Verif.Mach
open Verif.X86 (Vec byte d32 w16 of32 of16 bytes32 d32_of32)

/-! ### Basic blocks -/

/-- dsp/conversion_arm64.s:9-15. -/
abbrev b9 : List (Line Lbl Ins Cond) :=
  [.label .Ui8tof32,
   .ins (.op .MOVD [.fp 0, .r 0]),
   .ins (.op .MOVD [.fp 8, .r 1]),
   .ins (.op .MOVD [.fp 24, .r 2]),
   .ins (.op .MOVD [.fp 32, .r 3]), .nop,
   .ins (.op .CMP [.r 3, .r 1])]

theorem h9 : (prog.drop 9).take b9.length = b9 := by decide +kernel

/-- dsp/conversion_arm64.s:17-17. -/
abbrev b17 : List (Line Lbl Ins Cond) :=
  [.ins (.op .MOVD [.r 3, .r 1])]

theorem h17 : (prog.drop 17).take b17.length = b17 := by decide +kernel

/-- dsp/conversion_arm64.s:18-25. -/
abbrev b18 : List (Line Lbl Ins Cond) :=
  [.label .ui8tof32_min_len, .nop, .nop, .nop,
   .ins (.op .MOVW [.i 128, .r 3]),
   .ins (.WORD 0x4e010c60), .nop,
   .ins (.op .CMP [.i 32, .r 1])]

theorem h18 : (prog.drop 18).take b18.length = b18 := by decide +kernel

/-- dsp/conversion_arm64.s:28-47. -/
abbrev b28 : List (Line Lbl Ins Cond) :=
  [.label .ui8tof32_simd_loop,
   .ins (.WORD 0xad400801),
   .ins (.op .ADD [.i 32, .r 0]),
   .ins (.WORD 0x6e208421),
   .ins (.WORD 0x6e208442),
   .ins (.WORD 0xf9804001),
   .ins (.WORD 0x0f08a42a),
   .ins (.WORD 0x4f08a42b),
   .ins (.WORD 0x0f08a44c),
   .ins (.WORD 0x4f08a44d),
   .ins (.WORD 0x0f10a554),
   .ins (.WORD 0x4f10a555),
   .ins (.WORD 0x0f10a576),
   .ins (.WORD 0x4f10a577),
   .ins (.WORD 0x0f10a598),
   .ins (.WORD 0x4f10a599),
   .ins (.WORD 0x0f10a5ba),
   .ins (.WORD 0x4f10a5bb), .nop, .nop]

theorem h28 : (prog.drop 28).take b28.length = b28 := by decide +kernel

/-- dsp/conversion_arm64.s:48-53. -/
abbrev b48 : List (Line Lbl Ins Cond) :=
  [.ins (.WORD 0x4e21da89),
   .ins (.WORD 0x4e21daaa),
   .ins (.WORD 0x4e21dac3),
   .ins (.WORD 0x4e21dae4), .nop,
   .ins (.WORD 0xad002849)]

theorem h48 : (prog.drop 48).take b48.length = b48 := by decide +kernel

/-- dsp/conversion_arm64.s:54-56. -/
abbrev b54 : List (Line Lbl Ins Cond) :=
  [.ins (.WORD 0x4e21db05),
   .ins (.WORD 0x4e21db26),
   .ins (.WORD 0xad011043)]

theorem h54 : (prog.drop 54).take b54.length = b54 := by decide +kernel

/-- dsp/conversion_arm64.s:57-59. -/
abbrev b57 : List (Line Lbl Ins Cond) :=
  [.ins (.WORD 0x4e21db47),
   .ins (.WORD 0x4e21db68),
   .ins (.WORD 0xad021845)]

theorem h57 : (prog.drop 57).take b57.length = b57 := by decide +kernel

/-- dsp/conversion_arm64.s:60-64. -/
abbrev b60 : List (Line Lbl Ins Cond) :=
  [.nop,
   .ins (.op .ADD [.i 128, .r 2]),
   .ins (.op .SUB [.i 32, .r 1]),
   .ins (.WORD 0xad3f2047),
   .ins (.op .CMP [.i 32, .r 1])]

theorem h60 : (prog.drop 60).take b60.length = b60 := by decide +kernel

/-- dsp/conversion_arm64.s:67-68. -/
abbrev b67 : List (Line Lbl Ins Cond) :=
  [.label .ui8tof32_scalar,
   .ins (.op .CMP [.zr, .r 1])]

theorem h67 : (prog.drop 67).take b67.length = b67 := by decide +kernel

/-- dsp/conversion_arm64.s:71-78. -/
abbrev b71 : List (Line Lbl Ins Cond) :=
  [.label .ui8tof32_scalar_loop,
   .ins (.op .MOVBU [.m 0 0, .r 5]),
   .ins (.op .SUB [.i 128, .r 5, .r 5]),
   .ins (.op .SCVTFS [.r 5, .f 0]),
   .ins (.op .FMOVS [.f 0, .m 2 0]),
   .ins (.op .ADD [.i 1, .r 0]),
   .ins (.op .ADD [.i 4, .r 2]),
   .ins (.op .SUBS [.i 1, .r 1])]

theorem h71 : (prog.drop 71).take b71.length = b71 := by decide +kernel

/-! ### Invariant -/

variable {e : Env} {m0 : BitVec 64 → BitVec 8} {ib ob : BitVec 64} {n : Nat} {f0 : Nat → BitVec 64}

/-- The converted byte number `i`. -/
def elem (e : Env) (m0 : BitVec 64 → BitVec 8) (ib : BitVec 64) (i : Nat) : BitVec 32 := e.o.cvt (((m0 (ib + BitVec.ofNat 64 i)).toNat : Int) - 128)

/-- The output bytes. -/
def want (e : Env) (m0 : BitVec 64 → BitVec 8) (ib : BitVec 64) (j : Nat) : BitVec 8 := byte (elem e m0 ib (j / 4)) (j % 4)

/-- Input position `a`, output position `b` (in bytes), `c` elements left, `t` bytes written. -/
structure Inv (e : Env) (m0 : BitVec 64 → BitVec 8) (ib ob : BitVec 64) (f0 : Nat → BitVec 64) (a b c t : Nat) (s : St) : Prop where
  x0 : s.x 0 = ib + BitVec.ofNat 64 a
  x2 : s.x 2 = ob + BitVec.ofNat 64 b
  x1 : s.x 1 = BitVec.ofNat 64 c
  fp : s.fp = f0
  mem : s.mem = fill m0 ob t (want e m0 ib)

/-! ### One element -/

theorem sub128 (b : BitVec 8) : (b.setWidth 64 - BitVec.ofNat 64 128).toInt = (b.toNat : Int) - 128 := X86.Avo.sub128 b

theorem one {v : Nat} (h : Io e.rd e.wr ib ob n v (fun _ => v)) (hv : v = 4 * n) {k : Nat} (hk : k < n) {s : St}
    (hi : Inv e m0 ib ob f0 k (4 * k) (n - k) (4 * k) s) :
    ∃ s', blk (sem e) b71 s = some s' ∧ Inv e m0 ib ob f0 (k + 1) (4 * (k + 1)) (n - (k + 1)) (4 * (k + 1)) s' ∧
      s'.fl = subFlags (BitVec.ofNat 64 (n - k)) (BitVec.ofNat 64 1) := by
  have hr := h.r_le
  as [hi.x0, hi.x1, hi.x2, h.load hi.mem rfl (show k + 1 ≤ n by omega) (fun _ _ => by omega)]
  rw [h.store hi.mem (len := 4) rfl (by omega) ?_]
  rotate_left
  · intro i hi'
    simp only [inp, bytes32, hi', if_true, sub128, want, elem, Nat.zero_lt_one, Nat.add_zero]
    rw [show (4 * k + i) / 4 = k by omega, show (4 * k + i) % 4 = i by omega]
  as [hi.x0, hi.x1, hi.x2]
  refine ⟨_, rfl, ⟨?_, ?_, ?_, hi.fp, rfl⟩, rfl⟩
  · as []; exact adv _ _ _
  · as []; exact adv _ _ _
  · as []
    rw [X86.sub_ofNat (by omega) (by omega), Nat.sub_sub]

/-! ### 32 elements -/

/-- Lanes of the sign-extended differences. -/
def Lanes (m0 : BitVec 64 → BitVec 8) (ib : BitVec 64) (k : Nat) (s : St) : Prop :=
  ∀ q < 8, ∀ l < 4, (d32 (s.v (20 + q)) l).toInt = ((m0 (ib + BitVec.ofNat 64 (k + (4 * q + l)))).toNat : Int) - 128

theorem blk28 {v : Nat} (h : Io e.rd e.wr ib ob n v (fun _ => v)) (hv : v = 4 * n) {k : Nat} (hk : k + 32 ≤ n) {s : St}
    (hi : Inv e m0 ib ob f0 k (4 * k) (n - k) (4 * k) s) (h0 : s.v 0 = fun _ => 0x80#8) :
    ∃ s', blk (sem e) b28 s = some s' ∧ Inv e m0 ib ob f0 (k + 32) (4 * k) (n - k) (4 * k) s' ∧ (s'.v 0 = fun _ => 0x80#8) ∧ Lanes m0 ib k s' := by
  as [wad400801, w6e208421, w6e208442, wf9804001, w0f08a42a, w4f08a42b, w0f08a44c, w4f08a44d, w0f10a554, w4f10a555, w0f10a576, w4f10a577,
    w0f10a598, w4f10a599, w0f10a5ba, w4f10a5bb, hi.x0, adv, h.load (k := k) (len := 16) hi.mem rfl (by omega) (fun _ _ => by omega),
    h.load (k := k + 16) (len := 16) hi.mem rfl (by omega) (fun _ _ => by omega), h0]
  refine ⟨_, rfl, ⟨rfl, hi.x2, hi.x1, hi.fp, hi.mem⟩, ?_, ?_⟩
  · as [h0]
  · intro q hq l hl
    obtain rfl | rfl | rfl | rfl | rfl | rfl | rfl | rfl : q = 0 ∨ q = 1 ∨ q = 2 ∨ q = 3 ∨ q = 4 ∨ q = 5 ∨ q = 6 ∨ q = 7 := by omega
    all_goals
      simp only [Function.update_apply, Nat.reduceAdd, Nat.reduceEqDiff, ↓reduceIte, d32_of32, w16_of16, toInt_sx, X86.Avo.sub80, inp]
      rw [if_pos (by omega)] <;> (congr 6; try omega)

/-- The bytes of converted lanes. -/
theorem lanes_want {k : Nat} {s : St} (hl : Lanes m0 ib k s) {q : Nat} (hq : q < 8) {i : Nat} (hi : i < 16) :
    of32 (fun l => e.o.cvt (d32 (s.v (20 + q)) l).toInt) i = want e m0 ib (4 * k + 16 * q + i) := by
  unfold of32 want elem
  simp only
  rw [hl q hq (i / 4) (by omega), show (4 * k + 16 * q + i) / 4 = k + (4 * q + i / 4) by omega, show (4 * k + 16 * q + i) % 4 = i % 4 by omega]

/-- Register `r` holds output bytes from `t` on. -/
def Holds (e : Env) (m0 : BitVec 64 → BitVec 8) (ib : BitVec 64) (r t : Nat) (s : St) : Prop := ∀ i < 16, s.v r i = want e m0 ib (t + i)

theorem blk48 {v : Nat} (h : Io e.rd e.wr ib ob n v (fun _ => v)) (hv : v = 4 * n) {k : Nat} (hk : k + 32 ≤ n) {s : St}
    (hi : Inv e m0 ib ob f0 (k + 32) (4 * k) (n - k) (4 * k) s) (h0 : s.v 0 = fun _ => 0x80#8) (hl : Lanes m0 ib k s) :
    ∃ s', blk (sem e) b48 s = some s' ∧ Inv e m0 ib ob f0 (k + 32) (4 * k) (n - k) (4 * k + 32) s' ∧
      (s'.v 0 = fun _ => 0x80#8) ∧ Lanes m0 ib k s' ∧ Holds e m0 ib 3 (4 * k + 32) s' ∧ Holds e m0 ib 4 (4 * k + 48) s' := by
  have hr := h.r_le
  as [w4e21da89, w4e21daaa, w4e21dac3, w4e21dae4, wad002849, hi.x2, adv]
  rw [h.store hi.mem (len := 16) rfl (by omega) (fun i hi' => (lanes_want hl (q := 0) (by omega) hi').trans (by rw [Nat.mul_zero, Nat.add_zero]))]
  as []
  rw [h.store rfl (len := 16) rfl (by omega) (fun i hi' => (lanes_want hl (q := 1) (by omega) hi'))]
  as []
  refine ⟨_, rfl, ⟨hi.x0, hi.x2, hi.x1, hi.fp, rfl⟩, ?_, ?_, ?_, ?_⟩
  · as [h0]
  · intro q hq l hl'
    rw [← hl q hq l hl']
    simp only [Function.update_apply]
    rw [if_neg (by omega), if_neg (by omega), if_neg (by omega), if_neg (by omega)]
  · exact fun i hi' => lanes_want hl (q := 2) (by omega) hi'
  · exact fun i hi' => lanes_want hl (q := 3) (by omega) hi'

theorem blk54 {v : Nat} (h : Io e.rd e.wr ib ob n v (fun _ => v)) (hv : v = 4 * n) {k : Nat} (hk : k + 32 ≤ n) {s : St}
    (hi : Inv e m0 ib ob f0 (k + 32) (4 * k) (n - k) (4 * k + 32) s) (h0 : s.v 0 = fun _ => 0x80#8) (hl : Lanes m0 ib k s)
    (h3 : Holds e m0 ib 3 (4 * k + 32) s) (h4 : Holds e m0 ib 4 (4 * k + 48) s) :
    ∃ s', blk (sem e) b54 s = some s' ∧ Inv e m0 ib ob f0 (k + 32) (4 * k) (n - k) (4 * k + 64) s' ∧
      (s'.v 0 = fun _ => 0x80#8) ∧ Lanes m0 ib k s' ∧ Holds e m0 ib 5 (4 * k + 64) s' ∧ Holds e m0 ib 6 (4 * k + 80) s' := by
  have hr := h.r_le
  as [w4e21db05, w4e21db26, wad011043, hi.x2, adv]
  rw [h.store hi.mem (len := 16) rfl (by omega) h3]
  as []
  rw [h.store rfl (len := 16) rfl (by omega) h4]
  as []
  refine ⟨_, rfl, ⟨hi.x0, hi.x2, hi.x1, hi.fp, rfl⟩, ?_, ?_, ?_, ?_⟩
  · as [h0]
  · intro q hq l hl'
    rw [← hl q hq l hl']
    simp only [Function.update_apply]
    rw [if_neg (by omega), if_neg (by omega)]
  · exact fun i hi' => lanes_want hl (q := 4) (by omega) hi'
  · exact fun i hi' => lanes_want hl (q := 5) (by omega) hi'

theorem blk57 {v : Nat} (h : Io e.rd e.wr ib ob n v (fun _ => v)) (hv : v = 4 * n) {k : Nat} (hk : k + 32 ≤ n) {s : St}
    (hi : Inv e m0 ib ob f0 (k + 32) (4 * k) (n - k) (4 * k + 64) s) (h0 : s.v 0 = fun _ => 0x80#8) (hl : Lanes m0 ib k s)
    (h5 : Holds e m0 ib 5 (4 * k + 64) s) (h6 : Holds e m0 ib 6 (4 * k + 80) s) :
    ∃ s', blk (sem e) b57 s = some s' ∧ Inv e m0 ib ob f0 (k + 32) (4 * k) (n - k) (4 * k + 96) s' ∧
      (s'.v 0 = fun _ => 0x80#8) ∧ Holds e m0 ib 7 (4 * k + 96) s' ∧ Holds e m0 ib 8 (4 * k + 112) s' := by
  have hr := h.r_le
  as [w4e21db47, w4e21db68, wad021845, hi.x2, adv]
  rw [h.store hi.mem (len := 16) rfl (by omega) h5]
  as []
  rw [h.store rfl (len := 16) rfl (by omega) h6]
  as []
  refine ⟨_, rfl, ⟨hi.x0, hi.x2, hi.x1, hi.fp, rfl⟩, ?_, ?_, ?_⟩
  · as [h0]
  · exact fun i hi' => lanes_want hl (q := 6) (by omega) hi'
  · exact fun i hi' => lanes_want hl (q := 7) (by omega) hi'

theorem blk61 {v : Nat} (h : Io e.rd e.wr ib ob n v (fun _ => v)) (hv : v = 4 * n) {k : Nat} (hk : k + 32 ≤ n) {s : St}
    (hi : Inv e m0 ib ob f0 (k + 32) (4 * k) (n - k) (4 * k + 96) s) (h0 : s.v 0 = fun _ => 0x80#8)
    (h7 : Holds e m0 ib 7 (4 * k + 96) s) (h8 : Holds e m0 ib 8 (4 * k + 112) s) :
    ∃ s', blk (sem e) b60 s = some s' ∧ Inv e m0 ib ob f0 (k + 32) (4 * (k + 32)) (n - (k + 32)) (4 * (k + 32)) s' ∧
      (s'.v 0 = fun _ => 0x80#8) ∧ s'.fl = subFlags (BitVec.ofNat 64 (n - (k + 32))) (BitVec.ofNat 64 32) := by
  have hr := h.r_le
  as [wad3f2047, hi.x2, hi.x1, adv]
  rw [show 4 * k + 128 = 4 * k + 96 + 32 by omega, off126, adv]
  rw [h.store hi.mem (len := 16) rfl (by omega) h7]
  as []
  rw [h.store rfl (len := 16) rfl (by omega) h8]
  as []
  have e1 : BitVec.ofNat 64 (n - k) - 32#64 = BitVec.ofNat 64 (n - (k + 32)) := by rw [X86.sub_ofNat (by omega) (by omega), Nat.sub_sub]
  refine ⟨_, rfl, ⟨hi.x0, ?_, ?_, hi.fp, rfl⟩, h0, ?_⟩
  · as []
    rw [show 4 * k + 96 + 32 = 4 * (k + 32) by omega]
  · as [e1]
  · rw [e1]

/-! ### Loops -/

theorem block {v : Nat} (h : Io e.rd e.wr ib ob n v (fun _ => v)) (hv : v = 4 * n) (hn : n < 2 ^ 63) {k : Nat} (hk : k + 32 ≤ n) {s : St}
    (hi : Inv e m0 ib ob f0 k (4 * k) (n - k) (4 * k) s) (h0 : s.v 0 = fun _ => 0x80#8) :
    ∃ s', (Inv e m0 ib ob f0 (k + 32) (4 * (k + 32)) (n - (k + 32)) (4 * (k + 32)) s' ∧ (s'.v 0 = fun _ => 0x80#8)) ∧
      Reach (sem e) prog 28 s (if k + 2 * 32 ≤ n then 28 else 66) s' := by
  obtain ⟨s1, g1, i1, z1, l1⟩ := blk28 h hv hk hi h0
  obtain ⟨s2, g2, i2, z2, l2, p2, q2⟩ := blk48 h hv hk i1 z1 l1
  obtain ⟨s3, g3, i3, z3, l3, p3, q3⟩ := blk54 h hv hk i2 z2 l2 p2 q2
  obtain ⟨s4, g4, i4, z4, p4, q4⟩ := blk57 h hv hk i3 z3 l3 p3 q3
  obtain ⟨s5, g5, i5, z5, f5⟩ := blk61 h hv hk i4 z4 p4 q4
  refine ⟨s5, ⟨i5, z5⟩, (reach_blk b28 h28 g1).trans ((reach_blk b48 h48 g2).trans ((reach_blk b54 h54 g3).trans ((reach_blk b57 h57 g4).trans
    ((reach_blk b60 h60 g5).trans ?_))))⟩
  have hb := reach_branch (m := sem e) (p := prog) (s := s5) (pc := 65) (t := 28) .BGE .ui8tof32_simd_loop (by decide +kernel) (by decide +kernel)
    (b := decide (k + 2 * 32 ≤ n)) (by
      show s5.fl.taken .BGE = _
      rw [f5, taken_ge (by omega) (by omega)]
      congr 1
      exact propext (by omega))
  simp only [decide_eq_true_eq] at hb
  exact hb

theorem simd {v : Nat} (h : Io e.rd e.wr ib ob n v (fun _ => v)) (hv : v = 4 * n) (hn : n < 2 ^ 63) (hk : 32 ≤ n) {s : St}
    (hi : Inv e m0 ib ob f0 0 0 n 0 s) (h0 : s.v 0 = fun _ => 0x80#8) :
    ∃ k s', k ≤ n ∧ Inv e m0 ib ob f0 k (4 * k) (n - k) (4 * k) s' ∧ Reach (sem e) prog 28 s 66 s' := by
  obtain ⟨k, s', h1, h2, -, -, -, h6⟩ := dloop (m := sem e) (p := prog) (a := 28) (b := 66)
    (fun k s => Inv e m0 ib ob f0 k (4 * k) (n - k) (4 * k) s ∧ (s.v 0 = fun _ => 0x80#8)) n 32 (by omega)
    (fun k s hk hp => block h hv hn hk hp.1 hp.2) 0 s (by omega) ⟨hi, h0⟩
  exact ⟨k, s', h2, h1.1, h6⟩

theorem scalar {v : Nat} (h : Io e.rd e.wr ib ob n v (fun _ => v)) (hv : v = 4 * n) (hn : n < 2 ^ 63) {k : Nat} (hk : k < n) {s : St}
    (hi : Inv e m0 ib ob f0 k (4 * k) (n - k) (4 * k) s) :
    ∃ s', Inv e m0 ib ob f0 n (4 * n) 0 (4 * n) s' ∧ Reach (sem e) prog 71 s 80 s' := by
  obtain ⟨k', s', h1, h2, h3, -, -, h6⟩ := dloop (m := sem e) (p := prog) (a := 71) (b := 80)
    (fun k s => Inv e m0 ib ob f0 k (4 * k) (n - k) (4 * k) s) n 1 (by omega)
    (fun k s hk hp => by
      obtain ⟨s', g, i, f⟩ := one h hv (by omega) hp
      refine ⟨s', i, (reach_blk b71 h71 g).trans ?_⟩
      have hb := reach_branch (m := sem e) (p := prog) (s := s') (pc := 79) (t := 71) .BNE .ui8tof32_scalar_loop (by decide +kernel) (by decide +kernel)
        (b := decide (k + 2 * 1 ≤ n)) (by
          show s'.fl.taken .BNE = _
          rw [f, taken_ne (by omega) (by omega)]
          congr 1
          exact propext (by omega))
      simp only [decide_eq_true_eq] at hb
      exact hb) k s (by omega) hi
  obtain rfl : k' = n := by omega
  rw [Nat.sub_self] at h1
  exact ⟨s', h1, h6⟩

/-- From the label `ui8tof32_scalar` on. -/
theorem rest {v : Nat} (h : Io e.rd e.wr ib ob n v (fun _ => v)) (hv : v = 4 * n) (hn : n < 2 ^ 63) {k : Nat} (hk : k ≤ n) {s : St}
    (hi : Inv e m0 ib ob f0 k (4 * k) (n - k) (4 * k) s) :
    ∃ s', Inv e m0 ib ob f0 n (4 * n) 0 (4 * n) s' ∧ Returns (sem e) prog 67 s s' := by
  obtain ⟨s1, g1, i1, f1⟩ : ∃ s', blk (sem e) b67 s = some s' ∧ Inv e m0 ib ob f0 k (4 * k) (n - k) (4 * k) s' ∧
      s'.fl = subFlags (BitVec.ofNat 64 (n - k)) (BitVec.ofNat 64 0) := by
    as [hi.x1]
    exact ⟨_, rfl, ⟨hi.x0, hi.x2, hi.x1, hi.fp, hi.mem⟩, rfl⟩
  have hb := reach_branch (m := sem e) (p := prog) (s := s1) (pc := 69) (t := 80) .BEQ .ui8tof32_done (by decide +kernel) (by decide +kernel)
    (b := decide (k = n)) (by
      show s1.fl.taken .BEQ = _
      rw [f1, taken_eq (by omega) (by omega)]
      congr 1
      exact propext (by omega))
  have fin : ∀ s', Returns (sem e) prog 80 s' s' := fun s' => (reach_blk (p := prog) (m := sem e) (pc := 80) (s := s') (s' := s')
    [.label .ui8tof32_done] (by decide +kernel) rfl).returns (returns_ret (by decide +kernel))
  by_cases c : k = n
  · subst c
    rw [decide_eq_true rfl, if_pos rfl] at hb
    rw [Nat.sub_self] at i1
    exact ⟨s1, i1, ((reach_blk b67 h67 g1).trans hb).returns (fin s1)⟩
  · rw [decide_eq_false c, if_neg (by decide)] at hb
    obtain ⟨s', i', r'⟩ := scalar h hv hn (by omega) i1
    have r70 : Reach (sem e) prog 70 s1 71 s1 := reach_blk (p := prog) (m := sem e) (pc := 70) [.nop] (by decide +kernel) rfl
    exact ⟨s', i', (((reach_blk b67 h67 g1).trans hb).trans (r70.trans r')).returns (fin s')⟩

/-- The whole routine. -/
theorem routine {nin nout v : Nat} (hin : nin < 2 ^ 63) (hout : nout < 2 ^ 63) (hn : n = min nin nout) (hv : v = 4 * n)
    (h : Io e.rd e.wr ib ob n v (fun _ => v)) {s : St} (f1 : s.fp 0 = ib) (f2 : s.fp 8 = BitVec.ofNat 64 nin) (f3 : s.fp 24 = ob)
    (f4 : s.fp 32 = BitVec.ofNat 64 nout) :
    ∃ s', Inv e s.mem ib ob s.fp n (4 * n) 0 (4 * n) s' ∧ Returns (sem e) prog 9 s s' := by
  obtain ⟨s1, g1, e1⟩ : ∃ s', blk (sem e) b9 s = some s' ∧ (s'.x 0 = ib ∧ s'.x 1 = BitVec.ofNat 64 nin ∧ s'.x 2 = ob ∧ s'.x 3 = BitVec.ofNat 64 nout ∧
      s'.fp = s.fp ∧ s'.mem = s.mem ∧ s'.fl = subFlags (BitVec.ofNat 64 nin) (BitVec.ofNat 64 nout)) := by
    as [f1, f2, f3, f4]
    refine ⟨_, rfl, ?_, ?_, ?_, ?_, rfl, rfl, rfl⟩ <;> as []
  have hb := reach_branch (m := sem e) (p := prog) (s := s1) (pc := 16) (t := 18) .BLT .ui8tof32_min_len (by decide +kernel) (by decide +kernel)
    (b := decide (nin < nout)) (by
      show s1.fl.taken .BLT = _
      rw [e1.2.2.2.2.2.2, taken_lt hin hout])
  obtain ⟨s2, r2, e2⟩ : ∃ s', Reach (sem e) prog 9 s 18 s' ∧ (s'.x 0 = ib ∧ s'.x 1 = BitVec.ofNat 64 n ∧ s'.x 2 = ob ∧ s'.fp = s.fp ∧ s'.mem = s.mem) := by
    by_cases c : nin < nout
    · rw [decide_eq_true c, if_pos rfl] at hb
      exact ⟨s1, (reach_blk b9 h9 g1).trans hb, e1.1, by rw [e1.2.1, hn, Nat.min_eq_left c.le], e1.2.2.1, e1.2.2.2.2.1, e1.2.2.2.2.2.1⟩
    · rw [decide_eq_false c, if_neg (by decide)] at hb
      obtain ⟨s2, g2, e2⟩ : ∃ s', blk (sem e) b17 s1 = some s' ∧ (s'.x 0 = ib ∧ s'.x 1 = BitVec.ofNat 64 nout ∧ s'.x 2 = ob ∧ s'.fp = s.fp ∧ s'.mem = s.mem) := by
        as []
        refine ⟨_, rfl, ?_, ?_, ?_, e1.2.2.2.2.1, e1.2.2.2.2.2.1⟩ <;> as [e1.1, e1.2.1, e1.2.2.1, e1.2.2.2.1]
      exact ⟨s2, ((reach_blk b9 h9 g1).trans hb).trans (reach_blk b17 h17 g2), e2.1, by rw [e2.2.1, hn, Nat.min_eq_right (by omega)], e2.2.2⟩
  obtain ⟨s3, g3, i3, z3, f3⟩ : ∃ s', blk (sem e) b18 s2 = some s' ∧ Inv e s.mem ib ob s.fp 0 0 n 0 s' ∧ (s'.v 0 = fun _ => 0x80#8) ∧
      s'.fl = subFlags (BitVec.ofNat 64 n) (BitVec.ofNat 64 32) := by
    as [w4e010c60]
    refine ⟨_, rfl, ⟨?_, ?_, ?_, e2.2.2.2.1, ?_⟩, ?_, ?_⟩
    · as [e2.1]
    · as [e2.2.2.1]
    · as [e2.2.1]
    · rw [fill_zero]; exact e2.2.2.2.2
    · as []
      funext i
      decide +kernel
    · as [e2.2.1]
  have hb2 := reach_branch (m := sem e) (p := prog) (s := s3) (pc := 26) (t := 67) .BLT .ui8tof32_scalar (by decide +kernel) (by decide +kernel)
    (b := decide (n < 32)) (by
      show s3.fl.taken .BLT = _
      rw [f3, taken_lt (by omega) (by omega)])
  have r3 := r2.trans (reach_blk b18 h18 g3)
  by_cases c : n < 32
  · rw [decide_eq_true c, if_pos rfl] at hb2
    obtain ⟨s', i', r'⟩ := rest h hv (by omega) (Nat.zero_le n) (k := 0) (s := s3) (by simpa using i3)
    exact ⟨s', i', (r3.trans hb2).returns r'⟩
  · rw [decide_eq_false c, if_neg (by decide)] at hb2
    have r27 : Reach (sem e) prog 27 s3 28 s3 := reach_blk (p := prog) (m := sem e) (pc := 27) [.nop] (by decide +kernel) rfl
    obtain ⟨k, s4, hk, i4, r4⟩ := simd h hv (by omega) (by omega) i3 z3
    have r66 : Reach (sem e) prog 66 s4 67 s4 := reach_blk (p := prog) (m := sem e) (pc := 66) [.nop] (by decide +kernel) rfl
    obtain ⟨s', i', r'⟩ := rest h hv (by omega) hk i4
    exact ⟨s', i', (((r3.trans hb2).trans r27).trans (r4.trans r66)).returns r'⟩

end Verif.A64.Conv
