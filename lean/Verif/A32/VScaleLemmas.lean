import Verif.A32.A32Spec
import Verif.A32.MathModel

/-!
# The run of `VScaleF32` on 32-bit ARM, instruction by instruction
-/

namespace Verif.A32.Math
open Verif.A32 Verif.Mach
open Verif.X86 (Vec byte d32 of32 bytes32)

namespace VScale

/-! ### Basic blocks -/

/-- dsp/math32_arm.s:142-153. -/
abbrev b142 : List (Line Lbl Ins Cond) :=
  [.label .VScaleF32,
   .ins (.op .MOVW [.fp 0, .r 0]),
   .ins (.op .MOVW [.fp 4, .r 2]),
   .ins (.op .MOVW [.fp 12, .r 1]),
   .ins (.op .MOVW [.fp 16, .r 3]),
   .ins (.op .MOVF [.fp 24, .f 0]), .nop, .nop,
   .ins (.op .CMP [.r 2, .r 3]),
   .ins (.opc .LT .MOVW [.r 3, .r 2]), .nop,
   .ins (.op .TEQ [.i 0, .r 2])]

theorem h142 : (prog.drop 142).take b142.length = b142 := by decide +kernel

/-- dsp/math32_arm.s:156-157. -/
abbrev b156 : List (Line Lbl Ins Cond) :=
  [.ins (.op .MOVBU [.sb .HaveNEON, .r 3]),
   .ins (.op .CMP [.i 0, .r 3])]

theorem h156 : (prog.drop 156).take b156.length = b156 := by decide +kernel

/-- dsp/math32_arm.s:160-160. -/
abbrev b160 : List (Line Lbl Ins Cond) :=
  [.ins (.op .CMP [.i 16, .r 2])]

theorem h160 : (prog.drop 160).take b160.length = b160 := by decide +kernel

/-- dsp/math32_arm.s:163-163. -/
abbrev b163 : List (Line Lbl Ins Cond) :=
  [.ins (.op .PLD [.m 0 0])]

theorem h163 : (prog.drop 163).take b163.length = b163 := by decide +kernel

/-- dsp/math32_arm.s:164-170. -/
abbrev b164 : List (Line Lbl Ins Cond) :=
  [.label .vscalef32_neon_loop,
   .ins (.op .PLD [.m 0 64]),
   .ins (.WORD 0xecb02b10),
   .ins (.WORD 0xf3a22940),
   .ins (.WORD 0xf3a44940),
   .ins (.WORD 0xf3a66940),
   .ins (.WORD 0xf3a88940)]

theorem h164 : (prog.drop 164).take b164.length = b164 := by decide +kernel

/-- dsp/math32_arm.s:171-173. -/
abbrev b171 : List (Line Lbl Ins Cond) :=
  [.ins (.WORD 0xeca12b10),
   .ins (.op .SUB [.i 16, .r 2]),
   .ins (.op .CMP [.i 16, .r 2])]

theorem h171 : (prog.drop 171).take b171.length = b171 := by decide +kernel

/-- dsp/math32_arm.s:176-177. -/
abbrev b176 : List (Line Lbl Ins Cond) :=
  [.label .vscalef32_scalar,
   .ins (.op .TEQ [.i 0, .r 2])]

theorem h176 : (prog.drop 176).take b176.length = b176 := by decide +kernel

/-- dsp/math32_arm.s:180-187. -/
abbrev b180 : List (Line Lbl Ins Cond) :=
  [.label .vscalef32_scalar_loop,
   .ins (.op .MOVF [.m 0 0, .f 1]),
   .ins (.op .ADD [.i 4, .r 0]),
   .ins (.op .MULF [.f 0, .f 1, .f 1]),
   .ins (.op .MOVF [.f 1, .m 1 0]),
   .ins (.op .ADD [.i 4, .r 1]),
   .ins (.op .SUB [.i 1, .r 2]),
   .ins (.op .TEQ [.i 0, .r 2])]

theorem h180 : (prog.drop 180).take b180.length = b180 := by decide +kernel

/-! ### Invariant -/

variable {e : Env} {m0 : BitVec 32 → BitVec 8} {ib ob : BitVec 32} {sc : BitVec 32} {n B : Nat} {f0 : Nat → BitVec 32}

/-- The product of number `i`, the first `B` with NEON. -/
def prod (e : Env) (m0 : BitVec 32 → BitVec 8) (ib : BitVec 32) (sc : BitVec 32) (B i : Nat) : BitVec 32 :=
  if i < B then e.o.nmul (u32at m0 (ib + BitVec.ofNat 32 (4 * i))) sc else e.o.mul (u32at m0 (ib + BitVec.ofNat 32 (4 * i))) sc

/-- The output bytes. -/
def want (e : Env) (m0 : BitVec 32 → BitVec 8) (ib : BitVec 32) (sc : BitVec 32) (B j : Nat) : BitVec 8 := byte (prod e m0 ib sc B (j / 4)) (j % 4)

/-- `k` numbers done, `c` left. -/
structure Inv (e : Env) (m0 : BitVec 32 → BitVec 8) (ib ob : BitVec 32) (sc : BitVec 32) (f0 : Nat → BitVec 32) (B a b c t : Nat) (s : St) : Prop where
  r0 : s.r 0 = ib + BitVec.ofNat 32 (4 * a)
  r1 : s.r 1 = ob + BitVec.ofNat 32 (4 * b)
  r2 : s.r 2 = BitVec.ofNat 32 c
  v0 : s.v 0 = sc
  fp : s.fp = f0
  mem : s.mem = fill m0 ob (4 * t) (want e m0 ib sc B)

theorem d32_inp {k l len : Nat} (h : 4 * l + 4 ≤ len) : d32 (inp m0 ib (4 * k) len) l = u32at m0 (ib + BitVec.ofNat 32 (4 * (k + l))) := by
  rw [u32at_d32]
  unfold d32 inp
  simp only [show 4 * l < len by omega, show 4 * l + 1 < len by omega, show 4 * l + 2 < len by omega, show 4 * l + 3 < len by omega, if_true]
  rw [show 4 * k + (4 * l + 3) = 4 * (k + l) + 3 by omega, show 4 * k + (4 * l + 2) = 4 * (k + l) + 2 by omega,
    show 4 * k + (4 * l + 1) = 4 * (k + l) + 1 by omega, show 4 * k + 4 * l = 4 * (k + l) by omega]

/-! ### One number -/

theorem one (h : Io e.rd e.wr ib ob (4 * n) (4 * n) id) (hi4 : ib.toNat % 4 = 0) (ho4 : ob.toNat % 4 = 0) {k : Nat} (hk : k < n) (hB : B ≤ k) {s : St}
    (hi : Inv e m0 ib ob sc f0 B k k (n - k) k s) :
    ∃ s', blk (sem e) b180 s = some s' ∧ Inv e m0 ib ob sc f0 B (k + 1) (k + 1) (n - (k + 1)) (k + 1) s' ∧
      s'.fl.z = (BitVec.ofNat 32 (n - (k + 1)) == 0) := by
  have hr := h.r_le
  have hld := ldw_io h hi4 hi.mem (k := 4 * k) (n := 1) rfl (by omega) (by omega) (fun _ _ => by simp only [id]; omega)
  ar [hi.r0, hi.r1, hi.r2, hld, Env.fpu, vfp_low (show 2 < 8 by decide), Env.stw, aligned ho4 (show 4 * k % 4 = 0 by omega)]
  rw [h.store hi.mem (len := 4) rfl (by omega) ?_]
  rotate_left
  · intro i hi'
    have he : prod e m0 ib sc B k = e.o.mul (u32at m0 (ib + BitVec.ofNat 32 (4 * k))) sc := if_neg (by omega)
    simp only [bytes32, show i < 4 by omega, if_true, want, hi.v0, Nat.mul_one]
    rw [d32_inp (by omega), show (4 * k + i) / 4 = k by omega, show (4 * k + i) % 4 = i by omega, Nat.add_zero, he]
  ar [hi.r0, hi.r1, hi.r2, adv]
  refine ⟨_, rfl, ⟨?_, ?_, ?_, ?_, hi.fp, rfl⟩, ?_⟩
  · ar []; rfl
  · ar []; rfl
  · ar []
    rw [sub32 (by omega) (by omega), Nat.sub_sub]
  · ar [hi.v0]
  · ar []
    rw [sub32 (by omega) (by omega), Nat.sub_sub]

/-! ### 16 numbers -/

theorem blk164 (h : Io e.rd e.wr ib ob (4 * n) (4 * n) id) (hi4 : ib.toNat % 4 = 0) {k : Nat} (hk : k + 16 ≤ n) (hB : k + 16 ≤ B) {s : St}
    (hi : Inv e m0 ib ob sc f0 B k k (n - k) k s) :
    ∃ s', blk (sem e) b164 s = some s' ∧ Inv e m0 ib ob sc f0 B (k + 16) k (n - k) k s' ∧
      ∀ i < 16, s'.v (4 + i) = prod e m0 ib sc B (k + i) := by
  have hld := ldw_io h hi4 hi.mem (k := 4 * k) (n := 16) rfl (by omega) (by omega) (fun _ _ => by simp only [id]; omega)
  ar [wecb02b10, wf3a22940, wf3a44940, wf3a66940, wf3a88940, hi.r0, hld, or_self, setVs_r, adv]
  refine ⟨_, rfl, ⟨?_, ?_, ?_, ?_, hi.fp, hi.mem⟩, ?_⟩
  · ar [setVs_r]; rfl
  · ar [setVs_r, hi.r1]
  · ar [setVs_r, hi.r2]
  · simp (disch := omega) only [setVs_out, hi.v0]
  · intro i hi'
    rw [prod, if_pos (by omega), ← d32_inp (len := 64) (by omega), ← hi.v0]
    obtain c | c | c | c : i < 4 ∨ (4 ≤ i ∧ i < 8) ∨ (8 ≤ i ∧ i < 12) ∨ 12 ≤ i := by omega
    all_goals
      simp (disch := omega) only [setVs_out, setVs_in]
      congr 2
      omega

theorem blk171 (h : Io e.rd e.wr ib ob (4 * n) (4 * n) id) (ho4 : ob.toNat % 4 = 0) {k : Nat} (hk : k + 16 ≤ n) {s : St}
    (hi : Inv e m0 ib ob sc f0 B (k + 16) k (n - k) k s) (hd : ∀ i < 16, s.v (4 + i) = prod e m0 ib sc B (k + i)) :
    ∃ s', blk (sem e) b171 s = some s' ∧ Inv e m0 ib ob sc f0 B (k + 16) (k + 16) (n - (k + 16)) (k + 16) s' ∧
      s'.fl = subFlags (BitVec.ofNat 32 (n - (k + 16))) (BitVec.ofNat 32 16) := by
  have hr := h.r_le
  ar [weca12b10, hi.r1, hi.r2]
  rw [stw_io h ho4 (t := 4 * k) (m0 := m0) (g := want e m0 ib sc B) hi.mem rfl (by omega) (by omega) ?_]
  rotate_left
  · intro i hi'
    unfold St.vb of32 want
    simp only
    rw [hd _ (by omega), show (4 * k + i) / 4 = k + i / 4 by omega, show (4 * k + i) % 4 = i % 4 by omega]
  ar [hi.r0, hi.r1, hi.r2, adv]
  refine ⟨_, rfl, ⟨?_, ?_, ?_, ?_, hi.fp, rfl⟩, ?_⟩
  · ar [hi.r0]
  · ar []; rfl
  · ar []
    rw [sub32 (by omega) (by omega), Nat.sub_sub]
  · ar [hi.v0]
  · rw [sub32 (by omega) (by omega), Nat.sub_sub]

/-! ### Loops -/

theorem scalar (h : Io e.rd e.wr ib ob (4 * n) (4 * n) id) (hn : n < 2 ^ 31) (hi4 : ib.toNat % 4 = 0) (ho4 : ob.toNat % 4 = 0) {k : Nat} (hk : k < n) (hB : B ≤ k)
    {s : St} (hi : Inv e m0 ib ob sc f0 B k k (n - k) k s) :
    ∃ s', Inv e m0 ib ob sc f0 B n n 0 n s' ∧ Reach (sem e) prog 180 s 190 s' := by
  have main := dloop (m := sem e) (p := prog) (a := 180) (b := 190) (fun x s => B ≤ x ∧ Inv e m0 ib ob sc f0 B x x (n - x) x s) n 1 (by omega) ?_ k s (by omega) ⟨hB, hi⟩
  · obtain ⟨k', s', ⟨_, g1⟩, g2, g3, _, _, g6⟩ := main
    obtain rfl : k' = n := by omega
    rw [Nat.sub_self] at g1
    exact ⟨s', g1, g6⟩
  · rintro x s hx ⟨hBx, hp⟩
    obtain ⟨s', e1, i1, f1⟩ := one h hi4 ho4 (by omega) hBx hp
    refine ⟨s', ⟨by omega, i1⟩, ?_⟩
    have hb := reach_branch (m := sem e) (p := prog) (pc := 188) (s := s') (t := 180) .NE .vscalef32_scalar_loop (by decide +kernel) (by decide +kernel) rfl
    have ht : (sem e).taken .NE s' = decide (x + 2 * 1 ≤ n) := by
      show (!s'.fl.z) = _
      rw [f1, beq_zero (by omega), ← decide_not]
      congr 1
      exact propext (by omega)
    rw [ht] at hb
    have h2 := (reach_blk b180 h180 e1).trans hb
    by_cases c : x + 2 * 1 ≤ n
    · rw [if_pos c]
      rw [decide_eq_true c, if_pos rfl] at h2
      exact h2
    · rw [if_neg c]
      rw [decide_eq_false c, if_neg (by decide)] at h2
      exact h2.trans (reach_blk (p := prog) (m := sem e) (pc := 189) [.nop] (by decide +kernel) rfl)

/-- How many numbers are multiplied with NEON. -/
def block (neon : Bool) (n : Nat) : Nat := if neon ∧ 16 ≤ n then n - n % 16 else 0

theorem scalar' (h : Io e.rd e.wr ib ob (4 * n) (4 * n) id) (hn : n < 2 ^ 31) (hi4 : ib.toNat % 4 = 0) (ho4 : ob.toNat % 4 = 0) {k : Nat} (hk : k ≤ n) (hB : B ≤ k)
    {s : St} (hi : Inv e m0 ib ob sc f0 B k k (n - k) k s) :
    ∃ s', Inv e m0 ib ob sc f0 B n n 0 n s' ∧ Reach (sem e) prog 176 s 190 s' := by
  obtain ⟨s1, e1, i1, z1⟩ : ∃ s', blk (sem e) b176 s = some s' ∧ Inv e m0 ib ob sc f0 B k k (n - k) k s' ∧ s'.fl.z = decide (n - k = 0) := by
    ar [hi.r2]
    exact ⟨_, rfl, ⟨hi.r0, hi.r1, hi.r2, hi.v0, hi.fp, hi.mem⟩, beq_zero (by omega)⟩
  have hb := (reach_blk b176 h176 e1).trans (reach_branch (m := sem e) (p := prog) (s := s1) (pc := 178) (t := 190) .EQ .vscalef32_done (by decide +kernel)
    (by decide +kernel) (b := decide (n - k = 0)) z1)
  by_cases c : n - k = 0
  · rw [decide_eq_true c, if_pos rfl] at hb
    obtain rfl : k = n := by omega
    rw [c] at i1
    exact ⟨s1, i1, hb⟩
  · rw [decide_eq_false c, if_neg (by decide)] at hb
    obtain ⟨s', h1, h2⟩ := scalar h hn hi4 ho4 (by omega) hB i1
    exact ⟨s', h1, hb.trans ((reach_blk (p := prog) (m := sem e) (pc := 179) [.nop] (by decide +kernel) rfl).trans h2)⟩

theorem neon (h : Io e.rd e.wr ib ob (4 * n) (4 * n) id) (hn : n < 2 ^ 31) (hi4 : ib.toNat % 4 = 0) (ho4 : ob.toNat % 4 = 0) (h16 : 16 ≤ n) {s : St}
    (hi : Inv e m0 ib ob sc f0 (n - n % 16) 0 0 n 0 s) :
    ∃ s', Inv e m0 ib ob sc f0 (n - n % 16) n n 0 n s' ∧ Reach (sem e) prog 164 s 190 s' := by
  have main := dloop (m := sem e) (p := prog) (a := 164) (b := 175) (fun x s => x % 16 = 0 ∧ Inv e m0 ib ob sc f0 (n - n % 16) x x (n - x) x s) n 16 (by omega)
    ?_ 0 s (by omega) ⟨rfl, hi⟩
  · obtain ⟨k', s1, ⟨_, g1⟩, g2, g3, g4, _, g6⟩ := main
    obtain ⟨s', h1, h2⟩ := scalar' h hn hi4 ho4 g2 (by omega) g1
    exact ⟨s', h1, g6.trans ((reach_blk (p := prog) (m := sem e) (pc := 175) [.nop] (by decide +kernel) rfl).trans h2)⟩
  · rintro x s hx ⟨hx0, hp⟩
    obtain ⟨s1, e1, i1, d1⟩ := blk164 h hi4 hx (by omega) hp
    obtain ⟨s2, e2, i2, f2⟩ := blk171 h ho4 hx i1 d1
    refine ⟨s2, ⟨by omega, i2⟩, ?_⟩
    have hb := reach_branch (m := sem e) (p := prog) (pc := 174) (s := s2) (t := 164) .GE .vscalef32_neon_loop (by decide +kernel) (by decide +kernel)
      (b := decide (x + 2 * 16 ≤ n)) (by
        show s2.fl.taken .GE = _
        rw [f2, taken_ge (by omega) (by omega)]
        congr 1
        exact propext (by omega))
    have h2 := (reach_blk b164 h164 e1).trans ((reach_blk b171 h171 e2).trans hb)
    by_cases c : x + 2 * 16 ≤ n
    · rw [if_pos c]
      rwa [decide_eq_true c, if_pos rfl] at h2
    · rw [if_neg c]
      rwa [decide_eq_false c, if_neg (by decide)] at h2

/-! ### The routine -/

theorem routine {nin nout : Nat} {s : St} (ha : Args s ib ob nin nout) (hn : n = min nin nout) (h : Io e.rd e.wr ib ob (4 * n) (4 * n) id)
    (hi4 : ib.toNat % 4 = 0) (ho4 : ob.toNat % 4 = 0) (b : Bool) (hb : (e.var .HaveNEON == 0) = !b) :
    ∃ s', Returns (sem e) prog 142 s s' ∧ s'.fp = s.fp ∧ s'.mem = fill s.mem ob (4 * n) (want e s.mem ib (s.fp 24) (block b n)) := by
  have hi := ha.hin
  have ho := ha.hout
  have hn31 : n < 2 ^ 31 := by omega
  obtain ⟨s1, e1, i1, z1⟩ : ∃ s', blk (sem e) b142 s = some s' ∧ Inv e s.mem ib ob (s.fp 24) s.fp (block b n) 0 0 n 0 s' ∧ s'.fl.z = decide (n = 0) := by
    ar [ha.f1, ha.f2, ha.f3, ha.f4, St.cond, taken_lt ho hi, decide_eq_true_eq]
    by_cases c : nout < nin
    · obtain rfl : n = nout := by omega
      ar [if_pos c]
      refine ⟨_, rfl, ⟨?_, ?_, ?_, ?_, rfl, ?_⟩, ?_⟩
      · ar []
      · ar []
      · ar []
      · ar []
      · rw [Nat.mul_zero]; exact (fill_zero ..).symm
      · ar [beq_zero (show n < 2 ^ 32 by omega)]
    · obtain rfl : n = nin := by omega
      ar [if_neg c]
      refine ⟨_, rfl, ⟨?_, ?_, ?_, ?_, rfl, ?_⟩, ?_⟩
      · ar []
      · ar []
      · ar []
      · ar []
      · rw [Nat.mul_zero]; exact (fill_zero ..).symm
      · ar [beq_zero (show n < 2 ^ 32 by omega)]
  have done : ∀ s', s'.fp = s.fp → s'.mem = fill s.mem ob (4 * n) (want e s.mem ib (s.fp 24) (block b n)) → Reach (sem e) prog 142 s 190 s' →
      ∃ s', Returns (sem e) prog 142 s s' ∧ s'.fp = s.fp ∧ s'.mem = fill s.mem ob (4 * n) (want e s.mem ib (s.fp 24) (block b n)) := by
    intro s' h1 h2 h3
    have r := reach_blk (p := prog) (m := sem e) (pc := 190) (s := s') [.label .vscalef32_done] (by decide +kernel) rfl
    exact ⟨s', (h3.trans r).returns (returns_ret (by decide +kernel)), h1, h2⟩
  have r1 := (reach_blk b142 h142 e1).trans (reach_branch (m := sem e) (p := prog) (s := s1) (pc := 154) (t := 190) .EQ .vscalef32_done (by decide +kernel)
    (by decide +kernel) (b := decide (n = 0)) z1)
  by_cases c0 : n = 0
  · rw [decide_eq_true c0, if_pos rfl] at r1
    refine done s1 i1.fp ?_ r1
    rw [i1.mem, c0]
  rw [decide_eq_false c0, if_neg (by decide)] at r1
  replace r1 := r1.trans (reach_blk (p := prog) (m := sem e) (pc := 155) [.nop] (by decide +kernel) rfl)
  obtain ⟨s2, e2, i2, f2⟩ : ∃ s', blk (sem e) b156 s1 = some s' ∧ Inv e s.mem ib ob (s.fp 24) s.fp (block b n) 0 0 n 0 s' ∧
      s'.fl = subFlags ((e.var .HaveNEON).setWidth 32) 0#32 := by
    ar []
    refine ⟨_, rfl, ⟨?_, ?_, ?_, i1.v0, i1.fp, i1.mem⟩, rfl⟩
    · ar [i1.r0]
    · ar [i1.r1]
    · ar [i1.r2]
  replace r1 := r1.trans ((reach_blk b156 h156 e2).trans (reach_branch (m := sem e) (p := prog) (s := s2) (pc := 158) (t := 180) .EQ .vscalef32_scalar_loop
    (by decide +kernel) (by decide +kernel) (b := !b) (by
      show s2.fl.taken .EQ = _
      rw [f2, taken_seq, ← hb]
      generalize e.var .HaveNEON = x
      revert x
      decide +kernel)))
  have i2' : Inv e s.mem ib ob (s.fp 24) s.fp (block b n) 0 0 (n - 0) 0 s2 := i2
  cases b with
  | false =>
    rw [Bool.not_false, if_pos rfl] at r1
    obtain ⟨s', h1, h2⟩ := scalar h hn31 hi4 ho4 (by omega) (by simp [block]) i2'
    exact done s' h1.fp h1.mem (r1.trans h2)
  | true =>
    rw [Bool.not_true, if_neg (by decide)] at r1
    replace r1 := r1.trans (reach_blk (p := prog) (m := sem e) (pc := 159) [.nop] (by decide +kernel) rfl)
    obtain ⟨s3, e3, i3, f3⟩ : ∃ s', blk (sem e) b160 s2 = some s' ∧ Inv e s.mem ib ob (s.fp 24) s.fp (block true n) 0 0 n 0 s' ∧
        s'.fl = subFlags (BitVec.ofNat 32 n) (BitVec.ofNat 32 16) := by
      ar [i2.r2]
      exact ⟨_, rfl, ⟨i2.r0, i2.r1, i2.r2, i2.v0, i2.fp, i2.mem⟩, rfl⟩
    replace r1 := r1.trans ((reach_blk b160 h160 e3).trans (reach_branch (m := sem e) (p := prog) (s := s3) (pc := 161) (t := 180) .LT .vscalef32_scalar_loop
      (by decide +kernel) (by decide +kernel) (b := decide (n < 16)) (by
        show s3.fl.taken .LT = _
        rw [f3, taken_lt hn31 (by decide)])))
    by_cases c : n < 16
    · rw [decide_eq_true c, if_pos rfl] at r1
      obtain ⟨s', h1, h2⟩ := scalar h hn31 hi4 ho4 (k := 0) (by omega) (by simp [block]; omega) i3
      exact done s' h1.fp h1.mem (r1.trans h2)
    · rw [decide_eq_false c, if_neg (by decide)] at r1
      replace r1 := r1.trans (reach_blk (p := prog) (m := sem e) (pc := 162) [.nop, .ins (.op .PLD [.m 0 0])] (by decide +kernel) rfl)
      have hB : block true n = n - n % 16 := by simp [block]; omega
      rw [hB] at i3
      obtain ⟨s', h1, h2⟩ := neon h hn31 hi4 ho4 (by omega) i3
      rw [← hB] at h1
      exact done s' h1.fp h1.mem (r1.trans h2)

end VScale
end Verif.A32.Math
