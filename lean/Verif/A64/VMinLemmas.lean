import Verif.A64.VExtreme

/-!
# The run of `VMinF32` on arm64, instruction by instruction
-/

namespace Verif.A64.Math.VMin
open Verif.A64 Verif.Mach Verif.A64.Math
open Verif.X86 (Vec byte d32 of32 bytes32 d32_of32)
open Verif.X86.Conv (u32at)

/-! ### Basic blocks -/

/-- dsp/math32_arm64.s:131-140. -/
abbrev b131 : List (Line Lbl Ins Cond) :=
  [.label .VMinF32,
   .ins (.op .MOVD [.fp 0, .r 0]),
   .ins (.op .MOVD [.fp 8, .r 1]),
   .ins (.op .MOVW [.i 0x7f800000, .r 2]),
   .ins (.op .FMOVS [.r 2, .f 31]), .nop, .nop, .nop, .nop,
   .ins (.op .CMP [.i 24, .r 1])]

theorem h131 : (prog.drop 131).take b131.length = b131 := by decide +kernel

/-- dsp/math32_arm64.s:142-146. -/
abbrev b142 : List (Line Lbl Ins Cond) :=
  [.nop, .nop,
   .ins (.WORD 0xad401c00),
   .ins (.op .ADD [.i 32, .r 0]),
   .ins (.op .SUB [.i 8, .r 1])]

theorem h142 : (prog.drop 142).take b142.length = b142 := by decide +kernel

/-- dsp/math32_arm64.s:147-158. -/
abbrev b147 : List (Line Lbl Ins Cond) :=
  [.label .vminf32_simd_loop, .nop, .nop,
   .ins (.WORD 0xad400801),
   .ins (.WORD 0xad411003),
   .ins (.op .ADD [.i 64, .r 0]),
   .ins (.WORD 0x4ea1f400),
   .ins (.WORD 0x4ea3f4e7),
   .ins (.WORD 0x4ea2f400),
   .ins (.WORD 0x4ea4f4e7),
   .ins (.op .SUB [.i 16, .r 1]),
   .ins (.op .CMP [.i 16, .r 1])]

theorem h147 : (prog.drop 147).take b147.length = b147 := by decide +kernel

/-- dsp/math32_arm64.s:160-163. -/
abbrev b160 : List (Line Lbl Ins Cond) :=
  [.ins (.WORD 0x6eb0f81e),
   .ins (.WORD 0x6eb0f8ff),
   .ins (.op .FMINS [.f 31, .f 30, .f 31]), .nop]

theorem h160 : (prog.drop 160).take b160.length = b160 := by decide +kernel

/-- dsp/math32_arm64.s:164-165. -/
abbrev b164 : List (Line Lbl Ins Cond) :=
  [.label .vminf32_scaler,
   .ins (.op .CMP [.zr, .r 1])]

theorem h164 : (prog.drop 164).take b164.length = b164 := by decide +kernel

/-- dsp/math32_arm64.s:167-172. -/
abbrev b167 : List (Line Lbl Ins Cond) :=
  [.label .vminf32_loop, .nop,
   .ins (.op .FMOVS [.m 0 0, .f 1]),
   .ins (.op .ADD [.i 4, .r 0]),
   .ins (.op .FMINS [.f 31, .f 1, .f 31]),
   .ins (.op .SUBS [.i 1, .r 1])]

theorem h167 : (prog.drop 167).take b167.length = b167 := by decide +kernel

/-- dsp/math32_arm64.s:174-175. -/
abbrev b174 : List (Line Lbl Ins Cond) :=
  [.label .vminf32_done,
   .ins (.op .FMOVS [.f 31, .fp 24])]

theorem h174 : (prog.drop 174).take b174.length = b174 := by decide +kernel

/-! ### The loops -/

variable {e : Env} {m0 : BitVec 64 → BitVec 8} {ib : BitVec 64} {n : Nat} {f0 : Nat → BitVec 64}

theorem blk147 (hn : 4 * n < 2 ^ 63) (hr : ∀ i < 4 * n, e.rd (ib + BitVec.ofNat 64 i) = true) {k : Nat} (hk : k + 16 ≤ n) {s : St}
    (hi : At m0 ib n f0 k s) {a b : Nat → BitVec 32} (ha : Lanes 0 a s) (hb : Lanes 7 b s) :
    ∃ s', blk (sem e) b147 s = some s' ∧ At m0 ib n f0 (k + 16) s' ∧ Lanes 0 (next0 e.o.min (word m0 ib) k a) s' ∧
      Lanes 7 (next7 e.o.min (word m0 ib) k b) s' ∧ s'.fl = subFlags (BitVec.ofNat 64 (n - (k + 16))) (BitVec.ofNat 64 16) := by
  as [wad400801, wad411003, w4ea1f400, w4ea3f4e7, w4ea2f400, w4ea4f4e7, hi.x0, hi.x1, adv,
    load_at hi.mem hr (k := 4 * k) (len := 16) rfl (by omega), load_at hi.mem hr (k := 4 * k + 16) (len := 16) rfl (by omega),
    load_at hi.mem hr (k := 4 * k + 32) (len := 16) rfl (by omega), load_at hi.mem hr (k := 4 * k + 32 + 16) (len := 16) rfl (by omega)]
  have e1 : BitVec.ofNat 64 (n - k) - 16#64 = BitVec.ofNat 64 (n - (k + 16)) := by rw [X86.sub_ofNat (by omega) (by omega), Nat.sub_sub]
  refine ⟨_, rfl, ⟨?_, ?_, hi.fp, hi.mem⟩, ?_, ?_, ?_⟩
  · as []
    rw [show 4 * k + 64 = 4 * (k + 16) by omega]
  · as [e1]
  · intro l hl
    as [d32_of32]
    rw [d32_inp (by omega), d32_inp (by omega), ha l hl]
    unfold next0 word
    rw [show 4 * k + 4 * l = 4 * (k + l) by omega, show 4 * k + 16 + 4 * l = 4 * (k + 4 + l) by omega]
  · intro l hl
    as [d32_of32]
    rw [d32_inp (by omega), d32_inp (by omega), hb l hl]
    unfold next7 word
    rw [show 4 * k + 32 + 4 * l = 4 * (k + 8 + l) by omega, show 4 * k + 32 + 16 + 4 * l = 4 * (k + 12 + l) by omega]
  · rw [e1]

theorem simd (hn : 4 * n < 2 ^ 63) (hr : ∀ i < 4 * n, e.rd (ib + BitVec.ofNat 64 i) = true) (h24 : 24 ≤ n) {s : St} (hi : At m0 ib n f0 8 s)
    (ha : Lanes 0 (fun l => word m0 ib l) s) (hb : Lanes 7 (fun l => word m0 ib (4 + l)) s) :
    ∃ s', At m0 ib n f0 (stop n) s' ∧ Lanes 0 (accu e.o.min (word m0 ib) (stop n)).1 s' ∧ Lanes 7 (accu e.o.min (word m0 ib) (stop n)).2 s' ∧
      Reach (sem e) prog 147 s 160 s' := by
  obtain ⟨k, s', h1, h2, h3, h4, h5, h6⟩ := dloop (m := sem e) (p := prog) (a := 147) (b := 160)
    (fun k s => k % 16 = 8 ∧ At m0 ib n f0 k s ∧ Lanes 0 (accu e.o.min (word m0 ib) k).1 s ∧ Lanes 7 (accu e.o.min (word m0 ib) k).2 s) n 16 (by omega)
    (fun k s hk hp => by
      obtain ⟨h8, p1, p2, p3⟩ := hp
      obtain ⟨s', g, i, l0, l7, f⟩ := blk147 hn hr hk p1 p2 p3
      refine ⟨s', ⟨by omega, i, ?_, ?_⟩, (reach_blk b147 h147 g).trans ?_⟩
      · rw [accu_succ _ _ h8]; exact l0
      · rw [accu_succ _ _ h8]; exact l7
      · have hb := reach_branch (m := sem e) (p := prog) (s := s') (pc := 159) (t := 147) .BGE .vminf32_simd_loop (by decide +kernel) (by decide +kernel)
          (b := decide (k + 2 * 16 ≤ n)) (by
            show s'.fl.taken .BGE = _
            rw [f, taken_ge (by omega) (by omega)]
            congr 1
            exact propext (by omega))
        simp only [decide_eq_true_eq] at hb
        exact hb) 8 s (by omega) ⟨by omega, hi, ha, hb⟩
  obtain rfl : k = stop n := by unfold stop; omega
  exact ⟨s', h1.2.1, h1.2.2.1, h1.2.2.2, h6⟩

theorem scalar (hn : 4 * n < 2 ^ 63) (hr : ∀ i < 4 * n, e.rd (ib + BitVec.ofNat 64 i) = true) {c : Nat} (hc : c < n) {s : St} (hi : At m0 ib n f0 c s)
    {y : BitVec 32} (hy : d32 (s.v 31) 0 = y) :
    ∃ s', At m0 ib n f0 n s' ∧ d32 (s'.v 31) 0 = tail e.o.min (word m0 ib) y c (n - c) ∧ Reach (sem e) prog 167 s 174 s' := by
  obtain ⟨k, s', h1, h2, h3, h4, h5, h6⟩ := dloop (m := sem e) (p := prog) (a := 167) (b := 174)
    (fun k s => c ≤ k ∧ At m0 ib n f0 k s ∧ d32 (s.v 31) 0 = tail e.o.min (word m0 ib) y c (k - c)) n 1 (by omega)
    (fun k s hk hp => by
      obtain ⟨hck, p1, p2⟩ := hp
      obtain ⟨s', g, i, v, f⟩ : ∃ s', blk (sem e) b167 s = some s' ∧ At m0 ib n f0 (k + 1) s' ∧
          d32 (s'.v 31) 0 = e.o.min (word m0 ib k) (d32 (s.v 31) 0) ∧ s'.fl = subFlags (BitVec.ofNat 64 (n - k)) (BitVec.ofNat 64 1) := by
        as [p1.x0, p1.x1, load_at p1.mem hr (k := 4 * k) (len := 4) rfl (by omega)]
        refine ⟨_, rfl, ⟨?_, ?_, p1.fp, p1.mem⟩, ?_, rfl⟩
        · as []; exact adv _ _ _
        · as []
          rw [X86.sub_ofNat (by omega) (by omega), Nat.sub_sub]
        · as []
          rw [d32_bytes32, d32_inp (by omega), Nat.mul_zero, Nat.add_zero]
          rfl
      refine ⟨s', ⟨by omega, i, ?_⟩, (reach_blk b167 h167 g).trans ?_⟩
      · rw [v, p2, show k + 1 - c = (k - c) + 1 by omega, tail, show c + (k - c) = k by omega]
      · have hb := reach_branch (m := sem e) (p := prog) (s := s') (pc := 173) (t := 167) .BNE .vminf32_loop (by decide +kernel) (by decide +kernel)
          (b := decide (k + 2 * 1 ≤ n)) (by
            show s'.fl.taken .BNE = _
            rw [f, taken_ne (by omega) (by omega)]
            congr 1
            exact propext (by omega))
        simp only [decide_eq_true_eq] at hb
        exact hb) c s (by omega) ⟨le_rfl, hi, by rw [Nat.sub_self]; exact hy⟩
  obtain rfl : k = n := by omega
  exact ⟨s', h1.2.1, h1.2.2, h6⟩

/-- From the label `vminf32_scaler` on. -/
theorem rest (hn : 4 * n < 2 ^ 63) (hr : ∀ i < 4 * n, e.rd (ib + BitVec.ofNat 64 i) = true) {c : Nat} (hc : c ≤ n) {s : St} (hi : At m0 ib n f0 c s)
    {y : BitVec 32} (hy : d32 (s.v 31) 0 = y) : ∃ s', Returns (sem e) prog 164 s s' ∧ s'.mem = m0 ∧
      s'.fp = Function.update f0 24 ((f0 24).extractLsb' 32 32 ++ tail e.o.min (word m0 ib) y c (n - c)) := by
  obtain ⟨s1, g1, i1, v1, f1⟩ : ∃ s', blk (sem e) b164 s = some s' ∧ At m0 ib n f0 c s' ∧ d32 (s'.v 31) 0 = y ∧
      s'.fl = subFlags (BitVec.ofNat 64 (n - c)) (BitVec.ofNat 64 0) := by
    as [hi.x1]
    exact ⟨_, rfl, ⟨hi.x0, hi.x1, hi.fp, hi.mem⟩, hy, rfl⟩
  have hb := reach_branch (m := sem e) (p := prog) (s := s1) (pc := 166) (t := 174) .BEQ .vminf32_done (by decide +kernel) (by decide +kernel)
    (b := decide (c = n)) (by
      show s1.fl.taken .BEQ = _
      rw [f1, taken_eq (by omega) (by omega)]
      congr 1
      exact propext (by omega))
  have fin : ∀ {s y}, At m0 ib n f0 n s → d32 (s.v 31) 0 = y → ∃ s', Returns (sem e) prog 174 s s' ∧ s'.mem = m0 ∧
      s'.fp = Function.update f0 24 ((f0 24).extractLsb' 32 32 ++ y) := by
    intro s y i v
    obtain ⟨s', g, h1, h2⟩ : ∃ s', blk (sem e) b174 s = some s' ∧ s'.mem = m0 ∧
        s'.fp = Function.update f0 24 ((f0 24).extractLsb' 32 32 ++ y) := by
      as [v, i.fp]
      exact ⟨_, rfl, i.mem, rfl⟩
    exact ⟨s', (reach_blk b174 h174 g).returns (returns_ret (by decide +kernel)), h1, h2⟩
  have r1 := reach_blk (m := sem e) b164 h164 g1
  by_cases q : c = n
  · subst q
    rw [decide_eq_true rfl, if_pos rfl] at hb
    obtain ⟨s', h1, h2⟩ := fin i1 v1
    rw [Nat.sub_self]
    exact ⟨s', (r1.trans hb).returns h1, h2⟩
  · rw [decide_eq_false q, if_neg (by decide)] at hb
    obtain ⟨s2, i2, v2, r2⟩ := scalar hn hr (by omega) i1 v1
    obtain ⟨s', h1, h2⟩ := fin i2 v2
    exact ⟨s', ((r1.trans hb).trans r2).returns h1, h2⟩

/-- The whole routine. -/
theorem routine (hn : 4 * n < 2 ^ 63) {s : St} (hr : ∀ i < 4 * n, e.rd (ib + BitVec.ofNat 64 i) = true) (f1 : s.fp 0 = ib)
    (f2 : s.fp 8 = BitVec.ofNat 64 n) : ∃ s', Returns (sem e) prog 131 s s' ∧ s'.mem = s.mem ∧
      s'.fp = Function.update s.fp 24 ((s.fp 24).extractLsb' 32 32 ++ result e.o.min 0x7f800000 n (word s.mem ib)) := by
  obtain ⟨s1, g1, i1, v1, l1⟩ : ∃ s', blk (sem e) b131 s = some s' ∧ At s.mem ib n s.fp 0 s' ∧ d32 (s'.v 31) 0 = 0x7f800000 ∧
      s'.fl = subFlags (BitVec.ofNat 64 n) (BitVec.ofNat 64 24) := by
    as [f1, f2]
    refine ⟨_, rfl, ⟨?_, ?_, rfl, rfl⟩, ?_, rfl⟩
    · as [Nat.mul_zero]
    · as []
      rfl
    · as []
      rw [d32_bytes32]
      decide +kernel
  have hb := reach_branch (m := sem e) (p := prog) (s := s1) (pc := 141) (t := 164) .BLT .vminf32_scaler (by decide +kernel) (by decide +kernel)
    (b := decide (n < 24)) (by
      show s1.fl.taken .BLT = _
      rw [l1, taken_lt (by omega) (by omega)])
  have r1 := reach_blk (m := sem e) b131 h131 g1
  unfold result
  by_cases q : n < 24
  · rw [decide_eq_true q, if_pos rfl] at hb
    obtain ⟨s', h1, h2⟩ := rest hn hr (Nat.zero_le n) i1 v1
    rw [if_pos q]
    exact ⟨s', (r1.trans hb).returns h1, h2⟩
  · rw [decide_eq_false q, if_neg (by decide)] at hb
    rw [if_neg q]
    obtain ⟨s2, g2, i2, a2, b2⟩ : ∃ s', blk (sem e) b142 s1 = some s' ∧ At s.mem ib n s.fp 8 s' ∧ Lanes 0 (fun l => word s.mem ib l) s' ∧
        Lanes 7 (fun l => word s.mem ib (4 + l)) s' := by
      as [wad401c00, i1.x0, i1.x1, adv, load_at i1.mem hr (k := 4 * 0) (len := 16) rfl (by omega),
        load_at i1.mem hr (k := 4 * 0 + 16) (len := 16) rfl (by omega)]
      refine ⟨_, rfl, ⟨?_, ?_, i1.fp, i1.mem⟩, ?_, ?_⟩
      · as []
      · as []
        rw [X86.sub_ofNat (by omega) (by omega), Nat.sub_sub]
      · intro l hl
        as []
        rw [d32_inp (by omega)]
        unfold word
        rw [show 4 * 0 + 4 * l = 4 * l by omega]
      · intro l hl
        as []
        rw [d32_inp (by omega)]
        unfold word
        rw [show 4 * 0 + 16 + 4 * l = 4 * (4 + l) by omega]
    obtain ⟨s3, i3, a3, b3, r3⟩ := simd hn hr (by omega) i2 a2 b2
    obtain ⟨s4, g4, i4, v4⟩ : ∃ s', blk (sem e) b160 s3 = some s' ∧ At s.mem ib n s.fp (stop n) s' ∧
        d32 (s'.v 31) 0 = e.o.min (Arm.across e.o.min (accu e.o.min (word s.mem ib) (stop n)).1)
          (Arm.across e.o.min (accu e.o.min (word s.mem ib) (stop n)).2) := by
      as [w6eb0f81e, w6eb0f8ff]
      refine ⟨_, rfl, ⟨i3.x0, i3.x1, i3.fp, i3.mem⟩, ?_⟩
      as []
      simp only [d32_bytes32, across, Arm.across, a3 0 (by omega), a3 1 (by omega), a3 2 (by omega), a3 3 (by omega), b3 0 (by omega), b3 1 (by omega),
        b3 2 (by omega), b3 3 (by omega)]
    obtain ⟨s', h1, h2⟩ := rest hn hr (by unfold stop; omega) i4 v4
    exact ⟨s', (((r1.trans hb).trans (reach_blk b142 h142 g2)).trans (r3.trans (reach_blk b160 h160 g4))).returns h1, h2⟩

end Verif.A64.Math.VMin
