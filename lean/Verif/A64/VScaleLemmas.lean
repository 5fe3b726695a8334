import Verif.A64.A64Lemmas
import Verif.A64.MathModel
import Verif.X86.F16Props

/-!
# The run of `VScaleF32` on arm64, instruction by instruction
-/

namespace Verif.A64.Math
open Verif.A64 Verif.Mach
open Verif.X86 (Vec byte d32 of32 bytes32 d32_of32)
open Verif.X86.Conv (u32at)

theorem d32_inp {m0 : BitVec 64 → BitVec 8} {ib : BitVec 64} {k len l : Nat} (hl : 4 * l + 4 ≤ len) :
    d32 (inp m0 ib k len) l = u32at m0 (ib + BitVec.ofNat 64 (k + 4 * l)) := by
  unfold d32 inp u32at
  rw [if_pos (by omega), if_pos (by omega), if_pos (by omega), if_pos (by omega), adv, adv, adv,
    ← Nat.add_assoc k (4 * l) 3, ← Nat.add_assoc k (4 * l) 2, ← Nat.add_assoc k (4 * l) 1]

theorem d32_bytes32 (x : BitVec 32) : d32 (bytes32 x) 0 = x := X86.d32_of_bytes x _ 0 fun j hj => by
  unfold bytes32
  rw [Nat.mul_zero, Nat.zero_add, if_pos hj]

namespace VS

/-! ### Basic blocks -/

/-- dsp/math32_arm64.s:12-19. -/
abbrev b12 : List (Line Lbl Ins Cond) :=
  [.label .VScaleF32,
   .ins (.op .MOVD [.fp 0, .r 0]),
   .ins (.op .MOVD [.fp 8, .r 1]),
   .ins (.op .MOVD [.fp 24, .r 2]),
   .ins (.op .MOVD [.fp 32, .r 3]),
   .ins (.op .FMOVS [.fp 48, .f 0]), .nop,
   .ins (.op .CMP [.r 3, .r 1])]

theorem h12 : (prog.drop 12).take b12.length = b12 := by decide +kernel

/-- dsp/math32_arm64.s:21-21. -/
abbrev b21 : List (Line Lbl Ins Cond) :=
  [.ins (.op .MOVD [.r 3, .r 1])]

theorem h21 : (prog.drop 21).take b21.length = b21 := by decide +kernel

/-- dsp/math32_arm64.s:22-26. -/
abbrev b22 : List (Line Lbl Ins Cond) :=
  [.label .vscalef32_min_len, .nop, .nop, .nop,
   .ins (.op .CMP [.i 16, .r 1])]

theorem h22 : (prog.drop 22).take b22.length = b22 := by decide +kernel

/-- dsp/math32_arm64.s:28-56. -/
abbrev b28 : List (Line Lbl Ins Cond) :=
  [.label .vscalef32_simd_loop, .nop, .nop, .nop, .nop, .nop, .nop, .nop,
   .ins (.WORD 0xf9804001), .nop, .nop, .nop,
   .ins (.WORD 0xad400801),
   .ins (.WORD 0xad411003), .nop,
   .ins (.op .ADD [.i 64, .r 0]), .nop,
   .ins (.WORD 0x4f809021),
   .ins (.WORD 0x4f809042),
   .ins (.WORD 0x4f809063),
   .ins (.WORD 0x4f809084), .nop, .nop, .nop, .nop, .nop, .nop, .nop, .nop]

theorem h28 : (prog.drop 28).take b28.length = b28 := by decide +kernel

/-- dsp/math32_arm64.s:57-57. -/
abbrev b57 : List (Line Lbl Ins Cond) :=
  [.ins (.WORD 0xad000841)]

theorem h57 : (prog.drop 57).take b57.length = b57 := by decide +kernel

/-- dsp/math32_arm64.s:58-63. -/
abbrev b58 : List (Line Lbl Ins Cond) :=
  [.ins (.WORD 0xad011043), .nop,
   .ins (.op .ADD [.i 64, .r 2]), .nop,
   .ins (.op .SUB [.i 16, .r 1]),
   .ins (.op .CMP [.i 16, .r 1])]

theorem h58 : (prog.drop 58).take b58.length = b58 := by decide +kernel

/-- dsp/math32_arm64.s:66-67. -/
abbrev b66 : List (Line Lbl Ins Cond) :=
  [.label .vscalef32_scaler,
   .ins (.op .CMP [.zr, .r 1])]

theorem h66 : (prog.drop 66).take b66.length = b66 := by decide +kernel

/-- dsp/math32_arm64.s:69-73. -/
abbrev b69 : List (Line Lbl Ins Cond) :=
  [.label .vscalef32_scaler_loop,
   .ins (.op .FMOVSP [.m 0 4, .f 1]),
   .ins (.op .FMULS [.f 0, .f 1, .f 1]),
   .ins (.op .FMOVSP [.f 1, .m 2 4]),
   .ins (.op .SUBS [.i 1, .r 1])]

theorem h69 : (prog.drop 69).take b69.length = b69 := by decide +kernel

/-! ### Invariant -/

variable {e : Env} {m0 : BitVec 64 → BitVec 8} {ib ob : BitVec 64} {sc : BitVec 32} {n : Nat} {f0 : Nat → BitVec 64}

/-- The product of number `i`. -/
def prod (e : Env) (m0 : BitVec 64 → BitVec 8) (ib : BitVec 64) (sc : BitVec 32) (i : Nat) : BitVec 32 :=
  e.o.mul (u32at m0 (ib + BitVec.ofNat 64 (4 * i))) sc

/-- The output bytes. -/
def want (e : Env) (m0 : BitVec 64 → BitVec 8) (ib : BitVec 64) (sc : BitVec 32) (j : Nat) : BitVec 8 := byte (prod e m0 ib sc (j / 4)) (j % 4)

/-- Input position `a`, output position `b` (in bytes), `c` elements left, `t` bytes written. -/
structure Inv (e : Env) (m0 : BitVec 64 → BitVec 8) (ib ob : BitVec 64) (sc : BitVec 32) (f0 : Nat → BitVec 64) (a b c t : Nat) (s : St) : Prop where
  x0 : s.x 0 = ib + BitVec.ofNat 64 a
  x2 : s.x 2 = ob + BitVec.ofNat 64 b
  x1 : s.x 1 = BitVec.ofNat 64 c
  v0 : d32 (s.v 0) 0 = sc
  fp : s.fp = f0
  mem : s.mem = fill m0 ob t (want e m0 ib sc)

/-! ### One element -/

theorem one (h : Io e.rd e.wr ib ob (4 * n) (4 * n) id) {k : Nat} (hk : k < n) {s : St}
    (hi : Inv e m0 ib ob sc f0 (4 * k) (4 * k) (n - k) (4 * k) s) :
    ∃ s', blk (sem e) b69 s = some s' ∧ Inv e m0 ib ob sc f0 (4 * (k + 1)) (4 * (k + 1)) (n - (k + 1)) (4 * (k + 1)) s' ∧
      s'.fl = subFlags (BitVec.ofNat 64 (n - k)) (BitVec.ofNat 64 1) := by
  have hr := h.r_le
  as [hi.x0, hi.x1, hi.x2, h.load hi.mem rfl (show 4 * k + 4 ≤ 4 * n by omega) (fun _ _ => by simp only [id]; omega)]
  rw [h.store hi.mem (len := 4) rfl (by omega) ?_]
  rotate_left
  · intro i hi'
    rw [hi.v0, d32_inp (by omega)]
    simp only [bytes32, hi', if_true, want, prod, Nat.mul_zero, Nat.add_zero]
    rw [show (4 * k + i) / 4 = k by omega, show (4 * k + i) % 4 = i by omega]
  as [hi.x0, hi.x1, hi.x2]
  refine ⟨_, rfl, ⟨?_, ?_, ?_, ?_, hi.fp, rfl⟩, rfl⟩
  · as []; exact adv _ _ _
  · as []; exact adv _ _ _
  · as []
    rw [X86.sub_ofNat (by omega) (by omega), Nat.sub_sub]
  · as [hi.v0]

/-! ### 16 elements -/

/-- Register `r` holds output bytes from `t` on. -/
def Holds (e : Env) (m0 : BitVec 64 → BitVec 8) (ib : BitVec 64) (sc : BitVec 32) (r t : Nat) (s : St) : Prop := ∀ i < 16, s.v r i = want e m0 ib sc (t + i)

theorem lanes_want {t k i : Nat} (ht : t = 4 * k) (hi : i < 16) {sc' : BitVec 32} (h0 : sc' = sc) :
    of32 (fun l => e.o.mul (d32 (inp m0 ib t 16) l) sc') i = want e m0 ib sc (t + i) := by
  subst ht h0
  unfold of32 want prod
  simp only
  rw [d32_inp (by omega), show 4 * k + 4 * (i / 4) = 4 * ((4 * k + i) / 4) by omega, show (4 * k + i) % 4 = i % 4 by omega]

theorem blk28 (h : Io e.rd e.wr ib ob (4 * n) (4 * n) id) {k : Nat} (hk : k + 16 ≤ n) {s : St}
    (hi : Inv e m0 ib ob sc f0 (4 * k) (4 * k) (n - k) (4 * k) s) :
    ∃ s', blk (sem e) b28 s = some s' ∧ Inv e m0 ib ob sc f0 (4 * (k + 16)) (4 * k) (n - k) (4 * k) s' ∧
      Holds e m0 ib sc 1 (4 * k) s' ∧ Holds e m0 ib sc 2 (4 * k + 16) s' ∧ Holds e m0 ib sc 3 (4 * k + 32) s' ∧ Holds e m0 ib sc 4 (4 * k + 48) s' := by
  as [wad400801, wad411003, wf9804001, w4f809021, w4f809042, w4f809063, w4f809084, hi.x0, adv,
    h.load (k := 4 * k) (len := 16) hi.mem rfl (by omega) (fun _ _ => by simp only [id]; omega),
    h.load (k := 4 * k + 16) (len := 16) hi.mem rfl (by omega) (fun _ _ => by simp only [id]; omega),
    h.load (k := 4 * k + 32) (len := 16) hi.mem rfl (by omega) (fun _ _ => by simp only [id]; omega),
    h.load (k := 4 * k + 32 + 16) (len := 16) hi.mem rfl (by omega) (fun _ _ => by simp only [id]; omega)]
  refine ⟨_, rfl, ⟨?_, hi.x2, hi.x1, ?_, hi.fp, hi.mem⟩, ?_, ?_, ?_, ?_⟩
  · as []
    rfl
  · as [hi.v0]
  · intro i hi'
    as []
    exact lanes_want rfl hi' hi.v0
  · intro i hi'
    as []
    exact lanes_want (k := k + 4) (by omega) hi' hi.v0
  · intro i hi'
    as []
    exact lanes_want (k := k + 8) (by omega) hi' hi.v0
  · intro i hi'
    as []
    exact lanes_want (k := k + 12) (by omega) hi' hi.v0

theorem blk57 (h : Io e.rd e.wr ib ob (4 * n) (4 * n) id) {k : Nat} (hk : k + 16 ≤ n) {s : St}
    (hi : Inv e m0 ib ob sc f0 (4 * (k + 16)) (4 * k) (n - k) (4 * k) s)
    (h1 : Holds e m0 ib sc 1 (4 * k) s) (h2 : Holds e m0 ib sc 2 (4 * k + 16) s) (h3 : Holds e m0 ib sc 3 (4 * k + 32) s)
    (h4 : Holds e m0 ib sc 4 (4 * k + 48) s) :
    ∃ s', blk (sem e) b57 s = some s' ∧ Inv e m0 ib ob sc f0 (4 * (k + 16)) (4 * k) (n - k) (4 * k + 32) s' ∧
      Holds e m0 ib sc 3 (4 * k + 32) s' ∧ Holds e m0 ib sc 4 (4 * k + 48) s' := by
  have hr := h.r_le
  as [wad000841, hi.x2, adv]
  rw [h.store hi.mem (len := 16) rfl (by omega) h1]
  as []
  rw [h.store rfl (len := 16) rfl (by omega) h2]
  as []
  exact ⟨_, rfl, ⟨hi.x0, hi.x2, hi.x1, hi.v0, hi.fp, rfl⟩, h3, h4⟩

theorem blk58 (h : Io e.rd e.wr ib ob (4 * n) (4 * n) id) {k : Nat} (hk : k + 16 ≤ n) {s : St}
    (hi : Inv e m0 ib ob sc f0 (4 * (k + 16)) (4 * k) (n - k) (4 * k + 32) s)
    (h3 : Holds e m0 ib sc 3 (4 * k + 32) s) (h4 : Holds e m0 ib sc 4 (4 * k + 48) s) :
    ∃ s', blk (sem e) b58 s = some s' ∧ Inv e m0 ib ob sc f0 (4 * (k + 16)) (4 * (k + 16)) (n - (k + 16)) (4 * (k + 16)) s' ∧
      s'.fl = subFlags (BitVec.ofNat 64 (n - (k + 16))) (BitVec.ofNat 64 16) := by
  have hr := h.r_le
  as [wad011043, hi.x2, hi.x1, adv]
  rw [h.store hi.mem (len := 16) rfl (by omega) h3]
  as []
  rw [h.store rfl (len := 16) rfl (by omega) h4]
  as []
  have e1 : BitVec.ofNat 64 (n - k) - 16#64 = BitVec.ofNat 64 (n - (k + 16)) := by rw [X86.sub_ofNat (by omega) (by omega), Nat.sub_sub]
  refine ⟨_, rfl, ⟨hi.x0, ?_, ?_, hi.v0, hi.fp, ?_⟩, ?_⟩
  · as [hi.x2, adv]
    rw [show 4 * k + 64 = 4 * (k + 16) by omega]
  · as [hi.x1, e1]
  · show fill m0 ob (4 * k + 48 + 16) _ = _
    rw [show 4 * k + 48 + 16 = 4 * (k + 16) by omega]
  · as [hi.x1, e1]

/-! ### Loops -/

theorem block (h : Io e.rd e.wr ib ob (4 * n) (4 * n) id) (hn : n < 2 ^ 63) {k : Nat} (hk : k + 16 ≤ n) {s : St}
    (hi : Inv e m0 ib ob sc f0 (4 * k) (4 * k) (n - k) (4 * k) s) :
    ∃ s', Inv e m0 ib ob sc f0 (4 * (k + 16)) (4 * (k + 16)) (n - (k + 16)) (4 * (k + 16)) s' ∧
      Reach (sem e) prog 28 s (if k + 2 * 16 ≤ n then 28 else 65) s' := by
  obtain ⟨s1, g1, i1, a1, a2, a3, a4⟩ := blk28 h hk hi
  obtain ⟨s2, g2, i2, b3, b4⟩ := blk57 h hk i1 a1 a2 a3 a4
  obtain ⟨s3, g3, i3, f3⟩ := blk58 h hk i2 b3 b4
  refine ⟨s3, i3, (reach_blk b28 h28 g1).trans ((reach_blk b57 h57 g2).trans ((reach_blk b58 h58 g3).trans ?_))⟩
  have hb := reach_branch (m := sem e) (p := prog) (s := s3) (pc := 64) (t := 28) .BGE .vscalef32_simd_loop (by decide +kernel) (by decide +kernel)
    (b := decide (k + 2 * 16 ≤ n)) (by
      show s3.fl.taken .BGE = _
      rw [f3, taken_ge (by omega) (by omega)]
      congr 1
      exact propext (by omega))
  simp only [decide_eq_true_eq] at hb
  exact hb

theorem simd (h : Io e.rd e.wr ib ob (4 * n) (4 * n) id) (hn : n < 2 ^ 63) (hk : 16 ≤ n) {s : St}
    (hi : Inv e m0 ib ob sc f0 0 0 n 0 s) :
    ∃ k s', k ≤ n ∧ Inv e m0 ib ob sc f0 (4 * k) (4 * k) (n - k) (4 * k) s' ∧ Reach (sem e) prog 28 s 65 s' := by
  obtain ⟨k, s', h1, h2, -, -, -, h6⟩ := dloop (m := sem e) (p := prog) (a := 28) (b := 65)
    (fun k s => Inv e m0 ib ob sc f0 (4 * k) (4 * k) (n - k) (4 * k) s) n 16 (by omega)
    (fun k s hk hp => block h hn hk hp) 0 s (by omega) hi
  exact ⟨k, s', h2, h1, h6⟩

theorem scalar (h : Io e.rd e.wr ib ob (4 * n) (4 * n) id) (hn : n < 2 ^ 63) {k : Nat} (hk : k < n) {s : St}
    (hi : Inv e m0 ib ob sc f0 (4 * k) (4 * k) (n - k) (4 * k) s) :
    ∃ s', Inv e m0 ib ob sc f0 (4 * n) (4 * n) 0 (4 * n) s' ∧ Reach (sem e) prog 69 s 75 s' := by
  obtain ⟨k', s', h1, h2, h3, -, -, h6⟩ := dloop (m := sem e) (p := prog) (a := 69) (b := 75)
    (fun k s => Inv e m0 ib ob sc f0 (4 * k) (4 * k) (n - k) (4 * k) s) n 1 (by omega)
    (fun k s hk hp => by
      obtain ⟨s', g, i, f⟩ := one h (by omega) hp
      refine ⟨s', i, (reach_blk b69 h69 g).trans ?_⟩
      have hb := reach_branch (m := sem e) (p := prog) (s := s') (pc := 74) (t := 69) .BNE .vscalef32_scaler_loop (by decide +kernel) (by decide +kernel)
        (b := decide (k + 2 * 1 ≤ n)) (by
          show s'.fl.taken .BNE = _
          rw [f, taken_ne (by omega) (by omega)]
          congr 1
          exact propext (by omega))
      simp only [decide_eq_true_eq] at hb
      exact hb) k s (by omega) hi
  obtain rfl : k' = n := by omega
  rw [Nat.sub_self] at h1
  exact ⟨s', h1, h6⟩

/-- From the label `vscalef32_scaler` on. -/
theorem rest (h : Io e.rd e.wr ib ob (4 * n) (4 * n) id) (hn : n < 2 ^ 63) {k : Nat} (hk : k ≤ n) {s : St}
    (hi : Inv e m0 ib ob sc f0 (4 * k) (4 * k) (n - k) (4 * k) s) :
    ∃ s', Inv e m0 ib ob sc f0 (4 * n) (4 * n) 0 (4 * n) s' ∧ Returns (sem e) prog 66 s s' := by
  obtain ⟨s1, g1, i1, f1⟩ : ∃ s', blk (sem e) b66 s = some s' ∧ Inv e m0 ib ob sc f0 (4 * k) (4 * k) (n - k) (4 * k) s' ∧
      s'.fl = subFlags (BitVec.ofNat 64 (n - k)) (BitVec.ofNat 64 0) := by
    as [hi.x1]
    exact ⟨_, rfl, ⟨hi.x0, hi.x2, hi.x1, hi.v0, hi.fp, hi.mem⟩, rfl⟩
  have hb := reach_branch (m := sem e) (p := prog) (s := s1) (pc := 68) (t := 75) .BEQ .vscalef32_done (by decide +kernel) (by decide +kernel)
    (b := decide (k = n)) (by
      show s1.fl.taken .BEQ = _
      rw [f1, taken_eq (by omega) (by omega)]
      congr 1
      exact propext (by omega))
  have fin : ∀ s', Returns (sem e) prog 75 s' s' := fun s' => (reach_blk (p := prog) (m := sem e) (pc := 75) (s := s') (s' := s')
    [.label .vscalef32_done] (by decide +kernel) rfl).returns (returns_ret (by decide +kernel))
  by_cases c : k = n
  · subst c
    rw [decide_eq_true rfl, if_pos rfl] at hb
    rw [Nat.sub_self] at i1
    exact ⟨s1, i1, ((reach_blk b66 h66 g1).trans hb).returns (fin s1)⟩
  · rw [decide_eq_false c, if_neg (by decide)] at hb
    obtain ⟨s', i', r'⟩ := scalar h hn (by omega) i1
    exact ⟨s', i', (((reach_blk b66 h66 g1).trans hb).trans r').returns (fin s')⟩

/-- The whole routine. -/
theorem routine {nin nout : Nat} (hin : nin < 2 ^ 63) (hout : nout < 2 ^ 63) (hn : n = min nin nout)
    (h : Io e.rd e.wr ib ob (4 * n) (4 * n) id) {s : St} (f1 : s.fp 0 = ib) (f2 : s.fp 8 = BitVec.ofNat 64 nin) (f3 : s.fp 24 = ob)
    (f4 : s.fp 32 = BitVec.ofNat 64 nout) (f5 : (s.fp 48).setWidth 32 = sc) :
    ∃ s', Inv e s.mem ib ob sc s.fp (4 * n) (4 * n) 0 (4 * n) s' ∧ Returns (sem e) prog 12 s s' := by
  obtain ⟨s1, g1, e1⟩ : ∃ s', blk (sem e) b12 s = some s' ∧ (s'.x 0 = ib ∧ s'.x 1 = BitVec.ofNat 64 nin ∧ s'.x 2 = ob ∧ s'.x 3 = BitVec.ofNat 64 nout ∧
      s'.fp = s.fp ∧ s'.mem = s.mem ∧ s'.fl = subFlags (BitVec.ofNat 64 nin) (BitVec.ofNat 64 nout)) ∧ d32 (s'.v 0) 0 = sc := by
    as [f1, f2, f3, f4]
    refine ⟨_, rfl, ⟨?_, ?_, ?_, ?_, rfl, rfl, rfl⟩, ?_⟩ <;> as []
    rw [d32_bytes32, f5]
  have hb := reach_branch (m := sem e) (p := prog) (s := s1) (pc := 20) (t := 22) .BLT .vscalef32_min_len (by decide +kernel) (by decide +kernel)
    (b := decide (nin < nout)) (by
      show s1.fl.taken .BLT = _
      rw [e1.1.2.2.2.2.2.2, taken_lt hin hout])
  obtain ⟨s2, r2, e2⟩ : ∃ s', Reach (sem e) prog 12 s 22 s' ∧ (s'.x 0 = ib ∧ s'.x 1 = BitVec.ofNat 64 n ∧ s'.x 2 = ob ∧ s'.fp = s.fp ∧ s'.mem = s.mem) ∧
      d32 (s'.v 0) 0 = sc := by
    obtain ⟨e1, e0⟩ := e1
    by_cases c : nin < nout
    · rw [decide_eq_true c, if_pos rfl] at hb
      exact ⟨s1, (reach_blk b12 h12 g1).trans hb, ⟨e1.1, by rw [e1.2.1, hn, Nat.min_eq_left c.le], e1.2.2.1, e1.2.2.2.2.1, e1.2.2.2.2.2.1⟩, e0⟩
    · rw [decide_eq_false c, if_neg (by decide)] at hb
      obtain ⟨s2, g2, e2⟩ : ∃ s', blk (sem e) b21 s1 = some s' ∧ (s'.x 0 = ib ∧ s'.x 1 = BitVec.ofNat 64 nout ∧ s'.x 2 = ob ∧ s'.fp = s.fp ∧ s'.mem = s.mem) ∧
          d32 (s'.v 0) 0 = sc := by
        as []
        refine ⟨_, rfl, ⟨?_, ?_, ?_, e1.2.2.2.2.1, e1.2.2.2.2.2.1⟩, e0⟩ <;> as [e1.1, e1.2.1, e1.2.2.1, e1.2.2.2.1]
      exact ⟨s2, ((reach_blk b12 h12 g1).trans hb).trans (reach_blk b21 h21 g2), ⟨e2.1.1, by rw [e2.1.2.1, hn, Nat.min_eq_right (by omega)], e2.1.2.2⟩, e2.2⟩
  obtain ⟨e2, e0⟩ := e2
  obtain ⟨s3, g3, i3, f3⟩ : ∃ s', blk (sem e) b22 s2 = some s' ∧ Inv e s.mem ib ob sc s.fp 0 0 n 0 s' ∧
      s'.fl = subFlags (BitVec.ofNat 64 n) (BitVec.ofNat 64 16) := by
    as [e2.2.1]
    refine ⟨_, rfl, ⟨?_, ?_, ?_, e0, e2.2.2.2.1, ?_⟩, rfl⟩
    · as [e2.1]
    · as [e2.2.2.1]
    · as [e2.2.1]
    · rw [fill_zero]; exact e2.2.2.2.2
  have hb2 := reach_branch (m := sem e) (p := prog) (s := s3) (pc := 27) (t := 66) .BLT .vscalef32_scaler (by decide +kernel) (by decide +kernel)
    (b := decide (n < 16)) (by
      show s3.fl.taken .BLT = _
      rw [f3, taken_lt (by omega) (by omega)])
  have r3 := r2.trans (reach_blk b22 h22 g3)
  by_cases c : n < 16
  · rw [decide_eq_true c, if_pos rfl] at hb2
    obtain ⟨s', i', r'⟩ := rest h (by omega) (Nat.zero_le n) (k := 0) (s := s3) (by simpa using i3)
    exact ⟨s', i', (r3.trans hb2).returns r'⟩
  · rw [decide_eq_false c, if_neg (by decide)] at hb2
    obtain ⟨k, s4, hk, i4, r4⟩ := simd h (by omega) (by omega) i3
    have r65 : Reach (sem e) prog 65 s4 66 s4 := reach_blk (p := prog) (m := sem e) (pc := 65) [.nop] (by decide +kernel) rfl
    obtain ⟨s', i', r'⟩ := rest h (by omega) hk i4
    exact ⟨s', i', ((r3.trans hb2).trans (r4.trans r65)).returns r'⟩

end VS
end Verif.A64.Math
