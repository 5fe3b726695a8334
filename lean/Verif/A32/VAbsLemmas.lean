import Verif.A32.A32Spec
import Verif.A32.MathModel

/-!
# The run of `VAbsC64` on 32-bit ARM, instruction by instruction
-/

namespace Verif.A32.Math
open Verif.A32 Verif.Mach
open Verif.X86 (Vec byte d32 of32 bytes32)

namespace VAbs

/-! ### Basic blocks -/

/-- dsp/math32_arm.s:197-208. -/
abbrev b197 : List (Line Lbl Ins Cond) :=
  [.label .VAbsC64,
   .ins (.op .MOVW [.fp 0, .r 0]),
   .ins (.op .MOVW [.fp 12, .r 1]),
   .ins (.op .MOVW [.fp 4, .r 2]),
   .ins (.op .MOVW [.fp 16, .r 3]), .nop, .nop,
   .ins (.op .CMP [.r 2, .r 3]),
   .ins (.opc .LT .MOVW [.r 3, .r 2]), .nop, .nop,
   .ins (.op .CMP [.i 0, .r 2])]

theorem h197 : (prog.drop 197).take b197.length = b197 := by decide +kernel

/-- dsp/math32_arm.s:210-212. -/
abbrev b210 : List (Line Lbl Ins Cond) :=
  [.nop,
   .ins (.op .MOVBU [.sb .UseVector, .r 3]),
   .ins (.op .TEQ [.i 0, .r 3])]

theorem h210 : (prog.drop 210).take b210.length = b210 := by decide +kernel

/-- dsp/math32_arm.s:214-215. -/
abbrev b214 : List (Line Lbl Ins Cond) :=
  [.nop,
   .ins (.op .CMP [.i 4, .r 2])]

theorem h214 : (prog.drop 214).take b214.length = b214 := by decide +kernel

/-- dsp/math32_arm.s:217-228. -/
abbrev b217 : List (Line Lbl Ins Cond) :=
  [.nop,
   .ins (.op .PLD [.m 0 0]),
   .ins (.op .PLD [.m 0 64]),
   .ins (.op .PLD [.m 0 128]),
   .ins (.op .PLD [.m 0 192]), .nop, .nop,
   .ins (.WORD 0xeef13a10),
   .ins (.op .BIC [.i 0x370000, .r 3]),
   .ins (.op .ORR [.i 0x130000, .r 3]),
   .ins (.WORD 0xeee13a10), .nop]

theorem h217 : (prog.drop 217).take b217.length = b217 := by decide +kernel

/-- dsp/math32_arm.s:229-232. -/
abbrev b229 : List (Line Lbl Ins Cond) :=
  [.label .vabsc64_vector_loop,
   .ins (.op .PLD [.m 0 256]), .nop,
   .ins (.WORD 0xecb04a08)]

theorem h229 : (prog.drop 229).take b229.length = b229 := by decide +kernel

/-- dsp/math32_arm.s:233-233. -/
abbrev b233 : List (Line Lbl Ins Cond) :=
  [.ins (.WORD 0xee244a04)]

theorem h233 : (prog.drop 233).take b233.length = b233 := by decide +kernel

/-- dsp/math32_arm.s:234-234. -/
abbrev b234 : List (Line Lbl Ins Cond) :=
  [.ins (.WORD 0xee044aa4)]

theorem h234 : (prog.drop 234).take b234.length = b234 := by decide +kernel

/-- dsp/math32_arm.s:235-235. -/
abbrev b235 : List (Line Lbl Ins Cond) :=
  [.ins (.WORD 0xeeb14ac4)]

theorem h235 : (prog.drop 235).take b235.length = b235 := by decide +kernel

/-- dsp/math32_arm.s:236-236. -/
abbrev b236 : List (Line Lbl Ins Cond) :=
  [.ins (.WORD 0xed814a00)]

theorem h236 : (prog.drop 236).take b236.length = b236 := by decide +kernel

/-- dsp/math32_arm.s:237-237. -/
abbrev b237 : List (Line Lbl Ins Cond) :=
  [.ins (.WORD 0xed815a01)]

theorem h237 : (prog.drop 237).take b237.length = b237 := by decide +kernel

/-- dsp/math32_arm.s:238-238. -/
abbrev b238 : List (Line Lbl Ins Cond) :=
  [.ins (.WORD 0xed816a02)]

theorem h238 : (prog.drop 238).take b238.length = b238 := by decide +kernel

/-- dsp/math32_arm.s:239-239. -/
abbrev b239 : List (Line Lbl Ins Cond) :=
  [.ins (.WORD 0xed817a03)]

theorem h239 : (prog.drop 239).take b239.length = b239 := by decide +kernel

/-- dsp/math32_arm.s:240-243. -/
abbrev b240 : List (Line Lbl Ins Cond) :=
  [.ins (.op .ADD [.i 16, .r 1]), .nop,
   .ins (.op .SUB [.i 4, .r 2]),
   .ins (.op .CMP [.i 4, .r 2])]

theorem h240 : (prog.drop 240).take b240.length = b240 := by decide +kernel

/-- dsp/math32_arm.s:245-251. -/
abbrev b245 : List (Line Lbl Ins Cond) :=
  [.nop, .nop,
   .ins (.WORD 0xeef13a10),
   .ins (.op .BIC [.i 0x370000, .r 3]),
   .ins (.WORD 0xeee13a10), .nop,
   .ins (.op .TEQ [.i 0, .r 2])]

theorem h245 : (prog.drop 245).take b245.length = b245 := by decide +kernel

/-- dsp/math32_arm.s:254-265. -/
abbrev b254 : List (Line Lbl Ins Cond) :=
  [.label .vabsc64_scalar_loop,
   .ins (.op .MOVF [.m 0 0, .f 0]),
   .ins (.op .MOVF [.m 0 4, .f 1]),
   .ins (.op .ADD [.i 8, .r 0]),
   .ins (.op .MULF [.f 0, .f 0]),
   .ins (.op .MULF [.f 1, .f 1]),
   .ins (.op .ADDF [.f 1, .f 0]),
   .ins (.op .SQRTF [.f 0, .f 0]),
   .ins (.op .MOVF [.f 0, .m 1 0]),
   .ins (.op .ADD [.i 4, .r 1]),
   .ins (.op .SUB [.i 1, .r 2]),
   .ins (.op .TEQ [.i 0, .r 2])]

theorem h254 : (prog.drop 254).take b254.length = b254 := by decide +kernel

variable {e : Env} {m0 : BitVec 32 → BitVec 8} {ib ob F : BitVec 32} {n : Nat} {f0 : Nat → BitVec 32}

/-! ### Vectors of four registers, every other one -/

/-- LEN 3 and STRIDE 01 can be set. -/
theorem fmxr_ok (x : BitVec 32) : (((x &&& ~~~0x370000#32) ||| 0x130000#32) ^^^ x) &&& 0x0fc8ffff = 0 := by
  apply BitVec.eq_of_getLsbD_eq
  intro i hi
  simp only [BitVec.getLsbD_and, BitVec.getLsbD_xor, BitVec.getLsbD_or, BitVec.getLsbD_not, hi, decide_true, Bool.true_and]
  generalize x.getLsbD i = b
  revert b i
  decide +kernel

theorem fmxr_len (x : BitVec 32) : ((x &&& ~~~0x370000#32) ||| 0x130000#32).extractLsb' 16 3 = 3 := by
  apply BitVec.eq_of_getLsbD_eq
  intro i hi
  simp only [BitVec.getLsbD_extractLsb', BitVec.getLsbD_and, BitVec.getLsbD_or, BitVec.getLsbD_not, hi, decide_true, Bool.true_and]
  generalize x.getLsbD (16 + i) = b
  revert b i
  decide +kernel

theorem fmxr_stride (x : BitVec 32) : ((x &&& ~~~0x370000#32) ||| 0x130000#32).extractLsb' 20 2 = 1 := by
  apply BitVec.eq_of_getLsbD_eq
  intro i hi
  simp only [BitVec.getLsbD_extractLsb', BitVec.getLsbD_and, BitVec.getLsbD_or, BitVec.getLsbD_not, hi, decide_true, Bool.true_and]
  generalize x.getLsbD (20 + i) = b
  revert b i
  decide +kernel

/-- An operation on every other register of the eight from `s8` on. -/
theorem vfp_four {s : St} {f : BitVec 32 → BitVec 32 → BitVec 32 → BitVec 32} {i j : Nat} (hl : s.fpscr.extractLsb' 16 3 = 3)
    (hs : e.strideOf (s.fpscr.extractLsb' 20 2) = some 2) (hi : i < 2) (hj : j < 2) :
    ∃ s', e.vfp s f 8 (8 + i) (8 + j) = some s' ∧ s'.r = s.r ∧ s'.fpscr = s.fpscr ∧ s'.fp = s.fp ∧ s'.mem = s.mem ∧
      (∀ k < 4, s'.v (8 + 2 * k) = f (s.v (8 + 2 * k)) (s.v (8 + 2 * k + i)) (s.v (8 + 2 * k + j))) ∧ ∀ k < 4, s'.v (9 + 2 * k) = s.v (9 + 2 * k) := by
  unfold Env.vfp Env.lanes
  rw [hl, hs, if_neg (by decide), Option.bind_some, if_pos (by decide), Option.map_some]
  refine ⟨_, rfl, ?_⟩
  simp only [show (List.range (BitVec.toNat (3 : BitVec 3) + 1)).map (· * 2) = [0, 2, 4, 6] by decide, List.foldl_cons, List.foldl_nil]
  obtain rfl | rfl : i = 0 ∨ i = 1 := by omega
  all_goals obtain rfl | rfl : j = 0 ∨ j = 1 := by omega
  all_goals
    refine ⟨rfl, rfl, rfl, rfl, ?_, ?_⟩
    · intro k hk
      obtain rfl | rfl | rfl | rfl : k = 0 ∨ k = 1 ∨ k = 2 ∨ k = 3 := by omega
      all_goals rfl
    · intro k hk
      obtain rfl | rfl | rfl | rfl : k = 0 ∨ k = 1 ∨ k = 2 ∨ k = 3 := by omega
      all_goals rfl

theorem vfp_none {s : St} {f : BitVec 32 → BitVec 32 → BitVec 32 → BitVec 32} {d i j : Nat} (hl : s.fpscr.extractLsb' 16 3 = 3)
    (hs : e.strideOf (s.fpscr.extractLsb' 20 2) = none) (hd : 8 ≤ d) : e.vfp s f d i j = none := by
  unfold Env.vfp Env.lanes
  rw [hl, hs, if_neg (by rw [not_or]; exact ⟨by decide, by omega⟩)]
  rfl

/-! ### Invariant -/

/-- The absolute value of number `i`. -/
def abs (e : Env) (m0 : BitVec 32 → BitVec 8) (ib : BitVec 32) (i : Nat) : BitVec 32 :=
  e.o.sqrt (e.o.add (e.o.mul (u32at m0 (ib + BitVec.ofNat 32 (4 * (2 * i)))) (u32at m0 (ib + BitVec.ofNat 32 (4 * (2 * i)))))
    (e.o.mul (u32at m0 (ib + BitVec.ofNat 32 (4 * (2 * i + 1)))) (u32at m0 (ib + BitVec.ofNat 32 (4 * (2 * i + 1))))))

/-- The output bytes. -/
def want (e : Env) (m0 : BitVec 32 → BitVec 8) (ib : BitVec 32) (j : Nat) : BitVec 8 := byte (abs e m0 ib (j / 4)) (j % 4)

/-- `a` numbers read, `c` left, `t` written, the output pointer at `b`. -/
structure Inv (e : Env) (m0 : BitVec 32 → BitVec 8) (ib ob F : BitVec 32) (f0 : Nat → BitVec 32) (a b c t : Nat) (s : St) : Prop where
  r0 : s.r 0 = ib + BitVec.ofNat 32 (8 * a)
  r1 : s.r 1 = ob + BitVec.ofNat 32 (4 * b)
  r2 : s.r 2 = BitVec.ofNat 32 c
  fs : s.fpscr = F
  fp : s.fp = f0
  mem : s.mem = fill m0 ob (4 * t) (want e m0 ib)

/-- How far the output may have got when an input byte is read. -/
abbrev lim (i : Nat) : Nat := 4 * (i / 8)

theorem d32_inp {k l len : Nat} (h : 4 * l + 4 ≤ len) : d32 (inp m0 ib (8 * k) len) l = u32at m0 (ib + BitVec.ofNat 32 (4 * (2 * k + l))) := by
  rw [u32at_d32]
  unfold d32 inp
  simp only [show 4 * l < len by omega, show 4 * l + 1 < len by omega, show 4 * l + 2 < len by omega, show 4 * l + 3 < len by omega, if_true]
  rw [show 8 * k + (4 * l + 3) = 4 * (2 * k + l) + 3 by omega, show 8 * k + (4 * l + 2) = 4 * (2 * k + l) + 2 by omega,
    show 8 * k + (4 * l + 1) = 4 * (2 * k + l) + 1 by omega, show 8 * k + 4 * l = 4 * (2 * k + l) by omega]

/-! ### One number -/

theorem one (h : Io e.rd e.wr ib ob (8 * n) (4 * n) lim) (hi4 : ib.toNat % 4 = 0) (ho4 : ob.toNat % 4 = 0) {k : Nat} (hk : k < n) {s : St}
    (hi : Inv e m0 ib ob F f0 k k (n - k) k s) :
    ∃ s', blk (sem e) b254 s = some s' ∧ Inv e m0 ib ob F f0 (k + 1) (k + 1) (n - (k + 1)) (k + 1) s' ∧
      s'.fl.z = (BitVec.ofNat 32 (n - (k + 1)) == 0) := by
  have hr := h.r_le
  ar [hi.r0, hi.r1, hi.r2, Env.ldw, adv, aligned hi4 (show 8 * k % 4 = 0 by omega),
    h.load hi.mem rfl (show 8 * k + 4 ≤ 8 * n by omega) (fun _ _ => by simp only [lim]; omega), aligned hi4 (show (8 * k + 4) % 4 = 0 by omega),
    h.load hi.mem rfl (show 8 * k + 4 + 4 ≤ 8 * n by omega) (fun _ _ => by simp only [lim]; omega), Env.fpu, vfp_low (show 0 < 8 by decide), vfp_low (show 2 < 8 by decide), Env.stw, aligned ho4 (show 4 * k % 4 = 0 by omega)]
  rw [h.store hi.mem (len := 4) rfl (by omega) ?_]
  rotate_left
  · intro i hi'
    have e1 : inp m0 ib (8 * k + 4) 4 = fun i => if i < 4 then inp m0 ib (8 * k) 8 (4 + i) else 0 := by
      funext i
      unfold inp
      by_cases c : i < 4
      · rw [if_pos c, if_pos c, if_pos (by omega), Nat.add_assoc]
      · rw [if_neg c, if_neg c]
    have e2 : d32 (inp m0 ib (8 * k + 4) 4) 0 = d32 (inp m0 ib (8 * k) 8) 1 := by
      rw [e1]; rfl
    simp only [bytes32, show i < 4 by omega, if_true, want, Nat.mul_one]
    rw [e2, d32_inp (by omega), d32_inp (by omega), show (4 * k + i) / 4 = k by omega, show (4 * k + i) % 4 = i by omega, Nat.add_zero, abs]
  ar [hi.r0, hi.r1, hi.r2, adv]
  refine ⟨_, rfl, ⟨?_, ?_, ?_, hi.fs, hi.fp, rfl⟩, ?_⟩
  · ar []; rfl
  · ar []; rfl
  · ar []
    rw [sub32 (by omega) (by omega), Nat.sub_sub]
  · ar []
    rw [sub32 (by omega) (by omega), Nat.sub_sub]

/-! ### Four numbers -/

theorem blk229 (h : Io e.rd e.wr ib ob (8 * n) (4 * n) lim) (hi4 : ib.toNat % 4 = 0) {k : Nat} (hk : k + 4 ≤ n) {s : St}
    (hi : Inv e m0 ib ob F f0 k k (n - k) k s) :
    ∃ s', blk (sem e) b229 s = some s' ∧ Inv e m0 ib ob F f0 (k + 4) k (n - k) k s' ∧
      ∀ l < 8, s'.v (8 + l) = u32at m0 (ib + BitVec.ofNat 32 (4 * (2 * k + l))) := by
  have hld := ldw_io h hi4 hi.mem (k := 8 * k) (n := 8) rfl (by omega) (by omega) (fun _ _ => by simp only [lim]; omega)
  ar [wecb04a08, hi.r0, hld, adv]
  refine ⟨_, rfl, ⟨?_, ?_, ?_, hi.fs, hi.fp, hi.mem⟩, ?_⟩
  · ar []; rfl
  · ar [setVs_r, hi.r1]
  · ar [setVs_r, hi.r2]
  · intro l hl
    refine (setVs_in (r := 8) (k := 8) (by omega) (by omega)).trans ?_
    rw [Nat.add_sub_cancel_left, d32_inp (by omega)]

theorem calc4 (hl : F.extractLsb' 16 3 = 3) (hs : e.strideOf (F.extractLsb' 20 2) = some 2) {k : Nat} {s : St}
    (hi : Inv e m0 ib ob F f0 (k + 4) k (n - k) k s) (hv : ∀ l < 8, s.v (8 + l) = u32at m0 (ib + BitVec.ofNat 32 (4 * (2 * k + l)))) :
    ∃ s', Reach (sem e) prog 233 s 236 s' ∧ Inv e m0 ib ob F f0 (k + 4) k (n - k) k s' ∧ ∀ j < 4, s'.v (8 + 2 * j) = abs e m0 ib (k + j) := by
  rw [← hi.fs] at hl hs
  obtain ⟨s1, g1, a1, a2, a3, a4, a5, a6⟩ := vfp_four (f := fun _ x y => e.o.mul x y) (i := 0) (j := 0) hl hs (by omega) (by omega)
  rw [← a2] at hl hs
  obtain ⟨s2, g2, b1, b2, b3, b4, b5, b6⟩ := vfp_four (f := fun z x y => e.o.add z (e.o.mul x y)) (i := 1) (j := 1) hl hs (by omega) (by omega)
  rw [← b2] at hl hs
  obtain ⟨s3, g3, c1, c2, c3, c4, c5, c6⟩ := vfp_four (f := fun _ _ y => e.o.sqrt y) (i := 0) (j := 0) hl hs (by omega) (by omega)
  have r1 : blk (sem e) b233 s = some s1 := by
    ar [wee244a04]
    rw [show (8 : Nat) = 8 + 0 from rfl, g1]
    rfl
  have r2 : blk (sem e) b234 s1 = some s2 := by
    ar [wee044aa4]
    rw [show (9 : Nat) = 8 + 1 from rfl, g2]
    rfl
  have r3 : blk (sem e) b235 s2 = some s3 := by
    ar [weeb14ac4]
    rw [show e.vfp s2 (fun _ _ y => e.o.sqrt y) 8 8 8 = some s3 from g3]
    rfl
  refine ⟨s3, (reach_blk b233 h233 r1).trans ((reach_blk b234 h234 r2).trans (reach_blk b235 h235 r3)), ⟨?_, ?_, ?_, ?_, ?_, ?_⟩, ?_⟩
  · rw [c1, b1, a1, hi.r0]
  · rw [c1, b1, a1, hi.r1]
  · rw [c1, b1, a1, hi.r2]
  · rw [c2, b2, a2, hi.fs]
  · rw [c3, b3, a3, hi.fp]
  · rw [c4, b4, a4, hi.mem]
  · intro j hj
    have d := hv (2 * j + 1) (by omega)
    rw [show 8 + (2 * j + 1) = 9 + 2 * j by omega] at d
    rw [c5 j hj]
    simp only [Nat.add_zero]
    rw [b5 j hj, a5 j hj, show 8 + 2 * j + 1 = 9 + 2 * j by omega, a6 j hj, Nat.add_zero, hv (2 * j) (by omega), d, abs,
      show 2 * (k + j) = 2 * k + 2 * j by omega, show 2 * k + 2 * j + 1 = 2 * k + (2 * j + 1) by omega]

/-- One of the four stores. -/
theorem put (h : Io e.rd e.wr ib ob (8 * n) (4 * n) lim) (ho4 : ob.toNat % 4 = 0) {k j : Nat} (hk : k + j < n) {s : St}
    (hi : Inv e m0 ib ob F f0 (k + 4) k (n - k) (k + j) s) (hv : s.v (8 + 2 * j) = abs e m0 ib (k + j)) :
    ∃ s', e.stw s (s.r 1 + BitVec.ofNat 32 (4 * j)) 1 (s.vb (8 + 2 * j)) = some s' ∧ Inv e m0 ib ob F f0 (k + 4) k (n - k) (k + j + 1) s' ∧ s'.v = s.v := by
  rw [stw_io h ho4 (t := 4 * (k + j)) (m0 := m0) (g := want e m0 ib) hi.mem (by rw [hi.r1, adv]; congr 2; omega) (by omega) (by omega) ?_]
  · exact ⟨_, rfl, ⟨hi.r0, hi.r1, hi.r2, hi.fs, hi.fp, rfl⟩, rfl⟩
  · intro i hi'
    unfold St.vb of32 want
    simp only
    rw [show 8 + 2 * j + i / 4 = 8 + 2 * j by omega, hv, show (4 * (k + j) + i) / 4 = k + j by omega, show (4 * (k + j) + i) % 4 = i % 4 by omega]

theorem four (h : Io e.rd e.wr ib ob (8 * n) (4 * n) lim) (hn : n < 2 ^ 31) (hi4 : ib.toNat % 4 = 0) (ho4 : ob.toNat % 4 = 0) (hl : F.extractLsb' 16 3 = 3)
    (hs : e.strideOf (F.extractLsb' 20 2) = some 2) {k : Nat} (hk : k + 4 ≤ n) {s : St} (hi : Inv e m0 ib ob F f0 k k (n - k) k s) :
    ∃ s', Reach (sem e) prog 229 s 244 s' ∧ Inv e m0 ib ob F f0 (k + 4) (k + 4) (n - (k + 4)) (k + 4) s' ∧
      s'.fl = subFlags (BitVec.ofNat 32 (n - (k + 4))) (BitVec.ofNat 32 4) := by
  obtain ⟨s1, g1, i1, v1⟩ := blk229 h hi4 hk hi
  obtain ⟨s2, g2, i2, v2⟩ := calc4 hl hs i1 v1
  obtain ⟨s3, g3, i3, v3⟩ := put (j := 0) h ho4 (by omega) i2 (v2 0 (by omega))
  obtain ⟨s4, g4, i4, v4⟩ := put (j := 1) h ho4 (by omega) i3 (by rw [v3]; exact v2 1 (by omega))
  obtain ⟨s5, g5, i5, v5⟩ := put (j := 2) h ho4 (by omega) i4 (by rw [v4, v3]; exact v2 2 (by omega))
  obtain ⟨s6, g6, i6, v6⟩ := put (j := 3) h ho4 (by omega) i5 (by rw [v5, v4, v3]; exact v2 3 (by omega))
  have r3 : blk (sem e) b236 s2 = some s3 := by
    ar [wed814a00]
    simp only [Nat.reduceMul, Nat.reduceAdd, adv0] at g3
    rw [g3]; rfl
  have r4 : blk (sem e) b237 s3 = some s4 := by
    ar [wed815a01]
    simp only [Nat.reduceMul, Nat.reduceAdd] at g4
    rw [g4]; rfl
  have r5 : blk (sem e) b238 s4 = some s5 := by
    ar [wed816a02]
    simp only [Nat.reduceMul, Nat.reduceAdd] at g5
    rw [g5]; rfl
  have r6 : blk (sem e) b239 s5 = some s6 := by
    ar [wed817a03]
    simp only [Nat.reduceMul, Nat.reduceAdd] at g6
    rw [g6]; rfl
  obtain ⟨s7, r7, i7, f7⟩ : ∃ s', blk (sem e) b240 s6 = some s' ∧ Inv e m0 ib ob F f0 (k + 4) (k + 4) (n - (k + 4)) (k + 4) s' ∧
      s'.fl = subFlags (BitVec.ofNat 32 (n - (k + 4))) (BitVec.ofNat 32 4) := by
    ar [i6.r1, i6.r2, sub32 (show 4 ≤ n - k by omega) (show n - k < 2 ^ 32 by omega), Nat.sub_sub, adv]
    refine ⟨_, rfl, ⟨?_, ?_, ?_, i6.fs, i6.fp, i6.mem⟩, rfl⟩
    · ar [i6.r0]
    · ar []; rfl
    · ar []
  exact ⟨s7, (reach_blk b229 h229 g1).trans (g2.trans ((reach_blk b236 h236 r3).trans ((reach_blk b237 h237 r4).trans ((reach_blk b238 h238 r5).trans
    ((reach_blk b239 h239 r6).trans (reach_blk b240 h240 r7)))))), i7, f7⟩

/-! ### Loops -/

theorem scalar (h : Io e.rd e.wr ib ob (8 * n) (4 * n) lim) (hn : n < 2 ^ 31) (hi4 : ib.toNat % 4 = 0) (ho4 : ob.toNat % 4 = 0) {k : Nat} (hk : k < n)
    {s : St} (hi : Inv e m0 ib ob F f0 k k (n - k) k s) :
    ∃ s', Inv e m0 ib ob F f0 n n 0 n s' ∧ Reach (sem e) prog 254 s 268 s' := by
  have main := dloop (m := sem e) (p := prog) (a := 254) (b := 268) (fun x s => Inv e m0 ib ob F f0 x x (n - x) x s) n 1 (by omega) ?_ k s (by omega) hi
  · obtain ⟨k', s', g1, g2, g3, _, _, g6⟩ := main
    obtain rfl : k' = n := by omega
    rw [Nat.sub_self] at g1
    exact ⟨s', g1, g6⟩
  · rintro x s hx hp
    obtain ⟨s', e1, i1, f1⟩ := one h hi4 ho4 (by omega) hp
    refine ⟨s', i1, ?_⟩
    have hb := reach_branch (m := sem e) (p := prog) (pc := 266) (s := s') (t := 254) .NE .vabsc64_scalar_loop (by decide +kernel) (by decide +kernel)
      (b := decide (x + 2 * 1 ≤ n)) (by
        show (!s'.fl.z) = _
        rw [f1, beq_zero (by omega), ← decide_not]
        congr 1
        exact propext (by omega))
    have h2 := (reach_blk b254 h254 e1).trans hb
    by_cases c : x + 2 * 1 ≤ n
    · rw [if_pos c]
      rwa [decide_eq_true c, if_pos rfl] at h2
    · rw [if_neg c]
      rw [decide_eq_false c, if_neg (by decide)] at h2
      exact h2.trans (reach_blk (p := prog) (m := sem e) (pc := 267) [.nop] (by decide +kernel) rfl)

/-- FPSCR with LEN and STRIDE cleared. -/
def clear (F : BitVec 32) : BitVec 32 := F &&& ~~~0x370000#32

/-- To the loop of vectors. -/
theorem enter {k : Nat} {s : St} (hi : Inv e m0 ib ob F f0 k k (n - k) k s) :
    ∃ s', blk (sem e) b217 s = some s' ∧ Inv e m0 ib ob (F &&& ~~~0x370000#32 ||| 0x130000#32) f0 k k (n - k) k s' := by
  ar [weef13a10, weee13a10, hi.fs, fmxr_ok]
  refine ⟨_, rfl, ⟨?_, ?_, ?_, rfl, hi.fp, hi.mem⟩⟩ <;> ar [hi.r0, hi.r1, hi.r2]

theorem vector (h : Io e.rd e.wr ib ob (8 * n) (4 * n) lim) (hn : n < 2 ^ 31) (hi4 : ib.toNat % 4 = 0) (ho4 : ob.toNat % 4 = 0) (h4 : 4 ≤ n)
    (hS : e.strideOf 1 = some 2) {s : St} (hi : Inv e m0 ib ob F f0 0 0 n 0 s) :
    ∃ s', Inv e m0 ib ob (clear F) f0 n n 0 n s' ∧ Reach (sem e) prog 217 s 268 s' := by
  obtain ⟨s1, g1, i1⟩ := enter (n := n) hi
  have main := dloop (m := sem e) (p := prog) (a := 229) (b := 245)
    (fun x s => Inv e m0 ib ob (F &&& ~~~0x370000#32 ||| 0x130000#32) f0 x x (n - x) x s) n 4 (by omega) ?_ 0 s1 (by omega) i1
  · obtain ⟨k', s2, p2, g2, g3, _, _, g6⟩ := main
    obtain ⟨s3, g4, i3, z3⟩ : ∃ s', blk (sem e) b245 s2 = some s' ∧ Inv e m0 ib ob (clear F) f0 k' k' (n - k') k' s' ∧ s'.fl.z = decide (n - k' = 0) := by
      ar [weef13a10, weee13a10, p2.fs, p2.r2, vmsr_back F 0x130000#32 (by decide)]
      refine ⟨_, rfl, ⟨?_, ?_, ?_, vmsr_clear F 0x130000#32 (by decide), p2.fp, p2.mem⟩, beq_zero (by omega)⟩ <;> ar [p2.r0, p2.r1, p2.r2]
    have hb := (reach_blk b217 h217 g1).trans (g6.trans ((reach_blk b245 h245 g4).trans (reach_branch (m := sem e) (p := prog) (s := s3) (pc := 252) (t := 268) .EQ
      .vabsc64_done (by decide +kernel) (by decide +kernel) (b := decide (n - k' = 0)) z3)))
    by_cases c : n - k' = 0
    · rw [decide_eq_true c, if_pos rfl] at hb
      obtain rfl : k' = n := by omega
      rw [c] at i3
      exact ⟨s3, i3, hb⟩
    · rw [decide_eq_false c, if_neg (by decide)] at hb
      obtain ⟨s', h1, h2⟩ := scalar h hn hi4 ho4 (by omega) i3
      exact ⟨s', h1, hb.trans ((reach_blk (p := prog) (m := sem e) (pc := 253) [.nop] (by decide +kernel) rfl).trans h2)⟩
  · rintro x s hx hp
    obtain ⟨s2, g2, i2, f2⟩ := four h hn hi4 ho4 (fmxr_len F) (by rw [fmxr_stride]; exact hS) hx hp
    refine ⟨s2, i2, ?_⟩
    have h2 := g2.trans (reach_branch (m := sem e) (p := prog) (pc := 244) (s := s2) (t := 229) .GE .vabsc64_vector_loop (by decide +kernel) (by decide +kernel)
      (b := decide (x + 2 * 4 ≤ n)) (by
        show s2.fl.taken .GE = _
        rw [f2, taken_ge (by omega) (by omega)]
        congr 1
        exact propext (by omega)))
    by_cases c : x + 2 * 4 ≤ n
    · rw [if_pos c]
      rwa [decide_eq_true c, if_pos rfl] at h2
    · rw [if_neg c]
      rwa [decide_eq_false c, if_neg (by decide)] at h2

/-! ### The routine -/

/-- The beginning: `true` if the vector loop is chosen. -/
theorem begin {nin nout : Nat} {s : St} (ha : Args s ib ob nin nout) (hn : n = min nin nout) :
    ∃ s', Inv e s.mem ib ob s.fpscr s.fp 0 0 n 0 s' ∧
      Reach (sem e) prog 197 s (if n = 0 then 268 else if e.var .UseVector ≠ 0 ∧ 4 ≤ n then 217 else 254) s' := by
  have hi := ha.hin
  have ho := ha.hout
  have hn31 : n < 2 ^ 31 := by omega
  obtain ⟨s1, e1, i1, f1⟩ : ∃ s', blk (sem e) b197 s = some s' ∧ Inv e s.mem ib ob s.fpscr s.fp 0 0 n 0 s' ∧
      s'.fl = subFlags (BitVec.ofNat 32 n) (BitVec.ofNat 32 0) := by
    ar [ha.f1, ha.f2, ha.f3, ha.f4, St.cond, taken_lt ho hi, decide_eq_true_eq]
    by_cases c : nout < nin
    · obtain rfl : n = nout := by omega
      ar [if_pos c]
      refine ⟨_, rfl, ⟨?_, ?_, ?_, rfl, rfl, ?_⟩, ?_⟩
      · ar []
      · ar []
      · ar []
      · rw [Nat.mul_zero]; exact (fill_zero ..).symm
      · ar []
    · obtain rfl : n = nin := by omega
      ar [if_neg c]
      refine ⟨_, rfl, ⟨?_, ?_, ?_, rfl, rfl, ?_⟩, ?_⟩
      · ar []
      · ar []
      · ar []
      · rw [Nat.mul_zero]; exact (fill_zero ..).symm
      · ar []
  have r1 := (reach_blk b197 h197 e1).trans (reach_branch (m := sem e) (p := prog) (s := s1) (pc := 209) (t := 268) .EQ .vabsc64_done (by decide +kernel)
    (by decide +kernel) (b := decide (n = 0)) (by
      show s1.fl.taken .EQ = _
      rw [f1, taken_eq (by omega) (by decide)]))
  by_cases c0 : n = 0
  · rw [decide_eq_true c0, if_pos rfl] at r1
    rw [if_pos c0]
    exact ⟨s1, i1, r1⟩
  rw [decide_eq_false c0, if_neg (by decide)] at r1
  rw [if_neg c0]
  obtain ⟨s2, e2, i2, f2⟩ : ∃ s', blk (sem e) b210 s1 = some s' ∧ Inv e s.mem ib ob s.fpscr s.fp 0 0 n 0 s' ∧
      s'.fl.taken .EQ = decide (e.var .UseVector = 0) := by
    ar []
    refine ⟨_, rfl, ⟨?_, ?_, ?_, i1.fs, i1.fp, i1.mem⟩, ?_⟩
    · ar [i1.r0]
    · ar [i1.r1]
    · ar [i1.r2]
    · simp only [Flags.taken]
      generalize e.var .UseVector = b
      revert b
      decide +kernel
  replace r1 := r1.trans ((reach_blk b210 h210 e2).trans (reach_branch (m := sem e) (p := prog) (s := s2) (pc := 213) (t := 254) .EQ .vabsc64_scalar_loop
    (by decide +kernel) (by decide +kernel) f2))
  by_cases c : e.var .UseVector = 0
  · rw [decide_eq_true c, if_pos rfl] at r1
    rw [if_neg (fun g => g.1 c)]
    exact ⟨s2, i2, r1⟩
  rw [decide_eq_false c, if_neg (by decide)] at r1
  obtain ⟨s3, e3, i3, f3⟩ : ∃ s', blk (sem e) b214 s2 = some s' ∧ Inv e s.mem ib ob s.fpscr s.fp 0 0 n 0 s' ∧
      s'.fl = subFlags (BitVec.ofNat 32 n) (BitVec.ofNat 32 4) := by
    ar [i2.r2]
    exact ⟨_, rfl, ⟨i2.r0, i2.r1, i2.r2, i2.fs, i2.fp, i2.mem⟩, rfl⟩
  replace r1 := r1.trans ((reach_blk b214 h214 e3).trans (reach_branch (m := sem e) (p := prog) (s := s3) (pc := 216) (t := 254) .LT .vabsc64_scalar_loop
    (by decide +kernel) (by decide +kernel) (b := decide (n < 4)) (by
      show s3.fl.taken .LT = _
      rw [f3, taken_lt hn31 (by decide)])))
  by_cases c4 : n < 4
  · rw [decide_eq_true c4, if_pos rfl] at r1
    rw [if_neg (by omega)]
    exact ⟨s3, i3, r1⟩
  · rw [decide_eq_false c4, if_neg (by decide)] at r1
    rw [if_pos ⟨c, by omega⟩]
    exact ⟨s3, i3, r1⟩

/-- FPSCR afterwards. -/
def after (vec : Prop) [Decidable vec] (n : Nat) (F : BitVec 32) : BitVec 32 := if vec ∧ 4 ≤ n then clear F else F

theorem routine {nin nout : Nat} {s : St} (ha : Args s ib ob nin nout) (hn : n = min nin nout) (h : Io e.rd e.wr ib ob (8 * n) (4 * n) lim)
    (hi4 : ib.toNat % 4 = 0) (ho4 : ob.toNat % 4 = 0) (hS : e.var .UseVector ≠ 0 → 4 ≤ n → e.strideOf 1 = some 2) :
    ∃ s', Returns (sem e) prog 197 s s' ∧ s'.fp = s.fp ∧ s'.fpscr = after (e.var .UseVector ≠ 0) n s.fpscr ∧
      s'.mem = fill s.mem ob (4 * n) (want e s.mem ib) := by
  have hi := ha.hin
  have ho := ha.hout
  have done : ∀ {s' F}, Inv e s.mem ib ob F s.fp n n 0 n s' → F = after (e.var .UseVector ≠ 0) n s.fpscr → Reach (sem e) prog 197 s 268 s' →
      ∃ s', Returns (sem e) prog 197 s s' ∧ s'.fp = s.fp ∧ s'.fpscr = after (e.var .UseVector ≠ 0) n s.fpscr ∧
      s'.mem = fill s.mem ob (4 * n) (want e s.mem ib) := by
    intro s' F i hF r
    exact ⟨s', (r.trans (reach_blk (p := prog) (m := sem e) (pc := 268) (s := s') [.label .vabsc64_done] (by decide +kernel) rfl)).returns
      (returns_ret (by decide +kernel)), i.fp, by rw [i.fs, hF], i.mem⟩
  obtain ⟨s1, i1, r1⟩ := begin (e := e) ha hn
  by_cases c0 : n = 0
  · rw [if_pos c0] at r1
    subst c0
    exact done i1 (by rw [after, if_neg (by omega)]) r1
  rw [if_neg c0] at r1
  by_cases c : e.var .UseVector ≠ 0 ∧ 4 ≤ n
  · rw [if_pos c] at r1
    obtain ⟨s', i2, r2⟩ := vector h (by omega) hi4 ho4 c.2 (hS c.1 c.2) i1
    exact done i2 (by rw [after, if_pos c]) (r1.trans r2)
  · rw [if_neg c] at r1
    obtain ⟨s', i2, r2⟩ := scalar h (by omega) hi4 ho4 (by omega) i1
    exact done i2 (by rw [after, if_neg c]) (r1.trans r2)

/-- Where STRIDE 01 has no meaning. -/
theorem routine_fault {nin nout : Nat} {s : St} (ha : Args s ib ob nin nout) (hn : n = min nin nout) (h : Io e.rd e.wr ib ob (8 * n) (4 * n) lim)
    (hi4 : ib.toNat % 4 = 0) (hV : e.var .UseVector ≠ 0) (h4 : 4 ≤ n) (hS : e.strideOf 1 = none) : Faults (sem e) prog 197 s := by
  obtain ⟨s1, i1, r1⟩ := begin (e := e) ha hn
  rw [if_neg (by omega), if_pos ⟨hV, h4⟩] at r1
  obtain ⟨s2, g2, i2⟩ := enter (n := n) i1
  obtain ⟨s3, g3, i3, v3⟩ := blk229 h hi4 (by omega) i2
  refine (r1.trans ((reach_blk b217 h217 g2).trans (reach_blk b229 h229 g3))).faults (faults_ins (i := .WORD 0xee244a04) (by decide +kernel) ?_)
  ar [wee244a04]
  exact vfp_none (by rw [i3.fs]; exact fmxr_len _) (by rw [i3.fs, fmxr_stride]; exact hS) (by decide)

end VAbs
end Verif.A32.Math
