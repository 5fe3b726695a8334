import Verif.A32.Ui8Lemmas

/-!
# The run of `F32toi16` on 32-bit ARM, instruction by instruction
-/

namespace Verif.A32.Conv
open Verif.A32 Verif.Mach
open Verif.X86 (Vec byte d32 w16 of32 of16 bytes32)

/-! ### Basic blocks -/

/-- dsp/conversion_arm.s:170-182. -/
abbrev b170 : List (Line Lbl Ins Cond) :=
  [.label .F32toi16,
   .ins (.op .MOVW [.fp 0, .r 1]),
   .ins (.op .MOVW [.fp 4, .r 2]),
   .ins (.op .MOVW [.fp 12, .r 3]),
   .ins (.op .MOVW [.fp 16, .r 0]),
   .ins (.op .MOVF [.fp 24, .f 0]), .nop, .nop,
   .ins (.op .CMP [.r 2, .r 0]),
   .ins (.opc .LT .MOVW [.r 0, .r 2]), .nop, .nop,
   .ins (.op .TEQ [.i 0, .r 2])]

theorem h170 : (prog.drop 170).take b170.length = b170 := by decide +kernel

/-- dsp/conversion_arm.s:184-194. -/
abbrev b184 : List (Line Lbl Ins Cond) :=
  [.nop,
   .ins (.op .MOVW [.r 2, .r 7]),
   .ins (.op .ADD [.sl 2 2, .r 1, .r 2]), .nop, .nop, .nop, .nop, .nop, .nop,
   .ins (.op .MOVBU [.sb .UseVector, .r 0]),
   .ins (.op .TEQ [.i 0, .r 0])]

theorem h184 : (prog.drop 184).take b184.length = b184 := by decide +kernel

/-- dsp/conversion_arm.s:196-200. -/
abbrev b196 : List (Line Lbl Ins Cond) :=
  [.nop, .nop, .nop,
   .ins (.op .AND [.i (-4), .r 7]),
   .ins (.op .TEQ [.i 0, .r 7])]

theorem h196 : (prog.drop 196).take b196.length = b196 := by decide +kernel

/-- dsp/conversion_arm.s:202-203. -/
abbrev b202 : List (Line Lbl Ins Cond) :=
  [.ins (.op .ADD [.sl 7 2, .r 1, .r 7]), .nop]

theorem h202 : (prog.drop 202).take b202.length = b202 := by decide +kernel

/-- dsp/conversion_arm.s:204-213. -/
abbrev b204 : List (Line Lbl Ins Cond) :=
  [.label .f32toi16_scalar_loop,
   .ins (.WORD 0xecb11a04),
   .ins (.WORD 0xee211a00),
   .ins (.WORD 0xee611a80),
   .ins (.WORD 0xee222a00),
   .ins (.WORD 0xee622a80),
   .ins (.WORD 0xeebd1ac1),
   .ins (.WORD 0xeefd1ae1),
   .ins (.WORD 0xeebd2ac2),
   .ins (.WORD 0xeefd2ae2)]

theorem h204 : (prog.drop 204).take b204.length = b204 := by decide +kernel

/-- dsp/conversion_arm.s:214-216. -/
abbrev b214 : List (Line Lbl Ins Cond) :=
  [.ins (.WORD 0xec540a11),
   .ins (.op .MOVH [.r 0, .m 3 0]),
   .ins (.op .MOVH [.r 4, .m 3 2])]

theorem h214 : (prog.drop 214).take b214.length = b214 := by decide +kernel

/-- dsp/conversion_arm.s:217-222. -/
abbrev b217 : List (Line Lbl Ins Cond) :=
  [.ins (.WORD 0xec5b8a12),
   .ins (.op .MOVH [.r 8, .m 3 4]),
   .ins (.op .MOVH [.r 11, .m 3 6]),
   .ins (.op .ADD [.i 8, .r 3]), .nop,
   .ins (.op .CMP [.r 7, .r 1])]

theorem h217 : (prog.drop 217).take b217.length = b217 := by decide +kernel

/-- dsp/conversion_arm.s:229-231. -/
abbrev b229 : List (Line Lbl Ins Cond) :=
  [.label .f32toi16_vector,
   .ins (.op .AND [.i (-8), .r 7]),
   .ins (.op .TEQ [.i 0, .r 7])]

theorem h229 : (prog.drop 229).take b229.length = b229 := by decide +kernel

/-- dsp/conversion_arm.s:233-240. -/
abbrev b233 : List (Line Lbl Ins Cond) :=
  [.ins (.op .ADD [.sl 7 2, .r 1, .r 7]), .nop,
   .ins (.op .PLD [.m 1 0]),
   .ins (.op .PLD [.m 1 64]),
   .ins (.op .PLD [.m 1 128]),
   .ins (.op .PLD [.m 1 192]), .nop, .nop]

theorem h233 : (prog.drop 233).take b233.length = b233 := by decide +kernel

/-- dsp/conversion_arm.s:241-245. -/
abbrev b241 : List (Line Lbl Ins Cond) :=
  [.ins (.WORD 0xeef10a10),
   .ins (.op .BIC [.i 0x370000, .r 0]),
   .ins (.op .ORR [.i 0x70000, .r 0]),
   .ins (.WORD 0xeee10a10), .nop]

theorem h241 : (prog.drop 241).take b241.length = b241 := by decide +kernel

/-- dsp/conversion_arm.s:246-249. -/
abbrev b246 : List (Line Lbl Ins Cond) :=
  [.label .f32toi16_vector_loop,
   .ins (.op .PLD [.m 1 256]),
   .ins (.WORD 0xecb14a08),
   .ins (.WORD 0xee244a00)]

theorem h246 : (prog.drop 246).take b246.length = b246 := by decide +kernel

/-- dsp/conversion_arm.s:250-253. -/
abbrev b250 : List (Line Lbl Ins Cond) :=
  [.ins (.WORD 0xeebd4ac4),
   .ins (.WORD 0xeefd4ae4),
   .ins (.WORD 0xeebd5ac5),
   .ins (.WORD 0xeefd5ae5)]

theorem h250 : (prog.drop 250).take b250.length = b250 := by decide +kernel

/-- dsp/conversion_arm.s:254-257. -/
abbrev b254 : List (Line Lbl Ins Cond) :=
  [.ins (.WORD 0xec540a14),
   .ins (.WORD 0xec5b8a15),
   .ins (.op .MOVH [.r 0, .m 3 0]),
   .ins (.op .MOVH [.r 4, .m 3 2])]

theorem h254 : (prog.drop 254).take b254.length = b254 := by decide +kernel

/-- dsp/conversion_arm.s:258-259. -/
abbrev b258 : List (Line Lbl Ins Cond) :=
  [.ins (.op .MOVH [.r 8, .m 3 4]),
   .ins (.op .MOVH [.r 11, .m 3 6])]

theorem h258 : (prog.drop 258).take b258.length = b258 := by decide +kernel

/-- dsp/conversion_arm.s:260-263. -/
abbrev b260 : List (Line Lbl Ins Cond) :=
  [.ins (.WORD 0xeebd6ac6),
   .ins (.WORD 0xeefd6ae6),
   .ins (.WORD 0xeebd7ac7),
   .ins (.WORD 0xeefd7ae7)]

theorem h260 : (prog.drop 260).take b260.length = b260 := by decide +kernel

/-- dsp/conversion_arm.s:264-267. -/
abbrev b264 : List (Line Lbl Ins Cond) :=
  [.ins (.WORD 0xec540a16),
   .ins (.WORD 0xec5b8a17),
   .ins (.op .MOVH [.r 0, .m 3 8]),
   .ins (.op .MOVH [.r 4, .m 3 10])]

theorem h264 : (prog.drop 264).take b264.length = b264 := by decide +kernel

/-- dsp/conversion_arm.s:268-272. -/
abbrev b268 : List (Line Lbl Ins Cond) :=
  [.ins (.op .MOVH [.r 8, .m 3 12]),
   .ins (.op .MOVH [.r 11, .m 3 14]),
   .ins (.op .ADD [.i 16, .r 3]), .nop,
   .ins (.op .CMP [.r 7, .r 1])]

theorem h268 : (prog.drop 268).take b268.length = b268 := by decide +kernel

/-- dsp/conversion_arm.s:276-279. -/
abbrev b276 : List (Line Lbl Ins Cond) :=
  [.ins (.WORD 0xeef10a10),
   .ins (.op .BIC [.i 0x370000, .r 0]),
   .ins (.WORD 0xeee10a10), .nop]

theorem h276 : (prog.drop 276).take b276.length = b276 := by decide +kernel

/-- dsp/conversion_arm.s:280-281. -/
abbrev b280 : List (Line Lbl Ins Cond) :=
  [.label .f32toi16_tail,
   .ins (.op .CMP [.r 1, .r 2])]

theorem h280 : (prog.drop 280).take b280.length = b280 := by decide +kernel

/-- dsp/conversion_arm.s:284-291. -/
abbrev b284 : List (Line Lbl Ins Cond) :=
  [.label .f32toi16_tail_loop,
   .ins (.op .MOVF [.m 1 0, .f 1]),
   .ins (.op .ADD [.i 4, .r 1]),
   .ins (.op .MULF [.f 0, .f 1]),
   .ins (.op .MOVFW [.f 1, .r 0]),
   .ins (.op .MOVHU [.r 0, .m 3 0]),
   .ins (.op .ADD [.i 2, .r 3]),
   .ins (.op .CMP [.r 2, .r 1])]

theorem h284 : (prog.drop 284).take b284.length = b284 := by decide +kernel

/-- dsp/conversion_arm.s:298-301. -/
abbrev b298 : List (Line Lbl Ins Cond) :=
  [.label .F32toi16ble,
   .ins (.op .MOVW [.fp 16, .r 0]),
   .ins (.op .MOVW [.sr 0 1, .r 0]),
   .ins (.op .MOVW [.r 0, .fp 16])]

theorem h298 : (prog.drop 298).take b298.length = b298 := by decide +kernel

/-! ### Invariant -/

namespace F16

variable {e : Env} {m0 : BitVec 32 → BitVec 8} {ib ob sc F : BitVec 32} {n : Nat} {f0 : Nat → BitVec 32}

/-- The integer made of input word `i`. -/
def elem (e : Env) (m0 : BitVec 32 → BitVec 8) (ib sc : BitVec 32) (i : Nat) : BitVec 32 :=
  e.o.toInt (e.o.mul (u32at m0 (ib + BitVec.ofNat 32 (4 * i))) sc)

/-- The output bytes. -/
def want (e : Env) (m0 : BitVec 32 → BitVec 8) (ib sc : BitVec 32) (j : Nat) : BitVec 8 := byte (elem e m0 ib sc (j / 2)) (j % 2)

/-- Input position `k`, output position `o` and bytes `t` written; end of the input `n`. -/
structure Inv (e : Env) (m0 : BitVec 32 → BitVec 8) (ib ob sc F : BitVec 32) (f0 : Nat → BitVec 32) (n k o t : Nat) (s : St) : Prop where
  r1 : s.r 1 = ib + BitVec.ofNat 32 (4 * k)
  r2 : s.r 2 = ib + BitVec.ofNat 32 (4 * n)
  r3 : s.r 3 = ob + BitVec.ofNat 32 (2 * o)
  v0 : s.v 0 = sc
  fs : s.fpscr = F
  fp : s.fp = f0
  mem : s.mem = fill m0 ob (2 * t) (want e m0 ib sc)

theorem d32_inp {k c j : Nat} (hj : j < c) : d32 (inp m0 ib (4 * k) (4 * c)) j = u32at m0 (ib + BitVec.ofNat 32 (4 * (k + j))) := by
  rw [u32at_d32]
  unfold d32 inp
  simp only
  rw [if_pos (by omega), if_pos (by omega), if_pos (by omega), if_pos (by omega)]
  simp only [show ∀ x, 4 * k + (4 * j + x) = 4 * (k + j) + x by intro x; omega, show 4 * k + 4 * j = 4 * (k + j) by omega]

theorem half {x : BitVec 32} {k : Nat} (hx : x = elem e m0 ib sc k) : ∀ i < 2, bytes32 x i = want e m0 ib sc (2 * k + i) := by
  intro i hi
  rw [want, show (2 * k + i) / 2 = k by omega, show (2 * k + i) % 2 = i by omega, bytes32, if_pos (by omega), hx]

/-! ### One element -/

theorem one {v : Nat} (h : Io e.rd e.wr ib ob (4 * n) v (fun _ => v)) (hv : v = 2 * n) (hal : ib.toNat % 4 = 0) {k : Nat} (hk : k < n) {s : St}
    (hi : Inv e m0 ib ob sc F f0 n k k k s) :
    ∃ s', blk (sem e) b284 s = some s' ∧ Inv e m0 ib ob sc F f0 n (k + 1) (k + 1) (k + 1) s' ∧
      s'.fl = subFlags (ib + BitVec.ofNat 32 (4 * (k + 1))) (ib + BitVec.ofNat 32 (4 * n)) := by
  ar [hi.r1, hi.r2, hi.r3, hi.v0, Env.ldw, aligned hal (show 4 * k % 4 = 0 by omega), h.load hi.mem rfl (show 4 * k + 4 ≤ 4 * n by omega) (fun _ _ => by omega),
    adv, Env.fpu, vfp_low (show 2 < 8 by decide)]
  rw [h.store hi.mem (len := 2) rfl (by omega) (half ?_)]
  rotate_left
  · rw [elem]
    have := d32_inp (m0 := m0) (ib := ib) (k := k) (show 0 < 1 by decide)
    rw [Nat.mul_one, Nat.add_zero] at this
    rw [this]
  ar [hi.r1, hi.r2, hi.r3, adv]
  have e1 : 2 * k + 2 = 2 * (k + 1) := by omega
  have e2 : 4 * k + 4 = 4 * (k + 1) := by omega
  refine ⟨_, rfl, ⟨?_, ?_, ?_, ?_, hi.fs, hi.fp, ?_⟩, ?_⟩
  · ar [e2]
  · ar [hi.r2]
  · ar [e1]
  · ar [hi.v0]
  · rw [e1]
  · ar [e2]

/-! ### Four elements -/

/-- With the end of the loop. -/
structure InvB (e : Env) (m0 : BitVec 32 → BitVec 8) (ib ob sc F : BitVec 32) (f0 : Nat → BitVec 32) (z n k o t : Nat) (s : St) : Prop where
  inv : Inv e m0 ib ob sc F f0 n k o t s
  r7 : s.r 7 = ib + BitVec.ofNat 32 (4 * z)

theorem blk204 {v z : Nat} (h : Io e.rd e.wr ib ob (4 * n) v (fun _ => v)) (hv : v = 2 * n) (hal : ib.toNat % 4 = 0) {k : Nat} (hk : k + 4 ≤ n) {s : St}
    (hi : InvB e m0 ib ob sc F f0 z n k k k s) :
    ∃ s', blk (sem e) b204 s = some s' ∧ InvB e m0 ib ob sc F f0 z n (k + 4) k k s' ∧ ∀ j < 4, s'.v (2 + j) = elem e m0 ib sc (k + j) := by
  ar [wecb11a04, wee211a00, wee611a80, wee222a00, wee622a80, weebd1ac1, weefd1ae1, weebd2ac2, weefd2ae2, hi.inv.r1, Env.ldw,
    aligned hal (show 4 * k % 4 = 0 by omega), h.load hi.inv.mem rfl (show 4 * k + 16 ≤ 4 * n by omega) (fun _ _ => by omega), adv,
    vfp_low (show 2 < 8 by decide), vfp_low (show 3 < 8 by decide), vfp_low (show 4 < 8 by decide), vfp_low (show 5 < 8 by decide), setVs_r]
  have e2 : 4 * k + 16 = 4 * (k + 4) := by omega
  refine ⟨_, rfl, ⟨⟨?_, ?_, ?_, ?_, hi.inv.fs, hi.inv.fp, hi.inv.mem⟩, ?_⟩, ?_⟩
  · ar [e2]
  · ar [hi.inv.r2]
  · ar [hi.inv.r3]
  · ar []
    exact (setVs_out (by omega)).trans hi.inv.v0
  · ar [hi.r7]
  · have hv : ∀ j < 4, (s.setVs 2 4 (d32 (inp m0 ib (4 * k) 16))).v (2 + j) = u32at m0 (ib + BitVec.ofNat 32 (4 * (k + j))) := by
      intro j hj
      rw [setVs_in (by omega) (by omega), ← d32_inp hj, Nat.add_sub_cancel_left]
    have h0 : (s.setVs 2 4 (d32 (inp m0 ib (4 * k) 16))).v 0 = sc := (setVs_out (by omega)).trans hi.inv.v0
    have v2 := hv 0 (by omega)
    have v3 := hv 1 (by omega)
    have v4 := hv 2 (by omega)
    have v5 := hv 3 (by omega)
    simp only [Nat.reduceAdd] at v2 v3 v4 v5
    intro j hj
    unfold elem
    obtain rfl | rfl | rfl | rfl : j = 0 ∨ j = 1 ∨ j = 2 ∨ j = 3 := by omega
    all_goals ar [v2, v3, v4, v5, h0]

theorem blk214 {v z : Nat} (h : Io e.rd e.wr ib ob (4 * n) v (fun _ => v)) (hv : v = 2 * n) {k : Nat} (hk : k + 4 ≤ n) {s : St}
    (hi : InvB e m0 ib ob sc F f0 z n (k + 4) k k s) (hl : ∀ j < 4, s.v (2 + j) = elem e m0 ib sc (k + j)) :
    ∃ s', blk (sem e) b214 s = some s' ∧ InvB e m0 ib ob sc F f0 z n (k + 4) k (k + 2) s' ∧ s'.v = s.v := by
  have v2 := hl 0 (by omega)
  have v3 := hl 1 (by omega)
  simp only [Nat.reduceAdd] at v2 v3
  ar [wec540a11, hi.inv.r3]
  rw [h.store hi.inv.mem (len := 2) rfl (by omega) (half v2)]
  have e1 : 2 * k + 2 = 2 * (k + 1) := by omega
  have e2 : 2 * (k + 1) + 2 = 2 * (k + 2) := by omega
  ar [hi.inv.r3, adv, e1]
  rw [h.store rfl (len := 2) rfl (by omega) (half v3), e2]
  ar []
  refine ⟨_, rfl, ⟨⟨?_, ?_, ?_, hi.inv.v0, hi.inv.fs, hi.inv.fp, rfl⟩, ?_⟩, rfl⟩ <;> ar [hi.inv.r1, hi.inv.r2, hi.inv.r3, hi.r7]

theorem blk217 {v z : Nat} (h : Io e.rd e.wr ib ob (4 * n) v (fun _ => v)) (hv : v = 2 * n) {k : Nat} (hk : k + 4 ≤ n) {s : St}
    (hi : InvB e m0 ib ob sc F f0 z n (k + 4) k (k + 2) s) (hl : ∀ j < 4, s.v (2 + j) = elem e m0 ib sc (k + j)) :
    ∃ s', blk (sem e) b217 s = some s' ∧ InvB e m0 ib ob sc F f0 z n (k + 4) (k + 4) (k + 4) s' ∧
      s'.fl = subFlags (ib + BitVec.ofNat 32 (4 * (k + 4))) (ib + BitVec.ofNat 32 (4 * z)) := by
  have v2 := hl 2 (by omega)
  have v3 := hl 3 (by omega)
  simp only [Nat.reduceAdd] at v2 v3
  have e0 : 2 * k + 4 = 2 * (k + 2) := by omega
  have e1 : 2 * (k + 2) + 2 = 2 * (k + 3) := by omega
  have e2 : 2 * (k + 3) + 2 = 2 * (k + 4) := by omega
  have e3 : 2 * k + 6 = 2 * (k + 3) := by omega
  have e4 : 2 * k + 8 = 2 * (k + 4) := by omega
  ar [wec5b8a12, hi.inv.r3, adv, e0]
  rw [h.store hi.inv.mem (len := 2) rfl (by omega) (half v2)]
  ar [hi.inv.r3, adv, e1, e3]
  rw [h.store rfl (len := 2) rfl (by omega) (half v3), e2]
  ar [hi.inv.r3, adv, e4]
  refine ⟨_, rfl, ⟨⟨?_, ?_, ?_, hi.inv.v0, hi.inv.fs, hi.inv.fp, rfl⟩, ?_⟩, ?_⟩ <;> ar [hi.inv.r1, hi.inv.r2, hi.inv.r3, hi.r7]

theorem four {v z : Nat} (h : Io e.rd e.wr ib ob (4 * n) v (fun _ => v)) (hv : v = 2 * n) (hal : ib.toNat % 4 = 0) {k : Nat} (hk : k + 4 ≤ n) {s : St}
    (hi : InvB e m0 ib ob sc F f0 z n k k k s) :
    ∃ s', Reach (sem e) prog 204 s 223 s' ∧ InvB e m0 ib ob sc F f0 z n (k + 4) (k + 4) (k + 4) s' ∧
      s'.fl = subFlags (ib + BitVec.ofNat 32 (4 * (k + 4))) (ib + BitVec.ofNat 32 (4 * z)) := by
  obtain ⟨s1, g1, i1, p1⟩ := blk204 h hv hal hk hi
  obtain ⟨s2, g2, i2, p2⟩ := blk214 h hv hk i1 p1
  obtain ⟨s3, g3, i3, p3⟩ := blk217 h hv hk i2 (fun j hj => by rw [p2, p1 j hj])
  exact ⟨s3, (reach_blk b204 h204 g1).trans ((reach_blk b214 h214 g2).trans (reach_blk b217 h217 g3)), i3, p3⟩

/-! ### Eight elements -/

theorem blk246 {v z : Nat} (h : Io e.rd e.wr ib ob (4 * n) v (fun _ => v)) (hv : v = 2 * n) (hal : ib.toNat % 4 = 0) (hF : F.extractLsb' 16 3 = 7)
    (hS : e.strideOf (F.extractLsb' 20 2) = some 1) {k : Nat} (hk : k + 8 ≤ n) {s : St} (hi : InvB e m0 ib ob sc F f0 z n k k k s) :
    ∃ s', blk (sem e) b246 s = some s' ∧ InvB e m0 ib ob sc F f0 z n (k + 8) k k s' ∧
      ∀ j < 8, e.o.toInt (s'.v (8 + j)) = elem e m0 ib sc (k + j) := by
  ar [wecb14a08, wee244a00, hi.inv.r1, Env.ldw,
    aligned hal (show 4 * k % 4 = 0 by omega), h.load hi.inv.mem rfl (show 4 * k + 32 ≤ 4 * n by omega) (fun _ _ => by omega), adv, setVs_r]
  rw [vfp_eight ?_ ?_ (by decide) (by decide) (by decide) (Or.inl (by decide))]
  rotate_left
  · exact (congrArg _ hi.inv.fs).trans hF
  · exact (congrArg (fun x : BitVec 32 => e.strideOf (x.extractLsb' 20 2)) hi.inv.fs).trans hS
  have e2 : 4 * k + 32 = 4 * (k + 8) := by omega
  rw [Option.bind_some]
  refine ⟨_, rfl, ⟨⟨?_, ?_, ?_, ?_, hi.inv.fs, hi.inv.fp, hi.inv.mem⟩, ?_⟩, ?_⟩
  · ar [e2, setVs_r]
  · ar [hi.inv.r2, setVs_r]
  · ar [hi.inv.r3, setVs_r]
  · exact (setVs_out (by decide)).trans ((setVs_out (s := s) (r := 8) (k := 8) (a := d32 (inp m0 ib (4 * k) 32)) (by decide)).trans hi.inv.v0)
  · ar [hi.r7, setVs_r]
  · intro j hj
    have hv : (s.setVs 8 8 (d32 (inp m0 ib (4 * k) 32))).v (8 + j) = u32at m0 (ib + BitVec.ofNat 32 (4 * (k + j))) := by
      rw [setVs_in (by omega) (by omega), ← d32_inp hj, Nat.add_sub_cancel_left]
    have h0 : (s.setVs 8 8 (d32 (inp m0 ib (4 * k) 32))).v 0 = sc := (setVs_out (by omega)).trans hi.inv.v0
    rw [setVs_in (by omega) (by omega), Nat.add_sub_cancel_left, elem, if_pos (by decide)]
    exact congrArg e.o.toInt (congrArg₂ e.o.mul hv h0)

/-- Conversion of four words. -/
theorem blk250 {z k o t : Nat} {s : St} (hi : InvB e m0 ib ob sc F f0 z n k o t s) :
    ∃ s', blk (sem e) b250 s = some s' ∧ InvB e m0 ib ob sc F f0 z n k o t s' ∧ (∀ j < 4, s'.v (8 + j) = e.o.toInt (s.v (8 + j))) ∧
      ∀ j < 4, s'.v (12 + j) = s.v (12 + j) := by
  ar [weebd4ac4, weefd4ae4, weebd5ac5, weefd5ae5]
  refine ⟨_, rfl, ⟨⟨hi.inv.r1, hi.inv.r2, hi.inv.r3, ?_, hi.inv.fs, hi.inv.fp, hi.inv.mem⟩, hi.r7⟩, ?_, ?_⟩
  · ar [hi.inv.v0]
  · intro j hj
    obtain rfl | rfl | rfl | rfl : j = 0 ∨ j = 1 ∨ j = 2 ∨ j = 3 := by omega
    all_goals ar []
  · intro j hj
    obtain rfl | rfl | rfl | rfl : j = 0 ∨ j = 1 ∨ j = 2 ∨ j = 3 := by omega
    all_goals ar []

theorem blk260 {z k o t : Nat} {s : St} (hi : InvB e m0 ib ob sc F f0 z n k o t s) :
    ∃ s', blk (sem e) b260 s = some s' ∧ InvB e m0 ib ob sc F f0 z n k o t s' ∧ (∀ j < 4, s'.v (12 + j) = e.o.toInt (s.v (12 + j))) := by
  ar [weebd6ac6, weefd6ae6, weebd7ac7, weefd7ae7]
  refine ⟨_, rfl, ⟨⟨hi.inv.r1, hi.inv.r2, hi.inv.r3, ?_, hi.inv.fs, hi.inv.fp, hi.inv.mem⟩, hi.r7⟩, ?_⟩
  · ar [hi.inv.v0]
  · intro j hj
    obtain rfl | rfl | rfl | rfl : j = 0 ∨ j = 1 ∨ j = 2 ∨ j = 3 := by omega
    all_goals ar []

theorem blk254 {v z : Nat} (h : Io e.rd e.wr ib ob (4 * n) v (fun _ => v)) (hv : v = 2 * n) {k : Nat} (hk : k + 8 ≤ n) {s : St}
    (hi : InvB e m0 ib ob sc F f0 z n (k + 8) k k s) (hl : ∀ j < 4, s.v (8 + j) = elem e m0 ib sc (k + j)) :
    ∃ s', blk (sem e) b254 s = some s' ∧ InvB e m0 ib ob sc F f0 z n (k + 8) k (k + 2) s' ∧ s'.v = s.v ∧
      s'.r 8 = elem e m0 ib sc (k + 2) ∧ s'.r 11 = elem e m0 ib sc (k + 3) := by
  have v2 := hl 0 (by omega)
  have v3 := hl 1 (by omega)
  have v4 := hl 2 (by omega)
  have v5 := hl 3 (by omega)
  simp only [Nat.reduceAdd] at v2 v3 v4 v5
  ar [wec540a14, wec5b8a15, hi.inv.r3]
  rw [h.store hi.inv.mem (len := 2) rfl (by omega) (half v2)]
  have e1 : 2 * k + 2 = 2 * (k + 1) := by omega
  have e2 : 2 * (k + 1) + 2 = 2 * (k + 2) := by omega
  ar [hi.inv.r3, adv, e1]
  rw [h.store rfl (len := 2) rfl (by omega) (half v3), e2]
  ar []
  refine ⟨_, rfl, ⟨⟨?_, ?_, ?_, hi.inv.v0, hi.inv.fs, hi.inv.fp, rfl⟩, ?_⟩, rfl, ?_, ?_⟩ <;> ar [hi.inv.r1, hi.inv.r2, hi.inv.r3, hi.r7, v4, v5]

theorem blk258 {v z : Nat} (h : Io e.rd e.wr ib ob (4 * n) v (fun _ => v)) (hv : v = 2 * n) {k : Nat} (hk : k + 8 ≤ n) {s : St}
    (hi : InvB e m0 ib ob sc F f0 z n (k + 8) k (k + 2) s) (v2 : s.r 8 = elem e m0 ib sc (k + 2)) (v3 : s.r 11 = elem e m0 ib sc (k + 3)) :
    ∃ s', blk (sem e) b258 s = some s' ∧ InvB e m0 ib ob sc F f0 z n (k + 8) k (k + 4) s' ∧ s'.v = s.v := by
  have e0 : 2 * k + 4 = 2 * (k + 2) := by omega
  have e1 : 2 * (k + 2) + 2 = 2 * (k + 3) := by omega
  have e2 : 2 * (k + 3) + 2 = 2 * (k + 4) := by omega
  have e3 : 2 * k + 6 = 2 * (k + 3) := by omega
  ar [hi.inv.r3, adv, e0]
  rw [h.store hi.inv.mem (len := 2) rfl (by omega) (half v2)]
  ar [hi.inv.r3, adv, e1, e3]
  rw [h.store rfl (len := 2) rfl (by omega) (half v3), e2]
  ar []
  exact ⟨_, rfl, ⟨⟨hi.inv.r1, hi.inv.r2, hi.inv.r3, hi.inv.v0, hi.inv.fs, hi.inv.fp, rfl⟩, hi.r7⟩, rfl⟩

theorem blk264 {v z : Nat} (h : Io e.rd e.wr ib ob (4 * n) v (fun _ => v)) (hv : v = 2 * n) {k : Nat} (hk : k + 8 ≤ n) {s : St}
    (hi : InvB e m0 ib ob sc F f0 z n (k + 8) k (k + 4) s) (hl : ∀ j < 4, s.v (12 + j) = elem e m0 ib sc (k + (4 + j))) :
    ∃ s', blk (sem e) b264 s = some s' ∧ InvB e m0 ib ob sc F f0 z n (k + 8) k (k + 6) s' ∧
      s'.r 8 = elem e m0 ib sc (k + 6) ∧ s'.r 11 = elem e m0 ib sc (k + 7) := by
  have v2 := hl 0 (by omega)
  have v3 := hl 1 (by omega)
  have v4 := hl 2 (by omega)
  have v5 := hl 3 (by omega)
  simp only [Nat.reduceAdd] at v2 v3 v4 v5
  have e0 : 2 * k + 8 = 2 * (k + 4) := by omega
  have e1 : 2 * (k + 4) + 2 = 2 * (k + 5) := by omega
  have e2 : 2 * (k + 5) + 2 = 2 * (k + 6) := by omega
  have e3 : 2 * k + 10 = 2 * (k + 5) := by omega
  ar [wec540a16, wec5b8a17, hi.inv.r3, adv, e0]
  rw [h.store hi.inv.mem (len := 2) rfl (by omega) (half v2)]
  ar [hi.inv.r3, adv, e1, e3]
  rw [h.store rfl (len := 2) rfl (by omega) (half v3), e2]
  ar []
  refine ⟨_, rfl, ⟨⟨?_, ?_, ?_, hi.inv.v0, hi.inv.fs, hi.inv.fp, rfl⟩, ?_⟩, ?_, ?_⟩ <;> ar [hi.inv.r1, hi.inv.r2, hi.inv.r3, hi.r7, v4, v5]

theorem blk268 {v z : Nat} (h : Io e.rd e.wr ib ob (4 * n) v (fun _ => v)) (hv : v = 2 * n) {k : Nat} (hk : k + 8 ≤ n) {s : St}
    (hi : InvB e m0 ib ob sc F f0 z n (k + 8) k (k + 6) s) (v2 : s.r 8 = elem e m0 ib sc (k + 6)) (v3 : s.r 11 = elem e m0 ib sc (k + 7)) :
    ∃ s', blk (sem e) b268 s = some s' ∧ InvB e m0 ib ob sc F f0 z n (k + 8) (k + 8) (k + 8) s' ∧
      s'.fl = subFlags (ib + BitVec.ofNat 32 (4 * (k + 8))) (ib + BitVec.ofNat 32 (4 * z)) := by
  have e0 : 2 * k + 12 = 2 * (k + 6) := by omega
  have e1 : 2 * (k + 6) + 2 = 2 * (k + 7) := by omega
  have e2 : 2 * (k + 7) + 2 = 2 * (k + 8) := by omega
  have e3 : 2 * k + 14 = 2 * (k + 7) := by omega
  have e4 : 2 * k + 16 = 2 * (k + 8) := by omega
  ar [hi.inv.r3, adv, e0]
  rw [h.store hi.inv.mem (len := 2) rfl (by omega) (half v2)]
  ar [hi.inv.r3, adv, e1, e3]
  rw [h.store rfl (len := 2) rfl (by omega) (half v3), e2]
  ar [hi.inv.r3, adv, e4]
  refine ⟨_, rfl, ⟨⟨?_, ?_, ?_, hi.inv.v0, hi.inv.fs, hi.inv.fp, rfl⟩, ?_⟩, ?_⟩ <;> ar [hi.inv.r1, hi.inv.r2, hi.inv.r3, hi.r7]

theorem eight {v z : Nat} (h : Io e.rd e.wr ib ob (4 * n) v (fun _ => v)) (hv : v = 2 * n) (hal : ib.toNat % 4 = 0) (hF : F.extractLsb' 16 3 = 7)
    (hS : e.strideOf (F.extractLsb' 20 2) = some 1) {k : Nat} (hk : k + 8 ≤ n) {s : St} (hi : InvB e m0 ib ob sc F f0 z n k k k s) :
    ∃ s', Reach (sem e) prog 246 s 273 s' ∧ InvB e m0 ib ob sc F f0 z n (k + 8) (k + 8) (k + 8) s' ∧
      s'.fl = subFlags (ib + BitVec.ofNat 32 (4 * (k + 8))) (ib + BitVec.ofNat 32 (4 * z)) := by
  obtain ⟨s1, g1, i1, p1⟩ := blk246 h hv hal hF hS hk hi
  obtain ⟨s2, g2, i2, p2, q2⟩ := blk250 i1
  obtain ⟨s3, g3, i3, v3, p3, q3⟩ := blk254 h hv hk i2 (fun j hj => by rw [p2 j hj, p1 j (by omega)])
  obtain ⟨s4, g4, i4, v4⟩ := blk258 h hv hk i3 p3 q3
  obtain ⟨s5, g5, i5, p5⟩ := blk260 i4
  obtain ⟨s6, g6, i6, p6, q6⟩ := blk264 h hv hk i5 (fun j hj => by rw [p5 j hj, v4, v3, q2 j hj, ← p1 _ (by omega), show 8 + (4 + j) = 12 + j by omega])
  obtain ⟨s7, g7, i7, p7⟩ := blk268 h hv hk i6 p6 q6
  exact ⟨s7, (reach_blk b246 h246 g1).trans ((reach_blk b250 h250 g2).trans ((reach_blk b254 h254 g3).trans ((reach_blk b258 h258 g4).trans
    ((reach_blk b260 h260 g5).trans ((reach_blk b264 h264 g6).trans (reach_blk b268 h268 g7)))))), i7, p7⟩

/-! ### The routine -/

theorem ret (s : St) : Returns (sem e) prog 294 s s := (reach_blk (p := prog) (m := sem e) (pc := 294) (s := s) (s' := s)
    [.label .f32toi16_done] (by decide +kernel) rfl).returns (returns_ret (by decide +kernel))

/-- From the label `f32toi16_tail` on. -/
theorem tail {v : Nat} (h : Io e.rd e.wr ib ob (4 * n) v (fun _ => v)) (hv : v = 2 * n) (hal : ib.toNat % 4 = 0) (he : ib.toNat + 4 * n < 2 ^ 32) {k : Nat}
    (hk : k ≤ n) {s : St} (hi : Inv e m0 ib ob sc F f0 n k k k s) :
    ∃ s', Returns (sem e) prog 280 s s' ∧ s'.fp = f0 ∧ s'.fpscr = F ∧
      s'.mem = fill m0 ob (2 * (if k = n then n else Arm.reached ib.toNat 4 k 1 n)) (want e m0 ib sc) := by
  obtain ⟨s1, g1, i1, f1⟩ : ∃ s', blk (sem e) b280 s = some s' ∧ Inv e m0 ib ob sc F f0 n k k k s' ∧
      s'.fl = subFlags (ib + BitVec.ofNat 32 (4 * n)) (ib + BitVec.ofNat 32 (4 * k)) := by
    ar [hi.r1, hi.r2]
    exact ⟨_, rfl, ⟨hi.r1, hi.r2, hi.r3, hi.v0, hi.fs, hi.fp, hi.mem⟩, rfl⟩
  have hb := reach_branch (m := sem e) (p := prog) (s := s1) (pc := 282) (t := 294) .EQ .f32toi16_done (by decide +kernel) (by decide +kernel)
    (b := decide (k = n)) (by
      show s1.fl.taken .EQ = _
      rw [f1, taken_seq]
      congr 1
      refine propext ⟨fun h => ?_, fun h => by rw [h]⟩
      have := (ofNat_inj (by omega) (by omega)).1 (BitVec.add_right_inj _ |>.1 h)
      omega)
  by_cases c : k = n
  · subst c
    rw [decide_eq_true rfl, if_pos rfl] at hb
    exact ⟨s1, ((reach_blk b280 h280 g1).trans hb).returns (ret s1), i1.fp, i1.fs, by rw [i1.mem, if_pos rfl]⟩
  · rw [decide_eq_false c, if_neg (by decide)] at hb
    have r144 : Reach (sem e) prog 283 s1 284 s1 := reach_blk (p := prog) (m := sem e) (pc := 283) [.nop] (by decide +kernel) rfl
    obtain ⟨s3, i3, r3⟩ := aloop (e := e) (p := prog) (a := 284) (b := 293) (fun x t => Inv e m0 ib ob sc F f0 n x x x t) ib 4 k 1 n (by decide)
      (by omega) (by decide) (by omega) (one_dvd _) (fun x t hx hp => by
        obtain ⟨t', g, i, f⟩ := one h hv hal (by omega) hp
        refine ⟨t', i, (reach_blk b284 h284 g).trans ?_⟩
        exact reach_branch (m := sem e) (p := prog) (s := t') (pc := 292) (t := 284) .LT .f32toi16_tail_loop (by decide +kernel) (by decide +kernel)
          (by
            show t'.fl.taken .LT = _
            rw [f, taken_slt])) s1 i1
    have r153 : Reach (sem e) prog 293 s3 294 s3 := reach_blk (p := prog) (m := sem e) (pc := 293) [.nop] (by decide +kernel) rfl
    exact ⟨s3, (((reach_blk b280 h280 g1).trans hb).trans (r144.trans (r3.trans r153))).returns (ret s3), i3.fp, i3.fs, by rw [i3.mem, if_neg c]⟩

/-- Elements done altogether. -/
def total (vec : Bool) (p n : Nat) : Nat := if vec then Arm.converted p 4 8 (n - n % 8) n else Arm.converted p 4 4 (n - n % 4) n

/-- Without vectors. -/
theorem scalar {v : Nat} (h : Io e.rd e.wr ib ob (4 * n) v (fun _ => v)) (hv : v = 2 * n) (hal : ib.toNat % 4 = 0) (he : ib.toNat + 4 * n < 2 ^ 32) {s : St}
    (q7 : s.r 7 = BitVec.ofNat 32 n) (hi : Inv e m0 ib ob sc F f0 n 0 0 0 s) :
    ∃ s', Returns (sem e) prog 196 s s' ∧ s'.fp = f0 ∧ s'.fpscr = F ∧ s'.mem = fill m0 ob (2 * total false ib.toNat n) (want e m0 ib sc) := by
  obtain ⟨s1, g1, e1, i1, z1⟩ : ∃ s', blk (sem e) b196 s = some s' ∧ s'.r 7 = BitVec.ofNat 32 (n - n % 4) ∧
      Inv e m0 ib ob sc F f0 n 0 0 0 s' ∧ s'.fl.z = decide (n - n % 4 = 0) := by
    ar [q7, andN4]
    refine ⟨_, rfl, ?_, ⟨?_, ?_, ?_, hi.v0, hi.fs, hi.fp, hi.mem⟩, ?_⟩ <;>
      ar [hi.r1, hi.r2, hi.r3, beq_zero (show n - n % 4 < 2 ^ 32 by omega)]
  have hb := reach_branch (m := sem e) (p := prog) (s := s1) (pc := 201) (t := 280) .EQ .f32toi16_tail (by decide +kernel) (by decide +kernel)
    (b := decide (n - n % 4 = 0)) z1
  have r58 := (reach_blk b196 h196 g1).trans hb
  by_cases c : n - n % 4 = 0
  · rw [decide_eq_true c, if_pos rfl] at r58
    obtain ⟨s', h1, h2, h3, h4⟩ := tail h hv hal he (Nat.zero_le n) i1
    refine ⟨s', r58.returns h1, h2, h3, ?_⟩
    rw [h4]
    simp only [total, Bool.false_eq_true, if_false, Arm.converted, c, if_true]
  · rw [decide_eq_false c, if_neg (by decide)] at r58
    obtain ⟨s2, g2, i2⟩ : ∃ s', blk (sem e) b202 s1 = some s' ∧ InvB e m0 ib ob sc F f0 (n - n % 4) n 0 0 0 s' := by
      ar [e1, i1.r1, shl32]
      refine ⟨_, rfl, ⟨?_, ?_, ?_, i1.v0, i1.fs, i1.fp, i1.mem⟩, ?_⟩ <;> ar [i1.r1, i1.r2, i1.r3, Nat.reducePow]
    obtain ⟨s3, i3, r3⟩ := aloop (e := e) (p := prog) (a := 204) (b := 224) (fun x => InvB e m0 ib ob sc F f0 (n - n % 4) n x x x) ib 4 0 4 (n - n % 4) (by decide)
      (by omega) (by decide) (by omega) (by omega) (fun x t hx hp => by
        obtain ⟨t', g, i, f⟩ := four h hv hal (by omega) hp
        refine ⟨t', i, g.trans ?_⟩
        exact reach_branch (m := sem e) (p := prog) (s := t') (pc := 223) (t := 204) .LT .f32toi16_scalar_loop (by decide +kernel) (by decide +kernel)
          (by
            show t'.fl.taken .LT = _
            rw [f, taken_slt])) s2 i2
    have r94 : Reach (sem e) prog 224 s3 225 s3 := reach_blk (p := prog) (m := sem e) (pc := 224) [.nop] (by decide +kernel) rfl
    have r95 : Reach (sem e) prog 225 s3 280 s3 := reach_jump .f32toi16_tail (by decide +kernel) (by decide +kernel)
    have hle : Arm.reached ib.toNat 4 0 4 (n - n % 4) ≤ n := (Ui8.reached_le (by omega)).trans (by omega)
    obtain ⟨s', h1, h2, h3, h4⟩ := tail h hv hal he hle i3.inv
    refine ⟨s', (r58.trans ((reach_blk b202 h202 g2).trans (r3.trans (r94.trans r95)))).returns h1, h2, h3, ?_⟩
    rw [h4]
    simp only [total, Bool.false_eq_true, if_false, Arm.converted, c]

/-- FPSCR with LEN and STRIDE cleared. -/
def clear (F : BitVec 32) : BitVec 32 := F &&& ~~~0x370000#32

/-- With vectors. -/
theorem vector {v : Nat} (h : Io e.rd e.wr ib ob (4 * n) v (fun _ => v)) (hv : v = 2 * n) (hal : ib.toNat % 4 = 0) (he : ib.toNat + 4 * n < 2 ^ 32)
    (hS : e.strideOf 0 = some 1) {s : St} (q7 : s.r 7 = BitVec.ofNat 32 n) (hi : Inv e m0 ib ob sc F f0 n 0 0 0 s) :
    ∃ s', Returns (sem e) prog 229 s s' ∧ s'.fp = f0 ∧ s'.fpscr = (if n < 8 then F else clear F) ∧
      s'.mem = fill m0 ob (2 * total true ib.toNat n) (want e m0 ib sc) := by
  obtain ⟨s1, g1, e1, i1, z1⟩ : ∃ s', blk (sem e) b229 s = some s' ∧ s'.r 7 = BitVec.ofNat 32 (n - n % 8) ∧
      Inv e m0 ib ob sc F f0 n 0 0 0 s' ∧ s'.fl.z = decide (n - n % 8 = 0) := by
    ar [q7, andN8]
    refine ⟨_, rfl, ?_, ⟨?_, ?_, ?_, hi.v0, hi.fs, hi.fp, hi.mem⟩, ?_⟩ <;>
      ar [hi.r1, hi.r2, hi.r3, beq_zero (show n - n % 8 < 2 ^ 32 by omega)]
  have hb := reach_branch (m := sem e) (p := prog) (s := s1) (pc := 232) (t := 280) .EQ .f32toi16_tail (by decide +kernel) (by decide +kernel)
    (b := decide (n - n % 8 = 0)) z1
  have r58 := (reach_blk b229 h229 g1).trans hb
  by_cases c : n - n % 8 = 0
  · rw [decide_eq_true c, if_pos rfl] at r58
    obtain ⟨s', h1, h2, h3, h4⟩ := tail h hv hal he (Nat.zero_le n) i1
    refine ⟨s', r58.returns h1, h2, by rw [h3, if_pos (by omega)], ?_⟩
    rw [h4]
    simp only [total, if_true, Arm.converted, c]
  · rw [decide_eq_false c, if_neg (by decide)] at r58
    obtain ⟨s2, g2, i2⟩ : ∃ s', blk (sem e) b233 s1 = some s' ∧ InvB e m0 ib ob sc F f0 (n - n % 8) n 0 0 0 s' := by
      ar [e1, i1.r1, shl32]
      refine ⟨_, rfl, ⟨?_, ?_, ?_, i1.v0, i1.fs, i1.fp, i1.mem⟩, ?_⟩ <;> ar [i1.r1, i1.r2, i1.r3, Nat.reducePow]
    obtain ⟨s3, g3, i3⟩ : ∃ s', blk (sem e) b241 s2 = some s' ∧ InvB e m0 ib ob sc (F &&& ~~~0x370000#32 ||| 0x70000#32) f0 (n - n % 8) n 0 0 0 s' := by
      ar [weef10a10, weee10a10, i2.inv.fs, vmsr_ok]
      refine ⟨_, rfl, ⟨?_, ?_, ?_, i2.inv.v0, rfl, i2.inv.fp, i2.inv.mem⟩, ?_⟩ <;> ar [i2.inv.r1, i2.inv.r2, i2.inv.r3, i2.r7]
    obtain ⟨s4, i4, r4⟩ := aloop (e := e) (p := prog) (a := 246) (b := 274)
      (fun x => InvB e m0 ib ob sc (F &&& ~~~0x370000#32 ||| 0x70000#32) f0 (n - n % 8) n x x x) ib 4 0 8 (n - n % 8) (by decide)
      (by omega) (by decide) (by omega) (by omega) (fun x t hx hp => by
        obtain ⟨t', g, i, f⟩ := eight h hv hal (vmsr_len F) (by rw [vmsr_stride]; exact hS) (by omega) hp
        refine ⟨t', i, g.trans ?_⟩
        exact reach_branch (m := sem e) (p := prog) (s := t') (pc := 273) (t := 246) .LT .f32toi16_vector_loop (by decide +kernel) (by decide +kernel)
          (by
            show t'.fl.taken .LT = _
            rw [f, taken_slt])) s3 i3
    have r94 : Reach (sem e) prog 274 s4 276 s4 := reach_blk (p := prog) (m := sem e) (pc := 274) [.nop, .nop] (by decide +kernel) rfl
    have hle : Arm.reached ib.toNat 4 0 8 (n - n % 8) ≤ n := (Ui8.reached_le (by omega)).trans (by omega)
    obtain ⟨s5, g5, i5⟩ : ∃ s', blk (sem e) b276 s4 = some s' ∧ Inv e m0 ib ob sc (clear F) f0 n (Arm.reached ib.toNat 4 0 8 (n - n % 8))
        (Arm.reached ib.toNat 4 0 8 (n - n % 8)) (Arm.reached ib.toNat 4 0 8 (n - n % 8)) s' := by
      ar [weef10a10, weee10a10, i4.inv.fs, vmsr_back F 0x70000#32 (by decide)]
      refine ⟨_, rfl, ?_, ?_, ?_, i4.inv.v0, vmsr_clear F 0x70000#32 (by decide), i4.inv.fp, i4.inv.mem⟩ <;> ar [i4.inv.r1, i4.inv.r2, i4.inv.r3]
    obtain ⟨s', h1, h2, h3, h4⟩ := tail h hv hal he hle i5
    refine ⟨s', (r58.trans ((reach_blk b233 h233 g2).trans ((reach_blk b241 h241 g3).trans (r4.trans (r94.trans (reach_blk b276 h276 g5)))))).returns h1, h2, ?_, ?_⟩
    · rw [h3, if_neg (by omega)]
    · rw [h4]
      simp only [total, if_true, Arm.converted, c, if_false]

/-- FPSCR afterwards. -/
def after (vec : Bool) (n : Nat) (F : BitVec 32) : BitVec 32 := if vec = true ∧ 8 ≤ n then clear F else F

/-- The whole routine. -/
theorem routine {nin nout v : Nat} (hn : n = min nin nout) (hv : v = 2 * n) {s : St} (ha : Args s ib ob nin nout)
    (h : Io e.rd e.wr ib ob (4 * n) v (fun _ => v)) (hal : ib.toNat % 4 = 0) (he : ib.toNat + 4 * n < 2 ^ 32) (hS : e.strideOf 0 = some 1) :
    ∃ s', Returns (sem e) prog 170 s s' ∧ s'.fp = s.fp ∧ s'.fpscr = after (e.var .UseVector != 0) n s.fpscr ∧
      s'.mem = fill s.mem ob (2 * total (e.var .UseVector != 0) ib.toNat n) (want e s.mem ib (s.fp 24)) := by
  have hin := ha.hin
  have hout := ha.hout
  obtain ⟨s1, g1, e1⟩ : ∃ s', blk (sem e) b170 s = some s' ∧ (s'.r 1 = ib ∧ s'.r 2 = BitVec.ofNat 32 n ∧ s'.r 3 = ob ∧ s'.v 0 = s.fp 24 ∧ s'.fp = s.fp ∧
      s'.fpscr = s.fpscr ∧ s'.mem = s.mem ∧ s'.fl.z = decide (n = 0)) := by
    ar [ha.f1, ha.f2, ha.f3, ha.f4, St.cond, taken_lt hout hin]
    by_cases c : nout < nin
    · rw [decide_eq_true c, if_pos rfl]
      obtain rfl : n = nout := by omega
      ar []
      refine ⟨_, rfl, ?_, ?_, ?_, ?_, rfl, rfl, rfl, ?_⟩ <;> ar [beq_zero (show n < 2 ^ 32 by omega)]
    · rw [decide_eq_false c, if_neg (by decide)]
      obtain rfl : n = nin := by omega
      ar []
      refine ⟨_, rfl, ?_, ?_, ?_, ?_, rfl, rfl, rfl, ?_⟩ <;> ar [beq_zero (show n < 2 ^ 32 by omega)]
  obtain ⟨q1, q2, q3, qv, q4, qs, q5, q6⟩ := e1
  have hb := reach_branch (m := sem e) (p := prog) (s := s1) (pc := 183) (t := 294) .EQ .f32toi16_done (by decide +kernel) (by decide +kernel)
    (b := decide (n = 0)) q6
  have r1 := (reach_blk b170 h170 g1).trans hb
  by_cases c : n = 0
  · rw [decide_eq_true c, if_pos rfl] at r1
    refine ⟨s1, r1.returns (ret s1), q4, ?_, ?_⟩
    · rw [qs, after, if_neg (by omega)]
    · subst c
      have h0 : total (e.var .UseVector != 0) ib.toNat 0 = 0 := by
        cases (e.var .UseVector != 0) <;> rfl
      rw [h0, Nat.mul_zero, fill_zero]
      exact q5
  · rw [decide_eq_false c, if_neg (by decide)] at r1
    obtain ⟨s2, g2, e2, i2, z2⟩ : ∃ s', blk (sem e) b184 s1 = some s' ∧ s'.r 7 = BitVec.ofNat 32 n ∧ Inv e s.mem ib ob (s.fp 24) s.fpscr s.fp n 0 0 0 s' ∧
        s'.fl.taken .NE = (e.var .UseVector != 0) := by
      ar [q1, q2, shl32]
      refine ⟨_, rfl, ?_, ⟨?_, ?_, ?_, qv, qs, q4, ?_⟩, ?_⟩
      · ar []
      · ar [q1]
      · ar [Nat.reducePow]
      · ar [q3]
      · rw [Nat.mul_zero, fill_zero]; exact q5
      · simp only [Flags.taken]
        generalize e.var .UseVector = b
        revert b
        decide +kernel
    have hb2 := reach_branch (m := sem e) (p := prog) (s := s2) (pc := 195) (t := 229) .NE .f32toi16_vector (by decide +kernel) (by decide +kernel) z2
    have r2 := r1.trans ((reach_blk b184 h184 g2).trans hb2)
    revert r2
    generalize (e.var .UseVector != 0) = b
    intro r2
    cases b
    · rw [if_neg (by decide)] at r2
      obtain ⟨s', h1, h2, h3, h4⟩ := scalar h hv hal he e2 i2
      exact ⟨s', r2.returns h1, h2, by rw [h3]; rfl, h4⟩
    · rw [if_pos rfl] at r2
      obtain ⟨s', h1, h2, h3, h4⟩ := vector h hv hal he hS e2 i2
      refine ⟨s', r2.returns h1, h2, ?_, h4⟩
      rw [h3, after]
      by_cases c8 : n < 8
      · rw [if_pos c8, if_neg (by omega)]
      · rw [if_neg c8, if_pos ⟨rfl, by omega⟩]

end F16

end Verif.A32.Conv
