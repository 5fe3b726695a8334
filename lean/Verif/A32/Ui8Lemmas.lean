import Verif.A32.A32Spec
import Verif.A32.ConvModel
import Verif.X86.AvoLemmas

/-!
# The run of `Ui8tof32` on 32-bit ARM, instruction by instruction
-/

namespace Verif.A32.Conv
open Verif.A32 Verif.Mach
open Verif.X86 (Vec byte d32 w16 of32 of16 bytes32)

/-! ### Basic blocks -/

/-- dsp/conversion_arm.s:37-48. -/
abbrev b37 : List (Line Lbl Ins Cond) :=
  [.label .Ui8tof32,
   .ins (.op .MOVW [.fp 0, .r 1]),
   .ins (.op .MOVW [.fp 4, .r 2]),
   .ins (.op .MOVW [.fp 12, .r 3]),
   .ins (.op .MOVW [.fp 16, .r 0]), .nop, .nop,
   .ins (.op .CMP [.r 2, .r 0]),
   .ins (.opc .LT .MOVW [.r 0, .r 2]), .nop, .nop,
   .ins (.op .CMP [.i 0, .r 2])]

theorem h37 : (prog.drop 37).take b37.length = b37 := by decide +kernel

/-- dsp/conversion_arm.s:51-52. -/
abbrev b51 : List (Line Lbl Ins Cond) :=
  [.ins (.op .MOVBU [.sb .HaveNEON, .r 0]),
   .ins (.op .CMP [.i 0, .r 0])]

theorem h51 : (prog.drop 51).take b51.length = b51 := by decide +kernel

/-- dsp/conversion_arm.s:55-57. -/
abbrev b55 : List (Line Lbl Ins Cond) :=
  [.ins (.op .AND [.i (-4), .r 2, .r 0]),
   .ins (.op .ADD [.r 1, .r 2]),
   .ins (.op .TEQ [.i 0, .r 0])]

theorem h55 : (prog.drop 55).take b55.length = b55 := by decide +kernel

/-- dsp/conversion_arm.s:59-62. -/
abbrev b59 : List (Line Lbl Ins Cond) :=
  [.ins (.op .ADD [.r 1, .r 0]), .nop,
   .ins (.op .MOVW [.i 0x80808080, .r 8]), .nop]

theorem h59 : (prog.drop 59).take b59.length = b59 := by decide +kernel

/-- dsp/conversion_arm.s:63-92. -/
abbrev b63 : List (Line Lbl Ins Cond) :=
  [.label .ui8tof32_loop, .nop, .nop, .nop, .nop, .nop, .nop, .nop, .nop, .nop, .nop, .nop, .nop,
   .ins (.op .MOVW [.m 1 0, .r 4]),
   .ins (.op .ADD [.i 4, .r 1]),
   .ins (.WORD 0xe6544ff8),
   .ins (.WORD 0xe6af5474),
   .ins (.WORD 0xe6af6874),
   .ins (.WORD 0xe6af7c74),
   .ins (.WORD 0xe6af4074), .nop,
   .ins (.WORD 0xec454a1e),
   .ins (.WORD 0xec476a1f),
   .ins (.WORD 0xeeb80ace),
   .ins (.WORD 0xeef80aee),
   .ins (.WORD 0xeeb81acf),
   .ins (.WORD 0xeef81aef), .nop,
   .ins (.WORD 0xeca30a04),
   .ins (.op .CMP [.r 0, .r 1])]

theorem h63 : (prog.drop 63).take b63.length = b63 := by decide +kernel

/-- dsp/conversion_arm.s:99-105. -/
abbrev b99 : List (Line Lbl Ins Cond) :=
  [.label .ui8tof32_neon,
   .ins (.op .MOVW [.i 128, .r 0]),
   .ins (.WORD 0xeee00b10), .nop,
   .ins (.op .AND [.i (-64), .r 2, .r 4]),
   .ins (.op .ADD [.r 1, .r 2]),
   .ins (.op .TEQ [.i 0, .r 4])]

theorem h99 : (prog.drop 99).take b99.length = b99 := by decide +kernel

/-- dsp/conversion_arm.s:107-108. -/
abbrev b107 : List (Line Lbl Ins Cond) :=
  [.ins (.op .ADD [.r 1, .r 4]), .nop]

theorem h107 : (prog.drop 107).take b107.length = b107 := by decide +kernel

/-- dsp/conversion_arm.s:109-112. -/
abbrev b109 : List (Line Lbl Ins Cond) :=
  [.label .ui8tof32_neon_loop,
   .ins (.WORD 0xf461c28d), .nop, .nop]

theorem h109 : (prog.drop 109).take b109.length = b109 := by decide +kernel

/-- dsp/conversion_arm.s:113-116. -/
abbrev b113 : List (Line Lbl Ins Cond) :=
  [.ins (.WORD 0xf3cc4280),
   .ins (.WORD 0xf3cd6280),
   .ins (.WORD 0xf3ce8280),
   .ins (.WORD 0xf3cfa280)]

theorem h113 : (prog.drop 113).take b113.length = b113 := by decide +kernel

/-- dsp/conversion_arm.s:117-124. -/
abbrev b117 : List (Line Lbl Ins Cond) :=
  [.ins (.WORD 0xf2902a34),
   .ins (.WORD 0xf2904a35),
   .ins (.WORD 0xf2906a36),
   .ins (.WORD 0xf2908a37),
   .ins (.WORD 0xf290aa38),
   .ins (.WORD 0xf290ca39),
   .ins (.WORD 0xf290ea3a),
   .ins (.WORD 0xf2d00a3b)]

theorem h117 : (prog.drop 117).take b117.length = b117 := by decide +kernel

/-- dsp/conversion_arm.s:125-128. -/
abbrev b125 : List (Line Lbl Ins Cond) :=
  [.ins (.WORD 0xf3bb2642),
   .ins (.WORD 0xf3bb4644),
   .ins (.WORD 0xf3bb6646),
   .ins (.WORD 0xf3bb8648)]

theorem h125 : (prog.drop 125).take b125.length = b125 := by decide +kernel

/-- dsp/conversion_arm.s:129-129. -/
abbrev b129 : List (Line Lbl Ins Cond) :=
  [.ins (.WORD 0xf403228d)]

theorem h129 : (prog.drop 129).take b129.length = b129 := by decide +kernel

/-- dsp/conversion_arm.s:130-131. -/
abbrev b130 : List (Line Lbl Ins Cond) :=
  [.ins (.WORD 0xf3bba64a),
   .ins (.WORD 0xf3bbc64c)]

theorem h130 : (prog.drop 130).take b130.length = b130 := by decide +kernel

/-- dsp/conversion_arm.s:132-132. -/
abbrev b132 : List (Line Lbl Ins Cond) :=
  [.ins (.WORD 0xf403628d)]

theorem h132 : (prog.drop 132).take b132.length = b132 := by decide +kernel

/-- dsp/conversion_arm.s:133-134. -/
abbrev b133 : List (Line Lbl Ins Cond) :=
  [.ins (.WORD 0xf3bbe64e),
   .ins (.WORD 0xf3fb0660)]

theorem h133 : (prog.drop 133).take b133.length = b133 := by decide +kernel

/-- dsp/conversion_arm.s:135-135. -/
abbrev b135 : List (Line Lbl Ins Cond) :=
  [.ins (.WORD 0xf403a28d)]

theorem h135 : (prog.drop 135).take b135.length = b135 := by decide +kernel

/-- dsp/conversion_arm.s:136-136. -/
abbrev b136 : List (Line Lbl Ins Cond) :=
  [.ins (.WORD 0xf403e28d)]

theorem h136 : (prog.drop 136).take b136.length = b136 := by decide +kernel

/-- dsp/conversion_arm.s:137-138. -/
abbrev b137 : List (Line Lbl Ins Cond) :=
  [.nop,
   .ins (.op .CMP [.r 4, .r 1])]

theorem h137 : (prog.drop 137).take b137.length = b137 := by decide +kernel

/-- dsp/conversion_arm.s:141-142. -/
abbrev b141 : List (Line Lbl Ins Cond) :=
  [.label .ui8tof32_tail,
   .ins (.op .CMP [.r 1, .r 2])]

theorem h141 : (prog.drop 141).take b141.length = b141 := by decide +kernel

/-- dsp/conversion_arm.s:145-151. -/
abbrev b145 : List (Line Lbl Ins Cond) :=
  [.label .ui8tof32_tail_loop,
   .ins (.op .MOVBU [.m 1 0, .r 4]),
   .ins (.op .SUB [.i 128, .r 4]),
   .ins (.op .MOVWF [.r 4, .f 0]),
   .ins (.op .ADD [.i 1, .r 1]),
   .ins (.WORD 0xeca30a01),
   .ins (.op .CMP [.r 2, .r 1])]

theorem h145 : (prog.drop 145).take b145.length = b145 := by decide +kernel

/-- dsp/conversion_arm.s:161-167. -/
abbrev b161 : List (Line Lbl Ins Cond) :=
  [.label .Ui8toc64,
   .ins (.op .MOVW [.fp 4, .r 2]),
   .ins (.op .AND [.i (-2), .r 2]),
   .ins (.op .MOVW [.r 2, .fp 4]),
   .ins (.op .MOVW [.fp 16, .r 0]),
   .ins (.op .MOVW [.sl 0 1, .r 0]),
   .ins (.op .MOVW [.r 0, .fp 16])]

theorem h161 : (prog.drop 161).take b161.length = b161 := by decide +kernel

/-! ### Invariant -/

namespace Ui8

variable {e : Env} {m0 : BitVec 32 → BitVec 8} {ib ob : BitVec 32} {n B : Nat} {f0 : Nat → BitVec 32}

/-- Input byte `i` less 128. -/
def val (m0 : BitVec 32 → BitVec 8) (ib : BitVec 32) (i : Nat) : Int := ((m0 (ib + BitVec.ofNat 32 i)).toNat : Int) - 128

/-- The converted byte number `i`, the first `B` with NEON. -/
def elem (e : Env) (m0 : BitVec 32 → BitVec 8) (ib : BitVec 32) (B i : Nat) : BitVec 32 := if i < B then e.o.ncvt (val m0 ib i) else e.o.cvt (val m0 ib i)

/-- The output bytes. -/
def want (e : Env) (m0 : BitVec 32 → BitVec 8) (ib : BitVec 32) (B j : Nat) : BitVec 8 := byte (elem e m0 ib B (j / 4)) (j % 4)

/-- Input position `k`, output position `t` (in bytes), end of the input `n`. -/
structure Inv (e : Env) (m0 : BitVec 32 → BitVec 8) (ib ob : BitVec 32) (f0 : Nat → BitVec 32) (B n k t : Nat) (s : St) : Prop where
  r1 : s.r 1 = ib + BitVec.ofNat 32 k
  r2 : s.r 2 = ib + BitVec.ofNat 32 n
  r3 : s.r 3 = ob + BitVec.ofNat 32 t
  fp : s.fp = f0
  mem : s.mem = fill m0 ob t (want e m0 ib B)

/-! ### One element -/

theorem sub128 (b : BitVec 8) : (b.setWidth 32 - BitVec.ofNat 32 128).toInt = (b.toNat : Int) - 128 := by
  revert b
  decide +kernel

theorem one {v : Nat} (h : Io e.rd e.wr ib ob n v (fun _ => v)) (hv : v = 4 * n) (hal : ob.toNat % 4 = 0) {k : Nat} (hk : k < n) (hB : B ≤ k) {s : St}
    (hi : Inv e m0 ib ob f0 B n k (4 * k) s) :
    ∃ s', blk (sem e) b145 s = some s' ∧ Inv e m0 ib ob f0 B n (k + 1) (4 * (k + 1)) s' ∧
      s'.fl = subFlags (ib + BitVec.ofNat 32 (k + 1)) (ib + BitVec.ofNat 32 n) := by
  ar [weca30a01, hi.r1, hi.r2, hi.r3, h.load hi.mem rfl (show k + 1 ≤ n by omega) (fun _ _ => by omega), adv,
    Env.stw, aligned hal (show 4 * k % 4 = 0 by omega)]
  rw [h.store hi.mem (len := 4) rfl (by omega) ?_]
  rotate_left
  · intro i hi'
    have he : elem e m0 ib B k = e.o.cvt (val m0 ib k) := if_neg (by omega)
    simp only [St.vb, of32, Function.update_apply, want, val, sub128, inp]
    rw [show 0 + i / 4 = 0 by omega, show (4 * k + i) / 4 = k by omega, show (4 * k + i) % 4 = i by omega, he, if_pos rfl, Nat.add_zero,
      if_pos (by decide), show i % 4 = i by omega, val]
  ar [hi.r1, hi.r2, hi.r3]
  refine ⟨_, rfl, ⟨?_, ?_, ?_, hi.fp, rfl⟩, rfl⟩ <;> ar [hi.r2]
  rw [show 4 * (k + 1) = 4 * k + 4 by omega]

/-! ### Four elements -/

/-- The register with the constants. -/
structure Inv4 (e : Env) (m0 : BitVec 32 → BitVec 8) (ib ob : BitVec 32) (f0 : Nat → BitVec 32) (z n k : Nat) (s : St) : Prop where
  inv : Inv e m0 ib ob f0 0 n k (4 * k) s
  r0 : s.r 0 = ib + BitVec.ofNat 32 z
  r8 : s.r 8 = 0x80808080#32

theorem sub80 (x : Vec) {i : Nat} (hi : i < 4) :
    ((byte (d32 (fun j => byte (d32 x 0) j - byte 0x80808080#32 j) 0) i).signExtend 32).toInt = ((x i).toNat : Int) - 128 := by
  rw [byte_d32 _ _ _ hi, Nat.mul_zero, Nat.zero_add, byte_d32 _ _ _ hi, Nat.mul_zero, Nat.zero_add, BitVec.toInt_signExtend_of_le (by omega)]
  have : byte 0x80808080#32 i = 0x80#8 := by
    obtain rfl | rfl | rfl | rfl : i = 0 ∨ i = 1 ∨ i = 2 ∨ i = 3 := by omega
    all_goals rfl
  rw [this, X86.Avo.sub80]

theorem four {v z : Nat} (h : Io e.rd e.wr ib ob n v (fun _ => v)) (hv : v = 4 * n) (hal : ob.toNat % 4 = 0) {k : Nat} (hk : k + 4 ≤ n) {s : St}
    (hi : Inv4 e m0 ib ob f0 z n k s) :
    ∃ s', blk (sem e) b63 s = some s' ∧ Inv4 e m0 ib ob f0 z n (k + 4) s' ∧ s'.fl = subFlags (ib + BitVec.ofNat 32 (k + 4)) (ib + BitVec.ofNat 32 z) := by
  ar [we6544ff8, we6af5474, we6af6874, we6af7c74, we6af4074, wec454a1e, wec476a1f, weeb80ace, weef80aee, weeb81acf, weef81aef, weca30a04,
    hi.inv.r1, hi.inv.r2, hi.inv.r3, hi.r0, hi.r8, h.load hi.inv.mem rfl (show k + 4 ≤ n by omega) (fun _ _ => by omega), adv,
    Env.stw, aligned hal (show 4 * k % 4 = 0 by omega)]
  rw [h.store hi.inv.mem (len := 16) rfl (by omega) ?_]
  rotate_left
  · intro i hi'
    have he : ∀ j, elem e m0 ib 0 j = e.o.cvt (val m0 ib j) := fun j => if_neg (by omega)
    simp only [St.vb, of32, Function.update_apply, want]
    rw [show (4 * k + i) / 4 = k + i / 4 by omega, show (4 * k + i) % 4 = i % 4 by omega, he, val]
    obtain ⟨q, hq⟩ : ∃ q, q = i / 4 := ⟨_, rfl⟩
    rw [← hq]
    obtain rfl | rfl | rfl | rfl : q = 0 ∨ q = 1 ∨ q = 2 ∨ q = 3 := by omega
    all_goals
      simp only [Nat.reduceAdd, Nat.reduceEqDiff, ↓reduceIte]
      rw [sub80 _ (by decide)]
      simp only [inp, Nat.reduceLT, if_true]
  ar [hi.inv.r1, hi.inv.r2, hi.inv.r3, hi.r0]
  refine ⟨_, rfl, ⟨⟨?_, ?_, ?_, hi.inv.fp, rfl⟩, ?_, ?_⟩, rfl⟩ <;> ar [hi.inv.r2, hi.r0, hi.r8]
  rw [show 4 * (k + 4) = 4 * k + 16 by omega]

/-! ### 32 elements with NEON -/

/-- The registers with the constants. -/
structure Inv32 (e : Env) (m0 : BitVec 32 → BitVec 8) (ib ob : BitVec 32) (f0 : Nat → BitVec 32) (B z n k t : Nat) (s : St) : Prop where
  inv : Inv e m0 ib ob f0 B n k t s
  r4 : s.r 4 = ib + BitVec.ofNat 32 z
  d0 : ∀ i < 8, s.vb 0 i = 0x80#8

theorem Inv32.of {z k t : Nat} {s s' : St} (h : Inv32 e m0 ib ob f0 B z n k t s) (hr : s'.r = s.r) (hf : s'.fp = s.fp) (hm : s'.mem = s.mem)
    (hv : ∀ i < 8, s'.vb 0 i = s.vb 0 i) : Inv32 e m0 ib ob f0 B z n k t s' :=
  ⟨⟨by rw [hr, h.inv.r1], by rw [hr, h.inv.r2], by rw [hr, h.inv.r3], by rw [hf, h.inv.fp], by rw [hm, h.inv.mem]⟩, by rw [hr, h.r4],
    fun i hi => by rw [hv i hi, h.d0 i hi]⟩

theorem blk109 {v z : Nat} (h : Io e.rd e.wr ib ob n v (fun _ => v)) (hv : v = 4 * n) {k : Nat} (hk : k + 32 ≤ n) {s : St}
    (hi : Inv32 e m0 ib ob f0 B z n k (4 * k) s) :
    ∃ s', blk (sem e) b109 s = some s' ∧ Inv32 e m0 ib ob f0 B z n (k + 32) (4 * k) s' ∧
      ∀ i < 32, s'.vb 56 i = m0 (ib + BitVec.ofNat 32 (k + i)) := by
  ar [wf461c28d, hi.inv.r1, h.load hi.inv.mem rfl (show k + 32 ≤ n by omega) (fun _ _ => by omega), adv, setVs_r]
  refine ⟨_, rfl, ⟨⟨?_, ?_, ?_, hi.inv.fp, hi.inv.mem⟩, ?_, ?_⟩, ?_⟩
  · ar []
  · ar [hi.inv.r2]
  · ar [hi.inv.r3]
  · ar [hi.r4]
  · intro i hi'
    exact (vb_out (by omega)).trans (hi.d0 i hi')
  · intro i hi'
    refine (vb_in (r := 56) (k := 8) (by omega) (by omega)).trans ?_
    rw [inp, if_pos (by omega), show 4 * 56 + i - 4 * 56 = i by omega]

theorem blk113 {v z k : Nat} {s : St} (hi : Inv32 e m0 ib ob f0 B z n k v s)
    {b : Nat → BitVec 8} (hb : ∀ i < 32, s.vb 56 i = b i) :
    ∃ s', blk (sem e) b113 s = some s' ∧ Inv32 e m0 ib ob f0 B z n k v s' ∧
      ∀ i < 32, w16 (s'.vb 40) i = (b i).setWidth 16 - 0x80#16 := by
  ar [wf3cc4280, wf3cd6280, wf3ce8280, wf3cfa280]
  refine ⟨_, rfl, hi.of rfl rfl rfl ?_, ?_⟩
  · intro i hi'
    simp (disch := omega) only [vb_out]
  · have hb' : ∀ q < 4, ∀ j < 8, s.vb (56 + 2 * q) j = b (8 * q + j) := by
      intro q hq j hj
      rw [← hb _ (by omega)]
      unfold St.vb of32
      simp only
      rw [show 56 + 2 * q + j / 4 = 56 + (8 * q + j) / 4 by omega, show (8 * q + j) % 4 = j % 4 by omega]
    have h0 := hb' 0 (by omega)
    have h1 := hb' 1 (by omega)
    have h2 := hb' 2 (by omega)
    have h3 := hb' 3 (by omega)
    have hd := hi.d0
    simp only [Nat.reduceMul, Nat.reduceAdd, Nat.zero_add] at h0 h1 h2 h3
    intro i hi'
    have h80 : (0x80#8).setWidth 16 = 0x80#16 := rfl
    obtain c | c | c | c : i < 8 ∨ (8 ≤ i ∧ i < 16) ∨ (16 ≤ i ∧ i < 24) ∨ (24 ≤ i) := by omega
    all_goals
      simp (disch := omega) only [w16_out, w16_in, w16_of16, vb_out, h0, h1, h2, h3, hd, h80]
      congr 3
      omega

/-- Lanes of the sign-extended differences. -/
def Lanes (m0 : BitVec 32 → BitVec 8) (ib : BitVec 32) (k : Nat) (s : St) (c : Nat) : Prop := ∀ j < 32, c ≤ j → (s.v (4 + j)).toInt = val m0 ib (k + j)

theorem blk117 {v z k k' : Nat} {s : St} (hi : Inv32 e m0 ib ob f0 B z n k' v s)
    (hb : ∀ i < 32, w16 (s.vb 40) i = (m0 (ib + BitVec.ofNat 32 (k + i))).setWidth 16 - 0x80#16) :
    ∃ s', blk (sem e) b117 s = some s' ∧ Inv32 e m0 ib ob f0 B z n k' v s' ∧ Lanes m0 ib k s' 0 := by
  ar [wf2902a34, wf2904a35, wf2906a36, wf2908a37, wf290aa38, wf290ca39, wf290ea3a, wf2d00a3b]
  refine ⟨_, rfl, hi.of rfl rfl rfl ?_, ?_⟩
  · intro i hi'
    simp (disch := omega) only [vb_out]
  · have hx : ∀ t < 8, ∀ l < 4, ((w16 (s.vb (40 + 2 * t)) l).signExtend 32).toInt = val m0 ib (k + (4 * t + l)) := by
      intro t ht l hl
      rw [w16_vb, hb _ (by omega), BitVec.toInt_signExtend_of_le (by omega), val]
      generalize m0 _ = b
      revert b
      decide +kernel
    intro j hj _
    obtain ⟨q, l, hl, rfl, hq⟩ : ∃ q l, l < 4 ∧ j = 4 * q + l ∧ q < 8 := ⟨j / 4, j % 4, by omega, by omega, by omega⟩
    rw [← hx q hq l hl]
    obtain rfl | rfl | rfl | rfl | rfl | rfl | rfl | rfl : q = 0 ∨ q = 1 ∨ q = 2 ∨ q = 3 ∨ q = 4 ∨ q = 5 ∨ q = 6 ∨ q = 7 := by omega
    all_goals
      simp (disch := omega) only [setVs_out, setVs_in, w16_out]
      congr 3
      omega

/-- Lanes that have been converted: element `j` for `j < c`. -/
def Done (e : Env) (m0 : BitVec 32 → BitVec 8) (ib : BitVec 32) (B k : Nat) (s : St) (c : Nat) : Prop := ∀ j < c, s.v (4 + j) = elem e m0 ib B (k + j)

theorem vb_done {k c t : Nat} {s : St} (hd : Done e m0 ib B k s c) (ht : t + 8 ≤ c) : ∀ i < 32, s.vb (4 + t) i = want e m0 ib B (4 * (k + t) + i) := by
  intro i hi
  unfold St.vb of32 want
  simp only
  rw [show 4 + t + i / 4 = 4 + (t + i / 4) by omega, hd _ (by omega), show (4 * (k + t) + i) / 4 = k + (t + i / 4) by omega,
    show (4 * (k + t) + i) % 4 = i % 4 by omega]

theorem blk125 {v z k k' : Nat} (hB : k + 32 ≤ B) {s : St} (hi : Inv32 e m0 ib ob f0 B z n k' v s) (hl : Lanes m0 ib k s 0) :
    ∃ s', blk (sem e) b125 s = some s' ∧ Inv32 e m0 ib ob f0 B z n k' v s' ∧ Lanes m0 ib k s' 16 ∧ Done e m0 ib B k s' 16 := by
  ar [wf3bb2642, wf3bb4644, wf3bb6646, wf3bb8648, or_self]
  refine ⟨_, rfl, hi.of rfl rfl rfl ?_, ?_, ?_⟩
  · intro i hi'
    simp (disch := omega) only [vb_out]
  · intro j hj hc
    rw [← hl j hj (by omega)]
    simp (disch := omega) only [setVs_out]
  · intro j hj
    rw [elem, if_pos (by omega), ← hl j (by omega) (by omega)]
    obtain c | c | c | c : j < 4 ∨ (4 ≤ j ∧ j < 8) ∨ (8 ≤ j ∧ j < 12) ∨ (12 ≤ j) := by omega
    all_goals
      simp (disch := omega) only [setVs_out, setVs_in]
      congr 3
      omega

theorem blk130 {v z k k' : Nat} (hB : k + 32 ≤ B) {s : St} (hi : Inv32 e m0 ib ob f0 B z n k' v s) (hl : Lanes m0 ib k s 16)
    (hd : Done e m0 ib B k s 16) :
    ∃ s', blk (sem e) b130 s = some s' ∧ Inv32 e m0 ib ob f0 B z n k' v s' ∧ Lanes m0 ib k s' 24 ∧ Done e m0 ib B k s' 24 := by
  ar [wf3bba64a, wf3bbc64c, or_self]
  refine ⟨_, rfl, hi.of rfl rfl rfl ?_, ?_, ?_⟩
  · intro i hi'
    simp (disch := omega) only [vb_out]
  · intro j hj hc
    rw [← hl j hj (by omega)]
    simp (disch := omega) only [setVs_out]
  · intro j hj
    obtain c | c | c : j < 16 ∨ (16 ≤ j ∧ j < 20) ∨ (20 ≤ j) := by omega
    · rw [← hd j c]
      simp (disch := omega) only [setVs_out]
    all_goals
      rw [elem, if_pos (by omega), ← hl j (by omega) (by omega)]
      simp (disch := omega) only [setVs_out, setVs_in]
      congr 3
      omega

theorem blk133 {v z k k' : Nat} (hB : k + 32 ≤ B) {s : St} (hi : Inv32 e m0 ib ob f0 B z n k' v s) (hl : Lanes m0 ib k s 24)
    (hd : Done e m0 ib B k s 24) :
    ∃ s', blk (sem e) b133 s = some s' ∧ Inv32 e m0 ib ob f0 B z n k' v s' ∧ Done e m0 ib B k s' 32 := by
  ar [wf3bbe64e, wf3fb0660, or_self]
  refine ⟨_, rfl, hi.of rfl rfl rfl ?_, ?_⟩
  · intro i hi'
    simp (disch := omega) only [vb_out]
  · intro j hj
    obtain c | c | c : j < 24 ∨ (24 ≤ j ∧ j < 28) ∨ (28 ≤ j) := by omega
    · rw [← hd j c]
      simp (disch := omega) only [setVs_out]
    all_goals
      rw [elem, if_pos (by omega), ← hl j (by omega) (by omega)]
      simp (disch := omega) only [setVs_out, setVs_in]
      congr 3
      omega

/-- A store of eight words. -/
theorem put {v z : Nat} (h : Io e.rd e.wr ib ob n v (fun _ => v)) (hv : v = 4 * n) {k t c : Nat} (hk : k + 32 ≤ n) (hc : t + 8 ≤ c) (hc' : c ≤ 32) {s : St}
    (hi : Inv32 e m0 ib ob f0 B z n (k + 32) (4 * (k + t)) s) (hd : Done e m0 ib B k s c) :
    ∃ s', (store e.wr s.mem (s.r 3) 32 (s.vb (4 + t))).map (fun m => { s.setR 3 (s.r 3 + BitVec.ofNat 32 32) with mem := m }) = some s' ∧
      Inv32 e m0 ib ob f0 B z n (k + 32) (4 * (k + (t + 8))) s' ∧ s'.v = s.v := by
  rw [hi.inv.r3, h.store hi.inv.mem (len := 32) rfl (by omega) (vb_done hd hc), adv, Option.map_some]
  have e1 : 4 * (k + t) + 32 = 4 * (k + (t + 8)) := by omega
  refine ⟨_, rfl, ⟨⟨?_, ?_, ?_, hi.inv.fp, ?_⟩, ?_, hi.d0⟩, rfl⟩
  · ar [hi.inv.r1]
  · ar [hi.inv.r2]
  · ar [e1]
  · rw [e1]
  · ar [hi.r4]

theorem Done.of {k c : Nat} {s s' : St} (h : Done e m0 ib B k s c) (hv : s'.v = s.v) : Done e m0 ib B k s' c := by
  intro j hj; rw [hv, h j hj]

theorem Lanes.of {k c : Nat} {s s' : St} (h : Lanes m0 ib k s c) (hv : s'.v = s.v) : Lanes m0 ib k s' c := by
  intro j hj hc; rw [hv, h j hj hc]

theorem block {v z : Nat} (h : Io e.rd e.wr ib ob n v (fun _ => v)) (hv : v = 4 * n) {k : Nat} (hk : k + 32 ≤ n) (hB : k + 32 ≤ B) {s : St}
    (hi : Inv32 e m0 ib ob f0 B z n k (4 * k) s) :
    ∃ s', Reach (sem e) prog 109 s 139 s' ∧ Inv32 e m0 ib ob f0 B z n (k + 32) (4 * (k + 32)) s' ∧
      s'.fl = subFlags (ib + BitVec.ofNat 32 (k + 32)) (ib + BitVec.ofNat 32 z) := by
  obtain ⟨s1, g1, i1, p1⟩ := blk109 h hv hk hi
  obtain ⟨s2, g2, i2, p2⟩ := blk113 i1 p1
  obtain ⟨s3, g3, i3, p3⟩ := blk117 i2 p2
  obtain ⟨s4, g4, i4, l4, d4⟩ := blk125 hB i3 p3
  obtain ⟨s5, g5, i5, v5⟩ := put h hv (t := 0) hk (by decide) (by decide) i4 d4
  obtain ⟨s6, g6, i6, l6, d6⟩ := blk130 hB i5 (l4.of v5) (d4.of v5)
  obtain ⟨s7, g7, i7, v7⟩ := put h hv (t := 8) hk (by decide) (by decide) i6 d6
  obtain ⟨s8, g8, i8, d8⟩ := blk133 hB i7 (l6.of v7) (d6.of v7)
  obtain ⟨s9, g9, i9, v9⟩ := put h hv (t := 16) hk (by decide) (by decide) i8 d8
  obtain ⟨s10, g10, i10, v10⟩ := put h hv (t := 24) hk (by decide) (by decide) i9 (d8.of v9)
  have q5 : blk (sem e) b129 s4 = some s5 := by ar [wf403228d]; exact congrArg (fun o => Option.bind o some) g5
  have q7 : blk (sem e) b132 s6 = some s7 := by ar [wf403628d]; exact congrArg (fun o => Option.bind o some) g7
  have q9 : blk (sem e) b135 s8 = some s9 := by ar [wf403a28d]; exact congrArg (fun o => Option.bind o some) g9
  have q10 : blk (sem e) b136 s9 = some s10 := by ar [wf403e28d]; exact congrArg (fun o => Option.bind o some) g10
  obtain ⟨s11, g11, i11, f11⟩ : ∃ s', blk (sem e) b137 s10 = some s' ∧ Inv32 e m0 ib ob f0 B z n (k + 32) (4 * (k + 32)) s' ∧
      s'.fl = subFlags (ib + BitVec.ofNat 32 (k + 32)) (ib + BitVec.ofNat 32 z) := by
    ar [i10.inv.r1, i10.r4]
    exact ⟨_, rfl, i10.of rfl rfl rfl fun _ _ => rfl, rfl⟩
  exact ⟨s11, (reach_blk b109 h109 g1).trans ((reach_blk b113 h113 g2).trans ((reach_blk b117 h117 g3).trans ((reach_blk b125 h125 g4).trans
    ((reach_blk b129 h129 q5).trans ((reach_blk b130 h130 g6).trans ((reach_blk b132 h132 q7).trans ((reach_blk b133 h133 g8).trans
    ((reach_blk b135 h135 q9).trans ((reach_blk b136 h136 q10).trans (reach_blk b137 h137 g11)))))))))), i11, f11⟩

/-! ### The routine -/

theorem ret (s : St) : Returns (sem e) prog 154 s s := (reach_blk (p := prog) (m := sem e) (pc := 154) (s := s) (s' := s)
    [.label .ui8tof32_done] (by decide +kernel) rfl).returns (returns_ret (by decide +kernel))

/-- From the label `ui8tof32_tail` on. -/
theorem tail {v : Nat} (h : Io e.rd e.wr ib ob n v (fun _ => v)) (hv : v = 4 * n) (hal : ob.toNat % 4 = 0) (he : ib.toNat + n < 2 ^ 32) {k : Nat}
    (hk : k ≤ n) (hB : B ≤ k) {s : St} (hi : Inv e m0 ib ob f0 B n k (4 * k) s) :
    ∃ s', Returns (sem e) prog 141 s s' ∧ s'.fp = f0 ∧
      s'.mem = fill m0 ob (4 * (if k = n then n else Arm.reached ib.toNat 1 k 1 n)) (want e m0 ib B) := by
  obtain ⟨s1, g1, i1, f1⟩ : ∃ s', blk (sem e) b141 s = some s' ∧ Inv e m0 ib ob f0 B n k (4 * k) s' ∧
      s'.fl = subFlags (ib + BitVec.ofNat 32 n) (ib + BitVec.ofNat 32 k) := by
    ar [hi.r1, hi.r2]
    exact ⟨_, rfl, ⟨hi.r1, hi.r2, hi.r3, hi.fp, hi.mem⟩, rfl⟩
  have hb := reach_branch (m := sem e) (p := prog) (s := s1) (pc := 143) (t := 154) .EQ .ui8tof32_done (by decide +kernel) (by decide +kernel)
    (b := decide (k = n)) (by
      show s1.fl.taken .EQ = _
      rw [f1, taken_seq]
      congr 1
      refine propext ⟨fun h => ?_, fun h => by rw [h]⟩
      exact ((ofNat_inj (by omega) (by omega)).1 (BitVec.add_right_inj _ |>.1 h)).symm)
  by_cases c : k = n
  · subst c
    rw [decide_eq_true rfl, if_pos rfl] at hb
    exact ⟨s1, ((reach_blk b141 h141 g1).trans hb).returns (ret s1), i1.fp, by rw [i1.mem, if_pos rfl]⟩
  · rw [decide_eq_false c, if_neg (by decide)] at hb
    have r144 : Reach (sem e) prog 144 s1 145 s1 := reach_blk (p := prog) (m := sem e) (pc := 144) [.nop] (by decide +kernel) rfl
    obtain ⟨s3, i3, r3⟩ := aloop (e := e) (p := prog) (a := 145) (b := 153) (fun x t => Inv e m0 ib ob f0 B n x (4 * x) t ∧ B ≤ x) ib 1 k 1 n (by decide)
      (by omega) (by decide) (by omega) (one_dvd _) (fun x t hx hp => by
        obtain ⟨t', g, i, f⟩ := one h hv hal (by omega) hp.2 hp.1
        refine ⟨t', ⟨i, by omega⟩, (reach_blk b145 h145 g).trans ?_⟩
        exact reach_branch (m := sem e) (p := prog) (s := t') (pc := 152) (t := 145) .LT .ui8tof32_tail_loop (by decide +kernel) (by decide +kernel)
          (by
            show t'.fl.taken .LT = _
            rw [f, taken_slt, Nat.one_mul, Nat.one_mul])) s1 ⟨i1, hB⟩
    have r153 : Reach (sem e) prog 153 s3 154 s3 := reach_blk (p := prog) (m := sem e) (pc := 153) [.nop] (by decide +kernel) rfl
    exact ⟨s3, (((reach_blk b141 h141 g1).trans hb).trans (r144.trans (r3.trans r153))).returns (ret s3), i3.1.fp, by rw [i3.1.mem, if_neg c]⟩

theorem reached_le {p size c w z : Nat} (h : c + w ≤ z) : Arm.reached p size c w z ≤ z := by
  unfold Arm.reached; split <;> omega

/-- Elements done by the NEON loop. -/
def fast (neon : Bool) (p n : Nat) : Nat := if neon = true ∧ 64 ≤ n then Arm.reached p 1 0 32 (n - n % 64) else 0

/-- Elements done altogether. -/
def total (neon : Bool) (p n : Nat) : Nat := if neon then Arm.converted p 1 32 (n - n % 64) n else Arm.converted p 1 4 (n - n % 4) n

theorem total_zero {b : Bool} {p : Nat} (c : if b then n - n % 64 = 0 else n - n % 4 = 0) :
    total b p n = if 0 = n then n else Arm.reached p 1 0 1 n := by
  cases b
  all_goals
    simp only [Bool.false_eq_true, if_true, if_false] at c
    simp only [total, Bool.false_eq_true, if_true, if_false, Arm.converted, c]

theorem total_false {p : Nat} (c : ¬ n - n % 4 = 0) :
    total false p n = if Arm.reached p 1 0 4 (n - n % 4) = n then n else Arm.reached p 1 (Arm.reached p 1 0 4 (n - n % 4)) 1 n := by
  simp only [total, Bool.false_eq_true, if_false, Arm.converted, c]

theorem total_true {p : Nat} (c : ¬ n - n % 64 = 0) :
    total true p n = if Arm.reached p 1 0 32 (n - n % 64) = n then n else Arm.reached p 1 (Arm.reached p 1 0 32 (n - n % 64)) 1 n := by
  simp only [total, if_true, Arm.converted, c, if_false]

/-- The part after the lengths have been compared, without NEON. -/
theorem vfp {v : Nat} (h : Io e.rd e.wr ib ob n v (fun _ => v)) (hv : v = 4 * n) (hal : ob.toNat % 4 = 0) (he : ib.toNat + n < 2 ^ 32) {s : St}
    (q1 : s.r 1 = ib) (q2 : s.r 2 = BitVec.ofNat 32 n) (q3 : s.r 3 = ob) :
    ∃ s', Returns (sem e) prog 54 s s' ∧ s'.fp = s.fp ∧ s'.mem = fill s.mem ob (4 * total false ib.toNat n) (want e s.mem ib 0) := by
  have r54 : Reach (sem e) prog 54 s 55 s := reach_blk (p := prog) (m := sem e) (pc := 54) [.nop] (by decide +kernel) rfl
  obtain ⟨s1, g1, e1, i1, z1⟩ : ∃ s', blk (sem e) b55 s = some s' ∧ s'.r 0 = BitVec.ofNat 32 (n - n % 4) ∧
      Inv e s.mem ib ob s.fp 0 n 0 (4 * 0) s' ∧ s'.fl.z = decide (n - n % 4 = 0) := by
    ar [q1, q2, andN4]
    refine ⟨_, rfl, ?_, ⟨?_, ?_, ?_, rfl, ?_⟩, ?_⟩
    · ar []
    · ar [q1]
    · ar []; exact BitVec.add_comm _ _
    · ar [q3]
    · exact (fill_zero ..).symm
    · ar [beq_zero (show n - n % 4 < 2 ^ 32 by omega)]
  have hb := reach_branch (m := sem e) (p := prog) (s := s1) (pc := 58) (t := 141) .EQ .ui8tof32_tail (by decide +kernel) (by decide +kernel)
    (b := decide (n - n % 4 = 0)) z1
  have r58 := r54.trans ((reach_blk b55 h55 g1).trans hb)
  by_cases c : n - n % 4 = 0
  · rw [decide_eq_true c, if_pos rfl] at r58
    obtain ⟨s', h1, h2, h3⟩ := tail h hv hal he (Nat.zero_le n) (Nat.le_refl 0) i1
    refine ⟨s', r58.returns h1, h2, ?_⟩
    rw [h3, total_zero (b := false) c]
  · rw [decide_eq_false c, if_neg (by decide)] at r58
    obtain ⟨s2, g2, i2⟩ : ∃ s', blk (sem e) b59 s1 = some s' ∧ Inv4 e s.mem ib ob s.fp (n - n % 4) n 0 s' := by
      ar [e1, i1.r1]
      refine ⟨_, rfl, ⟨?_, ?_, ?_, i1.fp, i1.mem⟩, ?_, ?_⟩ <;> ar [i1.r1, i1.r2, i1.r3]
      exact BitVec.add_comm _ _
    obtain ⟨s3, i3, r3⟩ := aloop (e := e) (p := prog) (a := 63) (b := 94) (Inv4 e s.mem ib ob s.fp (n - n % 4) n) ib 1 0 4 (n - n % 4) (by decide)
      (by omega) (by decide) (by omega) (by omega) (fun x t hx hp => by
        obtain ⟨t', g, i, f⟩ := four h hv hal (by omega) hp
        refine ⟨t', i, (reach_blk b63 h63 g).trans ?_⟩
        exact reach_branch (m := sem e) (p := prog) (s := t') (pc := 93) (t := 63) .LT .ui8tof32_loop (by decide +kernel) (by decide +kernel)
          (by
            show t'.fl.taken .LT = _
            rw [f, taken_slt, Nat.one_mul, Nat.one_mul])) s2 i2
    have r94 : Reach (sem e) prog 94 s3 95 s3 := reach_blk (p := prog) (m := sem e) (pc := 94) [.nop] (by decide +kernel) rfl
    have r95 : Reach (sem e) prog 95 s3 141 s3 := reach_jump .ui8tof32_tail (by decide +kernel) (by decide +kernel)
    have hle : Arm.reached ib.toNat 1 0 4 (n - n % 4) ≤ n := (reached_le (by omega)).trans (by omega)
    obtain ⟨s', h1, h2, h3⟩ := tail h hv hal he hle (Nat.zero_le _) i3.inv
    refine ⟨s', (r58.trans ((reach_blk b59 h59 g2).trans (r3.trans (r94.trans r95)))).returns h1, h2, ?_⟩
    rw [h3, total_false c]

theorem fill_congr {mem : BitVec 32 → BitVec 8} {b : BitVec 32} {n : Nat} {g g' : Nat → BitVec 8} (h : ∀ i < n, g i = g' i) :
    fill mem b n g = fill mem b n g' := by
  funext a
  unfold fill
  split
  · rename_i c
    exact h _ c
  · rfl

theorem nloop {v : Nat} (h : Io e.rd e.wr ib ob n v (fun _ => v)) (hv : v = 4 * n) (he : ib.toNat + n < 2 ^ 32) (c : ¬ n - n % 64 = 0)
    (hf : B = Arm.reached ib.toNat 1 0 32 (n - n % 64)) {s : St} (hi : Inv32 e m0 ib ob f0 (n - n % 64) (n - n % 64) n 0 (4 * 0) s) :
    ∃ s', Inv e m0 ib ob f0 B n B (4 * B) s' ∧ Reach (sem e) prog 109 s 140 s' := by
  obtain ⟨s3, i3, r3⟩ := aloop (e := e) (p := prog) (a := 109) (b := 140) (fun x => Inv32 e m0 ib ob f0 (n - n % 64) (n - n % 64) n x (4 * x)) ib 1 0 32
    (n - n % 64) (by decide) (by omega) (by decide) (by omega) (by omega) (fun x t hx hp => by
      obtain ⟨t', g, i, f⟩ := block h hv (show x + 32 ≤ n by omega) hx hp
      refine ⟨t', i, g.trans ?_⟩
      exact reach_branch (m := sem e) (p := prog) (s := t') (pc := 139) (t := 109) .LT .ui8tof32_neon_loop (by decide +kernel) (by decide +kernel)
        (by
          show t'.fl.taken .LT = _
          rw [f, taken_slt, Nat.one_mul, Nat.one_mul])) s hi
  rw [← hf] at i3
  refine ⟨s3, ⟨i3.inv.r1, i3.inv.r2, i3.inv.r3, i3.inv.fp, ?_⟩, r3⟩
  rw [i3.inv.mem]
  refine fill_congr fun i hi => ?_
  have : B ≤ n - n % 64 := by rw [hf]; exact reached_le (by omega)
  unfold want elem
  rw [if_pos (by omega), if_pos (by omega)]

/-- The same with NEON. -/
theorem neon {v : Nat} (h : Io e.rd e.wr ib ob n v (fun _ => v)) (hv : v = 4 * n) (hal : ob.toNat % 4 = 0) (he : ib.toNat + n < 2 ^ 32) {s : St}
    (q1 : s.r 1 = ib) (q2 : s.r 2 = BitVec.ofNat 32 n) (q3 : s.r 3 = ob) :
    ∃ s', Returns (sem e) prog 99 s s' ∧ s'.fp = s.fp ∧
      s'.mem = fill s.mem ob (4 * total true ib.toNat n) (want e s.mem ib (fast true ib.toNat n)) := by
  obtain ⟨s1, g1, e1, i1, z1, d1⟩ : ∃ s', blk (sem e) b99 s = some s' ∧ s'.r 4 = BitVec.ofNat 32 (n - n % 64) ∧
      (∀ B, Inv e s.mem ib ob s.fp B n 0 (4 * 0) s') ∧ s'.fl.z = decide (n - n % 64 = 0) ∧ ∀ i < 8, s'.vb 0 i = 0x80#8 := by
    ar [weee00b10, q1, q2, andN64, setVs_r]
    refine ⟨_, rfl, ?_, fun B => ⟨?_, ?_, ?_, rfl, ?_⟩, ?_, ?_⟩
    · ar []
    · ar [q1]
    · ar []; exact BitVec.add_comm _ _
    · ar [q3]
    · exact (fill_zero ..).symm
    · ar [beq_zero (show n - n % 64 < 2 ^ 32 by omega)]
    · intro i hi
      refine (vb_in (r := 0) (k := 4) (r' := 0) (by omega) (by omega)).trans ?_
      decide +kernel
  have hb := reach_branch (m := sem e) (p := prog) (s := s1) (pc := 106) (t := 141) .EQ .ui8tof32_tail (by decide +kernel) (by decide +kernel)
    (b := decide (n - n % 64 = 0)) z1
  have r58 := (reach_blk b99 h99 g1).trans hb
  by_cases c : n - n % 64 = 0
  · rw [decide_eq_true c, if_pos rfl] at r58
    obtain ⟨s', h1, h2, h3⟩ := tail h hv hal he (Nat.zero_le n) (Nat.le_refl 0) (i1 0)
    refine ⟨s', r58.returns h1, h2, ?_⟩
    have h0 : fast true ib.toNat n = 0 := if_neg (by omega)
    rw [h3, total_zero (b := true) c, h0]
  · rw [decide_eq_false c, if_neg (by decide)] at r58
    have hf : fast true ib.toNat n = Arm.reached ib.toNat 1 0 32 (n - n % 64) := by rw [fast, if_pos ⟨rfl, by omega⟩]
    obtain ⟨B, hB⟩ : ∃ B, B = fast true ib.toNat n := ⟨_, rfl⟩
    rw [← hB] at hf ⊢
    obtain ⟨s2, g2, i2⟩ : ∃ s', blk (sem e) b107 s1 = some s' ∧ Inv32 e s.mem ib ob s.fp (n - n % 64) (n - n % 64) n 0 (4 * 0) s' := by
      ar [e1, (i1 B).r1]
      refine ⟨_, rfl, ⟨?_, ?_, ?_, (i1 B).fp, (i1 _).mem⟩, ?_, d1⟩ <;> ar [(i1 B).r1, (i1 B).r2, (i1 B).r3]
      exact BitVec.add_comm _ _
    obtain ⟨s3, i3, r3⟩ := nloop h hv he c hf i2
    have r140 : Reach (sem e) prog 140 s3 141 s3 := reach_blk (p := prog) (m := sem e) (pc := 140) [.nop] (by decide +kernel) rfl
    have hle : B ≤ n := by rw [hf]; exact (reached_le (by omega)).trans (by omega)
    obtain ⟨s', h1, h2, h3⟩ := tail h hv hal he hle (Nat.le_refl _) i3
    refine ⟨s', (r58.trans ((reach_blk b107 h107 g2).trans (r3.trans r140))).returns h1, h2, ?_⟩
    rw [h3, total_true c, ← hf]

/-- The whole routine. -/
theorem routine {nin nout v : Nat} (hn : n = min nin nout) (hv : v = 4 * n) {s : St} (ha : Args s ib ob nin nout)
    (h : Io e.rd e.wr ib ob n v (fun _ => v)) (hal : ob.toNat % 4 = 0) (he : ib.toNat + n < 2 ^ 32) :
    ∃ s', Returns (sem e) prog 37 s s' ∧ s'.fp = s.fp ∧
      s'.mem = fill s.mem ob (4 * total (e.var .HaveNEON != 0) ib.toNat n) (want e s.mem ib (fast (e.var .HaveNEON != 0) ib.toNat n)) := by
  have hin := ha.hin
  have hout := ha.hout
  obtain ⟨s1, g1, e1⟩ : ∃ s', blk (sem e) b37 s = some s' ∧ (s'.r 1 = ib ∧ s'.r 2 = BitVec.ofNat 32 n ∧ s'.r 3 = ob ∧ s'.fp = s.fp ∧ s'.mem = s.mem ∧
      s'.fl.taken .EQ = decide (n = 0)) := by
    ar [ha.f1, ha.f2, ha.f3, ha.f4, St.cond, taken_lt hout hin]
    by_cases c : nout < nin
    · rw [decide_eq_true c, if_pos rfl]
      obtain rfl : n = nout := by omega
      ar []
      refine ⟨_, rfl, ?_, ?_, ?_, rfl, rfl, ?_⟩ <;> ar [taken_eq (show n < 2 ^ 32 by omega) (show 0 < 2 ^ 32 by omega)]
    · rw [decide_eq_false c, if_neg (by decide)]
      obtain rfl : n = nin := by omega
      ar []
      refine ⟨_, rfl, ?_, ?_, ?_, rfl, rfl, ?_⟩ <;> ar [taken_eq (show n < 2 ^ 32 by omega) (show 0 < 2 ^ 32 by omega)]
  obtain ⟨q1, q2, q3, q4, q5, q6⟩ := e1
  have hb := reach_branch (m := sem e) (p := prog) (s := s1) (pc := 49) (t := 154) .EQ .ui8tof32_done (by decide +kernel) (by decide +kernel)
    (b := decide (n = 0)) q6
  have hb := (reach_blk b37 h37 g1).trans hb
  by_cases c : n = 0
  · rw [decide_eq_true c, if_pos rfl] at hb
    refine ⟨s1, hb.returns (ret s1), q4, ?_⟩
    have : total (e.var .HaveNEON != 0) ib.toNat n = 0 := by
      subst c; unfold total Arm.converted; split <;> rfl
    rw [this, Nat.mul_zero, fill_zero, q5]
  · rw [decide_eq_false c, if_neg (by decide)] at hb
    have r50 : Reach (sem e) prog 50 s1 51 s1 := reach_blk (p := prog) (m := sem e) (pc := 50) [.nop] (by decide +kernel) rfl
    obtain ⟨s2, g2, e2⟩ : ∃ s', blk (sem e) b51 s1 = some s' ∧ (s'.r 1 = ib ∧ s'.r 2 = BitVec.ofNat 32 n ∧ s'.r 3 = ob ∧ s'.fp = s.fp ∧ s'.mem = s.mem ∧
        s'.fl.taken .NE = (e.var .HaveNEON != 0)) := by
      ar []
      refine ⟨_, rfl, ?_, ?_, ?_, q4, q5, ?_⟩
      · ar [q1]
      · ar [q2]
      · ar [q3]
      · ar [taken_sne]
        generalize e.var .HaveNEON = b
        revert b
        decide +kernel
    obtain ⟨p1, p2, p3, p4, p5, p6⟩ := e2
    have hb2 := reach_branch (m := sem e) (p := prog) (s := s2) (pc := 53) (t := 99) .NE .ui8tof32_neon (by decide +kernel) (by decide +kernel)
      (b := e.var .HaveNEON != 0) p6
    have hb := hb.trans (r50.trans ((reach_blk b51 h51 g2).trans hb2))
    cases hneon : (e.var .HaveNEON != 0)
    · rw [hneon, if_neg (by decide)] at hb
      obtain ⟨s', h1, h2, h3⟩ := vfp h hv hal he p1 p2 p3
      exact ⟨s', hb.returns h1, h2.trans p4, by rw [h3, p5, show fast false ib.toNat n = 0 from if_neg (by simp)]⟩
    · rw [hneon, if_pos rfl] at hb
      obtain ⟨s', h1, h2, h3⟩ := neon h hv hal he p1 p2 p3
      exact ⟨s', hb.returns h1, h2.trans p4, by rw [h3, p5]⟩

end Ui8

end Verif.A32.Conv
