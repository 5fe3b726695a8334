import Verif.A64.VMaxLemmas
import Verif.A64.VMinLemmas

/-!
# Property C123: the instructions of `VMaxF32` and `VMinF32` on arm64

Lines 84–129 and 131–176 of `dsp/math32_arm64.s`, one by one, the numbers among them decoded.
-/

namespace Verif.A64.Math
open Verif.A64 Verif.Mach Verif.Fp Verif.Asm
open Verif.X86.Conv (u32at)
open Verif.X86.Avo (f32at)

/-- The frame and memory of a call `VMaxF32(input)`: address and length of the slice, which can be read. -/
structure CallX (e : Env) (s : St) (ib : BitVec 64) (n : Nat) : Prop where
  small : 4 * n < 2 ^ 63
  f1 : s.fp 0 = ib
  f2 : s.fp 8 = BitVec.ofNat 64 n
  rd : ∀ i < 4 * n, e.rd (ib + BitVec.ofNat 64 i) = true

/-- The call has the result `y` (a float32 at 24 in the frame) and changed nothing else in the frame and in memory. -/
structure ResultX (s s' : St) (y : BitVec 32) : Prop where
  mem : s'.mem = s.mem
  fp : s'.fp = Function.update s.fp 24 ((s.fp 24).extractLsb' 32 32 ++ y)

/-- Element `i`. -/
def elem (s : St) (ib : BitVec 64) (i : Nat) : Val := f32at s.mem (ib + BitVec.ofNat 64 (4 * i))

/-- `y` is the maximum of the `n` float32 at `ib`: not a number exactly if one of them is not a number; otherwise the bits of −∞ if there
are none, the bits of one of them if there are some, at least as large as all, and not −0 if one of the largest is +0. -/
structure MaxOf (s : St) (ib : BitVec 64) (n : Nat) (y : BitVec 32) : Prop where
  nan : ofBits32 y = .nan ↔ ∃ i < n, elem s ib i = .nan
  none : n = 0 → y = 0xff800000
  mem : 0 < n → ofBits32 y ≠ .nan → ∃ i < n, y = u32at s.mem (ib + BitVec.ofNat 64 (4 * i))
  ge : ofBits32 y ≠ .nan → ∀ i < n, key (elem s ib i) ≤ key (ofBits32 y)
  pos : (∃ i < n, elem s ib i = .fin false 0) → ofBits32 y ≠ .fin true 0

/-- `y` is the minimum of the `n` float32 at `ib`. -/
structure MinOf (s : St) (ib : BitVec 64) (n : Nat) (y : BitVec 32) : Prop where
  nan : ofBits32 y = .nan ↔ ∃ i < n, elem s ib i = .nan
  none : n = 0 → y = 0x7f800000
  mem : 0 < n → ofBits32 y ≠ .nan → ∃ i < n, y = u32at s.mem (ib + BitVec.ofNat 64 (4 * i))
  le : ofBits32 y ≠ .nan → ∀ i < n, key (ofBits32 y) ≤ key (elem s ib i)
  neg : (∃ i < n, elem s ib i = .fin true 0) → ofBits32 y ≠ .fin false 0

theorem bits_of_val {a b : BitVec 32} (h : ofBits32 a ≠ .nan) (hab : ofBits32 a = ofBits32 b) : a = b := by
  rw [← (toBits32_ofBits32 a h).2, ← (toBits32_ofBits32 b (hab ▸ h)).2, hab]

/-- **C123 for `VMaxF32`.** From any state with the slice in the frame, for all lengths, addresses and contents, with `fmax`, `fmaxv` and
`FMAXS` as in the manual (whatever the bits of a result that is not a number): the routine returns the maximum and changes nothing
else. -/
theorem C123_VMaxF32 {e : Env} (he : ∀ a b, ofBits32 (e.o.max a b) = Arm.fmax (ofBits32 a) (ofBits32 b)) {s : St} {ib : BitVec 64} {n : Nat}
    (hc : CallX e s ib n) : ∃ s' y, Returns (sem e) prog 84 s s' ∧ ResultX s s' y ∧ MaxOf s ib n y := by
  obtain ⟨s', h1, h2, h3⟩ := VMax.routine hc.small hc.rd hc.f1 hc.f2
  refine ⟨s', _, h1, ⟨h2, h3⟩, ?_⟩
  have e1 := result_map ofBits32 he 0xff800000 n (word s.mem ib)
  rw [show ofBits32 0xff800000 = .inf true by norm_num [ofBits32, show (0xff800000 : BitVec 32).toNat = 0xff800000 from rfl]] at e1
  have e2 := result_eq Arm.fmax (.inf true) n fun i => ofBits32 (word s.mem ib i)
  rw [← e1] at e2
  have hz0 : n = 0 → result e.o.max 0xff800000 n (word s.mem ib) = 0xff800000 := fun h => by subst h; rfl
  generalize result e.o.max 0xff800000 n (word s.mem ib) = y at e2 hz0
  have w : ∀ i, ofBits32 (word s.mem ib i) = elem s ib i := fun i => rfl
  simp only [w] at e2
  obtain ⟨z, z1, z2, z3⟩ := Arm.vExtremeArm64_top Arm.fmax_isMax (.inf true) Arm.fmax_id n (elem s ib)
  obtain rfl : z = ofBits32 y := Option.some.inj (z1.symm.trans e2)
  have hmem : 0 < n → ∃ i < n, ofBits32 y = elem s ib i := fun h => (z3 h).2
  have hnan : ofBits32 y = .nan ↔ ∃ i < n, elem s ib i = .nan := by
    constructor
    · intro h
      rcases Nat.eq_zero_or_pos n with c | c
      · rw [z2 c] at h; cases h
      · obtain ⟨i, hi, q⟩ := hmem c
        exact ⟨i, hi, by rw [← q, h]⟩
    · rintro ⟨i, hi, q⟩
      have := (z3 (by omega)).1 i hi
      rwa [q, Arm.rankMax_le_nan] at this
  refine ⟨hnan, hz0, fun h0 hy => ?_, fun hy i hi => ?_, ?_⟩
  · obtain ⟨i, hi, q⟩ := hmem h0
    exact ⟨i, hi, bits_of_val hy q⟩
  · exact Arm.rankMax_le _ _ (fun q => hy (hnan.2 ⟨i, hi, q⟩)) hy ((z3 (by omega)).1 i hi)
  · rintro ⟨i, hi, q⟩ hy
    have := (z3 (by omega)).1 i hi
    rw [q, hy] at this
    revert this
    unfold Arm.rankMax
    rw [Prod.Lex.toLex_le_toLex, Prod.Lex.toLex_lt_toLex, toLex_inj]
    simp [key, Arm.isNeg, Val.toRat]

/-- **C123 for `VMinF32`**, in the same way. -/
theorem C123_VMinF32 {e : Env} (he : ∀ a b, ofBits32 (e.o.min a b) = Arm.fmin (ofBits32 a) (ofBits32 b)) {s : St} {ib : BitVec 64} {n : Nat}
    (hc : CallX e s ib n) : ∃ s' y, Returns (sem e) prog 131 s s' ∧ ResultX s s' y ∧ MinOf s ib n y := by
  obtain ⟨s', h1, h2, h3⟩ := VMin.routine hc.small hc.rd hc.f1 hc.f2
  refine ⟨s', _, h1, ⟨h2, h3⟩, ?_⟩
  have e1 := result_map ofBits32 he 0x7f800000 n (word s.mem ib)
  rw [show ofBits32 0x7f800000 = .inf false by norm_num [ofBits32, show (0x7f800000 : BitVec 32).toNat = 0x7f800000 from rfl]] at e1
  have e2 := result_eq Arm.fmin (.inf false) n fun i => ofBits32 (word s.mem ib i)
  rw [← e1] at e2
  have hz0 : n = 0 → result e.o.min 0x7f800000 n (word s.mem ib) = 0x7f800000 := fun h => by subst h; rfl
  generalize result e.o.min 0x7f800000 n (word s.mem ib) = y at e2 hz0
  have w : ∀ i, ofBits32 (word s.mem ib i) = elem s ib i := fun i => rfl
  simp only [w] at e2
  obtain ⟨z, z1, z2, z3⟩ := Arm.vExtremeArm64_top Arm.fmin_isMax (.inf false) Arm.fmin_id n (elem s ib)
  obtain rfl : z = ofBits32 y := Option.some.inj (z1.symm.trans e2)
  have hmem : 0 < n → ∃ i < n, ofBits32 y = elem s ib i := fun h => (z3 h).2
  have hnan : ofBits32 y = .nan ↔ ∃ i < n, elem s ib i = .nan := by
    constructor
    · intro h
      rcases Nat.eq_zero_or_pos n with c | c
      · rw [z2 c] at h; cases h
      · obtain ⟨i, hi, q⟩ := hmem c
        exact ⟨i, hi, by rw [← q, h]⟩
    · rintro ⟨i, hi, q⟩
      have := (z3 (by omega)).1 i hi
      rwa [q, Arm.rankMin_le_nan] at this
  refine ⟨hnan, hz0, fun h0 hy => ?_, fun hy i hi => ?_, ?_⟩
  · obtain ⟨i, hi, q⟩ := hmem h0
    exact ⟨i, hi, bits_of_val hy q⟩
  · exact Arm.rankMin_le _ _ (fun q => hy (hnan.2 ⟨i, hi, q⟩)) hy ((z3 (by omega)).1 i hi)
  · rintro ⟨i, hi, q⟩ hy
    have := (z3 (by omega)).1 i hi
    rw [q, hy] at this
    revert this
    unfold Arm.rankMin
    rw [Prod.Lex.toLex_le_toLex, Prod.Lex.toLex_lt_toLex, toLex_inj]
    simp [key, Arm.isNeg, Val.toRat]

theorem sign_zero {a b : Val} (ra : Repr32 a) (rb : Repr32 b) (ha : a ≠ .nan) (hb : b ≠ .nan) (hk : key a = key b) (hab : a ≠ b) :
    (a = .fin true 0 ∧ b = .fin false 0) ∨ (a = .fin false 0 ∧ b = .fin true 0) := by
  rcases a with _ | s | ⟨s, q⟩
  · exact absurd rfl ha
  · rcases b with _ | t | ⟨t, r⟩
    · exact absurd rfl hb
    · cases s <;> cases t <;> simp [key] at hk hab
    · cases s <;> simp [key] at hk
  · rcases b with _ | t | ⟨t, r⟩
    · exact absurd rfl hb
    · cases t <;> simp [key] at hk
    · have h : (Val.fin s q).toRat = (Val.fin t r).toRat := WithTop.coe_injective (WithBot.coe_injective hk)
      have h1 : 0 ≤ q := ra.1
      have h2 : 0 ≤ r := rb.1
      cases s <;> cases t <;> simp only [Val.toRat, if_true, if_false, Bool.false_eq_true, neg_inj] at h
      · rw [h] at hab; exact absurd rfl hab
      · right
        rw [show q = 0 by linarith, show r = 0 by linarith]
        exact ⟨rfl, rfl⟩
      · left
        rw [show q = 0 by linarith, show r = 0 by linarith]
        exact ⟨rfl, rfl⟩
      · rw [h] at hab; exact absurd rfl hab

/-- **C123: the maximum is unique** as a value. -/
theorem C123_max_unique {s : St} {ib : BitVec 64} {n : Nat} {y z : BitVec 32} (hy : MaxOf s ib n y) (hz : MaxOf s ib n z) :
    ofBits32 y = ofBits32 z := by
  rcases Nat.eq_zero_or_pos n with c | c
  · rw [hy.none c, hz.none c]
  by_cases q : ofBits32 y = .nan
  · rw [q, hz.nan.2 (hy.nan.1 q)]
  have q' : ofBits32 z ≠ .nan := fun h => q (hy.nan.2 (hz.nan.1 h))
  obtain ⟨i, hi, ei⟩ := hy.mem c q
  obtain ⟨j, hj, ej⟩ := hz.mem c q'
  have e1 : elem s ib i = ofBits32 y := by rw [ei]; rfl
  have e2 : elem s ib j = ofBits32 z := by rw [ej]; rfl
  have hk : key (ofBits32 y) = key (ofBits32 z) := le_antisymm (by rw [← e1]; exact hz.ge q' i hi) (by rw [← e2]; exact hy.ge q j hj)
  by_contra hab
  rcases sign_zero (X86.repr32_ofBits y) (X86.repr32_ofBits z) q q' hk hab with ⟨a, b⟩ | ⟨a, b⟩
  · exact hy.pos ⟨j, hj, by rw [e2, b]⟩ a
  · exact hz.pos ⟨i, hi, by rw [e1, a]⟩ b

/-- **C123: the minimum is unique** as a value. -/
theorem C123_min_unique {s : St} {ib : BitVec 64} {n : Nat} {y z : BitVec 32} (hy : MinOf s ib n y) (hz : MinOf s ib n z) :
    ofBits32 y = ofBits32 z := by
  rcases Nat.eq_zero_or_pos n with c | c
  · rw [hy.none c, hz.none c]
  by_cases q : ofBits32 y = .nan
  · rw [q, hz.nan.2 (hy.nan.1 q)]
  have q' : ofBits32 z ≠ .nan := fun h => q (hy.nan.2 (hz.nan.1 h))
  obtain ⟨i, hi, ei⟩ := hy.mem c q
  obtain ⟨j, hj, ej⟩ := hz.mem c q'
  have e1 : elem s ib i = ofBits32 y := by rw [ei]; rfl
  have e2 : elem s ib j = ofBits32 z := by rw [ej]; rfl
  have hk : key (ofBits32 y) = key (ofBits32 z) := le_antisymm (by rw [← e2]; exact hy.le q j hj) (by rw [← e1]; exact hz.le q' i hi)
  by_contra hab
  rcases sign_zero (X86.repr32_ofBits y) (X86.repr32_ofBits z) q q' hk hab with ⟨a, b⟩ | ⟨a, b⟩
  · exact hz.neg ⟨i, hi, by rw [e1, a]⟩ b
  · exact hy.neg ⟨j, hj, by rw [e2, b]⟩ a

/-! ### Examples -/

/-- `FMAX` with the default not-a-number. -/
noncomputable def armMax (a b : BitVec 32) : BitVec 32 := toBits32 (Arm.fmax (ofBits32 a) (ofBits32 b))
/-- `FMIN` with the default not-a-number. -/
noncomputable def armMin (a b : BitVec 32) : BitVec 32 := toBits32 (Arm.fmin (ofBits32 a) (ofBits32 b))

theorem armMax_val (a b : BitVec 32) : ofBits32 (armMax a b) = Arm.fmax (ofBits32 a) (ofBits32 b) := by
  refine ofBits32_toBits32 _ ?_
  rw [Arm.fmax_isMax.eq]
  split
  · exact X86.repr32_ofBits b
  · exact X86.repr32_ofBits a

theorem armMin_val (a b : BitVec 32) : ofBits32 (armMin a b) = Arm.fmin (ofBits32 a) (ofBits32 b) := by
  refine ofBits32_toBits32 _ ?_
  rw [Arm.fmin_isMax.eq]
  split
  · exact X86.repr32_ofBits b
  · exact X86.repr32_ofBits a

/-- A machine with `FMAX` and `FMIN` that can only read 0x1000–0x10ff. -/
noncomputable def machineX : Env where
  o := ⟨X86.Avo.ieeeCvt32, X86.ieeeMul32, armMax, armMin⟩
  rd := fun a => decide (0x1000 ≤ a.toNat ∧ a.toNat < 0x1100)
  wr := fun _ => false

/-- A call with `n` float32 at 0x1000: 2.0, and 3.0 at 0x1000 + 4 · `p`. -/
def callX (n p : Nat) : St where
  x := fun _ => 0xdead
  v := fun _ _ => 0x55
  fl := ⟨false, true, false, true⟩
  mem := fun a => if (a.toNat - 0x1000) / 4 = p then X86.byte (0x40400000#32) (a.toNat % 4) else X86.byte (0x40000000#32) (a.toNat % 4)
  fp := fun k => if k = 0 then 0x1000 else if k = 8 then BitVec.ofNat 64 n else 0xffffffffffffffff

/-- 64 numbers, the largest of them the one before the last: it is found. -/
example : ∃ s', Returns (sem machineX) prog 84 (callX 64 62) s' ∧ s'.fp 24 = 0xffffffff40400000 := by
  have h : CallX machineX (callX 64 62) 0x1000 64 := ⟨by decide, rfl, rfl, by decide +kernel⟩
  obtain ⟨s', y, h1, h2, h3⟩ := C123_VMaxF32 armMax_val h
  refine ⟨s', h1, ?_⟩
  have w : ∀ i < 64, u32at (callX 64 62).mem (0x1000 + BitVec.ofNat 64 (4 * i)) = if i = 62 then 0x40400000#32 else 0x40000000#32 := by decide +kernel
  have b1 : ofBits32 0x40400000 = .fin false 3 := by norm_num [ofBits32, show (0x40400000 : BitVec 32).toNat = 0x40400000 from rfl]
  have b2 : ofBits32 0x40000000 = .fin false 2 := by norm_num [ofBits32, show (0x40000000 : BitVec 32).toNat = 0x40000000 from rfl]
  have v : ∀ i < 64, elem (callX 64 62) 0x1000 i = if i = 62 then .fin false 3 else .fin false 2 := by
    intro i hi
    show ofBits32 (u32at _ _) = _
    rw [w i hi]
    split
    · exact b1
    · exact b2
  have hy : ofBits32 y ≠ .nan := fun c => by
    obtain ⟨i, hi, q⟩ := h3.nan.1 c
    rw [v i hi] at q
    split at q <;> cases q
  obtain ⟨i, hi, q⟩ := h3.mem (by omega) hy
  have g := h3.ge hy 62 (by omega)
  rw [v 62 (by omega), if_pos rfl] at g
  rw [w i hi] at q
  split at q
  · rw [h2.fp, q]
    decide +kernel
  · exfalso
    rw [q, show ofBits32 0x40000000#32 = .fin false 2 from b2] at g
    revert g
    simp only [key, Val.toRat, Bool.false_eq_true, if_false, WithBot.coe_le_coe, WithTop.coe_le_coe]
    norm_num

/-- No numbers: +∞. -/
example : ∃ s', Returns (sem machineX) prog 131 (callX 0 0) s' ∧ s'.fp 24 = 0xffffffff7f800000 := by
  have h : CallX machineX (callX 0 0) 0x1000 0 := ⟨by decide, rfl, rfl, by decide +kernel⟩
  obtain ⟨s', y, h1, h2, h3⟩ := C123_VMinF32 armMin_val h
  refine ⟨s', h1, ?_⟩
  rw [h2.fp, h3.none rfl]
  decide +kernel

end Verif.A64.Math
