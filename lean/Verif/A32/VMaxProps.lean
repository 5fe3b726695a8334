import Verif.A32.VMaxLemmas
import Verif.A32.VScaleProps
import Verif.A64.VMaxProps

/-!
# Property C129: the instructions of `VMaxF32` on 32-bit ARM

Lines 271–352 of `dsp/math32_arm.s`, one by one, with the numbers decoded. With NEON and at least 16 numbers the blocks of eight are compared by the
NEON unit, which takes denormal numbers for zero and lets not-a-number win; everything else is compared by the floating-point unit.
-/

namespace Verif.A32.Math
open Verif.A32 Verif.Mach Verif.Fp
open Verif.Asm (key gtF vExtreme)
open Verif.Arm (neonMax NoSubnormal)

/-- The frame and memory of a call `VMaxF32(input)`: address and length of the slice, which can be read; the vector length of the floating-point
unit is one, as it is outside of the routines that change it. -/
structure CallX (e : Env) (s : St) (ib : BitVec 32) (n : Nat) : Prop where
  small : n < 2 ^ 31
  f1 : s.fp 0 = ib
  f2 : s.fp 4 = BitVec.ofNat 32 n
  rd : ∀ i < 4 * n, e.rd (ib + BitVec.ofNat 32 i) = true
  align : ib.toNat % 4 = 0
  len : s.fpscr.extractLsb' 16 3 = 0

/-- The call has the result `y` (a float32 at 12 in the frame) and changed nothing else in the frame and in memory. -/
structure ResultX (s s' : St) (y : BitVec 32) : Prop where
  mem : s'.mem = s.mem
  fp : s'.fp = Function.update s.fp 12 y
  len : s'.fpscr.extractLsb' 16 3 = 0

/-- Element `i`, as bits. -/
def bitsOf (s : St) (ib : BitVec 32) (i : Nat) : BitVec 32 := u32at s.mem (ib + BitVec.ofNat 32 (4 * i))

/-- Element `i`. -/
def elem (s : St) (ib : BitVec 32) (i : Nat) : Val := f32at s.mem (ib + BitVec.ofNat 32 (4 * i))

/-- `y` is the largest of the numbers among the `n` float32 at `ib`, or −∞. -/
structure Largest (s : St) (ib : BitVec 32) (n : Nat) (y : BitVec 32) : Prop where
  num : ofBits32 y ≠ .nan
  ge : ∀ i < n, elem s ib i ≠ .nan → key (elem s ib i) ≤ key (ofBits32 y)
  mem : y = 0xff800000 ∨ ∃ i < n, y = bitsOf s ib i

/-- **C129.** From any state with the slice in the frame, for all lengths, addresses that are multiples of four and contents, with and without NEON
and whatever the units compute: the routine returns, with the result of the structured model (C83), and changes nothing else. -/
theorem C129_VMaxF32 {e : Env} {s : St} {ib : BitVec 32} {n : Nat} (hc : CallX e s ib n) :
    ∃ s' y, Returns (sem e) prog 271 s s' ∧ ResultX s s' y ∧
      Arm.vmaxF32Arm (fun a b => decide (e.o.cmp a b = .gt)) e.o.nmax 0xff800000 (neon e) n (bitsOf s ib) = some y := by
  obtain ⟨s', h1, h2, h3, h4⟩ := VMax.routine hc.small hc.f1 hc.f2 hc.rd hc.align hc.len (neon e) (by
    unfold neon
    cases h : e.var .HaveNEON == 0 <;> simp_all)
  exact ⟨s', _, h1, ⟨h2, h4, h3⟩, VMax.result_eq ..⟩

/-- The comparison of IEEE-754. -/
def Compares (e : Env) : Prop := ∀ a b, e.o.cmp a b = .gt ↔ Fp.lt (ofBits32 b) (ofBits32 a)

/-- The maximum of NEON, whatever the bits of a result that is not a number. -/
def NeonMax (e : Env) : Prop := ∀ a b, ofBits32 (e.o.nmax a b) = neonMax (ofBits32 a) (ofBits32 b)

theorem inf_bits : ofBits32 0xff800000 = .inf true := by
  norm_num [ofBits32, show (0xff800000 : BitVec 32).toNat = 0xff800000 from rfl]

theorem vmax_val {e : Env} (h1 : Compares e) (h2 : NeonMax e) {s : St} {ib : BitVec 32} {n : Nat} {y : BitVec 32}
    (h : Arm.vmaxF32Arm (fun a b => decide (e.o.cmp a b = .gt)) e.o.nmax 0xff800000 (neon e) n (bitsOf s ib) = some y) :
    Arm.vmaxF32Arm gtF neonMax (.inf true) (neon e) n (elem s ib) = some (ofBits32 y) := by
  rw [VMax.result_eq] at h ⊢
  obtain rfl := Option.some.inj h
  rw [VMax.result_map ofBits32 (gt' := gtF) (mx' := neonMax) (fun a b => by
    unfold gtF
    congr 1
    exact propext (h1 a b)) h2, inf_bits]
  rfl

/-- **C129, partial.** Without NEON, or for less than 16 numbers, or if all are numbers and none is denormal: the result is the largest number, as in
the portable code. Missing: not-a-numbers and denormal numbers with NEON, where this is false (`C129_violated_nan`, `C129_violated_subnormal`). -/
theorem C129_max_partial {e : Env} (h1 : Compares e) (h2 : NeonMax e) {s : St} {ib : BitVec 32} {n : Nat} (hc : CallX e s ib n)
    (hd : neon e = true → 16 ≤ n → ∀ i < n, elem s ib i ≠ .nan ∧ NoSubnormal (elem s ib i)) :
    ∃ s' y, Returns (sem e) prog 271 s s' ∧ ResultX s s' y ∧ Largest s ib n y := by
  obtain ⟨s', y, r1, r2, r3⟩ := C129_VMaxF32 hc
  refine ⟨s', y, r1, r2, ?_⟩
  have r4 := vmax_val h1 h2 r3
  have back : ofBits32 y ≠ .nan → (ofBits32 y = .inf true ∨ ∃ i, i < n ∧ ofBits32 y = elem s ib i) → y = 0xff800000 ∨ ∃ i < n, y = bitsOf s ib i := by
    rintro hy (h | ⟨i, hi, h⟩)
    · exact Or.inl (A64.Math.bits_of_val hy (h.trans inf_bits.symm))
    · exact Or.inr ⟨i, hi, A64.Math.bits_of_val hy h⟩
  by_cases c : neon e = true ∧ 16 ≤ n
  · obtain ⟨z, z1, z2, -, z4, z5, -⟩ := Arm.C83_max_partial (neon e) n (elem s ib) (fun i hi => (hd c.1 c.2 i hi).1) (fun i hi => (hd c.1 c.2 i hi).2)
    obtain rfl := Option.some.inj (z1.symm.trans r4)
    exact ⟨z2, fun i hi _ => z4 i hi, back z2 z5⟩
  · rw [Arm.C83_max_scalar _ _ _ _ _ _ (by
      by_cases d : neon e = true
      · exact Or.inr (by have : ¬ 16 ≤ n := fun g => c ⟨d, g⟩; omega)
      · exact Or.inl (by simpa using d))] at r4
    have port := Asm.vExtreme_isExt Asm.gtF_iff (show (Val.inf true) ≠ .nan by simp) (elem s ib) n
    rw [Option.some.inj r4] at port
    exact ⟨port.isGood, fun i hi hx => port.ge i hi hx, back port.isGood port.mem⟩

/-- **C129, the largest number is unique**, except for the sign of zero. -/
theorem C129_unique {s : St} {ib : BitVec 32} {n : Nat} {y z : BitVec 32} (hy : Largest s ib n y) (hz : Largest s ib n z) :
    key (ofBits32 y) = key (ofBits32 z) := by
  have low : ∀ v : Val, key (.inf true) ≤ key v := fun v => by
    show (⊥ : WithBot (WithTop ℚ)) ≤ _
    exact bot_le
  have half : ∀ {y z : BitVec 32}, Largest s ib n y → Largest s ib n z → key (ofBits32 y) ≤ key (ofBits32 z) := by
    intro y z hy hz
    rcases hy.mem with h | ⟨i, hi, h⟩
    · rw [h, inf_bits]; exact low _
    · have hn : elem s ib i ≠ .nan := by
        have := hy.num
        rw [h] at this
        exact this
      rw [h]
      exact hz.ge i hi hn
  exact le_antisymm (half hy hz) (half hz hy)

/-- **C129, violated.** With NEON and a not-a-number in a whole block, the result is not a number, though the portable code would skip it. -/
theorem C129_violated_nan {e : Env} (h1 : Compares e) (h2 : NeonMax e) (hN : neon e = true) {s : St} {ib : BitVec 32} {n : Nat} (hc : CallX e s ib n)
    (h16 : 16 ≤ n) {i : Nat} (hi : i < n - n % 8) (hx : elem s ib i = .nan) :
    ∃ s' y, Returns (sem e) prog 271 s s' ∧ ResultX s s' y ∧ ofBits32 y = .nan ∧ vExtreme gtF (.inf true) ((List.range n).map (elem s ib)) ≠ .nan := by
  obtain ⟨s', y, r1, r2, r3⟩ := C129_VMaxF32 hc
  have r4 := vmax_val h1 h2 r3
  have := Arm.C83_violated_nan n (elem s ib) h16 i hi hx
  rw [hN, this.1] at r4
  exact ⟨s', y, r1, r2, (Option.some.inj r4).symm, this.2⟩

/-- **C129, violated.** With NEON the maximum of 16 or more least negative numbers is larger than all. -/
theorem C129_violated_subnormal {e : Env} (h1 : Compares e) (h2 : NeonMax e) (hN : neon e = true) {s : St} {ib : BitVec 32} {n : Nat} (hc : CallX e s ib n)
    (h16 : 16 ≤ n) (hx : ∀ i < n, elem s ib i = .fin true (2 ^ (-149 : ℤ))) :
    ∃ s' y, Returns (sem e) prog 271 s s' ∧ ResultX s s' y ∧ ∀ i < n, Fp.lt (elem s ib i) (ofBits32 y) := by
  obtain ⟨s', y, r1, r2, r3⟩ := C129_VMaxF32 hc
  have r4 := vmax_val h1 h2 r3
  obtain ⟨z, z1, z2, -⟩ := Arm.C83_violated_subnormal n (elem s ib) h16 hx
  rw [hN] at r4
  obtain rfl := Option.some.inj (z1.symm.trans r4)
  exact ⟨s', y, r1, r2, z2⟩

/-! ### Examples -/

/-- The comparison of bit patterns. -/
def ieeeCmp (a b : BitVec 32) : Rel :=
  if Fp.lt (ofBits32 b) (ofBits32 a) then .gt else if Fp.lt (ofBits32 a) (ofBits32 b) then .lt
  else if ofBits32 a = .nan ∨ ofBits32 b = .nan then .un else .eq

/-- The maximum of NEON with the default not-a-number. -/
noncomputable def ieeeNmax (a b : BitVec 32) : BitVec 32 := toBits32 (neonMax (ofBits32 a) (ofBits32 b))

theorem ieeeNmax_val (a b : BitVec 32) : ofBits32 (ieeeNmax a b) = neonMax (ofBits32 a) (ofBits32 b) := by
  refine ofBits32_toBits32 _ ?_
  unfold neonMax
  rw [Arm.fmax_isMax.eq]
  split
  · exact repr32_flush (X86.repr32_ofBits b)
  · exact repr32_flush (X86.repr32_ofBits a)

/-- A machine with these, that can read 0x2000–0x2fff. -/
noncomputable def machineX (neon : Bool) : Env :=
  { machineV neon with o := { Conv.noOps with cmp := ieeeCmp, nmax := ieeeNmax } }

theorem machineX_cmp (b : Bool) : Compares (machineX b) := by
  intro x y
  show ieeeCmp x y = .gt ↔ _
  unfold ieeeCmp
  split_ifs with h1 h2 h3 <;> simp [h1]

/-- 35 numbers 1.5: the result is 1.5, with and without NEON. -/
example (b : Bool) : ∃ s', Returns (sem (machineX b)) prog 271 (callV 0x3FC00000 0x2010 0 35 0 0) s' ∧ s'.fp 12 = 0x3FC00000 := by
  have hc : CallX (machineX b) (callV 0x3FC00000 0x2010 0 35 0 0) 0x2010 35 := ⟨by decide, rfl, rfl, by cases b <;> decide +kernel, by decide, by decide⟩
  have b1 : ofBits32 0x3FC00000 = .fin false (3 / 2) := by norm_num [ofBits32, show (0x3FC00000 : BitVec 32).toNat = 0x3FC00000 from rfl]
  have w : ∀ i < 35, bitsOf (callV 0x3FC00000 0x2010 0 35 0 0) 0x2010 i = 0x3FC00000 := fun i hi => callV_word _ _ _ _ _ _ (aligned (by decide) (by omega))
  have v : ∀ i < 35, elem (callV 0x3FC00000 0x2010 0 35 0 0) 0x2010 i = .fin false (3 / 2) := fun i hi => by
    show ofBits32 (bitsOf _ _ _) = _
    rw [w i hi, b1]
  have big : (2 : ℚ) ^ (-126 : ℤ) ≤ 1 := by
    rw [zpow_neg]
    exact inv_le_one_of_one_le₀ (by norm_num)
  obtain ⟨s', y, h1, h2, h3⟩ := C129_max_partial (machineX_cmp b) ieeeNmax_val hc (fun _ _ i hi => by
    rw [v i hi]
    refine ⟨by simp, ?_⟩
    intro s q hq
    obtain ⟨-, rfl⟩ := Val.fin.inj hq
    exact Or.inr (big.trans (by norm_num)))
  refine ⟨s', h1, ?_⟩
  rw [h2.fp, Function.update_self]
  rcases h3.mem with h | ⟨i, hi, h⟩
  · have := h3.ge 0 (by decide) (by rw [v 0 (by decide)]; simp)
    rw [v 0 (by decide), h, inf_bits] at this
    simp [key] at this
  · rw [h, w i hi]

/-- 20 not-a-numbers with NEON: the result is none. -/
example : ∃ s' y, Returns (sem (machineX true)) prog 271 (callV 0x7FC00000 0x2010 0 20 0 0) s' ∧ s'.fp 12 = y ∧ ofBits32 y = .nan := by
  have hc : CallX (machineX true) (callV 0x7FC00000 0x2010 0 20 0 0) 0x2010 20 := ⟨by decide, rfl, rfl, by decide +kernel, by decide, by decide⟩
  obtain ⟨s', y, h1, h2, h3, -⟩ := C129_violated_nan (machineX_cmp true) ieeeNmax_val rfl hc (by decide) (i := 3) (by decide) (by
    rw [elem, f32at, callV_word _ _ _ _ _ _ (aligned (by decide) (by omega))]
    norm_num [ofBits32, show (0x7FC00000 : BitVec 32).toNat = 0x7FC00000 from rfl])
  exact ⟨s', y, h1, by rw [h2.fp, Function.update_self], h3⟩

/-- 20 times the least negative number with NEON: the result is larger. -/
example : ∃ s' y, Returns (sem (machineX true)) prog 271 (callV 0x80000001 0x2010 0 20 0 0) s' ∧ s'.fp 12 = y ∧
    Fp.lt (.fin true (2 ^ (-149 : ℤ))) (ofBits32 y) := by
  have hc : CallX (machineX true) (callV 0x80000001 0x2010 0 20 0 0) 0x2010 20 := ⟨by decide, rfl, rfl, by decide +kernel, by decide, by decide⟩
  have v : ∀ i < 20, elem (callV 0x80000001 0x2010 0 20 0 0) 0x2010 i = .fin true (2 ^ (-149 : ℤ)) := fun i hi => by
    rw [elem, f32at, callV_word _ _ _ _ _ _ (aligned (by decide) (by omega))]
    norm_num [ofBits32, show (0x80000001 : BitVec 32).toNat = 0x80000001 from rfl]
  obtain ⟨s', y, h1, h2, h3⟩ := C129_violated_subnormal (machineX_cmp true) ieeeNmax_val rfl hc (by decide) v
  refine ⟨s', y, h1, by rw [h2.fp, Function.update_self], ?_⟩
  have := h3 0 (by decide)
  rwa [v 0 (by decide)] at this

end Verif.A32.Math
