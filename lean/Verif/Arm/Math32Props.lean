import Verif.Arm.Math32Model
import Verif.Arm.Arm64Props
import Verif.Fp.FpLemmas
import Mathlib.Tactic.NormNum
import Mathlib.Algebra.Order.Field.Power

/-!
# Property C83: `VScaleF32`, `VAbsC64` and `VMaxF32` on 32-bit ARM against the portable code
-/

namespace Verif.Arm
open Verif.Conv Verif.Asm Verif.Fp Verif.Arm.TakesMax

variable {F D σ : Type}

/-- The loop of single elements from position `c` on. -/
theorem rest_run (cnt : σ → Nat) (S : Nat → σ) (n c : Nat) (hc : c ≤ n) (hcnt : ∀ x, cnt (S x) = n - x) (step : σ → Option σ)
    (hs : ∀ x, c ≤ x → x + 1 ≤ n → step (S x) = some (S (x + 1))) : rest cnt step (n + 1) (S c) = some (S n) := by
  unfold rest
  rw [hcnt]
  by_cases h : n - c = 0
  · rw [if_pos h, show c = n by omega]
  · rw [if_neg h]
    refine doWhile_steps S 1 c n _ (by omega) (by omega) (one_dvd _) (by omega) (fun x h1 h2 => hs x h1 h2) ?_
    intro x _ hx _
    rw [hcnt]
    congr 1
    apply propext
    omega

/-- A loop of blocks of `w`, begun with `n - c ≥ w` elements left. -/
theorem blocks_run (cnt : σ → Nat) (S : Nat → σ) (n c w : Nat) (hw : 0 < w) (hc : c + w ≤ n) (hcnt : ∀ x, cnt (S x) = n - x)
    (block : σ → Option σ) (hb : ∀ x, c ≤ x → x + w ≤ n - (n - c) % w → block (S x) = some (S (x + w))) :
    doWhile block (fun s => decide (cnt s ≥ w)) (n + 1) (S c) = some (S (n - (n - c) % w)) := by
  have hm : (n - c) % w < w := Nat.mod_lt _ hw
  have hle : (n - c) % w ≤ n - c := Nat.mod_le _ _
  have hdiv : w ∣ n - c - (n - c) % w := Nat.dvd_sub_mod (n - c)
  refine doWhile_steps S w c (n - (n - c) % w) _ hw (by omega) ?_ (by omega) hb ?_
  · rwa [show n - (n - c) % w - c = n - c - (n - c) % w by omega]
  · intro x h0 hx hd
    rw [hcnt]
    congr 1
    apply propext
    constructor
    · intro hge; omega
    · intro hlt
      have hd2 : w ∣ (n - c - (n - c) % w) - (x - c) := Nat.dvd_sub hdiv hd
      have := Nat.le_of_dvd (by omega) hd2
      omega

theorem minLt' (a b : Nat) : (if b < a then b else a) = min a b := by split <;> omega

/-! ## `VScaleF32` -/

/-- The product taken for element `i` of `n`: by NEON in whole blocks of 16. -/
def scaleMul (mul mulN : F → F → F) (neon : Bool) (n i : Nat) : F → F → F := if neon = true ∧ i < n - n % 16 then mulN else mul

theorem vsNeon32_st (mulN : F → F → F) (scale : F) (m g : Nat → F) (ib ob n c : Nat) (h : NoOvertake ob ib n) (hc : c + 16 ≤ n)
    (hg : ∀ k < 16, g (c + k) = mulN (m (ib + (c + k))) scale) :
    vsNeon32 mulN scale (stC m g ib ob n c) = some (stC m g ib ob n (c + 16)) := by
  have e1 := mark ib c 16 (by omega)
  have e2 := mark ob c 16 (by omega)
  have a : ∀ k, ob + c + k = ob + (c + k) := fun k => Nat.add_assoc _ _ _
  simp only [vsNeon32, stC, e1, e2]
  simp only [a]
  rw [store4_fill_at, store4_fill_at, store4_fill_at, store4_fill_at]
  · congr 2
  · intro k hk
    unfold NoOvertake at h
    rw [fill_out (by omega), show c + 4 + 4 + 4 + k = c + (12 + k) by omega, hg (12 + k) (by omega)]
    congr 2; omega
  · intro k hk
    unfold NoOvertake at h
    rw [fill_out (by omega), show c + 4 + 4 + k = c + (8 + k) by omega, hg (8 + k) (by omega)]
    congr 2; omega
  · intro k hk
    unfold NoOvertake at h
    rw [fill_out (by omega), show c + 4 + k = c + (4 + k) by omega, hg (4 + k) (by omega)]
    congr 2; omega
  · intro k hk
    unfold NoOvertake at h
    rw [fill_out (by omega), hg k (by omega)]
    congr 2; omega

theorem vsScalar32_st (mul : F → F → F) (scale : F) (m g : Nat → F) (ib ob n c : Nat) (h : NoOvertake ob ib n) (hc : c + 1 ≤ n)
    (hg : g c = mul (m (ib + c)) scale) :
    vsScalar32 mul scale (stC m g ib ob n c) = some (stC m g ib ob n (c + 1)) := by
  have e1 := mark ib c 1 (by omega)
  have e2 := mark ob c 1 (by omega)
  simp only [vsScalar32, stC, e1, e2]
  rw [fill_ahead h (by omega), update_fill m ob c g _ hg.symm]
  congr 2

theorem vscaleF32Arm_run (mul mulN : F → F → F) (neon : Bool) (input output : Slice) (scale : F) (m : Nat → F)
    (h : NoOvertake output.base input.base (min input.len output.len)) :
    vscaleF32Arm mul mulN neon input output scale m =
      some (stC m (fun i => scaleMul mul mulN neon (min input.len output.len) i (m (input.base + i)) scale) input.base output.base
        (min input.len output.len) (min input.len output.len)) := by
  unfold vscaleF32Arm
  simp only [minLt']
  generalize min input.len output.len = n at h
  rw [← stC_zero m (fun i => scaleMul mul mulN neon n i (m (input.base + i)) scale)]
  by_cases h0 : n = 0
  · rw [if_pos h0, h0]
  rw [if_neg h0]
  by_cases hn : neon = false ∨ n < 16
  · rw [if_pos hn]
    have := rest_run StC.cnt (stC m (fun i => scaleMul mul mulN neon n i (m (input.base + i)) scale) input.base output.base n) n 0
      (by omega) (fun _ => rfl) (vsScalar32 mul scale) (fun x _ hx => vsScalar32_st mul scale m _ _ _ _ x h hx (by
        simp only [scaleMul]
        rw [if_neg]
        rintro ⟨h1, h2⟩
        rcases hn with hn | hn
        · rw [hn] at h1; cases h1
        · rw [Nat.mod_eq_of_lt hn] at h2; omega))
    unfold rest at this
    rwa [if_neg (show ¬ StC.cnt _ = 0 from h0)] at this
  · rw [if_neg hn]
    have hneon : neon = true := by
      cases neon
      · exact absurd (Or.inl rfl) hn
      · rfl
    rw [blocks_run StC.cnt (stC m (fun i => scaleMul mul mulN neon n i (m (input.base + i)) scale) input.base output.base n) n 0 16
      (by omega) (by omega) (fun _ => rfl) (vsNeon32 mulN scale) (fun x _ hx => vsNeon32_st mulN scale m _ _ _ _ x h (by omega) (by
        intro k hk
        simp only [scaleMul]
        rw [if_pos ⟨hneon, by omega⟩])), Option.bind_some]
    refine rest_run StC.cnt _ n _ (by omega) (fun _ => rfl) _ (fun x h1 hx => vsScalar32_st mul scale m _ _ _ _ x h hx (by
        simp only [scaleMul]
        rw [if_neg]
        rintro ⟨-, h2⟩
        omega))

/-- C83, `VScaleF32`: for all lengths and slices that do not start strictly inside the input, every element of the
common length is written once, scaled by the product of the unit that handles it, and nothing outside is read or
written. -/
theorem C83_scale (mul mulN : F → F → F) (neon : Bool) (input output : Slice) (scale : F) (m : Nat → F)
    (h : NoOvertake output.base input.base (min input.len output.len)) :
    ∃ t, vscaleF32Arm mul mulN neon input output scale m = some t ∧
      (∀ i < min input.len output.len, t.om (output.base + i) =
        if neon = true ∧ i < 16 * (min input.len output.len / 16) then mulN (m (input.base + i)) scale else mul (m (input.base + i)) scale) ∧
      (∀ a, ¬ (output.base ≤ a ∧ a < output.base + min input.len output.len) → t.om a = m a) ∧
      t.rEnd ≤ input.base + min input.len output.len ∧ t.wEnd ≤ output.base + min input.len output.len := by
  refine ⟨_, vscaleF32Arm_run mul mulN neon input output scale m h, ?_, ?_, ?_, ?_⟩
  · intro i hi
    simp only [stC]
    rw [fill_in hi]
    unfold scaleMul
    have e : min input.len output.len - min input.len output.len % 16 = 16 * (min input.len output.len / 16) := by omega
    rw [e]
    split <;> rfl
  · intro a ha
    simp only [stC]
    rw [fill_out (by omega)]
  · simp only [stC]; split <;> omega
  · simp only [stC]; split <;> omega

/-- A float whose magnitude is that of a normal number, or zero, or not finite. -/
def NoSubnormal (v : Val) : Prop := ∀ s q, v = .fin s q → q = 0 ∨ 2 ^ (-126 : ℤ) ≤ q

/-- The exact product of two finite floats is zero or not below the least normal number. -/
def NoUnderflow (v w : Val) : Prop := ∀ s q t r, v = .fin s q → w = .fin t r → q * r = 0 ∨ 2 ^ (-126 : ℤ) ≤ q * r

theorem flush_fin (s : Bool) (q : ℚ) : flush (.fin s q) = if q < 2 ^ (-126 : ℤ) then .fin s 0 else .fin s q := rfl

theorem flush_eq (v : Val) (h : NoSubnormal v) : flush v = v := by
  rcases v with _ | s | ⟨s, q⟩
  · rfl
  · rfl
  · rcases h s q rfl with hq | hq
    · subst hq
      rw [flush_fin, if_pos (by positivity)]
    · rw [flush_fin, if_neg (not_lt.2 hq)]

theorem neonMul_eq (v w : Val) (hv : NoSubnormal v) (hw : NoSubnormal w) (h : NoUnderflow v w) : neonMul v w = mul binary32 v w := by
  unfold neonMul
  rw [flush_eq v hv, flush_eq w hw]
  rcases v with _ | s | ⟨s, q⟩ <;> rcases w with _ | t | ⟨t, r⟩ <;> try rfl
  simp only [mul]
  rcases h s q t r rfl rfl with e | e
  · rw [e]
    rw [if_pos (by positivity)]
    simp [Verif.Fp.round]
  · rw [if_neg (not_lt.2 e)]

/-- C83, `VScaleF32` in binary32 arithmetic (partial: without NEON, or without subnormal numbers in the whole blocks):
the memory is the one the portable code leaves. -/
theorem C83_scale_same_partial (o : FloatOps Val D) (ho : o.mul = mul binary32) (neon : Bool) (input output : Slice) (scale : Val) (m : Nat → Val)
    (h : NoOvertake output.base input.base (min input.len output.len))
    (hs : neon = true → NoSubnormal scale ∧ ∀ i < 16 * (min input.len output.len / 16), NoSubnormal (m (input.base + i)) ∧ NoUnderflow (m (input.base + i)) scale) :
    (vscaleF32Arm (mul binary32) neonMul neon input output scale m).map StC.om = vscaleF32 o input output m scale := by
  rw [C19_vscaleF32 o input output m scale h, vscaleF32Arm_run _ _ _ _ _ _ _ h]
  simp only [Option.map_some, stC, ho]
  congr 1
  refine fill_congr fun i hi => ?_
  unfold scaleMul
  split
  · rename_i hc
    obtain ⟨h1, h2⟩ := hs hc.1
    have := h2 i (by omega)
    exact neonMul_eq _ _ this.1 h1 this.2
  · rfl

/-- C83 is violated by NEON for every slice of 16 or more elements equal to the least normal number, scaled by one
half: NEON writes zeros, the portable code writes the halves. -/
theorem C83_violated_scale (o : FloatOps Val D) (ho : o.mul = mul binary32) (input output : Slice) (m : Nat → Val)
    (h : NoOvertake output.base input.base (min input.len output.len)) (hn : 16 ≤ min input.len output.len)
    (hm : ∀ i < 16, m (input.base + i) = .fin false (2 ^ (-126 : ℤ))) :
    ∃ t p, vscaleF32Arm (mul binary32) neonMul true input output (.fin false (1 / 2)) m = some t ∧
      vscaleF32 o input output m (.fin false (1 / 2)) = some p ∧
      ∀ i < 16, t.om (output.base + i) = .fin false 0 ∧ p (output.base + i) = .fin false (2 ^ (-127 : ℤ)) := by
  refine ⟨_, _, vscaleF32Arm_run _ _ _ _ _ _ _ h, C19_vscaleF32 o input output m _ h, fun i hi => ?_⟩
  have half : (1 / 2 : ℚ) = 2 ^ (-1 : ℤ) := by norm_num
  have prod : (2 : ℚ) ^ (-126 : ℤ) * (1 / 2) = 2 ^ (-127 : ℤ) := by rw [half, ← zpow_add₀ (by norm_num)]; rfl
  have lt : (2 : ℚ) ^ (-127 : ℤ) < 2 ^ (-126 : ℤ) := zpow_lt_zpow_right₀ (by norm_num) (by norm_num)
  have ge : ¬ (2 : ℚ) ^ (-1 : ℤ) < 2 ^ (-126 : ℤ) := not_lt.2 (zpow_le_zpow_right₀ (by norm_num) (by norm_num))
  constructor
  · simp only [stC]
    rw [fill_in (by omega)]
    unfold scaleMul
    rw [if_pos ⟨rfl, by omega⟩, hm i hi]
    unfold neonMul
    simp only [flush, lt_self_iff_false, if_false]
    rw [if_neg (by rw [half]; exact ge)]
    simp only
    rw [prod, if_pos lt]
    rfl
  · rw [fill_in (by omega), ho, hm i hi]
    simp only [mul]
    rw [prod]
    have := round_exact binary32 false 1 (-127) (by decide) (by decide) (by
      rw [Nat.cast_one, one_mul]
      exact zpow_lt_zpow_right₀ (by norm_num) (by decide))
    rw [Nat.cast_one, one_mul] at this
    exact this

/-! ## `VAbsC64` -/

/-- Square root of the sum of the squares, in the arithmetic of the code. -/
def absOf (o : FloatOps F D) (v : F × F) : F := o.sqrt (o.add (o.mul v.1 v.1) (o.mul v.2 v.2))

theorem vaScalar32_st (o : FloatOps F D) (im : Nat → F × F) (om : Nat → F) (ib ob n c : Nat) :
    vaScalar32 o im (stC om (fun i => absOf o (im (ib + i))) ib ob n c) = some (stC om (fun i => absOf o (im (ib + i))) ib ob n (c + 1)) := by
  have e1 := mark ib c 1 (by omega)
  have e2 := mark ob c 1 (by omega)
  have u := update_fill om ob c (fun i => absOf o (im (ib + i))) (absOf o (im (ib + c))) rfl
  simp only [vaScalar32, stC, e1, e2]
  unfold absOf at u ⊢
  rw [u]
  congr 2

theorem vaVector32_st (o : FloatOps F D) (im : Nat → F × F) (om : Nat → F) (ib ob n c : Nat) :
    vaVector32 o 2 im (stC om (fun i => absOf o (im (ib + i))) ib ob n c) = some (stC om (fun i => absOf o (im (ib + i))) ib ob n (c + 4)) := by
  have e1 := mark ib c 4 (by omega)
  have e2 := mark ob c 4 (by omega)
  simp only [vaVector32, stC, e1, e2]
  rw [store4_fill_at]
  · congr 2
  · intro k hk
    have : k = 0 ∨ k = 1 ∨ k = 2 ∨ k = 3 := by omega
    rcases this with rfl | rfl | rfl | rfl <;>
      simp [vec4, vecReg, absOf, Function.update, List.range_succ, Nat.add_assoc]

/-- C83, `VAbsC64` (partial: not in vector mode): for all lengths each magnitude of the common length is the one of
the portable code, and nothing outside is read or written.  Where the portable code panics (no element) nothing is
written. -/
theorem C83_abs_partial (o : FloatOps F D) (strideOf : BitVec 2 → Option Nat) (vector : Bool) (input : Slice) (im : Nat → F × F) (output : Slice)
    (om : Nat → F) (hv : vector = false ∨ min input.len output.len < 4) :
    ∃ t, vAbsC64Arm o strideOf vector input im output om = some t ∧
      t.rEnd ≤ input.base + min input.len output.len ∧ t.wEnd ≤ output.base + min input.len output.len ∧
      (0 < min input.len output.len → vAbsC64 o input im output om = some t.om) ∧
      (min input.len output.len = 0 → t.om = om) := by
  refine ⟨stC om (fun i => absOf o (im (input.base + i))) input.base output.base (min input.len output.len) (min input.len output.len), ?_, ?_, ?_, ?_, ?_⟩
  · unfold vAbsC64Arm
    simp only [minLt']
    generalize min input.len output.len = n at hv
    rw [← stC_zero om (fun i => absOf o (im (input.base + i)))]
    by_cases h0 : n = 0
    · rw [if_pos h0, h0]
    rw [if_neg h0, if_pos hv]
    have := rest_run StC.cnt (stC om (fun i => absOf o (im (input.base + i))) input.base output.base n) n 0
      (by omega) (fun _ => rfl) (vaScalar32 o im) (fun x _ _ => vaScalar32_st o im om _ _ _ x)
    unfold rest at this
    rwa [if_neg (show ¬ StC.cnt _ = 0 from h0)] at this
  · simp only [stC]; split <;> omega
  · simp only [stC]; split <;> omega
  · intro h
    exact C19_vAbsC64_partial o input im output om (by omega) (by omega)
  · intro h
    simp only [stC, h, fill_zero]

/-- C83, `VAbsC64` in vector mode (partial: on a machine that takes the stride bits 01 to mean 2, which the
architecture does not promise): as in the portable code. -/
theorem C83_abs_vector_partial (o : FloatOps F D) (strideOf : BitVec 2 → Option Nat) (hst : strideOf 1#2 = some 2) (vector : Bool) (input : Slice)
    (im : Nat → F × F) (output : Slice) (om : Nat → F) (hn : 0 < min input.len output.len) :
    ∃ t, vAbsC64Arm o strideOf vector input im output om = some t ∧ vAbsC64 o input im output om = some t.om ∧
      t.rEnd ≤ input.base + min input.len output.len ∧ t.wEnd ≤ output.base + min input.len output.len := by
  by_cases hv : vector = false ∨ min input.len output.len < 4
  · obtain ⟨t, h1, h2, h3, h4, -⟩ := C83_abs_partial o strideOf vector input im output om hv
    exact ⟨t, h1, h4 hn, h2, h3⟩
  · refine ⟨stC om (fun i => absOf o (im (input.base + i))) input.base output.base (min input.len output.len) (min input.len output.len), ?_,
      C19_vAbsC64_partial o input im output om (by omega) (by omega), ?_, ?_⟩
    · unfold vAbsC64Arm
      simp only [minLt']
      generalize min input.len output.len = n at hv
      rw [← stC_zero om (fun i => absOf o (im (input.base + i))), if_neg (by omega), if_neg hv, hst, Option.bind_some,
        blocks_run StC.cnt (stC om (fun i => absOf o (im (input.base + i))) input.base output.base n) n 0 4 (by omega) (by omega) (fun _ => rfl)
          (vaVector32 o 2 im) (fun x _ _ => vaVector32_st o im om _ _ _ x), Option.bind_some]
      exact rest_run StC.cnt _ n _ (by omega) (fun _ => rfl) _ (fun x _ _ => vaScalar32_st o im om _ _ _ x)
    · simp only [stC]; split <;> omega
    · simp only [stC]; split <;> omega

/-- C83 is violated in vector mode: for every slice of four or more elements the architecture gives the stride bits
01 no meaning, so the result is not determined. -/
theorem C83_violated_abs (o : FloatOps F D) (input : Slice) (im : Nat → F × F) (output : Slice) (om : Nat → F) (hn : 4 ≤ min input.len output.len) :
    vAbsC64Arm o vfpStride true input im output om = none := by
  unfold vAbsC64Arm
  simp only [minLt']
  rw [if_neg (by omega), if_neg (by rintro (h | h); cases h; omega)]
  rfl

/-! ## `VMaxF32` -/

/-- `F4` after the elements `b`, …, `b + x - 1`. -/
def stF (gt : F → F → Bool) (im : Nat → F) (a : F) (b n x : Nat) : StF F := ⟨vExtreme gt a ((List.range (x - b)).map fun i => im (b + i)), x, n - x⟩

theorem stF_start (gt : F → F → Bool) (im : Nat → F) (a : F) (b n : Nat) : stF gt im a b n b = ⟨a, b, n - b⟩ := by
  simp [stF, vExtreme]

theorem stF_succ (gt : F → F → Bool) (im : Nat → F) (a : F) (b n x : Nat) (h : b ≤ x) :
    (stF gt im a b n (x + 1)).f4 = takeGt gt (stF gt im a b n x).f4 (im x) := by
  simp only [stF]
  rw [show x + 1 - b = (x - b) + 1 by omega, vExtreme_ofFn_succ, show b + (x - b) = x by omega]
  rfl

theorem vmScalar32_st (gt : F → F → Bool) (im : Nat → F) (a : F) (b n x : Nat) (h : b ≤ x) :
    vmScalar32 gt im (stF gt im a b n x) = some (stF gt im a b n (x + 1)) := by
  have := stF_succ gt im a b n x h
  unfold vmScalar32
  simp only [stF] at this ⊢
  rw [this]
  rfl

theorem vmBatch32_st (gt : F → F → Bool) (im : Nat → F) (a : F) (b n x : Nat) (h : b ≤ x) :
    vmBatch32 gt im (stF gt im a b n x) = some (stF gt im a b n (x + 4)) := by
  have h1 := stF_succ gt im a b n x h
  have h2 := stF_succ gt im a b n (x + 1) (by omega)
  have h3 := stF_succ gt im a b n (x + 2) (by omega)
  have h4 := stF_succ gt im a b n (x + 3) (by omega)
  unfold vmBatch32
  rw [show x + 3 + 1 = x + 4 by omega] at h4
  rw [show x + 2 + 1 = x + 3 by omega] at h3
  rw [show x + 1 + 1 = x + 2 by omega] at h2
  simp only [stF] at h1 h2 h3 h4 ⊢
  rw [h4, h3, h2, h1]
  rfl

/-- C83, `VMaxF32` without NEON or with fewer than 16 elements: the result is that of the portable code, for all
elements, NaNs included. -/
theorem C83_max_scalar (gt : F → F → Bool) (maxN : F → F → F) (init : F) (neon : Bool) (n : Nat) (im : Nat → F) (h : neon = false ∨ n < 16) :
    vmaxF32Arm gt maxN init neon n im = some (vExtreme gt init ((List.range n).map im)) := by
  unfold vmaxF32Arm
  by_cases h0 : n = 0
  · subst h0; rfl
  rw [if_neg h0, if_neg (by rintro ⟨h1, h2⟩; rcases h with h | h; rw [h] at h1; cases h1; exact h2 h)]
  have st : (⟨init, 0, n⟩ : StF F) = stF gt im init 0 n 0 := (stF_start gt im init 0 n).symm
  have fin : (stF gt im init 0 n n).f4 = vExtreme gt init ((List.range n).map im) := by
    simp only [stF, Nat.sub_zero, Nat.zero_add]
  rw [st]
  by_cases h4 : n < 4
  · rw [if_pos h4]
    have := rest_run StF.cnt (stF gt im init 0 n) n 0 (by omega) (fun _ => rfl) (vmScalar32 gt im) (fun x _ _ => vmScalar32_st gt im init 0 n x (by omega))
    unfold rest at this
    rw [if_neg (show ¬ StF.cnt _ = 0 from h0)] at this
    rw [this, Option.map_some, fin]
  · rw [if_neg h4, blocks_run StF.cnt (stF gt im init 0 n) n 0 4 (by omega) (by omega) (fun _ => rfl) (vmBatch32 gt im)
      (fun x _ _ => vmBatch32_st gt im init 0 n x (by omega)), Option.bind_some,
      rest_run StF.cnt _ n _ (by omega) (fun _ => rfl) (vmScalar32 gt im) (fun x _ _ => vmScalar32_st gt im init 0 n x (by omega)), Option.map_some, fin]

theorem flush_flush (v : Val) : flush (flush v) = flush v := by
  rcases v with _ | s | ⟨s, q⟩
  · rfl
  · rfl
  · rw [flush_fin]
    split
    · rw [flush_fin, if_pos (by positivity)]
    · rename_i h; rw [flush_fin, if_neg h]

/-- The maximum of two flushed values is flushed. -/
theorem flush_neonMax (a b : Val) : flush (neonMax a b) = neonMax a b := by
  unfold neonMax
  rw [fmax_isMax.eq]
  split
  · exact flush_flush b
  · exact flush_flush a

theorem neonMax_flush (a b : Val) : neonMax a b = fmax (flush a) (flush b) := rfl

/-- What the NEON loop has gathered in its accumulators. -/
theorem vmNeon_top (im : Nat → Val) (n : Nat) (hn : 16 ≤ n) :
    ∃ s, doWhile (vmNeon32 neonMax im) (fun s => decide (s.cnt ≥ 8)) (n + 1) ⟨fun k => im k, fun k => im (4 + k), 8, n - 8⟩ = some s ∧
      s.src = n - n % 8 ∧ s.cnt = n % 8 ∧ Top rankMax (fun i => flush (im i)) (fun i => i < n - n % 8) (vmFold32 neonMax s) := by
  let S : Nat → StN Val := fun j => Nat.rec ⟨fun k => im k, fun k => im (4 + k), 8, n - 8⟩
    (fun _ s => ⟨fun k => neonMax (s.q4 k) (im (s.src + k)), fun k => neonMax (s.q5 k) (im (s.src + 4 + k)), s.src + 8, s.cnt - 8⟩) j
  have hsrc : ∀ j, (S j).src = 8 + 8 * j := by
    intro j; induction j with
    | zero => rfl
    | succ j ih => show (S j).src + 8 = _; rw [ih]; omega
  have hcnt : ∀ j, (S j).cnt = n - 8 - 8 * j := by
    intro j; induction j with
    | zero => rfl
    | succ j ih => show (S j).cnt - 8 = _; rw [ih]; omega
  have h4 : ∀ j, ∀ k < 4, Top rankMax (fun i => flush (im i)) (fun i => i < 8 + 8 * j ∧ i % 8 = k) (flush ((S j).q4 k)) := by
    intro j; induction j with
    | zero =>
      intro k hk
      exact (Top.one (fun i => flush (im i)) k).congr fun i => by omega
    | succ j ih =>
      intro k hk
      show Top rankMax _ _ (flush (neonMax ((S j).q4 k) (im ((S j).src + k))))
      rw [hsrc, flush_neonMax, neonMax_flush]
      exact (Top.join fmax_isMax (ih k hk) (Top.one (fun i => flush (im i)) (8 + 8 * j + k))).congr fun i => by omega
  have h5 : ∀ j, ∀ k < 4, Top rankMax (fun i => flush (im i)) (fun i => i < 8 + 8 * j ∧ i % 8 = 4 + k) (flush ((S j).q5 k)) := by
    intro j; induction j with
    | zero =>
      intro k hk
      exact (Top.one (fun i => flush (im i)) (4 + k)).congr fun i => by omega
    | succ j ih =>
      intro k hk
      show Top rankMax _ _ (flush (neonMax ((S j).q5 k) (im ((S j).src + 4 + k))))
      rw [hsrc, flush_neonMax, neonMax_flush]
      exact (Top.join fmax_isMax (ih k hk) (Top.one (fun i => flush (im i)) (8 + 8 * j + 4 + k))).congr fun i => by omega
  have := doWhile_run (body := vmNeon32 neonMax im) (cond := fun s => decide (s.cnt ≥ 8)) S ((n - 8) / 8) (n + 1)
    (by omega) (by omega) (fun i _ => rfl)
    (fun i _ hi => by
      show decide ((S i).cnt ≥ 8) = true
      rw [hcnt, decide_eq_true_eq]; omega)
    (by
      show decide ((S ((n - 8) / 8)).cnt ≥ 8) = false
      rw [hcnt, decide_eq_false_iff_not]; omega)
  refine ⟨S ((n - 8) / 8), this, ?_, ?_, ?_⟩
  · rw [hsrc]; omega
  · rw [hcnt]; omega
  · generalize hJ : (n - 8) / 8 = J
    have q0 : ∀ k < 4, Top rankMax (fun i => flush (im i)) (fun i => i < 8 + 8 * J ∧ i % 4 = k) (neonMax ((S J).q4 k) ((S J).q5 k)) := by
      intro k hk
      rw [neonMax_flush]
      exact (Top.join fmax_isMax (h4 J k hk) (h5 J k hk)).congr fun i => by omega
    have pair : ∀ (P Q : Nat → Prop) (a b : Val), flush a = a → flush b = b → Top rankMax (fun i => flush (im i)) P a →
        Top rankMax (fun i => flush (im i)) Q b → Top rankMax (fun i => flush (im i)) (fun i => P i ∨ Q i) (neonMax a b) := by
      intro P Q a b ha hb hP hQ
      rw [neonMax_flush, ha, hb]
      exact Top.join fmax_isMax hP hQ
    unfold vmFold32
    simp only [if_true, if_false, one_ne_zero]
    exact (pair _ _ _ _ (flush_neonMax _ _) (flush_neonMax _ _)
      (pair _ _ _ _ (flush_neonMax _ _) (flush_neonMax _ _) (q0 0 (by omega)) (q0 1 (by omega)))
      (pair _ _ _ _ (flush_neonMax _ _) (flush_neonMax _ _) (q0 2 (by omega)) (q0 3 (by omega)))).congr fun i => by omega

/-- The result with NEON: the maximum over whole blocks of eight, flushed, then the comparisons of the portable code
with the elements that are left. -/
theorem vmaxF32Arm_neon (n : Nat) (im : Nat → Val) (hn : 16 ≤ n) :
    ∃ x, Top rankMax (fun i => flush (im i)) (fun i => i < n - n % 8) x ∧
      vmaxF32Arm gtF neonMax (.inf true) true n im = some (vExtreme gtF x ((List.range (n % 8)).map fun i => im (n - n % 8 + i))) := by
  obtain ⟨s, hs, hsrc, hcnt, ht⟩ := vmNeon_top im n hn
  refine ⟨_, ht, ?_⟩
  unfold vmaxF32Arm
  rw [if_neg (by omega), if_pos ⟨rfl, by omega⟩, hs, Option.bind_some]
  have e : (⟨vmFold32 neonMax s, s.src, s.cnt⟩ : StF Val) = stF gtF im (vmFold32 neonMax s) (n - n % 8) n (n - n % 8) := by
    rw [stF_start, hsrc, hcnt]
    congr 1
    omega
  rw [e, rest_run StF.cnt (stF gtF im (vmFold32 neonMax s) (n - n % 8) n) n (n - n % 8) (by omega) (fun _ => rfl) (vmScalar32 gtF im)
    (fun x hx _ => vmScalar32_st gtF im _ _ n x hx), Option.map_some]
  simp only [stF]
  rw [show n - (n - n % 8) = n % 8 by omega]

/-- C83, `VMaxF32` with NEON (partial: without NaNs and without subnormal numbers; see `C83_violated_nan` and
`C83_violated_subnormal`): the result is an element of the slice at least as large as every other, at the value of
the portable maximum. -/
theorem C83_max_partial (neon : Bool) (n : Nat) (im : Nat → Val) (hn : ∀ i, i < n → im i ≠ .nan) (hs : ∀ i, i < n → NoSubnormal (im i)) :
    ∃ y, vmaxF32Arm gtF neonMax (.inf true) neon n im = some y ∧ y ≠ .nan ∧ (n = 0 → y = .inf true) ∧ (∀ i, i < n → key (im i) ≤ key y) ∧
      (y = .inf true ∨ ∃ i, i < n ∧ y = im i) ∧ key y = key (vExtreme gtF (.inf true) ((List.range n).map im)) := by
  have port := vExtreme_isExt gtF_iff (show (Val.inf true) ≠ .nan by simp) im n
  suffices h : ∃ y, vmaxF32Arm gtF neonMax (.inf true) neon n im = some y ∧
      IsExt (fun v => v ≠ Val.nan) key (.inf true) im (fun i => i < n) y by
    obtain ⟨y, h1, h2⟩ := h
    refine ⟨y, h1, h2.isGood, ?_, fun i hi => h2.ge i hi (hn i hi), h2.mem, IsExt.unique h2 port⟩
    intro h0
    rcases h2.mem with h | ⟨i, hi, -⟩
    · exact h
    · omega
  by_cases h : neon = false ∨ n < 16
  · exact ⟨_, C83_max_scalar gtF neonMax (.inf true) neon n im h, port⟩
  · have hneon : neon = true := by
      cases neon
      · exact absurd (Or.inl rfl) h
      · rfl
    subst hneon
    obtain ⟨x, ht, hx⟩ := vmaxF32Arm_neon n im (by omega)
    refine ⟨_, hx, ?_⟩
    have start : IsExt (fun v => v ≠ Val.nan) key (.inf true) im (fun i => i < n - n % 8) x := by
      obtain ⟨t1, i, hi, t2⟩ := ht
      have fl : ∀ j, j < n - n % 8 → flush (im j) = im j := fun j hj => flush_eq _ (hs j (by omega))
      replace t2 : x = im i := t2.trans (fl i hi)
      have hxn : x ≠ .nan := by rw [t2]; exact hn i (by omega)
      refine ⟨hxn, bot_le, fun j hj _ => ?_, Or.inr ⟨i, hi, t2⟩⟩
      have := t1 j hj
      simp only [fl j hj] at this
      exact rankMax_le _ _ (hn j (by omega)) hxn this
    have grow : ∀ k, k ≤ n % 8 → IsExt (fun v => v ≠ Val.nan) key (.inf true) im (fun i => i < n - n % 8 + k)
        (vExtreme gtF x ((List.range k).map fun i => im (n - n % 8 + i))) := by
      intro k
      induction k with
      | zero => intro _; exact start
      | succ k ih =>
        intro hk
        rw [vExtreme_ofFn_succ]
        exact ((ih (by omega)).step gtF_iff (j := n - n % 8 + k)).congr fun i => by omega
    exact (grow (n % 8) (le_refl _)).congr fun i => by omega

/-- A NaN in `F4` stays there. -/
theorem vExtreme_nan (l : List Val) : vExtreme gtF .nan l = .nan := by
  induction l with
  | nil => rfl
  | cons v l ih =>
    unfold vExtreme at ih ⊢
    rw [List.foldl_cons]
    have : gtF v .nan = false := by
      unfold gtF
      rw [decide_eq_false_iff_not]
      rcases v with _ | s | ⟨s, q⟩ <;> exact id
    rw [this]
    exact ih

/-- C83 is violated by every slice with a NaN in one of its whole blocks of eight: NEON returns a NaN, the portable
code never does.  A NaN after the blocks is skipped. -/
theorem C83_violated_nan (n : Nat) (im : Nat → Val) (hn : 16 ≤ n) (i : Nat) (hi : i < n - n % 8) (hnan : im i = .nan) :
    vmaxF32Arm gtF neonMax (.inf true) true n im = some .nan ∧ vExtreme gtF (.inf true) ((List.range n).map im) ≠ .nan := by
  refine ⟨?_, (vExtreme_isExt gtF_iff (by simp) im n).isGood⟩
  obtain ⟨x, ht, hx⟩ := vmaxF32Arm_neon n im hn
  have := ht.1 i hi
  simp only [hnan] at this
  rw [show flush Val.nan = .nan from rfl, rankMax_le_nan] at this
  rw [hx, this, vExtreme_nan]

/-- C83 is violated by every slice of 16 or more elements equal to the negative number nearest to zero: NEON
returns a zero, greater than every element. -/
theorem C83_violated_subnormal (n : Nat) (im : Nat → Val) (hn : 16 ≤ n) (him : ∀ i, i < n → im i = .fin true (2 ^ (-149 : ℤ))) :
    ∃ y, vmaxF32Arm gtF neonMax (.inf true) true n im = some y ∧ (∀ i, i < n → lt (im i) y) ∧
      vExtreme gtF (.inf true) ((List.range n).map im) = .fin true (2 ^ (-149 : ℤ)) := by
  have pos : (0 : ℚ) < 2 ^ (-149 : ℤ) := by positivity
  have fl : flush (.fin true (2 ^ (-149 : ℤ))) = .fin true 0 := by
    rw [flush_fin, if_pos (zpow_lt_zpow_right₀ (by norm_num) (by norm_num))]
  obtain ⟨x, ⟨-, i, hi, ht⟩, hx⟩ := vmaxF32Arm_neon n im hn
  simp only at ht
  rw [him i (by omega), fl] at ht
  have keep : ∀ k, k ≤ n % 8 → vExtreme gtF x ((List.range k).map fun i => im (n - n % 8 + i)) = x := by
    intro k
    induction k with
    | zero => intro _; rfl
    | succ k ih =>
      intro hk
      rw [vExtreme_ofFn_succ, ih (by omega), him _ (by omega), ht, if_neg]
      simp [gtF, lt, Val.toRat]
  refine ⟨x, by rw [hx, keep _ (le_refl _)], fun j hj => ?_, ?_⟩
  · rw [him j hj, ht]
    simp only [lt, Val.toRat, if_true, neg_zero]
    exact neg_lt_zero.2 pos
  · obtain ⟨g, -, h2, h3⟩ := vExtreme_isExt gtF_iff (show (Val.inf true) ≠ .nan by simp) im n
    rcases h3 with h3 | ⟨j, hj, h3⟩
    · have := h2 0 (by omega) (by rw [him 0 (by omega)]; simp)
      rw [h3, him 0 (by omega)] at this
      simp [key] at this
    · rw [h3, him j hj]

example : (vscaleF32Arm intOps.mul (fun a b => a * b + 1) true ⟨5, 40⟩ ⟨5, 37⟩ 3 (fun i => (i : Int))).map (fun t => (t.om 4, t.om 5, t.om 36, t.om 37, t.om 41, t.om 42))
    = some (4, 16, 109, 111, 123, 42) := by decide +kernel
example : NoOvertake (⟨5, 37⟩ : Slice).base (⟨5, 40⟩ : Slice).base 37 := Or.inl (Nat.le_refl _)
example : NoSubnormal (.fin true 3) ∧ NoUnderflow (.fin true 3) (.fin false (1 / 2)) := by
  have : (2 : ℚ) ^ (-126 : ℤ) ≤ 1 := zpow_le_one_of_nonpos₀ (by norm_num) (by norm_num)
  constructor
  · rintro s q ⟨⟩
    right; linarith
  · rintro s q t r ⟨⟩ ⟨⟩
    right; linarith
example : (vAbsC64Arm intOps vfpStride false ⟨1, 9⟩ (fun i => ((i : Int), 2)) ⟨3, 6⟩ (fun _ => -1)).map (fun t => (t.om 2, t.om 3, t.om 8, t.om 9))
    = some (-1, 5, 40, -1) := by decide +kernel
example : (vAbsC64Arm intOps (fun _ => some 2) true ⟨1, 9⟩ (fun i => ((i : Int), 2)) ⟨3, 6⟩ (fun _ => -1)).map (fun t => (t.om 2, t.om 3, t.om 8, t.om 9))
    = some (-1, 5, 40, -1) := by decide +kernel
/-- With the other stride the result would be another one. -/
example : (vAbsC64Arm intOps (fun _ => some 1) true ⟨1, 9⟩ (fun i => ((i : Int), 2)) ⟨3, 6⟩ (fun _ => -1)).map (fun t => (t.om 2, t.om 3, t.om 4))
    ≠ some (-1, 5, 8) := by decide +kernel
example : vmaxF32Arm gtF neonMax (.inf true) true 19 (fun i => if i = 18 then .nan else .fin true (i + 1)) = some (.fin true 1) ∧
    vmaxF32Arm gtF neonMax (.inf true) true 19 (fun i => if i = 18 then .fin false 7 else .fin true (i + 1)) = some (.fin false 7) ∧
    vmaxF32Arm gtF neonMax (.inf true) false 19 (fun i => if i = 3 then .nan else .fin true (i + 1)) = some (.fin true 1) := by decide +kernel

end Verif.Arm
