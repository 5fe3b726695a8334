import Verif.Angle.Fixed32Props
import Verif.Window.WindowFp

/-!
# Property C102, continued: the table of arctangents computed with rounding
-/

namespace Verif.Angle
open Verif.Fp Verif.Dft Verif.Filt Expr Real

/-- Truncation of a number in range, to 32 or 64 bits. -/
theorem toSigned_close {w : Nat} (hw : w = 32 ∨ w = 64) (other : Val → BitVec w) {v : Val} (hv : Fp.Finite v)
    (hb : |val v| ≤ 2147483646) : |((toSigned w other v).toInt : ℝ) - val v| < 1 := by
  obtain ⟨s, q, rfl, hq⟩ := hv
  have f1 := Int.floor_le q
  have f2 := Int.lt_floor_add_one q
  have f0 : 0 ≤ ⌊q⌋ := Int.floor_nonneg.2 hq
  have hq' : (q : ℝ) ≤ 2147483646 := by
    rw [val_fin] at hb
    cases s
    · simp only [Bool.false_eq_true, if_false] at hb
      exact (le_abs_self _).trans hb
    · simp only [if_true, abs_neg] at hb
      exact (le_abs_self _).trans hb
  have fb : ⌊q⌋ ≤ 2147483646 := by
    have : q ≤ 2147483646 := by exact_mod_cast hq'
    exact Int.floor_le_iff.2 (by push_cast; linarith)
  have f1' : ((⌊q⌋ : ℤ) : ℝ) ≤ (q : ℝ) := by exact_mod_cast f1
  have f2' : (q : ℝ) < ((⌊q⌋ : ℤ) : ℝ) + 1 := by exact_mod_cast f2
  have e : (toSigned w other (.fin s q)).toInt = if s then -⌊q⌋ else ⌊q⌋ := by
    have hr : -2 ^ (w - 1) ≤ (if s then -⌊q⌋ else ⌊q⌋) ∧ (if s then -⌊q⌋ else ⌊q⌋) < 2 ^ (w - 1) := by
      rcases hw with rfl | rfl <;> cases s <;> simp <;> omega
    show (if -2 ^ (w - 1) ≤ (if s then -⌊q⌋ else ⌊q⌋) ∧ (if s then -⌊q⌋ else ⌊q⌋) < 2 ^ (w - 1) then _ else _ : BitVec w).toInt = _
    rw [if_pos hr, BitVec.toInt_ofInt]
    rcases hw with rfl | rfl <;> (rw [Int.bmod_eq_of_le] <;> norm_num at hr ⊢ <;> omega)
  rw [e, val_fin]
  cases s
  · simp only [Bool.false_eq_true, if_false]
    rw [abs_lt]
    constructor <;> linarith
  · simp only [if_true]
    push_cast
    rw [abs_lt]
    constructor <;> linarith

/-- What is assumed of `math.Atan`: within `η` of the arctangent, for arguments between 0 and 512. -/
def Atan (atan : FVal binary64 → FVal binary64) (η : ℝ) : Prop :=
  ∀ x : FVal binary64, Fp.Finite x → 0 ≤ val x → val x ≤ 512 → Fp.Finite (atan x) ∧ |val (atan x) - arctan (val x)| ≤ η

theorem piV_is : Is piV (884279719003555 / 281474976710656) := by
  have e : (show Val from piV) = Val.fin false (884279719003555 / 281474976710656) := by decide +kernel
  show Is (show Val from piV) _
  rw [e]
  exact ⟨⟨_, _, rfl, by norm_num⟩, rfl⟩

theorem k256_is : Is (konst binary64 256) 256 := by
  have e : (show Val from konst binary64 256) = Val.fin false 256 := by decide +kernel
  show Is (show Val from konst binary64 256) _
  rw [e]
  exact ⟨⟨_, _, rfl, by norm_num⟩, rfl⟩

theorem k16384_is : Is (konst binary64 16384) 16384 := by
  have e : (show Val from konst binary64 16384) = Val.fin false 16384 := by decide +kernel
  show Is (show Val from konst binary64 16384) _
  rw [e]
  exact ⟨⟨_, _, rfl, by norm_num⟩, rfl⟩

/-- The argument of the arctangent is exact. -/
theorem arg_is {i : Nat} (hi : i < 131072) : Is (ofNat64 i / konst binary64 256 : FVal binary64) ((i : ℚ) / 256) := by
  have hg : Grid binary64 ((i : ℚ) / 256) := by
    refine ⟨i, -8, ?_, by decide, ?_⟩
    · show i < 2 ^ 53
      omega
    · rw [abs_of_nonneg (by positivity)]
      norm_num
      exact div_eq_mul_one_div _ _
  have hr := rd_grid binary64 (by decide) hg
  have hi' : (i : ℚ) ≤ 131072 := by exact_mod_cast hi.le
  have hnn : (0 : ℚ) ≤ (i : ℚ) / 256 := by positivity
  have big : (2 : ℚ) ^ (10 : ℤ) ≤ 2 ^ (binary64.emax + 1) := zpow_le_zpow_right₀ (by norm_num) (by decide)
  have := div_rd binary64 (is_ofNat64 (n := i) (by omega)) k256_is (by norm_num) (by
    rw [hr, abs_of_nonneg hnn]
    refine lt_of_lt_of_le ?_ big
    clear big
    have e : (2 : ℚ) ^ (10 : ℤ) = 1024 := by norm_num
    rw [e]
    linarith)
  rw [hr] at this
  exact this

theorem entry_err (atan : FVal binary64 → FVal binary64) (η : ℝ) (hη : η ≤ 1 / 2 ^ 30) (ha : Atan atan η) {i : Nat} (hi : i < 131072) :
    Fp.Finite (lutEntry atan i) ∧ |val (lutEntry atan i) - arctan (i / 256) / π * 16384| ≤ 0.0001 := by
  have hx := arg_is hi
  have hxv : val (ofNat64 i / konst binary64 256 : FVal binary64) = (i : ℝ) / 256 := by
    rw [val_of_is hx]
    push_cast
    rfl
  have hi' : (i : ℝ) ≤ 131072 := by exact_mod_cast hi.le
  obtain ⟨a1, a2⟩ := ha _ hx.1 (by rw [hxv]; positivity) (by rw [hxv]; linarith)
  rw [hxv] at a2
  set v : FVal binary64 := atan (ofNat64 i / konst binary64 256) with hv
  have A0 : 0 ≤ arctan ((i : ℝ) / 256) := arctan_nonneg.2 (by positivity)
  have A1 := arctan_lt_pi_div_two ((i : ℝ) / 256)
  set A : ℝ := arctan ((i : ℝ) / 256) with hA
  have g1 := Real.pi_gt_d20
  have g2 := Real.pi_lt_d20
  have pv : val piV = 884279719003555 / 281474976710656 := by
    rw [val_of_is piV_is]
    push_cast
    rfl
  have kv : val (konst binary64 16384) = 16384 := by
    rw [val_of_is k16384_is]
    push_cast
    rfl
  have hu : uR binary64 = 1 / 2 ^ 53 := by unfold uR; norm_num [binary64]
  have hw : wR binary64 ≤ 1 / 2 ^ 53 := by
    have : (2 : ℝ) ^ (-1075 : ℤ) ≤ 2 ^ (-53 : ℤ) := zpow_le_zpow_right₀ (by norm_num) (by norm_num)
    have e : wR binary64 = 2 ^ (-1075 : ℤ) := rfl
    rw [e]
    exact this.trans (by norm_num)
  have big : (2 : ℝ) ^ (20 : ℤ) ≤ 2 ^ binary64.emax := zpow_le_zpow_right₀ (by norm_num) (by decide)
  have big' : (65536 : ℝ) ≤ 2 ^ binary64.emax := le_trans (by norm_num) big
  obtain ⟨b1, b2⟩ := abs_le.1 (a2.trans hη)
  have vb : |val v| ≤ 2 := by
    rw [abs_le]
    norm_num at b1 b2 g2
    constructor <;> linarith
  have hp0 : val piV ≠ 0 := by rw [pv]; norm_num
  have hp3 : (3 : ℝ) ≤ val piV := by rw [pv]; norm_num
  have q1 : |val v / val piV| ≤ 1 := by
    rw [abs_div, abs_of_pos (by linarith : 0 < val piV), div_le_one (by linarith)]
    linarith
  obtain ⟨c1, c2⟩ := div_val binary64_ok a1 piV_is.1 hp0 (by linarith)
  set d : FVal binary64 := v / piV with hd
  -- the quotient is close to the exact one
  have e1 : |val v / val piV - A / π| ≤ 1 / 2 ^ 29 := by
    have hpi : (0 : ℝ) < π := by linarith [Real.pi_gt_three]
    have hpp : |val piV - π| ≤ 1 / 2 ^ 40 := by
      rw [pv, abs_le]
      norm_num at g1 g2 ⊢
      constructor <;> linarith
    have e : val v / val piV - A / π = ((val v - A) - A / π * (val piV - π)) / val piV := by
      field_simp
      ring
    have hAp : |A / π| ≤ 1 := by
      rw [abs_of_nonneg (by positivity), div_le_one hpi]
      linarith
    rw [e, abs_div, abs_of_pos (by linarith : 0 < val piV), div_le_iff₀ (by linarith)]
    have t := abs_sub (val v - A) (A / π * (val piV - π))
    rw [abs_mul] at t
    have m := mul_le_mul hAp hpp (abs_nonneg _) zero_le_one
    have := a2.trans hη
    norm_num at m t this hp3 ⊢
    linarith
  have c3 : |val d - A / π| ≤ 1 / 2 ^ 28 := by
    have t := abs_add_le (val d - val v / val piV) (val v / val piV - A / π)
    rw [sub_add_sub_cancel] at t
    have m : uR binary64 * |val v / val piV| ≤ uR binary64 * 1 := mul_le_mul_of_nonneg_left q1 (by rw [hu]; positivity)
    rw [hu] at m c2
    norm_num at m t e1 c2 hw ⊢
    linarith
  have hAp : A / π ≤ 1 := by
    rw [div_le_one (by linarith [Real.pi_gt_three])]
    linarith [Real.pi_gt_three]
  have hAp0 : 0 ≤ A / π := div_nonneg A0 (by linarith [Real.pi_gt_three])
  obtain ⟨d1, d2⟩ := abs_le.1 c3
  have db : |val d| ≤ 2 := by
    rw [abs_le]
    norm_num at d1 d2
    constructor <;> linarith
  have mb : |val d * val (konst binary64 16384)| ≤ 32768 := by
    rw [abs_mul, kv]
    norm_num
    linarith
  obtain ⟨f1, f2⟩ := mul_val binary64_ok c1 k16384_is.1 (by linarith)
  refine ⟨f1, ?_⟩
  have e : lutEntry atan i = d * konst binary64 16384 := rfl
  rw [e]
  have m : uR binary64 * |val d * val (konst binary64 16384)| ≤ uR binary64 * 32768 :=
    mul_le_mul_of_nonneg_left mb (by rw [hu]; positivity)
  have m2 : |val d * val (konst binary64 16384) - A / π * 16384| ≤ 16384 / 2 ^ 28 := by
    rw [kv, ← sub_mul, abs_mul]
    norm_num at c3 ⊢
    linarith
  have t := abs_add_le (val (d * konst binary64 16384 : FVal binary64) - val d * val (konst binary64 16384))
    (val d * val (konst binary64 16384) - A / π * 16384)
  rw [sub_add_sub_cancel] at t
  rw [hu] at m f2
  norm_num at m m2 f2 t hw ⊢
  linarith

/-- C102: the table computed with rounding satisfies what C32 and `C102_lut_error` assume, for both widths of `int` and every
library arctangent accurate to 2^-30. -/
theorem C102_table {w : Nat} (hw : w = 32 ∨ w = 64) (other : Val → BitVec w) (atan : FVal binary64 → FVal binary64)
    (ha : Atan atan (1 / 2 ^ 30)) : GoodLUT (lutFp w other atan) := by
  intro i hi
  obtain ⟨h1, h2⟩ := entry_err atan _ le_rfl ha hi
  have g0 : 0 ≤ arctan ((i : ℝ) / 256) := arctan_nonneg.2 (by positivity)
  have g1 := arctan_lt_pi_div_two ((i : ℝ) / 256)
  have hpi : (0 : ℝ) < π := by linarith [Real.pi_gt_three]
  have hA : arctan ((i : ℝ) / 256) / π ≤ 1 := by rw [div_le_one hpi]; linarith
  have hA0 : 0 ≤ arctan ((i : ℝ) / 256) / π := div_nonneg g0 hpi.le
  obtain ⟨b1, b2⟩ := abs_le.1 h2
  have := toSigned_close hw other h1 (by
    rw [abs_le]
    norm_num at b1 b2
    constructor <;> linarith)
  have t := abs_add_le (((toSigned w other (lutEntry atan i)).toInt : ℝ) - val (lutEntry atan i))
    (val (lutEntry atan i) - arctan ((i : ℝ) / 256) / π * 16384)
  rw [sub_add_sub_cancel] at t
  unfold lutFp
  norm_num at this h2 t ⊢
  linarith

/-- Truncation, as a function of the number. -/
theorem toSigned_trunc {w : Nat} (hw : w = 32 ∨ w = 64) (other : Val → BitVec w) {v : Val} {x : ℚ} (hv : Is v x)
    (hb : |x| ≤ 2147483646) : (toSigned w other v).toInt = if 0 ≤ x then ⌊x⌋ else -⌊-x⌋ := by
  obtain ⟨⟨s, q, rfl, hq⟩, hx⟩ := hv
  have f0 : 0 ≤ ⌊q⌋ := Int.floor_nonneg.2 hq
  have hqx : q = |x| := by
    rw [← hx]
    cases s
    · exact (abs_of_nonneg hq).symm
    · show q = |-q|
      rw [abs_neg, abs_of_nonneg hq]
  have fb : ⌊q⌋ ≤ 2147483646 := Int.floor_le_iff.2 (by push_cast; linarith)
  have e : (toSigned w other (.fin s q)).toInt = if s then -⌊q⌋ else ⌊q⌋ := by
    have hr : -2 ^ (w - 1) ≤ (if s then -⌊q⌋ else ⌊q⌋) ∧ (if s then -⌊q⌋ else ⌊q⌋) < 2 ^ (w - 1) := by
      rcases hw with rfl | rfl <;> cases s <;> simp <;> omega
    show (if -2 ^ (w - 1) ≤ (if s then -⌊q⌋ else ⌊q⌋) ∧ (if s then -⌊q⌋ else ⌊q⌋) < 2 ^ (w - 1) then _ else _ : BitVec w).toInt = _
    rw [if_pos hr, BitVec.toInt_ofInt]
    rcases hw with rfl | rfl <;> (rw [Int.bmod_eq_of_le] <;> norm_num at hr ⊢ <;> omega)
  rw [e]
  cases s
  · have h : q = x := hx
    rw [← h, if_pos hq]
    rfl
  · have h : -q = x := hx
    by_cases h0 : 0 ≤ x
    · have : q = 0 := by linarith
      subst this
      rw [← h]
      simp
    · rw [if_neg h0, ← h, neg_neg]
      rfl

theorem trunc_mono {x y : ℚ} (h : x ≤ y) : (if 0 ≤ x then ⌊x⌋ else -⌊-x⌋) ≤ if 0 ≤ y then ⌊y⌋ else -⌊-y⌋ := by
  by_cases hx : 0 ≤ x
  · rw [if_pos hx, if_pos (hx.trans h)]
    exact Int.floor_le_floor h
  · have h1 : 0 ≤ ⌊-x⌋ := Int.floor_nonneg.2 (by linarith)
    rw [if_neg hx]
    by_cases hy : 0 ≤ y
    · rw [if_pos hy]
      have := Int.floor_nonneg.2 hy
      omega
    · rw [if_neg hy]
      have := Int.floor_le_floor (neg_le_neg h)
      omega

/-- C102: if the library arctangent is monotone, so is the table. -/
theorem C102_table_monotone {w : Nat} (hw : w = 32 ∨ w = 64) (other : Val → BitVec w) (atan : FVal binary64 → FVal binary64)
    (ha : Atan atan (1 / 2 ^ 30))
    (hm : ∀ x y : FVal binary64, Fp.Finite x → Fp.Finite y → 0 ≤ val x → val x ≤ val y → val y ≤ 512 → val (atan x) ≤ val (atan y))
    {i j : Nat} (hij : i ≤ j) (hj : j < 131072) : lutFp w other atan i ≤ lutFp w other atan j := by
  have top : ∀ x : ℚ, |x| ≤ 65536 → |x| < 2 ^ (binary64.emax + 1) := by
    intro x hx
    have : (2 : ℚ) ^ (17 : ℤ) ≤ 2 ^ (binary64.emax + 1) := zpow_le_zpow_right₀ (by norm_num) (by decide)
    refine lt_of_lt_of_le ?_ this
    clear this
    have e : (2 : ℚ) ^ (17 : ℤ) = 131072 := by norm_num
    rw [e]
    linarith
  -- what an entry is
  have ent : ∀ k, k < 131072 → ∃ q : ℚ, val (atan (ofNat64 k / konst binary64 256)) = (q : ℝ) ∧
      Is (lutEntry atan k) (rd binary64 (rd binary64 (q / (884279719003555 / 281474976710656)) * 16384)) ∧
      |rd binary64 (rd binary64 (q / (884279719003555 / 281474976710656)) * 16384)| ≤ 2147483646 := by
    intro k hk
    have hx := arg_is hk
    have hxv : val (ofNat64 k / konst binary64 256 : FVal binary64) = (k : ℝ) / 256 := by
      rw [val_of_is hx]
      push_cast
      rfl
    have hk' : (k : ℝ) ≤ 131072 := by exact_mod_cast hk.le
    obtain ⟨a1, a2⟩ := ha _ hx.1 (by rw [hxv]; positivity) (by rw [hxv]; linarith)
    set v : FVal binary64 := atan (ofNat64 k / konst binary64 256) with hv
    have A0 : 0 ≤ arctan ((k : ℝ) / 256) := arctan_nonneg.2 (by positivity)
    have A1 := arctan_lt_pi_div_two ((k : ℝ) / 256)
    rw [hxv] at a2
    have hq : |Val.toRat v| ≤ 2 := by
      have : |val v| ≤ 2 := by
        have := Real.pi_lt_d2
        obtain ⟨b1, b2⟩ := abs_le.1 a2
        rw [abs_le]
        norm_num at b1 b2 this
        constructor <;> linarith
      unfold val at this
      exact_mod_cast this
    have g1 : Grid binary64 1 := WinFp.grid_one
    have g2 : Grid binary64 16384 := by
      have := grid_pow binary64 (by decide) 14 (by decide)
      have e : (2 : ℚ) ^ (14 : ℤ) = 16384 := by norm_num
      rwa [e] at this
    have d1 : |Val.toRat v / (884279719003555 / 281474976710656)| ≤ 1 := by
      rw [abs_div, div_le_one (by norm_num), abs_of_pos (a := (884279719003555 / 281474976710656 : ℚ)) (by norm_num)]
      linarith
    have d2 := abs_rd_le binary64 (by decide) g1 d1
    have d := div_rd binary64 (v := v) ⟨a1, rfl⟩ piV_is (by norm_num) (top _ (d2.trans (by norm_num)))
    have m1 : |rd binary64 (Val.toRat v / (884279719003555 / 281474976710656)) * 16384| ≤ 16384 := by
      rw [abs_mul, abs_of_pos (a := (16384 : ℚ)) (by norm_num)]
      linarith
    have m2 := abs_rd_le binary64 (by decide) g2 m1
    exact ⟨Val.toRat v, rfl, mul_rd binary64 d k16384_is (top _ (m2.trans (by norm_num))), m2.trans (by norm_num)⟩
  obtain ⟨p, p1, p2, p3⟩ := ent i (by omega)
  obtain ⟨q, q1, q2, q3⟩ := ent j hj
  have hxi := arg_is (i := i) (by omega)
  have hxj := arg_is hj
  have hpq : p ≤ q := by
    have := hm _ _ hxi.1 hxj.1 (by rw [val_of_is hxi]; push_cast; positivity) (by
      rw [val_of_is hxi, val_of_is hxj]
      have : (i : ℝ) ≤ j := by exact_mod_cast hij
      push_cast
      linarith) (by
      rw [val_of_is hxj]
      have : (j : ℝ) ≤ 131072 := by exact_mod_cast hj.le
      push_cast
      linarith)
    rw [p1, q1] at this
    exact_mod_cast this
  unfold lutFp
  rw [toSigned_trunc hw other p2 p3, toSigned_trunc hw other q2 q3]
  refine trunc_mono (rd_mono binary64 (by decide) ?_)
  refine mul_le_mul_of_nonneg_right (rd_mono binary64 (by decide) ?_) (by norm_num)
  exact div_le_div_of_nonneg_right hpq (by norm_num)

/-- C102: `Atan2LUT` with the table computed with rounding: within 0.005 radian of the angle, with 64-bit `int` for
|y| < 2^54 and with 32-bit `int` for |y| < 2^23. -/
theorem C102_lut (atan : FVal binary64 → FVal binary64) (ha : Atan atan (1 / 2 ^ 30)) (other64 : Val → BitVec 64)
    (other32 : Val → BitVec 32) (y x : Int) (h0 : ¬ (x = 0 ∧ y = 0)) :
    (y.natAbs < 2 ^ 54 → ∃ v, atan2LUT (lutFp 64 other64 atan) y x = some v ∧ |(v : ℝ) * π / 16384 - Complex.arg ⟨x, y⟩| ≤ 0.005) ∧
    (y.natAbs < 2 ^ 23 → ∃ v, atan2LUT32 (lutFp 32 other32 atan) y x = some v ∧ |(v : ℝ) * π / 16384 - Complex.arg ⟨x, y⟩| ≤ 0.005) :=
  ⟨fun h => C32_error _ (C102_table (Or.inr rfl) other64 atan ha) y x h0 (by norm_num at h; exact h),
    fun h => C102_lut_error _ (C102_table (Or.inl rfl) other32 atan ha) y x h0 (by norm_num at h; exact h)⟩

/-- There is a library arctangent as accurate as `Atan` asks, and monotone. -/
example : ∃ atan : FVal binary64 → FVal binary64, Atan atan (1 / 2 ^ 30) ∧
    ∀ x y : FVal binary64, Fp.Finite x → Fp.Finite y → 0 ≤ val x → val x ≤ val y → val y ≤ 512 → val (atan x) ≤ val (atan y) := by
  have e : ∀ n : ℤ, 0 ≤ n → val (Val.fin false ((n : ℚ) / 1099511627776)) = (n : ℝ) / 1099511627776 := by
    intro n _
    rw [val_fin]
    push_cast
    simp
  have nn : ∀ r : ℝ, 0 ≤ r → 0 ≤ ⌊arctan r * 1099511627776⌋ :=
    fun r hr => Int.floor_nonneg.2 (mul_nonneg (arctan_nonneg.2 hr) (by norm_num))
  refine ⟨fun x => Val.fin false (((⌊arctan (val x) * 1099511627776⌋ : ℤ) : ℚ) / 1099511627776), fun x hx h0 _ => ?_,
    fun x y _ _ h0 hxy _ => ?_⟩
  · have h := nn _ h0
    refine ⟨⟨_, _, rfl, by have : (0 : ℚ) ≤ ((⌊arctan (val x) * 1099511627776⌋ : ℤ) : ℚ) := by exact_mod_cast h
                           positivity⟩, ?_⟩
    rw [e _ h]
    have f1 := Int.floor_le (arctan (val x) * 1099511627776)
    have f2 := Int.lt_floor_add_one (arctan (val x) * 1099511627776)
    rw [abs_le]
    norm_num
    constructor <;> linarith
  · rw [e _ (nn _ h0), e _ (nn _ (h0.trans hxy))]
    have := Int.floor_le_floor (mul_le_mul_of_nonneg_right (arctan_mono hxy) (by norm_num : (0 : ℝ) ≤ 1099511627776))
    have : ((⌊arctan (val x) * 1099511627776⌋ : ℤ) : ℝ) ≤ ((⌊arctan (val y) * 1099511627776⌋ : ℤ) : ℝ) := by exact_mod_cast this
    linarith

/-- Point and widths meeting the hypotheses of `C102_lut`. -/
example : ¬ ((300 : Int) = 0 ∧ (-400 : Int) = 0) ∧ (-400 : Int).natAbs < 2 ^ 23 ∧ (-400 : Int).natAbs < 2 ^ 54 := by
  refine ⟨by decide, by decide, by decide⟩

end Verif.Angle
