import Verif.Conv.IeeeProps
import Verif.Fp.FpSqrt
import Verif.Fp.FpFma
import Verif.X86.X86Ieee

/-!
# Property C131: the absolute values of `vAbsC64` with IEEE-754 arithmetic

`output[i] = float32(math.Sqrt(float64(real(v)*real(v) + imag(v)*imag(v))))`, dsp/math32.go:88: the squares and the sum are rounded to float32 (Go may
fuse one of the products with the sum), the root is rounded to float64 and again to float32.
-/

namespace Verif.Conv
open Verif.Fp Verif.Fp.Expr

/-- `float32(math.Sqrt(float64(x)))`, dsp/math32.go:88. Every float32 is a float64, so the first conversion does nothing. -/
def sqrtGo (x : Val) : Val := narrow (sqrt binary64 x)

/-- **C131, the root.** Rounding the root twice does no harm: it is the float32 square root, rounded once. -/
theorem C131_sqrt {x : Val} (hx : Repr32 x) : sqrtGo x = sqrt binary32 x := narrow_sqrt hx

/-- **C131, the root.** The float32 square root of a positive float32 is a float32, and no float32 is nearer to the exact root. -/
theorem C131_nearest {x : Val} (hx : Repr32 x) (h0 : 0 < val x) : Repr32 (sqrtGo x) ∧ Finite (sqrtGo x) ∧
    ∀ y, Repr32 y → Finite y → |√(val x) - val (sqrtGo x)| ≤ |√(val x) - val y| := by
  rw [C131_sqrt hx]
  refine ⟨repr32_sqrt hx, ?_⟩
  rcases x with _ | s | ⟨s, q⟩
  · exact absurd h0 (by simp [val, Val.toRat])
  · exact absurd h0 (by simp [val, Val.toRat])
  · obtain ⟨q0, q1, -⟩ := hx
    cases s
    · rw [val_fin, if_neg (by decide)] at h0 ⊢
      have hq : 0 < q := by exact_mod_cast h0
      have top : (2 : ℚ) ^ (binary32.emax + 1) = 2 ^ 128 := by
        rw [← zpow_natCast]; rfl
      rw [sqrt_fin binary32_ok hq (by rw [top]; exact q1)]
      refine ⟨⟨_, _, rfl, rd_nonneg _ (sqrtMag_pos _ hq).le⟩, ?_⟩
      rintro y hy ⟨t, r, rfl, -⟩
      rw [val_fin, if_neg (by decide)]
      have g : Grid binary32 (if t then -r else r) := by
        cases t
        · exact hy.2.2
        · exact grid_neg hy.2.2
      have := sqrt_nearest binary32 (by decide) hq g
      rw [val_fin]
      revert this
      cases t
      · exact id
      · simp only [if_true]; push_cast; exact id
    · rw [val_fin, if_pos rfl] at h0
      have : (0 : ℝ) ≤ q := by exact_mod_cast q0
      linarith

/-- `real(v)*real(v) + imag(v)*imag(v)`, dsp/math32.go:88. -/
def powE (v w : FVal binary32) : Expr binary32 := .add (.mul (.leaf v) (.leaf v)) (.mul (.leaf w) (.leaf w))

theorem uR32 : uR binary32 ≤ 5.961e-8 := by
  unfold uR
  simp only [binary32]
  norm_num [zpow_neg]

theorem wR32 : wR binary32 ≤ 1e-45 := by
  unfold wR
  simp only [binary32]
  norm_num [zpow_neg]

theorem nonneg_of_is {v : Val} {x : ℚ} (h : Is v (rd binary32 x)) (hx : 0 ≤ x) : 0 ≤ val v := by
  rw [val_of_is h]
  exact_mod_cast rd_nonneg binary32 hx

theorem toRat_nonneg {v : Val} (h : 0 ≤ val v) : 0 ≤ v.toRat := by
  unfold val at h
  exact_mod_cast h

theorem sq_nonneg_val {v : FVal binary32} (hv : Finite v) (h : val v * val v ≤ 2 ^ binary32.emax) : 0 ≤ val (v * v : FVal binary32) := by
  have e : val v * val v = ((Val.toRat v * Val.toRat v : ℚ) : ℝ) := by unfold val; push_cast; rfl
  refine nonneg_of_is (mul_rd binary32 (v := v) (w := v) ⟨hv, rfl⟩ ⟨hv, rfl⟩ (rd_real binary32_ok ?_).1) (mul_self_nonneg _)
  rw [← e, abs_of_nonneg (mul_self_nonneg _)]
  exact h

theorem add_nonneg_val {v w : FVal binary32} (hv : Finite v) (hw : Finite w) (h0 : 0 ≤ val v) (h1 : 0 ≤ val w) (h : val v + val w ≤ 2 ^ binary32.emax) :
    0 ≤ val (v + w : FVal binary32) := by
  have e : val v + val w = ((Val.toRat v + Val.toRat w : ℚ) : ℝ) := by unfold val; push_cast; rfl
  refine nonneg_of_is (add_rd binary32 (v := v) (w := w) ⟨hv, rfl⟩ ⟨hw, rfl⟩ (rd_real binary32_ok ?_).1) (add_nonneg (toRat_nonneg h0) (toRat_nonneg h1))
  rw [← e, abs_of_nonneg (by linarith)]
  exact h

theorem fma_nonneg_val {v w : FVal binary32} (hv : Finite v) (hw : Finite w) (h1 : 0 ≤ val w) (h : val v * val v + val w ≤ 2 ^ binary32.emax) :
    0 ≤ val (fma binary32 v v w) := by
  have e : val v * val v + val w = ((Val.toRat v * Val.toRat v + Val.toRat w : ℚ) : ℝ) := by unfold val; push_cast; rfl
  refine nonneg_of_is (fma_rd binary32 (a := v) (b := v) (c := w) ⟨hv, rfl⟩ ⟨hv, rfl⟩ ⟨hw, rfl⟩ (rd_real binary32_ok ?_).1)
    (add_nonneg (mul_self_nonneg _) (toRat_nonneg h1))
  rw [← e, abs_of_nonneg (add_nonneg (mul_self_nonneg _) h1)]
  exact h

/-- The sum of the squares, however it is fused. -/
theorem pow_val {v w t : FVal binary32} (ht : Eval (powE v w) t) (hv : Finite v) (hw : Finite w) (hS : val v ^ 2 + val w ^ 2 ≤ 1.7e38) :
    Finite t ∧ 0 ≤ val t ∧ |val t - (val v ^ 2 + val w ^ 2)| ≤ 1.193e-7 * (val v ^ 2 + val w ^ 2) + 4e-45 := by
  have hu := uR_pos binary32
  have hw0 := wR_pos binary32
  have u1 := uR32
  have w1 := wR32
  have top : (1.7e38 : ℝ) + 2e31 ≤ 2 ^ binary32.emax := by
    simp only [binary32]; norm_num [zpow_ofNat]
  have a := sq_nonneg (val v)
  have b := sq_nonneg (val w)
  set S := val v ^ 2 + val w ^ 2 with hSd
  have S0 : 0 ≤ S := by positivity
  have us : uR binary32 * S ≤ 5.961e-8 * S := mul_le_mul_of_nonneg_right u1 S0
  have usm : uR binary32 * S ≤ 5.961e-8 * 1.7e38 := us.trans (by nlinarith)
  have av : |val v| * |val v| = val v ^ 2 := by rw [← abs_mul, abs_mul_self, sq]
  have aw : |val w| * |val w| = val w ^ 2 := by rw [← abs_mul, abs_mul_self, sq]
  have e1 : (powE v w).size = (1 + uR binary32) * ((1 + uR binary32) * S + 2 * wR binary32) + wR binary32 := by
    simp only [powE, size, av, aw, hSd]; ring
  have e2 : (powE v w).err = uR binary32 * S + 2 * wR binary32 + uR binary32 * ((1 + uR binary32) * S + 2 * wR binary32) + wR binary32 := by
    simp only [powE, size, err, av, aw, hSd]; ring
  have p1 : val v * val v ≤ 2 ^ binary32.emax := by nlinarith
  have p2 : val w * val w ≤ 2 ^ binary32.emax := by nlinarith
  have rng : (powE v w).InRange := by
    refine ⟨⟨trivial, trivial, ?_⟩, ⟨trivial, trivial, ?_⟩, ?_⟩
    · show |val v| * |val v| ≤ _
      rw [av, sq]; exact p1
    · show |val w| * |val w| ≤ _
      rw [aw, sq]; exact p2
    · show ((1 + uR binary32) * (|val v| * |val v|) + wR binary32) + ((1 + uR binary32) * (|val w| * |val w|) + wR binary32) ≤ _
      rw [av, aw]
      have : (1 + uR binary32) * val v ^ 2 + wR binary32 + ((1 + uR binary32) * val w ^ 2 + wR binary32) = S + uR binary32 * S + 2 * wR binary32 := by
        rw [hSd]; ring
      rw [this]
      refine le_trans ?_ top
      norm_num at usm ⊢
      linarith
  obtain ⟨f1, f2, -⟩ := eval_err binary32_ok ht ⟨⟨hv, hv⟩, hw, hw⟩ rng
  have ex : (powE v w).exact = S := by
    simp only [powE, exact, hSd]; ring
  rw [ex, e2] at f2
  refine ⟨f1, ?_, f2.trans ?_⟩
  · obtain ⟨m1, m2⟩ := mul_val binary32_ok hv hv (by rw [abs_mul_self]; exact p1)
    obtain ⟨n1, n2⟩ := mul_val binary32_ok hw hw (by rw [abs_mul_self]; exact p2)
    have m3 := sq_nonneg_val hv p1
    have n3 := sq_nonneg_val hw p2
    rw [abs_mul_self, abs_le] at m2 n2
    have uv : uR binary32 * (val v * val v) + uR binary32 * (val w * val w) = uR binary32 * S := by rw [hSd]; ring
    have uv0 : 0 ≤ uR binary32 * (val v * val v) := mul_nonneg hu.le (mul_self_nonneg _)
    have uw0 : 0 ≤ uR binary32 * (val w * val w) := mul_nonneg hu.le (mul_self_nonneg _)
    have sS : val v * val v + val w * val w = S := by rw [hSd]; ring
    have vv := mul_self_nonneg (val v)
    have ww := mul_self_nonneg (val w)
    have top' : S + uR binary32 * S + 2 * wR binary32 ≤ 2 ^ binary32.emax := by
      refine le_trans ?_ top
      norm_num at usm ⊢
      linarith
    cases ht with
    | add hx hy =>
      cases hx with
      | mul a1 a2 =>
        cases a1; cases a2
        cases hy with
        | mul b1 b2 =>
          cases b1; cases b2
          exact add_nonneg_val m1 n1 m3 n3 (by linarith)
    | fmadd a1 a2 hz =>
      cases a1; cases a2
      cases hz with
      | mul b1 b2 =>
        cases b1; cases b2
        exact fma_nonneg_val hv n1 n3 (by linarith)
    | fmadd' a1 a2 hz =>
      cases a1; cases a2
      cases hz with
      | mul b1 b2 =>
        cases b1; cases b2
        exact fma_nonneg_val hw m1 m3 (by linarith)
  · have uu : uR binary32 * ((1 + uR binary32) * S + 2 * wR binary32) ≤ 5.961e-8 * (S + 5.961e-8 * S + 2 * 1e-45) := by
      refine mul_le_mul u1 ?_ (by positivity) (by norm_num)
      have : (1 + uR binary32) * S = S + uR binary32 * S := by ring
      linarith
    norm_num at uu us w1 ⊢
    linarith

/-- The square roots of numbers that are near each other. -/
theorem sqrt_near {t S δ η : ℝ} (ht : 0 ≤ t) (hS : 0 ≤ S) (hδ : 0 ≤ δ) (hη : 0 ≤ η) (h : |t - S| ≤ 2 * δ * S + η ^ 2) (hd : δ ≤ 1 / 100) :
    |√t - √S| ≤ (δ + δ ^ 2) * √S + η := by
  have a := Real.sqrt_nonneg t
  have b := Real.sqrt_nonneg S
  have a2 := Real.sq_sqrt ht
  have b2 := Real.sq_sqrt hS
  set x := √t
  set y := √S
  rw [← a2, ← b2, abs_le] at h
  rw [abs_le]
  have d2 : 0 ≤ δ ^ 2 := by positivity
  constructor
  · by_contra hc
    rw [not_le] at hc
    -- x < y - (δ+δ²) y - η
    have k : x < (1 - δ - δ ^ 2) * y - η := by linarith
    have k1 : 0 < (1 - δ - δ ^ 2) * y - η := lt_of_le_of_lt a k
    have k2 : x ^ 2 < ((1 - δ - δ ^ 2) * y - η) ^ 2 := by nlinarith
    have k3 : ((1 - δ - δ ^ 2) * y - η) ^ 2 ≤ ((1 - δ - δ ^ 2) * y) ^ 2 - η ^ 2 := by nlinarith
    have k4 : (1 - δ - δ ^ 2) ^ 2 ≤ 1 - 2 * δ := by
      have : δ ^ 2 = δ * δ := by ring
      nlinarith [mul_nonneg hδ hδ, mul_nonneg d2 hδ]
    have k5 : ((1 - δ - δ ^ 2) * y) ^ 2 ≤ (1 - 2 * δ) * y ^ 2 := by
      rw [mul_pow]; exact mul_le_mul_of_nonneg_right k4 (sq_nonneg y)
    linarith
  · by_contra hc
    rw [not_le] at hc
    have k : (1 + δ + δ ^ 2) * y + η < x := by linarith
    have k0 : 0 ≤ (1 + δ + δ ^ 2) * y := by positivity
    have k2 : ((1 + δ + δ ^ 2) * y + η) ^ 2 < x ^ 2 := by nlinarith
    have k3 : ((1 + δ + δ ^ 2) * y) ^ 2 + η ^ 2 ≤ ((1 + δ + δ ^ 2) * y + η) ^ 2 := by nlinarith
    have k4 : 1 + 2 * δ ≤ (1 + δ + δ ^ 2) ^ 2 := by nlinarith
    have k5 : (1 + 2 * δ) * y ^ 2 ≤ ((1 + δ + δ ^ 2) * y) ^ 2 := by
      rw [mul_pow]; exact mul_le_mul_of_nonneg_right k4 (sq_nonneg y)
    linarith

/-- The absolute value as computed from a sum of squares. -/
theorem abs_val {v w t : FVal binary32} (ht : Eval (powE v w) t) (hv : Finite v) (hw : Finite w) (hS : val v ^ 2 + val w ^ 2 ≤ 1.7e38) :
    Finite (sqrt binary32 t) ∧ |val (sqrt binary32 t) - √(val v ^ 2 + val w ^ 2)| ≤ 1.21e-7 * √(val v ^ 2 + val w ^ 2) + 7e-23 := by
  obtain ⟨t1, t2, t3⟩ := pow_val ht hv hw hS
  have S0 : 0 ≤ val v ^ 2 + val w ^ 2 := by positivity
  set S := val v ^ 2 + val w ^ 2
  have t4 : |val t - S| ≤ 2 * 5.97e-8 * S + (6.5e-23) ^ 2 := by
    norm_num at t3 ⊢
    linarith
  have n := sqrt_near t2 S0 (by norm_num) (by norm_num) t4 (by norm_num)
  have lt : val t < 2 ^ 128 := by
    rw [abs_le] at t3
    norm_num at t3 hS ⊢
    linarith
  obtain ⟨c1, c2⟩ := sqrt32 t1 t2 lt
  refine ⟨c1, ?_⟩
  have b := Real.sqrt_nonneg S
  rw [abs_of_nonneg (Real.sqrt_nonneg _)] at c2
  have tri := abs_sub_le (val (sqrt binary32 t)) √(val t) √S
  have up : √(val t) ≤ √S + ((5.97e-8 + 5.97e-8 ^ 2) * √S + 6.5e-23) := by
    rw [abs_le] at n
    linarith
  norm_num at n c2 up ⊢
  linarith

theorem zero_sq (s : Bool) : Fp.mul binary32 (.fin s 0) (.fin s 0) = .fin false 0 := by
  show round binary32 (s != s) (0 * 0) = _
  rw [bne_self_eq_false, mul_zero]
  rfl

theorem repr32_add (v w : Val) : Repr32 (add binary32 v w) := by
  rcases v with _ | s | ⟨s, q⟩ <;> rcases w with _ | t | ⟨t, r⟩ <;> simp only [Fp.add]
  all_goals first | trivial | skip
  · split <;> trivial
  · split
    · exact ⟨le_rfl, by positivity, grid_zero _⟩
    · exact X86.repr32_round _ (abs_nonneg _)

theorem repr32_pow {v w t : FVal binary32} (ht : Eval (powE v w) t) : Repr32 t := by
  cases ht with
  | add => exact repr32_add _ _
  | fmadd => exact repr32_add _ _
  | fmadd' => exact repr32_add _ _

/-- **C131, partial.** For finite parts `v` and `w` with `v² + w²` up to 1.7e38, whether or not the compiler fuses a product with the sum, the computed
absolute value is finite and differs from the exact one by at most 1.21e-7 of it (about two units in the last place) plus 7e-23. Missing: greater
numbers, where the squares overflow (`C131_violated_overflow`), and a relative bound below 7e-23, which is false (`C131_violated_underflow`). -/
theorem C131_abs_partial {v w t : FVal binary32} (ht : Eval (powE v w) t) (hv : Finite v) (hw : Finite w) (hS : val v ^ 2 + val w ^ 2 ≤ 1.7e38) :
    Finite (sqrtGo t) ∧ |val (sqrtGo t) - √(val v ^ 2 + val w ^ 2)| ≤ 1.21e-7 * √(val v ^ 2 + val w ^ 2) + 7e-23 := by
  rw [C131_sqrt (repr32_pow ht)]
  exact abs_val ht hv hw hS

/-- **C131, `vAbsC64`, partial.** On slices that are not empty `vAbsC64` (without fusing) writes such an absolute value for every pair of
finite parts of that size. -/
theorem C131_vAbsC64_partial (o16 : Val → BitVec 16) (o8 : Val → BitVec 8) (bits : Val → BitVec 32) (input : Slice) (im : Nat → Val × Val)
    (output : Slice) (om : Nat → Val) (hi : 0 < input.len) (ho : 0 < output.len) :
    ∃ om', vAbsC64 (ieee o16 o8 bits sqrtGo) input im output om = some om' ∧
      ∀ i < min input.len output.len, ∀ v w, im (input.base + i) = (v, w) → Finite v → Finite w → val v ^ 2 + val w ^ 2 ≤ 1.7e38 →
        Finite (om' (output.base + i)) ∧
          |val (om' (output.base + i)) - √(val v ^ 2 + val w ^ 2)| ≤ 1.21e-7 * √(val v ^ 2 + val w ^ 2) + 7e-23 := by
  refine ⟨_, C19_vAbsC64_partial _ input im output om hi ho, ?_⟩
  intro i hi v w e hv hw hS
  rw [fill_in hi, e]
  exact C131_abs_partial (eval_unfused (powE v w)) hv hw hS

/-- **C131, special values.** The absolute value is not a number when a part is not a number, else +∞ when a part is infinite, and +0 when both parts
are zero. -/
theorem C131_special (v w : Val) :
    (v = .nan ∨ w = .nan → sqrtGo (add binary32 (mul binary32 v v) (mul binary32 w w)) = .nan) ∧
      (Repr32 v → Repr32 w → v ≠ .nan → w ≠ .nan → ((∃ s, v = .inf s) ∨ ∃ s, w = .inf s) →
        sqrtGo (add binary32 (mul binary32 v v) (mul binary32 w w)) = .inf false) ∧
      (∀ s t, v = .fin s 0 → w = .fin t 0 → sqrtGo (add binary32 (mul binary32 v v) (mul binary32 w w)) = .fin false 0) := by
  have nn : ∀ x, add binary32 x .nan = .nan := by rintro (_ | s | ⟨s, q⟩) <;> rfl
  have sqm : ∀ {x : Val}, Repr32 x → x ≠ .nan → mul binary32 x x = .inf false ∨ ∃ r, mul binary32 x x = .fin false r := by
    rintro (_ | s | ⟨s, q⟩) hx hn
    · exact absurd rfl hn
    · left; cases s <;> rfl
    · have : mul binary32 (.fin s q) (.fin s q) = round binary32 (s != s) (q * q) := rfl
      rw [this, bne_self_eq_false]
      unfold Fp.round
      split
      · exact Or.inr ⟨_, rfl⟩
      · dsimp only
        split
        · exact Or.inl rfl
        · exact Or.inr ⟨_, rfl⟩
  refine ⟨?_, ?_, ?_⟩
  · rintro (rfl | rfl)
    · rfl
    · rw [show mul binary32 .nan .nan = .nan from rfl, nn]; rfl
  · rintro hv hw h1 h2 (⟨s, rfl⟩ | ⟨s, rfl⟩)
    · rw [show mul binary32 (.inf s) (.inf s) = .inf false by cases s <;> rfl]
      rcases sqm hw h2 with e | ⟨r, e⟩ <;> rw [e] <;> rfl
    · rw [show mul binary32 (.inf s) (.inf s) = .inf false by cases s <;> rfl]
      rcases sqm hv h1 with e | ⟨r, e⟩ <;> rw [e] <;> rfl
  · rintro s t rfl rfl
    rw [zero_sq, zero_sq]
    have : add binary32 (.fin false 0) (.fin false 0) = .fin false 0 := by
      simp only [Fp.add]
      rw [if_pos (by simp [Val.toRat])]
      rfl
    rw [this]
    simp [sqrtGo, Fp.sqrt, narrow, Fp.round]

/-- **C131, violated.** The absolute value of 2^64 comes out as +∞, although 2^64 is a float32. -/
theorem C131_violated_overflow : sqrtGo (add binary32 (mul binary32 (.fin false (2 ^ 64)) (.fin false (2 ^ 64))) (mul binary32 (.fin false 0) (.fin false 0))) =
    .inf false ∧ Repr32 (.fin false (2 ^ 64)) := by
  constructor
  · have : mul binary32 (.fin false (2 ^ 64)) (.fin false (2 ^ 64)) = .inf false := by
      show round binary32 (false != false) (2 ^ 64 * 2 ^ 64) = _
      rw [bne_self_eq_false]
      exact round32_inf false _ (by push_cast; norm_num)
    rw [this]
    exact (C131_special (.inf false) (.fin false 0)).2.1 trivial ⟨le_rfl, by positivity, grid_zero _⟩ (by decide) (by decide) (Or.inl ⟨_, rfl⟩)
  · refine ⟨by positivity, by norm_num, 1, 64, by decide, by decide, ?_⟩
    rw [abs_of_pos (by positivity)]
    norm_num

/-- **C131, violated.** The absolute value of 2^-75 (about 2.6e-23) comes out as zero. -/
theorem C131_violated_underflow : sqrtGo (add binary32 (mul binary32 (.fin false (2 ^ (-75 : ℤ))) (.fin false (2 ^ (-75 : ℤ))))
    (mul binary32 (.fin false 0) (.fin false 0))) = .fin false 0 ∧ Repr32 (.fin false (2 ^ (-75 : ℤ))) := by
  constructor
  · have : mul binary32 (.fin false (2 ^ (-75 : ℤ))) (.fin false (2 ^ (-75 : ℤ))) = .fin false 0 := by
      show round binary32 (false != false) _ = _
      rw [bne_self_eq_false, show (2 : ℚ) ^ (-75 : ℤ) * 2 ^ (-75 : ℤ) = 2 ^ (-150 : ℤ) by rw [← zpow_add₀ (by norm_num)]; norm_num]
      have u : ulp binary32 (2 ^ (-150 : ℤ)) = 2 ^ (-149 : ℤ) := by
        unfold ulp
        have : Int.log 2 ((2 : ℚ) ^ (-150 : ℤ)) = -150 := by exact_mod_cast Int.log_zpow (R := ℚ) (b := 2) (by norm_num) (-150)
        rw [this]
        rfl
      have d : (2 : ℚ) ^ (-150 : ℤ) / 2 ^ (-149 : ℤ) = 1 / 2 := by rw [← zpow_sub₀ (by norm_num)]; norm_num
      have r : roundEven (1 / 2) = 0 := by
        have : ⌊(1 / 2 : ℚ)⌋ = 0 := by norm_num
        unfold roundEven
        simp only [this]
        norm_num
      unfold Fp.round
      rw [if_neg (by positivity)]
      simp only [u, d, r]
      rw [if_neg (by rw [not_le]; simp; positivity)]
      simp
    have z := (C131_special (.fin false 0) (.fin false 0)).2.2 false false rfl rfl
    rw [zero_sq] at z
    rw [this, zero_sq]
    exact z
  · refine ⟨by positivity, ?_, 1, -75, by decide, by decide, ?_⟩
    · exact (zpow_lt_one_of_neg₀ (by norm_num) (by norm_num)).trans (by norm_num)
    · rw [abs_of_pos (by positivity)]
      norm_num

/-- 3 + 4i has the absolute value 5, within the bound. -/
example : |val (sqrtGo (add binary32 (mul binary32 (.fin false 3) (.fin false 3)) (mul binary32 (.fin false 4) (.fin false 4)))) - 5| ≤ 1e-6 := by
  have h := (C131_abs_partial (v := Val.fin false 3) (w := Val.fin false 4) (eval_unfused _) ⟨_, _, rfl, by norm_num⟩ ⟨_, _, rfl, by norm_num⟩ (by
    rw [val_fin, val_fin]; norm_num)).2
  rw [val_fin, val_fin, if_neg (by decide), if_neg (by decide)] at h
  push_cast at h
  rw [show (3 : ℝ) ^ 2 + 4 ^ 2 = 5 ^ 2 by norm_num, Real.sqrt_sq (by norm_num)] at h
  refine le_trans h ?_
  norm_num

/-- The nearest float32 to √2. -/
example : ∀ y, Repr32 y → Finite y → |√2 - val (sqrtGo (.fin false 2))| ≤ |√2 - val y| := by
  have h := (C131_nearest (x := .fin false 2) ⟨by norm_num, by norm_num, 1, 1, by decide, by decide, by norm_num⟩ (by
    rw [val_fin]; norm_num)).2.2
  rw [val_fin, if_neg (by decide)] at h
  exact_mod_cast h

/-- Ten pairs (1, -2) to eight absolute values. -/
example : ∃ om', vAbsC64 (ieee (fun _ => 0) (fun _ => 0) (fun _ => 0) sqrtGo) ⟨5, 10⟩ (fun _ => (.fin false 1, .fin true 2)) ⟨3, 8⟩ (fun _ => .nan) = some om' ∧
    ∀ i < 8, |val (om' (3 + i)) - √5| ≤ 1e-6 := by
  obtain ⟨om', h1, h2⟩ := C131_vAbsC64_partial (fun _ => 0) (fun _ => 0) (fun _ => 0) ⟨5, 10⟩ (fun _ => (.fin false 1, .fin true 2)) ⟨3, 8⟩ (fun _ => .nan)
    (by decide) (by decide)
  refine ⟨om', h1, fun i hi => ?_⟩
  have e : val (.fin false 1) ^ 2 + val (.fin true 2) ^ 2 = 5 := by
    rw [val_fin, val_fin]; norm_num
  have := (h2 i (by simpa using hi) _ _ rfl ⟨_, _, rfl, by norm_num⟩ ⟨_, _, rfl, by norm_num⟩ (by rw [e]; norm_num)).2
  rw [e] at this
  refine le_trans this ?_
  have : √5 ≤ 3 := Real.sqrt_le_iff.2 ⟨by norm_num, by norm_num⟩
  norm_num
  linarith

end Verif.Conv
