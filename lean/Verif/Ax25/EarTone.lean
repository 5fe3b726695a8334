import Verif.Ax25.EarRows
import Verif.Dft.DftSpec
import Mathlib.RingTheory.RootsOfUnity.Complex

/-!
# Two bins of a block that contains one change of tone
-/

namespace Verif.Ax25.Ear

open Complex Ball Verif.Dft

/-! ### The ideal block -/

/-- `m` samples of a sine of `a` units per sample, with phase `α` at its (missing) sample `m`, then a sine of `b` units per sample with phase
`α + d`. -/
noncomputable def ideal (a b α d : ℝ) (m i : ℕ) : ℝ :=
  if i < m then Real.sin (α + a * unit * ((i : ℝ) - m)) else Real.sin (α + d * unit + b * unit * ((i : ℝ) - m))

theorem sin_exp (x : ℝ) : ((Real.sin x : ℝ) : ℂ) = I / 2 * (exp (((-x : ℝ) : ℂ) * I) - exp ((x : ℂ) * I)) := by
  rw [Complex.ofReal_sin, Complex.sin]
  push_cast
  ring

theorem dft_ideal (a b d : ℤ) (α : ℝ) (k m : ℕ) (hm : m ≤ 36) :
    dft 36 k (fun i => (ideal a b α d m i : ℂ))
      = -(I / 2 * zeta (-(196 * k * m))) * (exp ((α : ℂ) * I) * sumP a b k m d - (starRingEnd ℂ) (exp ((α : ℂ) * I)) * sumQ a b k m d) := by
  have hc : (starRingEnd ℂ) (exp ((α : ℂ) * I)) = exp (((-α : ℝ) : ℂ) * I) := by
    rw [← Complex.exp_conj]
    congr 1
    simp
  have hsplit : (36 : ℕ) = m + (36 - m) := by omega
  unfold dft
  rw [show Finset.range 36 = Finset.range (m + (36 - m)) by rw [← hsplit], Finset.sum_range_add, ← Finset.sum_range_reflect, hc]
  unfold sumP sumQ
  rw [map_sum, map_sum]
  simp only [← zeta_neg]
  rw [mul_add, mul_add, Finset.sum_mul, Finset.sum_mul, Finset.mul_sum, Finset.mul_sum, Finset.mul_sum, Finset.mul_sum, add_sub_add_comm,
    ← Finset.sum_sub_distrib, ← Finset.sum_sub_distrib, mul_add, Finset.mul_sum, Finset.mul_sum]
  congr 1
  · refine Finset.sum_congr rfl fun l hl => ?_
    have hl := Finset.mem_range.1 hl
    have h1 : m - 1 - l < m := by omega
    have hcast : ((m - 1 - l : ℕ) : ℝ) = m - (l + 1 : ℝ) := by
      have : m - 1 - l = m - (l + 1) := by omega
      rw [this, Nat.cast_sub (by omega)]
      push_cast
      ring
    rw [ideal, if_pos h1, sin_exp, hcast]
    unfold zeta
    have e1 : exp (((-(α + a * unit * ((m : ℝ) - (l + 1) - m)) : ℝ) : ℂ) * I) * exp (-((2 * Real.pi * (k : ℤ) * ((m - 1 - l : ℕ)) / (36 : ℕ) : ℝ) : ℂ) * I)
        = exp (((-(196 * k * m) : ℤ) * unit : ℝ) * I) * (exp (((-α : ℝ) : ℂ) * I) * exp ((((a + 196 * k) * (l + 1 : ℕ) : ℤ) * unit : ℝ) * I)) := by
      rw [← Complex.exp_add, ← Complex.exp_add, ← Complex.exp_add]
      congr 1
      rw [hcast]
      unfold unit
      push_cast
      ring
    have e2 : exp (((α + a * unit * ((m : ℝ) - (l + 1) - m) : ℝ) : ℂ) * I) * exp (-((2 * Real.pi * (k : ℤ) * ((m - 1 - l : ℕ)) / (36 : ℕ) : ℝ) : ℂ) * I)
        = exp (((-(196 * k * m) : ℤ) * unit : ℝ) * I) * (exp ((α : ℂ) * I) * exp (((-((a - 196 * k) * (l + 1 : ℕ)) : ℤ) * unit : ℝ) * I)) := by
      rw [← Complex.exp_add, ← Complex.exp_add, ← Complex.exp_add]
      congr 1
      rw [hcast]
      unfold unit
      push_cast
      ring
    rw [hcast] at e1 e2
    linear_combination (I / 2) * e1 - (I / 2) * e2
  · refine Finset.sum_congr rfl fun l hl => ?_
    rw [ideal, if_neg (by omega), sin_exp]
    unfold zeta
    have e1 : exp (((-(α + d * unit + b * unit * (((m + l : ℕ) : ℝ) - m)) : ℝ) : ℂ) * I) * exp (-((2 * Real.pi * (k : ℤ) * ((m + l : ℕ)) / (36 : ℕ) : ℝ) : ℂ) * I)
        = exp (((-(196 * k * m) : ℤ) * unit : ℝ) * I) * (exp (((-α : ℝ) : ℂ) * I) * (exp (((-((b + 196 * k) * l) : ℤ) * unit : ℝ) * I) * exp (((-d : ℤ) * unit : ℝ) * I))) := by
      rw [← Complex.exp_add, ← Complex.exp_add, ← Complex.exp_add, ← Complex.exp_add]
      congr 1
      unfold unit
      push_cast
      ring
    have e2 : exp (((α + d * unit + b * unit * (((m + l : ℕ) : ℝ) - m) : ℝ) : ℂ) * I) * exp (-((2 * Real.pi * (k : ℤ) * ((m + l : ℕ)) / (36 : ℕ) : ℝ) : ℂ) * I)
        = exp (((-(196 * k * m) : ℤ) * unit : ℝ) * I) * (exp ((α : ℂ) * I) * (exp ((((b - 196 * k) * l : ℤ) * unit : ℝ) * I) * exp (((d : ℤ) * unit : ℝ) * I))) := by
      rw [← Complex.exp_add, ← Complex.exp_add, ← Complex.exp_add, ← Complex.exp_add]
      congr 1
      unfold unit
      push_cast
      ring
    linear_combination (I / 2) * e1 - (I / 2) * e2

theorem norm_dft_ideal (a b d : ℤ) (α : ℝ) (k m : ℕ) (hm : m ≤ 36) :
    4 * ‖dft 36 k (fun i => (ideal a b α d m i : ℂ))‖ ^ 2
      = ‖exp ((α : ℂ) * I) * sumP a b k m d - (starRingEnd ℂ) (exp ((α : ℂ) * I)) * sumQ a b k m d‖ ^ 2 := by
  rw [dft_ideal a b d α k m hm, norm_mul, norm_neg, norm_mul, norm_zeta]
  simp
  ring

/-! ### Bessel's inequality -/

theorem sum_root {j : ℕ} (h0 : 0 < j) (hj : j < 36) : ∑ i ∈ Finset.range 36, zeta (196 * j * i) = 0 := by
  have hp := Complex.isPrimitiveRoot_exp 36 (by norm_num)
  have e1 : zeta (196 * j) = exp (2 * Real.pi * I / (36 : ℕ)) ^ j := by
    rw [← Complex.exp_nat_mul, zeta]
    congr 1
    unfold unit
    push_cast
    ring
  have hne : zeta (196 * j) ≠ 1 := by
    rw [e1]
    exact hp.pow_ne_one_of_pos_of_lt (by omega) hj
  have h1 : zeta (196 * j) ^ 36 = 1 := by
    rw [e1, ← pow_mul, Nat.mul_comm j 36, pow_mul, hp.pow_eq_one, one_pow]
  have h2 : ∑ i ∈ Finset.range 36, zeta (196 * j * i) = ∑ i ∈ Finset.range 36, zeta (196 * j) ^ i := by
    refine Finset.sum_congr rfl fun i _ => ?_
    rw [zeta_pow]
  have h3 := mul_geom_sum (zeta (196 * j)) 36
  rw [h1, sub_self] at h3
  rw [h2]
  exact (mul_eq_zero.1 h3).resolve_left (sub_ne_zero.2 hne)

theorem dft_zeta (k : ℕ) (x : ℕ → ℂ) : dft 36 k x = ∑ i ∈ Finset.range 36, x i * (starRingEnd ℂ) (zeta (196 * k * i)) := by
  unfold dft
  refine Finset.sum_congr rfl fun i _ => ?_
  rw [← zeta_neg]
  unfold zeta
  congr 2
  unfold unit
  push_cast
  ring

theorem two_bins (x : ℕ → ℝ) :
    ‖dft 36 (1 : ℕ) (fun i => (x i : ℂ))‖ ^ 2 + ‖dft 36 (2 : ℕ) (fun i => (x i : ℂ))‖ ^ 2 ≤ 18 * ∑ i ∈ Finset.range 36, x i ^ 2 := by
  set X := dft 36 (1 : ℕ) (fun i => (x i : ℂ)) with hX
  set Y := dft 36 (2 : ℕ) (fun i => (x i : ℂ)) with hY
  rw [dft_zeta] at hX hY
  -- the projection
  set h : ℕ → ℂ := fun i => X * zeta (196 * 1 * i) + Y * zeta (196 * 2 * i) with hh
  have hxg : ∑ i ∈ Finset.range 36, x i * (h i).re = ‖X‖ ^ 2 + ‖Y‖ ^ 2 := by
    have e1 : ∑ i ∈ Finset.range 36, (x i : ℂ) * h i = X * (starRingEnd ℂ) X + Y * (starRingEnd ℂ) Y := by
      conv_rhs => rw [hX, hY, map_sum, map_sum]
      rw [← hX, ← hY, Finset.mul_sum, Finset.mul_sum, ← Finset.sum_add_distrib]
      refine Finset.sum_congr rfl fun i _ => ?_
      rw [hh, map_mul, map_mul, Complex.conj_conj, Complex.conj_conj, Complex.conj_ofReal]
      push_cast
      ring
    have e2 := congrArg Complex.re e1
    rw [Complex.re_sum, add_re, Complex.mul_conj, Complex.mul_conj, Complex.ofReal_re, Complex.ofReal_re, Complex.normSq_eq_norm_sq,
      Complex.normSq_eq_norm_sq] at e2
    rw [← e2]
    refine Finset.sum_congr rfl fun i _ => ?_
    rw [Complex.re_ofReal_mul]
  have hgg : ∑ i ∈ Finset.range 36, (h i).re ^ 2 = 18 * (‖X‖ ^ 2 + ‖Y‖ ^ 2) := by
    have e0 : ∀ i, 2 * (h i).re ^ 2 = ((h i * (starRingEnd ℂ) (h i)).re + (h i * h i).re) := by
      intro i
      simp only [mul_re, conj_re, conj_im]
      ring
    have e1 : ∑ i ∈ Finset.range 36, h i * h i = 0 := by
      have : ∀ i : ℕ, h i * h i = X * X * zeta (196 * (2 : ℕ) * i) + 2 * X * Y * zeta (196 * (3 : ℕ) * i) + Y * Y * zeta (196 * (4 : ℕ) * i) := by
        intro i
        have z1 : zeta (196 * (2 : ℕ) * i) = zeta (196 * 1 * i) * zeta (196 * 1 * i) := by rw [← zeta_add]; congr 1; push_cast; ring
        have z2 : zeta (196 * (3 : ℕ) * i) = zeta (196 * 1 * i) * zeta (196 * 2 * i) := by rw [← zeta_add]; congr 1; push_cast; ring
        have z3 : zeta (196 * (4 : ℕ) * i) = zeta (196 * 2 * i) * zeta (196 * 2 * i) := by rw [← zeta_add]; congr 1; push_cast; ring
        rw [z1, z2, z3, hh]
        ring
      simp only [this]
      rw [Finset.sum_add_distrib, Finset.sum_add_distrib, ← Finset.mul_sum, ← Finset.mul_sum, ← Finset.mul_sum, sum_root (by norm_num) (by norm_num),
        sum_root (by norm_num) (by norm_num), sum_root (by norm_num) (by norm_num)]
      simp
    have e2 : ∑ i ∈ Finset.range 36, h i * (starRingEnd ℂ) (h i) = 36 * (X * (starRingEnd ℂ) X + Y * (starRingEnd ℂ) Y) := by
      have hu : ∀ e : ℤ, zeta e * (starRingEnd ℂ) (zeta e) = 1 := by
        intro e
        rw [← zeta_neg, ← zeta_add, add_neg_cancel, zeta_zero]
      have : ∀ i : ℕ, h i * (starRingEnd ℂ) (h i) = (X * (starRingEnd ℂ) X + Y * (starRingEnd ℂ) Y)
          + (Y * (starRingEnd ℂ) X * zeta (196 * (1 : ℕ) * i) + (starRingEnd ℂ) (Y * (starRingEnd ℂ) X * zeta (196 * (1 : ℕ) * i))) := by
        intro i
        have z : zeta (196 * (1 : ℕ) * i) = zeta (196 * 2 * i) * (starRingEnd ℂ) (zeta (196 * 1 * i)) := by
          rw [← zeta_neg, ← zeta_add]; congr 1; push_cast; ring
        rw [z, hh]
        simp only [map_add, map_mul, Complex.conj_conj]
        linear_combination X * (starRingEnd ℂ) X * hu (196 * 1 * i) + Y * (starRingEnd ℂ) Y * hu (196 * 2 * i)
      simp only [this]
      rw [Finset.sum_add_distrib, Finset.sum_add_distrib, Finset.sum_const, Finset.sum_const, Finset.card_range, Finset.sum_add_distrib, ← map_sum, ← Finset.mul_sum,
        sum_root (by norm_num) (by norm_num), mul_zero, map_zero]
      simp only [nsmul_eq_mul]
      push_cast
      ring
    have e3 := congrArg Complex.re e1
    have e4 := congrArg Complex.re e2
    rw [Complex.re_sum, Complex.zero_re] at e3
    rw [Complex.re_sum, Complex.mul_conj, Complex.mul_conj, Complex.normSq_eq_norm_sq, Complex.normSq_eq_norm_sq] at e4
    have e5 : ((36 : ℂ) * (((‖X‖ ^ 2 : ℝ) : ℂ) + ((‖Y‖ ^ 2 : ℝ) : ℂ))).re = 36 * (‖X‖ ^ 2 + ‖Y‖ ^ 2) := by
      have : (36 : ℂ) * (((‖X‖ ^ 2 : ℝ) : ℂ) + ((‖Y‖ ^ 2 : ℝ) : ℂ)) = ((36 * (‖X‖ ^ 2 + ‖Y‖ ^ 2) : ℝ) : ℂ) := by push_cast; ring
      rw [this, Complex.ofReal_re]
    rw [e5] at e4
    have e6 : 2 * ∑ i ∈ Finset.range 36, (h i).re ^ 2 = 36 * (‖X‖ ^ 2 + ‖Y‖ ^ 2) := by
      rw [Finset.mul_sum, Finset.sum_congr rfl fun i _ => e0 i, Finset.sum_add_distrib, e3, e4, add_zero]
    linarith
  have hpos : 0 ≤ ∑ i ∈ Finset.range 36, (x i - (h i).re / 18) ^ 2 := Finset.sum_nonneg fun i _ => sq_nonneg _
  have hexp : ∑ i ∈ Finset.range 36, (x i - (h i).re / 18) ^ 2
      = ∑ i ∈ Finset.range 36, x i ^ 2 - 2 / 18 * ∑ i ∈ Finset.range 36, x i * (h i).re + 1 / 324 * ∑ i ∈ Finset.range 36, (h i).re ^ 2 := by
    rw [Finset.mul_sum, Finset.mul_sum, ← Finset.sum_sub_distrib, ← Finset.sum_add_distrib]
    refine Finset.sum_congr rfl fun i _ => ?_
    ring
  rw [hexp, hxg, hgg] at hpos
  linarith

end Verif.Ax25.Ear
