import Mathlib.Analysis.SpecialFunctions.Trigonometric.Bounds
import Mathlib.Analysis.SpecialFunctions.Trigonometric.Basic
import Mathlib.Analysis.Real.Pi.Bounds
import Mathlib.Algebra.Field.GeomSum
import Mathlib.Algebra.Order.Archimedean.Real.Basic
import Mathlib.Tactic.FieldSimp

/-!
# The spectrum of the Hamming window

`kern (M + 1) θ` is the Fourier sum of the Hamming window of `M + 1` points; it has a closed form, from
which follow a lower bound within half a bin and upper bounds away from the centre.
-/

namespace Verif.Dtmf
open Real

/-- The Hamming window as its definition reads. -/
noncomputable def ham (N n : ℕ) : ℝ := 0.53836 - 0.46164 * Real.cos (2 * π * n / ((N : ℝ) - 1))

/-- `Σ w_n e^{jθn}`. -/
noncomputable def kern (N : ℕ) (θ : ℝ) : ℂ := ∑ n ∈ Finset.range N, (ham N n : ℂ) * Complex.exp ((θ * n : ℝ) * Complex.I)

theorem exp_real (t : ℝ) : Complex.exp ((t : ℝ) * Complex.I) = (Real.cos t : ℂ) + (Real.sin t : ℂ) * Complex.I := by
  rw [Complex.exp_mul_I, Complex.ofReal_cos, Complex.ofReal_sin]

theorem geo (M : ℕ) (x : ℝ) (hs : Real.sin x ≠ 0) :
    ∑ n ∈ Finset.range M, Complex.exp ((2 * x * n : ℝ) * Complex.I) =
      (Complex.exp ((2 * x * M : ℝ) * Complex.I) - 1) * (-1 / 2 - (Real.cos x / Real.sin x : ℝ) / 2 * Complex.I) := by
  have hpow : ∀ n : ℕ, Complex.exp ((2 * x * n : ℝ) * Complex.I) = Complex.exp ((2 * x : ℝ) * Complex.I) ^ n := by
    intro n
    rw [← Complex.exp_nat_mul]
    congr 1
    push_cast
    ring
  have hz : Complex.exp ((2 * x : ℝ) * Complex.I) - 1 = 2 * Real.sin x * Complex.I * ((Real.cos x : ℂ) + (Real.sin x : ℂ) * Complex.I) := by
    rw [exp_real, Real.cos_two_mul', Real.sin_two_mul]
    have h1 : ((Real.cos x : ℂ)) ^ 2 + (Real.sin x : ℂ) ^ 2 = 1 := by
      exact_mod_cast Real.cos_sq_add_sin_sq x
    push_cast at h1 ⊢
    have hI : Complex.I * Complex.I = -1 := Complex.I_mul_I
    linear_combination h1 - 2 * (Complex.sin x) ^ 2 * hI
  have hinv : (Complex.exp ((2 * x : ℝ) * Complex.I) - 1) * (-1 / 2 - (Real.cos x / Real.sin x : ℝ) / 2 * Complex.I) = 1 := by
    rw [hz]
    have hs' : (Real.sin x : ℂ) ≠ 0 := by exact_mod_cast hs
    have h1 : ((Real.cos x : ℂ)) ^ 2 + (Real.sin x : ℂ) ^ 2 = 1 := by
      exact_mod_cast Real.cos_sq_add_sin_sq x
    have hI : Complex.I * Complex.I = -1 := Complex.I_mul_I
    rw [Complex.ofReal_div]
    generalize (Real.cos x : ℂ) = c at *
    generalize (Real.sin x : ℂ) = s at *
    field_simp
    linear_combination h1 - (s * s + c * c + c * s * Complex.I) * hI
  have hne : Complex.exp ((2 * x : ℝ) * Complex.I) ≠ 1 := by
    intro h
    rw [h, sub_self, zero_mul] at hinv
    exact zero_ne_one hinv
  rw [Finset.sum_congr rfl fun n _ => hpow n, geom_sum_eq hne, hpow M, div_eq_mul_inv]
  congr 1
  exact inv_eq_of_mul_eq_one_right hinv

/-- The closed form's cotangent part. -/
noncomputable def cotPart (M : ℕ) (x : ℝ) : ℝ :=
  Real.cos x / Real.sin x * (0.07672 - 0.46164 * (Real.sin (π / M) ^ 2 / (Real.sin x ^ 2 - Real.sin (π / M) ^ 2)))

theorem sin_prod (x h : ℝ) : Real.sin (x + h) * Real.sin (x - h) = Real.sin x ^ 2 - Real.sin h ^ 2 := by
  rw [Real.sin_add, Real.sin_sub]
  have h1 := Real.sin_sq_add_cos_sq x
  have h2 := Real.sin_sq_add_cos_sq h
  linear_combination (-(Real.sin h ^ 2)) * h1 + Real.sin x ^ 2 * h2

theorem cot_sum (x h : ℝ) (hp : Real.sin (x + h) ≠ 0) (hm : Real.sin (x - h) ≠ 0) :
    Real.cos (x + h) / Real.sin (x + h) + Real.cos (x - h) / Real.sin (x - h) =
      2 * (Real.sin x * Real.cos x) / (Real.sin x ^ 2 - Real.sin h ^ 2) := by
  rw [← sin_prod, div_add_div _ _ hp hm]
  congr 1
  have : Real.cos (x + h) * Real.sin (x - h) + Real.sin (x + h) * Real.cos (x - h) = Real.sin (2 * x) := by
    have : 2 * x = (x + h) + (x - h) := by ring
    rw [this, Real.sin_add (x + h)]
    ring
  rw [this, Real.sin_two_mul]
  ring

theorem kern_closed (M : ℕ) (hM : 0 < M) (x : ℝ) (h0 : Real.sin x ≠ 0) (hp : Real.sin (x + π / M) ≠ 0) (hm : Real.sin (x - π / M) ≠ 0) :
    kern (M + 1) (2 * x) = Complex.exp ((M * x : ℝ) * Complex.I) * ((0.07672 * Real.cos (M * x) + cotPart M x * Real.sin (M * x) : ℝ) : ℂ) := by
  have hMr : (M : ℝ) ≠ 0 := by exact_mod_cast hM.ne'
  have hterm : ∀ n : ℕ, (ham (M + 1) n : ℂ) * Complex.exp ((2 * x * n : ℝ) * Complex.I) =
      0.53836 * Complex.exp ((2 * x * n : ℝ) * Complex.I) - 0.23082 * (Complex.exp ((2 * (x + π / M) * n : ℝ) * Complex.I) + Complex.exp ((2 * (x - π / M) * n : ℝ) * Complex.I)) := by
    intro n
    have e1 : (2 * (x + π / M) * n : ℝ) = 2 * x * n + 2 * π * n / M := by ring
    have e2 : (2 * (x - π / M) * n : ℝ) = 2 * x * n - 2 * π * n / M := by ring
    have e3 : (((M + 1 : ℕ) : ℝ) - 1) = M := by push_cast; ring
    rw [e1, e2, ham, e3, exp_real, exp_real, exp_real, Real.cos_add, Real.cos_sub, Real.sin_add, Real.sin_sub]
    push_cast
    ring
  have hend : ∀ s : ℝ, s = 1 ∨ s = -1 → Complex.exp ((2 * (x + s * (π / M)) * M : ℝ) * Complex.I) = Complex.exp ((2 * x * M : ℝ) * Complex.I) := by
    intro s hs
    have e : (2 * (x + s * (π / M)) * M : ℝ) = 2 * x * M + s * (2 * π) := by field_simp
    rw [e, exp_real, exp_real]
    rcases hs with rfl | rfl
    · rw [one_mul, Real.cos_add_two_pi, Real.sin_add_two_pi]
    · rw [neg_one_mul, ← sub_eq_add_neg, Real.cos_sub_two_pi, Real.sin_sub_two_pi]
  have hend1 := hend 1 (Or.inl rfl)
  have hend2 := hend (-1) (Or.inr rfl)
  rw [one_mul] at hend1
  rw [neg_one_mul, ← sub_eq_add_neg] at hend2
  have hlast : (ham (M + 1) M : ℝ) = 0.07672 := by
    have e3 : (((M + 1 : ℕ) : ℝ) - 1) = M := by push_cast; ring
    rw [ham, e3, mul_div_assoc, div_self hMr, mul_one, Real.cos_two_pi]
    norm_num
  have hc := cot_sum x (π / M) hp hm
  have hprod := sin_prod x (π / M)
  have hd : Real.sin x ^ 2 - Real.sin (π / M) ^ 2 ≠ 0 := by rw [← hprod]; exact mul_ne_zero hp hm
  have hC : 0.53836 * (Real.cos x / Real.sin x) - 0.23082 * (Real.cos (x + π / M) / Real.sin (x + π / M) + Real.cos (x - π / M) / Real.sin (x - π / M)) = cotPart M x := by
    rw [hc, cotPart]
    field_simp
    ring
  rw [kern, Finset.sum_range_succ, Finset.sum_congr rfl fun n _ => hterm n, Finset.sum_sub_distrib, ← Finset.mul_sum, ← Finset.mul_sum,
    Finset.sum_add_distrib, geo M x h0, geo M _ hp, geo M _ hm, hend1, hend2, hlast, ← hC]
  have e4 : (2 * x * M : ℝ) = 2 * (M * x) := by ring
  rw [e4, exp_real, exp_real, Real.cos_two_mul', Real.sin_two_mul]
  have h1 : ((Real.cos (M * x) : ℂ)) ^ 2 + (Real.sin (M * x) : ℂ) ^ 2 = 1 := by
    exact_mod_cast Real.cos_sq_add_sin_sq (M * x)
  have hI : Complex.I * Complex.I = -1 := Complex.I_mul_I
  push_cast at h1 ⊢
  generalize Complex.cos (M * x) = c at *
  generalize Complex.sin (M * x) = s at *
  generalize Complex.cos x / Complex.sin x = u at *
  generalize Complex.cos (x + π / M) / Complex.sin (x + π / M) = v at *
  generalize Complex.cos (x - π / M) / Complex.sin (x - π / M) = w at *
  linear_combination (-(c * s * (13459 / 25000 * u - 11541 / 50000 * v - 11541 / 50000 * w))) * hI -
    (959 / 25000 + Complex.I * (13459 / 25000 * u - 11541 / 50000 * v - 11541 / 50000 * w) / 2) * h1

theorem kern_neg (N : ℕ) (θ : ℝ) : ‖kern N (-θ)‖ = ‖kern N θ‖ := by
  have : kern N (-θ) = (starRingEnd ℂ) (kern N θ) := by
    rw [kern, kern, map_sum]
    refine Finset.sum_congr rfl fun n _ => ?_
    rw [map_mul, Complex.conj_ofReal, exp_real, exp_real, map_add, map_mul, Complex.conj_ofReal, Complex.conj_ofReal, Complex.conj_I, neg_mul,
      Real.cos_neg, Real.sin_neg]
    push_cast
    ring
  rw [this, RCLike.norm_conj]

theorem kern_abs (N : ℕ) (d : ℝ) : ‖kern N (2 * π * d / N)‖ = ‖kern N (2 * π * |d| / N)‖ := by
  rcases abs_choice d with h | h
  · rw [h]
  · rw [h, ← kern_neg]
    congr 2
    ring

theorem kern_norm (M : ℕ) (hM : 0 < M) (x : ℝ) (h0 : Real.sin x ≠ 0) (hp : Real.sin (x + π / M) ≠ 0) (hm : Real.sin (x - π / M) ≠ 0) :
    ‖kern (M + 1) (2 * x)‖ = |0.07672 * Real.cos (M * x) + cotPart M x * Real.sin (M * x)| := by
  rw [kern_closed M hM x h0 hp hm, norm_mul, Complex.norm_exp_ofReal_mul_I, one_mul, Complex.norm_real, Real.norm_eq_abs]

theorem cot_le {x : ℝ} (h0 : 0 < x) (h1 : x < π / 2) : 0 < Real.cos x / Real.sin x ∧ Real.cos x / Real.sin x ≤ 1 / x := by
  have hs := Real.sin_pos_of_pos_of_lt_pi h0 (by linarith [Real.pi_pos])
  have hc := Real.cos_pos_of_mem_Ioo ⟨by linarith, h1⟩
  refine ⟨div_pos hc hs, ?_⟩
  rw [div_le_div_iff₀ hs h0, one_mul, mul_comm]
  have := Real.lt_tan h0 h1
  rw [Real.tan_eq_sin_div_cos, lt_div_iff₀ hc] at this
  exact this.le

theorem ratio {h c x : ℝ} (h0 : 0 < h) (h1 : h ≤ 0.0155) (c1 : 1 ≤ c) (c2 : c ≤ 6) (hx : c * h ≤ x) (hx2 : x ≤ π / 2) :
    0.997 * c * Real.sin h ≤ Real.sin x := by
  have hc0 : 0 < c * h := by positivity
  have hc1 : c * h ≤ 0.093 := by nlinarith
  have e1 : Real.sin (c * h) ≤ Real.sin x := Real.sin_le_sin_of_le_of_le_pi_div_two (by linarith [Real.pi_pos]) hx2 hx
  have e2 := Real.sin_gt_sub_cube hc0
  have e3 := Real.sin_le h0.le
  have e4 : (c * h) ^ 3 / 6 ≤ 0.003 * (c * h) := by
    have : (c * h) ^ 2 ≤ 0.093 ^ 2 := pow_le_pow_left₀ hc0.le hc1 2
    have e : (c * h) ^ 3 = (c * h) ^ 2 * (c * h) := by ring
    rw [e]
    have := mul_le_mul_of_nonneg_right this hc0.le
    linarith
  have e5 : 0.997 * c * Real.sin h ≤ 0.997 * (c * h) := by
    rw [mul_assoc]
    exact mul_le_mul_of_nonneg_left (mul_le_mul_of_nonneg_left e3 (by linarith)) (by norm_num)
  linarith

theorem step_bounds {M : ℕ} (hM : 204 ≤ M) : 0 < π / M ∧ π / M ≤ 0.0155 ∧ 0 < Real.sin (π / M) := by
  have hMr : (204 : ℝ) ≤ M := by exact_mod_cast hM
  have hp := Real.pi_pos
  have h0 : 0 < π / M := by positivity
  have h1 : π / M ≤ 0.0155 := by
    rw [div_le_iff₀ (by linarith)]
    have := Real.pi_lt_d2
    linarith
  exact ⟨h0, h1, Real.sin_pos_of_pos_of_lt_pi h0 (by have := Real.pi_gt_three; linarith)⟩

theorem away {M : ℕ} (hM : 204 ≤ M) {x c B : ℝ} (c1 : 1.4 ≤ c) (c2 : c ≤ 6) (hx : c * (π / M) ≤ x) (hx2 : x ≤ 1.5)
    (hB0 : 0.07672 ≤ B) (hB : 0.46164 ≤ (B + 0.07672) * ((0.997 * c) ^ 2 - 1)) :
    ‖kern (M + 1) (2 * x)‖ ≤ 0.07672 + B / x := by
  obtain ⟨h0, h1, hs⟩ := step_bounds hM
  have hpi := Real.pi_gt_three
  have x0 : 0 < x := lt_of_lt_of_le (by positivity) hx
  have hr := ratio h0 h1 (by linarith) c2 hx (by linarith)
  have hsx := Real.sin_pos_of_pos_of_lt_pi x0 (by linarith)
  have hxh : π / M < x := lt_of_lt_of_le (by nlinarith) hx
  have hp : Real.sin (x + π / M) ≠ 0 := (Real.sin_pos_of_pos_of_lt_pi (by linarith) (by linarith)).ne'
  have hm : Real.sin (x - π / M) ≠ 0 := (Real.sin_pos_of_pos_of_lt_pi (by linarith) (by linarith)).ne'
  rw [kern_norm M (by omega) x hsx.ne' hp hm]
  obtain ⟨k0, k1⟩ := cot_le x0 (by linarith)
  have hsq : (0.997 * c) ^ 2 * Real.sin (π / M) ^ 2 ≤ Real.sin x ^ 2 := by
    rw [← mul_pow]
    exact pow_le_pow_left₀ (by positivity) hr 2
  have hk : 0 < (0.997 * c) ^ 2 - 1 := by nlinarith
  have hs2 : 0 < Real.sin (π / M) ^ 2 := by positivity
  have hden : ((0.997 * c) ^ 2 - 1) * Real.sin (π / M) ^ 2 ≤ Real.sin x ^ 2 - Real.sin (π / M) ^ 2 := by linarith
  have hdenp : 0 < Real.sin x ^ 2 - Real.sin (π / M) ^ 2 := lt_of_lt_of_le (by positivity) hden
  have q0 : 0 ≤ Real.sin (π / M) ^ 2 / (Real.sin x ^ 2 - Real.sin (π / M) ^ 2) := by positivity
  have q1 : 0.46164 * (Real.sin (π / M) ^ 2 / (Real.sin x ^ 2 - Real.sin (π / M) ^ 2)) ≤ B + 0.07672 := by
    rw [← mul_div_assoc, div_le_iff₀ hdenp]
    calc 0.46164 * Real.sin (π / M) ^ 2 ≤ (B + 0.07672) * ((0.997 * c) ^ 2 - 1) * Real.sin (π / M) ^ 2 :=
          mul_le_mul_of_nonneg_right hB hs2.le
      _ = (B + 0.07672) * (((0.997 * c) ^ 2 - 1) * Real.sin (π / M) ^ 2) := by ring
      _ ≤ _ := mul_le_mul_of_nonneg_left hden (by linarith)
  have hbr : |0.07672 - 0.46164 * (Real.sin (π / M) ^ 2 / (Real.sin x ^ 2 - Real.sin (π / M) ^ 2))| ≤ B := by
    rw [abs_le]
    constructor <;> linarith
  have hC : |cotPart M x| ≤ B / x := by
    rw [cotPart, abs_mul, abs_of_pos k0]
    calc _ ≤ 1 / x * B := mul_le_mul k1 hbr (abs_nonneg _) (by positivity)
      _ = B / x := by ring
  have t1 := Real.abs_cos_le_one (M * x)
  have t2 := Real.abs_sin_le_one (M * x)
  calc |0.07672 * Real.cos (M * x) + cotPart M x * Real.sin (M * x)| ≤ |0.07672 * Real.cos (M * x)| + |cotPart M x * Real.sin (M * x)| := abs_add_le _ _
    _ = 0.07672 * |Real.cos (M * x)| + |cotPart M x| * |Real.sin (M * x)| := by
      rw [abs_mul, abs_mul, abs_of_nonneg (by norm_num : (0 : ℝ) ≤ 0.07672)]
    _ ≤ 0.07672 * 1 + B / x * 1 := by
      refine add_le_add (mul_le_mul_of_nonneg_left t1 (by norm_num)) (mul_le_mul hC t2 (abs_nonneg _) ?_)
      exact le_trans (abs_nonneg _) hC
    _ = _ := by ring

theorem bin_point (M : ℕ) (d : ℝ) : 2 * π * d / ((M + 1 : ℕ) : ℝ) = 2 * (π * d / (M + 1)) := by
  push_cast
  ring

/-- A bin and a half away. -/
theorem kern_near {N : ℕ} (hN : 205 ≤ N) {d : ℝ} (h1 : 3 / 2 ≤ |d|) (h2 : |d| ≤ 0.47 * N) : ‖kern N (2 * π * d / N)‖ ≤ N / 14 := by
  obtain ⟨M, rfl⟩ : ∃ M, N = M + 1 := ⟨N - 1, by omega⟩
  have hM : 204 ≤ M := by omega
  have hMr : (204 : ℝ) ≤ M := by exact_mod_cast hM
  clear hN
  rw [kern_abs, bin_point]
  generalize |d| = d at *
  push_cast at h2 ⊢
  have hpi := Real.pi_gt_d2
  have hpi2 := Real.pi_lt_d2
  have hx1 : 1.492 * (π / M) ≤ π * d / (M + 1) := by
    rw [← mul_div_assoc, div_le_div_iff₀ (by linarith) (by linarith)]
    have : π * (1.492 * (M + 1)) ≤ π * (d * M) := mul_le_mul_of_nonneg_left (by nlinarith) (by linarith)
    linarith
  have hx2 : π * d / (M + 1) ≤ 1.5 := by
    rw [div_le_iff₀ (by linarith)]
    nlinarith
  refine (away hM (B := 0.31) (by norm_num) (by norm_num) hx1 hx2 (by norm_num) (by norm_num)).trans ?_
  have : 0.31 / (π * d / (M + 1)) ≤ 0.0659 * (M + 1) := by
    rw [div_div_eq_mul_div, div_le_iff₀ (by nlinarith)]
    have hpd : 4.71 ≤ π * d := by nlinarith
    nlinarith
  linarith

/-- Six bins away. -/
theorem kern_far {N : ℕ} (hN : 205 ≤ N) {d : ℝ} (h1 : 6 ≤ |d|) (h2 : |d| ≤ 0.47 * N) : ‖kern N (2 * π * d / N)‖ ≤ N / 200 := by
  obtain ⟨M, rfl⟩ : ∃ M, N = M + 1 := ⟨N - 1, by omega⟩
  have hM : 204 ≤ M := by omega
  have hMr : (204 : ℝ) ≤ M := by exact_mod_cast hM
  clear hN
  rw [kern_abs, bin_point]
  generalize |d| = d at *
  push_cast at h2 ⊢
  have hpi := Real.pi_gt_d2
  have hpi2 := Real.pi_lt_d2
  have hx1 : 5.9 * (π / M) ≤ π * d / (M + 1) := by
    rw [← mul_div_assoc, div_le_div_iff₀ (by linarith) (by linarith)]
    have : π * (5.9 * (M + 1)) ≤ π * (d * M) := mul_le_mul_of_nonneg_left (by nlinarith) (by linarith)
    linarith
  have hx2 : π * d / (M + 1) ≤ 1.5 := by
    rw [div_le_iff₀ (by linarith)]
    nlinarith
  refine (away hM (B := 0.07672) (by norm_num) (by norm_num) hx1 hx2 (by norm_num) (by norm_num)).trans ?_
  have : 0.07672 / (π * d / (M + 1)) ≤ 0.0042 * (M + 1) := by
    rw [div_div_eq_mul_div, div_le_iff₀ (by nlinarith)]
    have hpd : 18.84 ≤ π * d := by nlinarith
    nlinarith
  linarith

/-- The sum of the window. -/
theorem kern_zero {M : ℕ} (hM : 2 ≤ M) : ∑ n ∈ Finset.range (M + 1), ham (M + 1) n = 0.53836 * (M + 1) - 0.46164 := by
  have hMr : (M : ℝ) ≠ 0 := by positivity
  have e3 : (((M + 1 : ℕ) : ℝ) - 1) = M := by push_cast; ring
  have hpos : 0 < Real.sin (π / M) := by
    refine Real.sin_pos_of_pos_of_lt_pi (by positivity) ?_
    rw [div_lt_iff₀ (by positivity)]
    have : (2 : ℝ) ≤ M := by exact_mod_cast hM
    nlinarith [Real.pi_pos]
  have hg := geo M (π / M) hpos.ne'
  have e1 : (2 * (π / M) * M : ℝ) = 2 * π := by field_simp
  rw [e1, exp_real (2 * π), Real.cos_two_pi, Real.sin_two_pi] at hg
  have hre := congrArg Complex.re hg
  rw [Complex.re_sum] at hre
  simp only [Complex.exp_ofReal_mul_I_re, Complex.ofReal_one, Complex.ofReal_zero, zero_mul, add_zero, sub_self, Complex.zero_re] at hre
  simp only [ham, e3]
  have e4 : ∀ n : ℕ, 2 * π * n / M = 2 * (π / M) * n := fun n => by ring
  simp only [e4]
  rw [Finset.sum_sub_distrib, ← Finset.mul_sum, Finset.sum_range_succ (fun n : ℕ => Real.cos (2 * (π / M) * n)), hre, e1, Real.cos_two_pi,
    Finset.sum_const, Finset.card_range, nsmul_eq_mul]
  push_cast
  ring

theorem ham_nonneg (N n : ℕ) : 0 ≤ ham N n := by
  have := Real.cos_le_one (2 * π * n / ((N : ℝ) - 1))
  rw [ham]
  linarith

/-- Within half a bin. -/
theorem kern_main {N : ℕ} (hN : 205 ≤ N) {d : ℝ} (h : |d| ≤ 1 / 2) : (N : ℝ) / 3 ≤ ‖kern N (2 * π * d / N)‖ := by
  obtain ⟨M, rfl⟩ : ∃ M, N = M + 1 := ⟨N - 1, by omega⟩
  have hM : 204 ≤ M := by omega
  have hMr : (204 : ℝ) ≤ M := by exact_mod_cast hM
  clear hN
  rw [kern_abs, bin_point]
  have hd0 := abs_nonneg d
  generalize |d| = d at *
  push_cast
  have hpi := Real.pi_gt_d2
  have hpi2 := Real.pi_lt_d2
  rcases hd0.eq_or_lt with rfl | hd0
  · have e : kern (M + 1) (2 * (π * 0 / (M + 1))) = ((∑ n ∈ Finset.range (M + 1), ham (M + 1) n : ℝ) : ℂ) := by
      rw [kern, Complex.ofReal_sum]
      refine Finset.sum_congr rfl fun n _ => ?_
      simp
    rw [e, kern_zero (by omega), Complex.norm_real, Real.norm_eq_abs]
    refine le_trans ?_ (le_abs_self _)
    linarith
  obtain ⟨s0, s1, ss⟩ := step_bounds hM
  obtain ⟨x, hx⟩ : ∃ x, x = π * d / (M + 1) := ⟨_, rfl⟩
  rw [← hx]
  have x0 : 0 < x := by rw [hx]; positivity
  have xh : x * (M + 1) ≤ π / 2 := by
    rw [hx, div_mul_cancel₀ _ (by positivity)]
    nlinarith
  have xs : x < π / M := by
    rw [lt_div_iff₀ (by linarith)]
    nlinarith
  have xsm : x ≤ 0.0155 := by linarith
  have hsx := Real.sin_pos_of_pos_of_lt_pi x0 (by linarith)
  have hp : Real.sin (x + π / M) ≠ 0 := (Real.sin_pos_of_pos_of_lt_pi (by linarith) (by linarith)).ne'
  have hm : Real.sin (x - π / M) ≠ 0 := (Real.sin_neg_of_neg_of_neg_pi_lt (by linarith) (by linarith)).ne
  rw [kern_norm M (by omega) x hsx.ne' hp hm]
  refine le_trans ?_ (le_abs_self _)
  have y0 : 0 ≤ M * x := by positivity
  have y1 : M * x ≤ π / 2 := by nlinarith
  have hcy : 0 ≤ Real.cos (M * x) := Real.cos_nonneg_of_neg_pi_div_two_le_of_le (by linarith) y1
  have hsy := Real.mul_le_sin y0 y1
  have hsy0 : 0 ≤ Real.sin (M * x) := le_trans (by positivity) hsy
  have hlt : Real.sin x < Real.sin (π / M) := Real.sin_lt_sin_of_lt_of_le_pi_div_two (by linarith) (by linarith) xs
  have hcx : 0.999 ≤ Real.cos x := by
    have := Real.one_sub_sq_div_two_le_cos (x := x)
    nlinarith
  have hq : Real.sin (π / M) ^ 2 / (Real.sin x ^ 2 - Real.sin (π / M) ^ 2) ≤ -1 := by
    have hneg : Real.sin x ^ 2 - Real.sin (π / M) ^ 2 < 0 := by
      have := pow_lt_pow_left₀ hlt hsx.le (two_ne_zero)
      linarith
    rw [div_le_iff_of_neg hneg]
    nlinarith
  have hbr : 0.53836 ≤ 0.07672 - 0.46164 * (Real.sin (π / M) ^ 2 / (Real.sin x ^ 2 - Real.sin (π / M) ^ 2)) := by linarith
  have hmain : 0.341 * M ≤ cotPart M x * Real.sin (M * x) := by
    have hsl := Real.sin_le x0.le
    have hcot : 0.999 / x ≤ Real.cos x / Real.sin x := by
      rw [div_le_div_iff₀ x0 hsx]
      nlinarith
    have hC : 0.999 / x * 0.53836 ≤ cotPart M x := by
      rw [cotPart]
      exact mul_le_mul hcot hbr (by norm_num) (le_trans (by positivity) hcot)
    calc 0.341 * M ≤ 0.999 / x * 0.53836 * (2 / π * (M * x)) := by
          have e : 0.999 / x * 0.53836 * (2 / π * (M * x)) = 0.999 * 0.53836 * 2 * M / π := by
            field_simp
          rw [e, le_div_iff₀ (by linarith)]
          nlinarith
      _ ≤ cotPart M x * Real.sin (M * x) := mul_le_mul hC hsy (by positivity) (le_trans (by positivity) hC)
  linarith

end Verif.Dtmf
