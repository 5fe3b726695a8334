import Verif.Ax25.EarTone

/-!
# The difference of the two bins, for all blocks with one change of tone
-/

namespace Verif.Ax25.Ear

open Complex Ball Verif.Dft

/-- The squared size of bin `k` of the first 36 samples. -/
noncomputable def power (k : ℕ) (x : ℕ → ℝ) : ℝ := ‖dft 36 k (fun i => (x i : ℂ))‖ ^ 2

theorem power_nonneg (k : ℕ) (x : ℕ → ℝ) : 0 ≤ power k x := sq_nonneg _

theorem power_sum_le (x : ℕ → ℝ) : power 1 x + power 2 x ≤ 18 * ∑ i ∈ Finset.range 36, x i ^ 2 := two_bins x

theorem power_ext {k : ℕ} {x y : ℕ → ℝ} (h : ∀ i < 36, x i = y i) : power k x = power k y := by
  unfold power dft
  congr 2
  exact Finset.sum_congr rfl fun i hi => by simp only [h i (Finset.mem_range.1 hi)]

/-- What a disturbance can do. -/
noncomputable def slack (A ε : ℝ) : ℝ := 25.5 * ε * (38.3 * A + 25.5 * ε)

theorem sq_near {z w : ℂ} : |‖z‖ ^ 2 - ‖w‖ ^ 2| ≤ 2 * ‖w‖ * ‖z - w‖ + ‖z - w‖ ^ 2 := by
  have h1 := abs_norm_sub_norm_le z w
  have h2 : ‖z‖ ^ 2 - ‖w‖ ^ 2 = (‖z‖ - ‖w‖) * (2 * ‖w‖) + (‖z‖ - ‖w‖) ^ 2 := by ring
  rw [h2]
  refine (abs_add_le _ _).trans (add_le_add ?_ ?_)
  · rw [abs_mul, abs_of_nonneg (by positivity : 0 ≤ 2 * ‖w‖), mul_comm]
    exact mul_le_mul_of_nonneg_left h1 (by positivity)
  · rw [abs_pow]
    exact pow_le_pow_left₀ (abs_nonneg _) h1 2

theorem disturbed {s x : ℕ → ℝ} {A ε : ℝ} (hA : 0 ≤ A) (hε : 0 ≤ ε) (h : ∀ i < 36, |x i - A * s i| ≤ ε) (hs : power 1 s + power 2 s ≤ 365) :
    |(power 1 x - power 2 x) - A ^ 2 * (power 1 s - power 2 s)| ≤ slack A ε := by
  have lin : ∀ k : ℕ, dft 36 k (fun i => (x i : ℂ)) - A * dft 36 k (fun i => (s i : ℂ)) = dft 36 k (fun i => ((x i - A * s i : ℝ) : ℂ)) := by
    intro k
    unfold dft
    rw [Finset.mul_sum, ← Finset.sum_sub_distrib]
    refine Finset.sum_congr rfl fun i _ => ?_
    push_cast
    ring
  have hR := power_sum_le (fun i => x i - A * s i)
  have hR2 : ∑ i ∈ Finset.range 36, (x i - A * s i) ^ 2 ≤ 36 * ε ^ 2 := by
    refine (Finset.sum_le_sum fun i hi => ?_ : _ ≤ ∑ _i ∈ Finset.range 36, ε ^ 2).trans ?_
    · rw [← sq_abs]
      exact pow_le_pow_left₀ (abs_nonneg _) (h i (Finset.mem_range.1 hi)) 2
    · simp
  unfold power at *
  rw [← lin 1, ← lin 2] at hR
  generalize dft 36 (1 : ℕ) (fun i => (x i : ℂ)) = X1 at *
  generalize dft 36 (2 : ℕ) (fun i => (x i : ℂ)) = X2 at *
  generalize dft 36 (1 : ℕ) (fun i => (s i : ℂ)) = S1 at *
  generalize dft 36 (2 : ℕ) (fun i => (s i : ℂ)) = S2 at *
  have n1 := sq_near (z := X1) (w := A * S1)
  have n2 := sq_near (z := X2) (w := A * S2)
  have a1 : ‖(A : ℂ) * S1‖ = A * ‖S1‖ := by rw [norm_mul, Complex.norm_real, Real.norm_eq_abs, abs_of_nonneg hA]
  have a2 : ‖(A : ℂ) * S2‖ = A * ‖S2‖ := by rw [norm_mul, Complex.norm_real, Real.norm_eq_abs, abs_of_nonneg hA]
  rw [a1] at n1
  rw [a2] at n2
  have p1 := norm_nonneg S1
  have p2 := norm_nonneg S2
  have r1 := norm_nonneg (X1 - A * S1)
  have r2 := norm_nonneg (X2 - A * S2)
  generalize ‖X1 - A * S1‖ = u1 at *
  generalize ‖X2 - A * S2‖ = u2 at *
  generalize ‖S1‖ = v1 at *
  generalize ‖S2‖ = v2 at *
  have hu : u1 ^ 2 + u2 ^ 2 ≤ (25.5 * ε) ^ 2 := by
    have : 0 ≤ ε ^ 2 := sq_nonneg _
    norm_num
    nlinarith
  have hv : v1 ^ 2 + v2 ^ 2 ≤ 19.15 ^ 2 := by norm_num; linarith
  have hc : v1 * u1 + v2 * u2 ≤ 19.15 * (25.5 * ε) := by
    apply le_of_sq_le_sq _ (by positivity)
    have c1 : (v1 * u1 + v2 * u2) ^ 2 ≤ (v1 ^ 2 + v2 ^ 2) * (u1 ^ 2 + u2 ^ 2) := by nlinarith [sq_nonneg (v1 * u2 - v2 * u1)]
    refine c1.trans ?_
    rw [mul_pow]
    exact mul_le_mul hv hu (by positivity) (by positivity)
  have hc2 := mul_le_mul_of_nonneg_left hc hA
  have e : ‖X1‖ ^ 2 - ‖X2‖ ^ 2 - A ^ 2 * (v1 ^ 2 - v2 ^ 2) = (‖X1‖ ^ 2 - (A * v1) ^ 2) - (‖X2‖ ^ 2 - (A * v2) ^ 2) := by ring
  rw [e]
  refine (abs_sub _ _).trans ((add_le_add n1 n2).trans ?_)
  unfold slack
  have e2 : 2 * (A * v1) * u1 + u1 ^ 2 + (2 * (A * v2) * u2 + u2 ^ 2) = 2 * (A * (v1 * u1 + v2 * u2)) + (u1 ^ 2 + u2 ^ 2) := by ring
  rw [e2]
  have e3 : 25.5 * ε * (38.3 * A + 25.5 * ε) = 2 * (A * (19.15 * (25.5 * ε))) + (25.5 * ε) ^ 2 := by ring
  rw [e3]
  linarith

theorem power_ideal (a b d : ℤ) (α : ℝ) (k m : ℕ) (hm : m ≤ 36) :
    4 * power k (ideal a b α d m)
      = ‖exp ((α : ℂ) * I) * sumP a b k m d - (starRingEnd ℂ) (exp ((α : ℂ) * I)) * sumQ a b k m d‖ ^ 2 := norm_dft_ideal a b d α k m hm

theorem grid_up {m g : ℕ} (hm : m ≤ 36) (hg : g < 80) (α : ℝ) :
    (loUp m / 100 : ℝ) ≤ power 1 (ideal 192 352 α (2 * g + 1 : ℤ) m) - power 2 (ideal 192 352 α (2 * g + 1 : ℤ) m) ∧
    power 1 (ideal 192 352 α (2 * g + 1 : ℤ) m) - power 2 (ideal 192 352 α (2 * g + 1 : ℤ) m) ≤ (hiUp m / 100 : ℝ) ∧
    power 1 (ideal 192 352 α (2 * g + 1 : ℤ) m) + power 2 (ideal 192 352 α (2 * g + 1 : ℤ) m) ≤ 365 := by
  have hr := rows_up m (by omega)
  rw [← lowSub1_eq, ← lowAdd1_eq, ← lowSub2_eq, ← lowAdd2_eq, ← highSub1_eq, ← highAdd1_eq, ← highSub2_eq, ← highAdd2_eq] at hr
  have he : pw (2 * g + 1) ∈ phases := by
    rw [phases_eq]
    exact List.mem_map.2 ⟨g, List.mem_range.2 hg, rfl⟩
  have := rowOk_spec (a := 192) (b := 352) hm hr he (has_pw _) (Complex.norm_exp_ofReal_mul_I α)
  rw [← power_ideal 192 352 _ α 1 m hm, ← power_ideal 192 352 _ α 2 m hm] at this
  push_cast at this ⊢
  obtain ⟨h1, h2, h3⟩ := this
  refine ⟨?_, ?_, ?_⟩ <;> linarith

theorem grid_down {m g : ℕ} (hm : m ≤ 36) (hg : g < 80) (α : ℝ) :
    (loDown m / 100 : ℝ) ≤ power 1 (ideal 352 192 α (-(2 * g + 1) : ℤ) m) - power 2 (ideal 352 192 α (-(2 * g + 1) : ℤ) m) ∧
    power 1 (ideal 352 192 α (-(2 * g + 1) : ℤ) m) - power 2 (ideal 352 192 α (-(2 * g + 1) : ℤ) m) ≤ (hiDown m / 100 : ℝ) ∧
    power 1 (ideal 352 192 α (-(2 * g + 1) : ℤ) m) + power 2 (ideal 352 192 α (-(2 * g + 1) : ℤ) m) ≤ 365 := by
  have hr := rows_down m (by omega)
  rw [← lowSub1_eq, ← lowAdd1_eq, ← lowSub2_eq, ← lowAdd2_eq, ← highSub1_eq, ← highAdd1_eq, ← highSub2_eq, ← highAdd2_eq] at hr
  have he : conj (pw (2 * g + 1)) ∈ phases.map conj := by
    rw [phases_eq]
    exact List.mem_map.2 ⟨_, List.mem_map.2 ⟨g, List.mem_range.2 hg, rfl⟩, rfl⟩
  have hz := has_conj (has_pw (2 * g + 1))
  rw [← zeta_neg] at hz
  have := rowOk_spec (a := 352) (b := 192) hm hr he hz (Complex.norm_exp_ofReal_mul_I α)
  rw [← power_ideal 352 192 _ α 1 m hm, ← power_ideal 352 192 _ α 2 m hm] at this
  push_cast at this ⊢
  obtain ⟨h1, h2, h3⟩ := this
  refine ⟨?_, ?_, ?_⟩ <;> linarith

theorem unit_bounds : 0 < unit ∧ unit ≤ 0.0009 := by
  have h1 := Real.pi_gt_d20
  have h2 := Real.pi_lt_d20
  unfold unit
  constructor
  · positivity
  · rw [div_le_iff₀ (by norm_num)]; linarith

/-- The nearest of the 80 phases. -/
theorem nearest_phase {τ : ℝ} (h0 : 0 ≤ τ) (h1 : τ < 1) : ∃ g : ℕ, g < 80 ∧ |160 * τ - (2 * g + 1)| ≤ 1 := by
  have hn : 0 ≤ 80 * τ := by positivity
  refine ⟨⌊80 * τ⌋₊, ?_, ?_⟩
  · rw [Nat.floor_lt hn]
    push_cast
    linarith
  · have f1 := Nat.floor_le hn
    have f2 := Nat.lt_floor_add_one (80 * τ)
    rw [abs_le]
    constructor <;> linarith

theorem ideal_near {a b α d d' : ℝ} (h : |d - d'| ≤ 1) (m i : ℕ) : |ideal a b α d m i - ideal a b α d' m i| ≤ 0.0009 := by
  obtain ⟨u0, u1⟩ := unit_bounds
  unfold ideal
  split
  · norm_num
  · refine (Real.abs_sin_sub_sin_le _ _).trans ?_
    have e : α + d * unit + b * unit * ((i : ℝ) - m) - (α + d' * unit + b * unit * ((i : ℝ) - m)) = (d - d') * unit := by ring
    rw [e, abs_mul, abs_of_pos u0]
    calc |d - d'| * unit ≤ 1 * 0.0009 := mul_le_mul h u1 u0.le (by norm_num)
      _ = 0.0009 := by norm_num

theorem sample_near {x A s s' ε : ℝ} (hA : 0 ≤ A) (h : |x - A * s| ≤ ε) (hs : |s - s'| ≤ 0.0009) : |x - A * s'| ≤ ε + 0.0009 * A := by
  have e : x - A * s' = (x - A * s) + A * (s - s') := by ring
  rw [e]
  refine (abs_add_le _ _).trans (add_le_add h ?_)
  rw [abs_mul, abs_of_nonneg hA, mul_comm]
  exact mul_le_mul_of_nonneg_right hs hA

/-- From 1200 Hz to 2200 Hz. -/
theorem block_up {x : ℕ → ℝ} {A ε α τ : ℝ} {m : ℕ} (hA : 0 ≤ A) (hε : 0 ≤ ε) (h0 : 0 ≤ τ) (h1 : τ < 1) (hm : m ≤ 36)
    (h : ∀ i < 36, |x i - A * ideal 192 352 α (160 * τ) m i| ≤ ε) :
    A ^ 2 * (loUp m / 100 : ℝ) - slack A (ε + 0.0009 * A) ≤ power 1 x - power 2 x ∧
      power 1 x - power 2 x ≤ A ^ 2 * (hiUp m / 100 : ℝ) + slack A (ε + 0.0009 * A) := by
  obtain ⟨g, g1, g2⟩ := nearest_phase h0 h1
  obtain ⟨b1, b2, b3⟩ := grid_up hm g1 α
  have hd := disturbed (x := x) (s := ideal 192 352 α (2 * g + 1 : ℤ) m) hA (by positivity : 0 ≤ ε + 0.0009 * A) (fun i hi =>
    sample_near hA (h i hi) (ideal_near (by push_cast; exact g2) m i)) b3
  rw [abs_le] at hd
  have hA2 : 0 ≤ A ^ 2 := sq_nonneg A
  have m1 := mul_le_mul_of_nonneg_left b1 hA2
  have m2 := mul_le_mul_of_nonneg_left b2 hA2
  constructor <;> linarith

/-- From 2200 Hz to 1200 Hz. -/
theorem block_down {x : ℕ → ℝ} {A ε α τ : ℝ} {m : ℕ} (hA : 0 ≤ A) (hε : 0 ≤ ε) (h0 : 0 ≤ τ) (h1 : τ < 1) (hm : m ≤ 36)
    (h : ∀ i < 36, |x i - A * ideal 352 192 α (-(160 * τ)) m i| ≤ ε) :
    A ^ 2 * (loDown m / 100 : ℝ) - slack A (ε + 0.0009 * A) ≤ power 1 x - power 2 x ∧
      power 1 x - power 2 x ≤ A ^ 2 * (hiDown m / 100 : ℝ) + slack A (ε + 0.0009 * A) := by
  obtain ⟨g, g1, g2⟩ := nearest_phase h0 h1
  obtain ⟨b1, b2, b3⟩ := grid_down hm g1 α
  have hd := disturbed (x := x) (s := ideal 352 192 α (-(2 * g + 1) : ℤ) m) hA (by positivity : 0 ≤ ε + 0.0009 * A) (fun i hi =>
    sample_near hA (h i hi) (ideal_near (by
      push_cast
      rw [← abs_neg]
      have e : -(-(160 * τ) - -(2 * (g : ℝ) + 1)) = 160 * τ - (2 * g + 1) := by ring
      rw [e]
      exact g2) m i)) b3
  rw [abs_le] at hd
  have hA2 : 0 ≤ A ^ 2 := sq_nonneg A
  have m1 := mul_le_mul_of_nonneg_left b1 hA2
  have m2 := mul_le_mul_of_nonneg_left b2 hA2
  constructor <;> linarith

end Verif.Ax25.Ear
