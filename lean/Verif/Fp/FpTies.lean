import Verif.Fp.FpRd

/-!
# Rounding of numbers half way between two neighbours
-/

namespace Verif.Fp

theorem roundEven_tie {x : ℚ} (h : 1 / 2 ≤ |x - roundEven x|) : roundEven x % 2 = 0 := by
  have h1 := Int.floor_le x
  have h2 := Int.lt_floor_add_one x
  unfold roundEven at h ⊢
  simp only at h ⊢
  split_ifs at h ⊢ with ha hb hc
  · rw [abs_of_nonneg (by linarith)] at h
    linarith
  · push_cast at h
    rw [abs_of_neg (by linarith)] at h
    linarith
  · exact hc
  · omega

/-- A multiple of the spacing: what is representable and no further from `x` than the next power of two below. -/
theorem tie_multiple (φ : Format) (hp : 1 ≤ φ.p) {x g : ℚ} (hx : 0 < x) (hg : Grid φ g) (h : |x - g| = |x - rd φ x|) : ∃ k : ℤ, g = k * ulp φ x := by
  have hl1 : (2 : ℚ) ^ Int.log 2 x ≤ x := by exact_mod_cast Int.zpow_log_le_self (b := 2) (by norm_num) hx
  by_cases hL : Int.log 2 x ≤ φ.emin
  · obtain ⟨z, hz⟩ := grid_int hg
    exact ⟨z, by rw [hz]; unfold ulp; rw [max_eq_right hL]⟩
  · rw [not_le] at hL
    have hge : (2 : ℚ) ^ Int.log 2 x ≤ g := by
      by_contra hc
      rw [not_le] at hc
      have h1 := rd_nearest φ hp x (grid_pow φ hp (Int.log 2 x) (by omega))
      rw [← h, abs_of_nonneg (by linarith : (0 : ℚ) ≤ x - g), abs_of_nonneg (by linarith)] at h1
      linarith
    obtain ⟨m, e, h1, h2, h3⟩ := hg
    have hpow : (0 : ℚ) < 2 ^ Int.log 2 x := by positivity
    rw [abs_of_pos (by linarith)] at h3
    have he : Int.log 2 x - (φ.p - 1) ≤ e := by
      have h5 : (2 : ℚ) ^ Int.log 2 x < (2 : ℚ) ^ ((φ.p : ℤ) + e) := by
        refine lt_of_le_of_lt hge ?_
        rw [h3, zpow_add₀ (by norm_num), zpow_natCast]
        have : (m : ℚ) < 2 ^ φ.p := by exact_mod_cast h1
        exact mul_lt_mul_of_pos_right this (by positivity)
      have := (zpow_lt_zpow_iff_right₀ (by norm_num : (1 : ℚ) < 2)).1 h5
      omega
    refine ⟨m * 2 ^ (e - (Int.log 2 x - (φ.p - 1))).toNat, ?_⟩
    unfold ulp
    rw [max_eq_left hL.le, h3]
    push_cast
    rw [mul_assoc, ← zpow_natCast, Int.toNat_of_nonneg (by omega), ← zpow_add₀ (by norm_num)]
    congr 2
    ring

/-- Where another representable number is just as near, the result can do with one bit less: its last bit is
zero. -/
theorem rd_tie (φ : Format) (hp : 2 ≤ φ.p) (x : ℚ) {g : ℚ} (hg : Grid φ g) (hne : g ≠ rd φ x) (h : |x - g| = |x - rd φ x|) :
    Grid ⟨φ.p - 1, φ.emin, φ.emax⟩ (rd φ x) := by
  have pos : ∀ x : ℚ, 0 < x → ∀ g, Grid φ g → g ≠ rd φ x → |x - g| = |x - rd φ x| → Grid ⟨φ.p - 1, φ.emin, φ.emax⟩ (rd φ x) := by
    intro x hx g hg hne h
    obtain ⟨k, hk⟩ := tie_multiple φ (by omega) hx hg h
    have hu := ulp_pos φ x
    have hz := rd_pos φ hx
    set n := roundEven (x / ulp φ x) with hn
    have hdist : ulp φ x ≤ 2 * |x - rd φ x| := by
      have h1 : ulp φ x ≤ |g - rd φ x| := by
        rw [hk, hz, ← sub_mul, abs_mul, abs_of_pos hu]
        have hkn : k - n ≠ 0 := by
          intro h0
          apply hne
          rw [hk, hz, sub_eq_zero.1 h0]
        have : (1 : ℚ) ≤ |(k : ℚ) - n| := by exact_mod_cast Int.one_le_abs hkn
        nlinarith
      have h2 : |g - rd φ x| ≤ |x - g| + |x - rd φ x| := by
        have := abs_sub_le g x (rd φ x)
        rwa [abs_sub_comm g x] at this
      linarith
    have heven : n % 2 = 0 := by
      apply roundEven_tie
      rw [← hn]
      have e : x - rd φ x = (x / ulp φ x - n) * ulp φ x := by
        rw [hz, sub_mul, div_mul_cancel₀ _ hu.ne']
      rw [e, abs_mul, abs_of_pos hu] at hdist
      nlinarith
    have hn0 : 0 ≤ n := roundEven_nonneg _ (by positivity)
    have hnp : n ≤ 2 ^ φ.p := by
      have h1 := roundEven_half (x / ulp φ x)
      rw [← hn] at h1
      have h2 : x / ulp φ x < 2 ^ φ.p := by
        rw [div_lt_iff₀ hu]
        have hl : x < (2 : ℚ) ^ (Int.log 2 x + 1) := by exact_mod_cast Int.lt_zpow_succ_log_self (b := 2) (by norm_num) x
        refine hl.trans_le ?_
        unfold ulp
        rw [← zpow_natCast, ← zpow_add₀ (by norm_num)]
        exact zpow_le_zpow_right₀ (by norm_num) (by omega)
      have h3 := neg_abs_le (x / ulp φ x - n)
      have h4 : (n : ℚ) < 2 ^ φ.p + 1 := by linarith
      have h5 : n < 2 ^ φ.p + 1 := by exact_mod_cast h4
      omega
    obtain ⟨j, hj⟩ := Int.dvd_of_emod_eq_zero heven
    have hpp : (2 : ℤ) ^ φ.p = 2 * 2 ^ (φ.p - 1) := by rw [← pow_succ']; congr 1; omega
    have hj0 : 0 ≤ j := by omega
    have hjp : j ≤ 2 ^ (φ.p - 1) := by omega
    have hval : |rd φ x| = j * (2 : ℚ) ^ (max (Int.log 2 x) φ.emin - (φ.p - 1) + 1) := by
      rw [abs_of_nonneg (rd_nonneg φ hx.le), hz, hj]
      unfold ulp
      rw [zpow_add₀ (by norm_num : (2 : ℚ) ≠ 0) _ 1]
      push_cast
      ring
    have hcast : ((φ.p - 1 : ℕ) : ℤ) = φ.p - 1 := by omega
    rcases hjp.lt_or_eq with hlt | heq
    · refine ⟨j.toNat, max (Int.log 2 x) φ.emin - (φ.p - 1) + 1, ?_, ?_, ?_⟩
      · have : (j.toNat : ℤ) < ((2 ^ (φ.p - 1) : ℕ) : ℤ) := by rw [Int.toNat_of_nonneg hj0]; exact_mod_cast hlt
        exact_mod_cast this
      · simp only [hcast]
        omega
      · rw [hval]
        congr 1
        have : ((j.toNat : ℤ) : ℚ) = (j : ℚ) := by rw [Int.toNat_of_nonneg hj0]
        exact_mod_cast this.symm
    · refine ⟨1, max (Int.log 2 x) φ.emin + 1, ?_, ?_, ?_⟩
      · exact Nat.one_lt_two_pow (by simp only; omega)
      · simp only [hcast]
        omega
      · rw [hval, heq]
        push_cast
        rw [one_mul, ← zpow_natCast, ← zpow_add₀ (by norm_num), hcast]
        congr 1
        ring
  rcases lt_trichotomy x 0 with hx | hx | hx
  · have h1 := pos (-x) (neg_pos.2 hx) (-g) (grid_neg hg) (by rw [rd_neg]; exact fun h => hne (neg_injective h)) (by
      rw [rd_neg, ← neg_sub', ← neg_sub', abs_neg, abs_neg]; exact h)
    rw [rd_neg] at h1
    have := grid_neg h1
    rwa [neg_neg] at this
  · subst hx
    rw [rd_zero]
    exact grid_zero _
  · exact pos x hx g hg hne h

theorem grid_coarse {φ : Format} {x : ℚ} (hp : 1 ≤ φ.p) (h : Grid ⟨φ.p - 1, φ.emin, φ.emax⟩ x) : Grid φ x := by
  obtain ⟨m, e, h1, h2, h3⟩ := h
  exact ⟨m, e, h1.trans_le (Nat.pow_le_pow_right (by norm_num) (by simp)), by simp only at h2; omega, h3⟩

theorem ulp_coarse (φ : Format) (hp : 1 ≤ φ.p) (x : ℚ) : ulp ⟨φ.p - 1, φ.emin, φ.emax⟩ x = 2 * ulp φ x := by
  unfold ulp
  simp only
  rw [← zpow_one_add₀ (by norm_num)]
  congr 1
  omega

/-- Rounding is the only way to choose a nearest number whose last bit is zero when there are two. -/
theorem rd_unique (φ : Format) (hp : 2 ≤ φ.p) (x : ℚ) {g : ℚ} (hg : Grid φ g) (hn : ∀ g', Grid φ g' → |x - g| ≤ |x - g'|)
    (he : ∀ g', Grid φ g' → g' ≠ g → |x - g'| = |x - g| → Grid ⟨φ.p - 1, φ.emin, φ.emax⟩ g) : g = rd φ x := by
  have pos : ∀ x : ℚ, 0 < x → ∀ g, Grid φ g → (∀ g', Grid φ g' → |x - g| ≤ |x - g'|) →
      (∀ g', Grid φ g' → g' ≠ g → |x - g'| = |x - g| → Grid ⟨φ.p - 1, φ.emin, φ.emax⟩ g) → g = rd φ x := by
    intro x hx g hg hn he
    by_contra hne
    have hd : |x - g| = |x - rd φ x| := le_antisymm (hn _ (grid_rd φ (by omega) x)) (rd_nearest φ (by omega) x hg)
    have h1 := he _ (grid_rd φ (by omega) x) (Ne.symm hne) hd.symm
    have h2 := rd_tie φ hp x hg hne hd
    have hc : |x - g| = |x - rd ⟨φ.p - 1, φ.emin, φ.emax⟩ x| :=
      le_antisymm (hn _ (grid_coarse (by omega) (grid_rd _ (by simp only; omega) x))) (rd_nearest _ (by simp only; omega) x h1)
    obtain ⟨k, hk⟩ := tie_multiple ⟨φ.p - 1, φ.emin, φ.emax⟩ (by simp only; omega) hx h1 hc
    obtain ⟨n, hn'⟩ := tie_multiple ⟨φ.p - 1, φ.emin, φ.emax⟩ (by simp only; omega) hx h2 (hd ▸ hc)
    rw [ulp_coarse φ (by omega)] at hk hn'
    have hu := ulp_pos φ x
    have hkn : k - n ≠ 0 := by
      intro h0
      apply hne
      rw [hk, hn', sub_eq_zero.1 h0]
    have h3 : (1 : ℚ) ≤ |(k : ℚ) - n| := by exact_mod_cast Int.one_le_abs hkn
    have h4 : 2 * ulp φ x ≤ |g - rd φ x| := by
      rw [hk, hn', ← sub_mul, abs_mul, abs_of_pos (by linarith : 0 < 2 * ulp φ x)]
      nlinarith
    have h5 : |g - rd φ x| ≤ |x - g| + |x - rd φ x| := by
      have := abs_sub_le g x (rd φ x)
      rwa [abs_sub_comm g x] at this
    have h6 : |x - rd φ x| ≤ ulp φ x / 2 := by
      have h7 := roundEven_half (x / ulp φ x)
      have e : x - rd φ x = (x / ulp φ x - roundEven (x / ulp φ x)) * ulp φ x := by
        rw [rd_pos φ hx, sub_mul, div_mul_cancel₀ _ hu.ne']
      rw [e, abs_mul, abs_of_pos hu]
      nlinarith
    rw [hd] at h5
    linarith
  rcases lt_trichotomy x 0 with hx | hx | hx
  · have e : ∀ a b : ℚ, |-a - -b| = |a - b| := fun a b => by rw [← neg_sub', abs_neg]
    have := pos (-x) (neg_pos.2 hx) (-g) (grid_neg hg) (fun g' hg' => by
      have := hn (-g') (grid_neg hg')
      rw [e]
      rwa [← e x (-g'), neg_neg] at this) (fun g' hg' h1 h2 => grid_neg (he (-g') (grid_neg hg') (fun h => h1 (by rw [← h, neg_neg])) (by
        rw [e] at h2
        rw [← h2, ← e x (-g'), neg_neg])))
    rw [rd_neg] at this
    exact neg_injective this
  · subst hx
    have := hn 0 (grid_zero φ)
    rw [rd_zero]
    simpa using this
  · exact pos x hx g hg hn he

end Verif.Fp
