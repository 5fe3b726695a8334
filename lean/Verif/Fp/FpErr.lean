import Verif.Fp.FpSound
import Verif.Fp.FpDiv
import Mathlib.Data.Real.Basic

/-!
# Rounding errors of the IEEE model

Each operation on finite data whose exact result is far enough from overflow gives a finite datum that
differs from the exact result by at most half a unit in the last place.
-/

namespace Verif.Fp

/-- A finite datum with a magnitude that is not negative. -/
def Finite (v : Val) : Prop := ∃ s q, v = .fin s q ∧ 0 ≤ q

/-- The value of a finite datum as a real number. -/
noncomputable def val (v : Val) : ℝ := (v.toRat : ℝ)

theorem half_ulp (φ : Format) (q : ℚ) (hq : 0 < q) :
    ulp φ q / 2 ≤ q * 2 ^ (-(φ.p : ℤ)) + 2 ^ (φ.emin - φ.p) := by
  have h2 : (2 : ℚ) ≠ 0 := by norm_num
  have e : ulp φ q / 2 = 2 ^ (max (Int.log 2 q) φ.emin - φ.p) := by
    unfold ulp
    rw [div_eq_mul_inv, ← zpow_neg_one, ← zpow_add₀ h2]
    congr 1
    ring
  rw [e]
  rcases le_total (Int.log 2 q) φ.emin with h | h
  · rw [max_eq_right h]
    have : (0 : ℚ) ≤ q * 2 ^ (-(φ.p : ℤ)) := by positivity
    linarith
  · rw [max_eq_left h, sub_eq_add_neg, zpow_add₀ h2]
    have h1 := Int.zpow_log_le_self (b := 2) (by norm_num) hq
    push_cast at h1
    have h3 : (0 : ℚ) < 2 ^ (-(φ.p : ℤ)) := by positivity
    have h4 := mul_le_mul_of_nonneg_right h1 h3.le
    have h5 : (0 : ℚ) < 2 ^ (φ.emin - φ.p) := by positivity
    linarith

/-- Rounding: finite below the overflow threshold, with at most half a unit in the last place of error. -/
theorem round_err (φ : Format) (hp : 1 ≤ φ.p) (he : φ.emin ≤ φ.emax) (s : Bool) (q : ℚ) (hq : 0 ≤ q)
    (hlt : q < (2 : ℚ) ^ (φ.emax + 1) - 2 ^ (φ.emax - φ.p)) :
    ∃ r, round φ s q = .fin s r ∧ 0 ≤ r ∧
      |r - q| ≤ q * 2 ^ (-(φ.p : ℤ)) + 2 ^ (φ.emin - φ.p) := by
  by_cases h0 : q = 0
  · subst h0
    refine ⟨0, by simp [round], le_refl _, ?_⟩
    simp only [sub_self, abs_zero, zero_mul, zero_add]
    positivity
  have hq' : 0 < q := lt_of_le_of_ne hq (Ne.symm h0)
  have hu := ulp_pos φ q
  have hinf := (round_inf_iff φ hp he s q hq).not.2 (not_le.2 hlt)
  refine ⟨roundEven (q / ulp φ q) * ulp φ q, ?_, ?_, ?_⟩
  · unfold round at hinf ⊢
    rw [if_neg h0] at hinf ⊢
    dsimp only at hinf ⊢
    by_cases hc : (2 : ℚ) ^ (φ.emax + 1) ≤ roundEven (q / ulp φ q) * ulp φ q
    · rw [if_pos hc] at hinf; exact absurd rfl hinf
    · rw [if_neg hc]
  · have := roundEven_nonneg (q / ulp φ q) (by positivity)
    have : (0 : ℚ) ≤ roundEven (q / ulp φ q) := by exact_mod_cast this
    positivity
  · refine le_trans ?_ (half_ulp φ q hq')
    have h := roundEven_half (q / ulp φ q)
    have e : roundEven (q / ulp φ q) * ulp φ q - q =
        -((q / ulp φ q - roundEven (q / ulp φ q)) * ulp φ q) := by
      field_simp
      ring
    rw [e, abs_neg, abs_mul, abs_of_pos hu]
    calc _ ≤ 1 / 2 * ulp φ q := mul_le_mul_of_nonneg_right h hu.le
      _ = _ := by ring

/-! ### binary32 -/

theorem val_fin (s : Bool) (q : ℚ) : val (.fin s q) = if s then -(q : ℝ) else q := by
  unfold val Val.toRat
  cases s <;> simp

/-- Half a unit in the last place, as used below. -/
def Close (v : Val) (x : ℝ) : Prop := Finite v ∧ |val v - x| ≤ 6e-8 * |x| + 1e-45

theorem round32_thr (s : Bool) (q : ℚ) (hq : 0 ≤ q)
    (hlt : q < (2 : ℚ) ^ (binary32.emax + 1) - 2 ^ (binary32.emax - binary32.p)) :
    Close (round binary32 s q) (if s then -(q : ℝ) else q) := by
  obtain ⟨r, h1, h2, h3⟩ := round_err binary32 (by decide) (by decide) s q hq hlt
  have h4 : q * 2 ^ (-(binary32.p : ℤ)) + 2 ^ (binary32.emin - binary32.p) ≤
      6e-8 * q + 1e-45 := by
    have a : (2 : ℚ) ^ (-(binary32.p : ℤ)) ≤ 6e-8 := by
      simp only [binary32]; norm_num [zpow_neg]
    have b : (2 : ℚ) ^ (binary32.emin - binary32.p) ≤ 1e-45 := by
      simp only [binary32]; norm_num [zpow_neg]
    have := mul_le_mul_of_nonneg_left a hq
    linarith
  have h5 : |(r : ℝ) - q| ≤ 6e-8 * q + 1e-45 := by
    have h6 : ((|r - q| : ℚ) : ℝ) ≤ ((6e-8 * q + 1e-45 : ℚ) : ℝ) := Rat.cast_le.2 (h3.trans h4)
    rw [Rat.cast_abs] at h6
    norm_num at h6 ⊢
    exact h6
  have hq2 : (0 : ℝ) ≤ q := by exact_mod_cast hq
  rw [h1]
  refine ⟨⟨s, r, rfl, h2⟩, ?_⟩
  rw [val_fin]
  cases s with
  | false =>
    simp only [Bool.false_eq_true, if_false]
    rwa [abs_of_nonneg hq2]
  | true =>
    simp only [if_true]
    rw [abs_neg, abs_of_nonneg hq2, show -(r : ℝ) - -q = -(r - q) by ring, abs_neg]
    exact h5

theorem round32 (s : Bool) (q : ℚ) (hq : 0 ≤ q) (hlt : (q : ℝ) ≤ 2 ^ 128 - 2 ^ 104) :
    Close (round binary32 s q) (if s then -(q : ℝ) else q) := by
  have hlt' : q ≤ 2 ^ 128 - 2 ^ 104 := by exact_mod_cast hlt
  have hthr : (2 : ℚ) ^ 128 - 2 ^ 104 < (2 : ℚ) ^ (binary32.emax + 1) - 2 ^ (binary32.emax - binary32.p) := by
    simp only [binary32]; norm_num [zpow_ofNat]
  exact round32_thr s q hq (lt_of_le_of_lt hlt' hthr)

theorem roundRat32 (x : ℚ) (hx : |(x : ℝ)| ≤ 2 ^ 128 - 2 ^ 104) : Close (roundRat binary32 x) x := by
  unfold roundRat
  have h := round32 (decide (x < 0)) |x| (abs_nonneg _) (by push_cast; exact hx)
  convert h using 1
  by_cases hn : x < 0
  · rw [if_pos (by simpa using hn), abs_of_neg hn]; push_cast; ring
  · rw [if_neg (by simpa using hn), abs_of_nonneg (not_lt.1 hn)]

theorem finite_neg {v : Val} (h : Finite v) : Finite (neg v) ∧ val (neg v) = -val v := by
  obtain ⟨s, q, rfl, hq⟩ := h
  refine ⟨⟨!s, q, rfl, hq⟩, ?_⟩
  simp only [neg, val_fin]
  cases s <;> simp

theorem close_zero (s : Bool) : Close (.fin s 0) 0 := by
  refine ⟨⟨s, 0, rfl, le_refl _⟩, ?_⟩
  rw [val_fin]
  cases s <;> norm_num

theorem add32 {v w : Val} (hv : Finite v) (hw : Finite w) (h : |val v + val w| ≤ 2 ^ 128 - 2 ^ 104) :
    Close (add binary32 v w) (val v + val w) := by
  obtain ⟨s, q, rfl, hq⟩ := hv
  obtain ⟨t, r, rfl, hr⟩ := hw
  unfold add
  dsimp only
  split
  · rename_i h0
    have : val (.fin s q) + val (.fin t r) = 0 := by
      unfold val; rw [← Rat.cast_add, h0]; simp
    rw [this]
    exact close_zero _
  · have e : val (.fin s q) + val (.fin t r) =
        (((Val.fin s q).toRat + (Val.fin t r).toRat : ℚ) : ℝ) := by
      unfold val; push_cast; rfl
    rw [e] at h ⊢
    exact roundRat32 _ h

theorem sub32 {v w : Val} (hv : Finite v) (hw : Finite w) (h : |val v - val w| ≤ 2 ^ 128 - 2 ^ 104) :
    Close (sub binary32 v w) (val v - val w) := by
  obtain ⟨h1, h2⟩ := finite_neg hw
  have := add32 hv h1 (by rw [h2, ← sub_eq_add_neg]; exact h)
  rw [h2, ← sub_eq_add_neg] at this
  exact this

theorem mul32 {v w : Val} (hv : Finite v) (hw : Finite w) (h : |val v * val w| ≤ 2 ^ 128 - 2 ^ 104) :
    Close (mul binary32 v w) (val v * val w) := by
  obtain ⟨s, q, rfl, hq⟩ := hv
  obtain ⟨t, r, rfl, hr⟩ := hw
  have hq' : (0 : ℝ) ≤ q := by exact_mod_cast hq
  have hr' : (0 : ℝ) ≤ r := by exact_mod_cast hr
  have e : val (.fin s q) * val (.fin t r) =
      if (s != t) then -((q * r : ℚ) : ℝ) else ((q * r : ℚ) : ℝ) := by
    rw [val_fin, val_fin]; push_cast
    cases s <;> cases t <;> simp
  rw [e] at h ⊢
  refine round32 _ _ (mul_nonneg hq hr) ?_
  have : (0 : ℝ) ≤ ((q * r : ℚ) : ℝ) := by push_cast; positivity
  cases hb : (s != t) <;> rw [hb] at h <;> simp only [Bool.false_eq_true, if_false, if_true, abs_neg] at h <;>
    rwa [abs_of_nonneg this] at h

theorem div32 {v w : Val} (hv : Finite v) (hw : Finite w) (h0 : val w ≠ 0)
    (h : |val v / val w| ≤ 2 ^ 128 - 2 ^ 104) : Close (div binary32 v w) (val v / val w) := by
  obtain ⟨s, q, rfl, hq⟩ := hv
  obtain ⟨t, r, rfl, hr⟩ := hw
  have hq' : (0 : ℝ) ≤ q := by exact_mod_cast hq
  have hr' : (0 : ℝ) ≤ r := by exact_mod_cast hr
  have hr0 : r ≠ 0 := by
    rintro rfl
    apply h0
    rw [val_fin]
    cases t <;> simp
  have e : val (.fin s q) / val (.fin t r) =
      if (s != t) then -((q / r : ℚ) : ℝ) else ((q / r : ℚ) : ℝ) := by
    rw [val_fin, val_fin]; push_cast
    cases s <;> cases t <;> simp [div_neg, neg_div]
  rw [e] at h ⊢
  unfold div
  dsimp only
  rw [if_neg hr0]
  refine round32 _ _ (div_nonneg hq hr) ?_
  have : (0 : ℝ) ≤ ((q / r : ℚ) : ℝ) := by push_cast; positivity
  cases hb : (s != t) <;> rw [hb] at h <;> simp only [Bool.false_eq_true, if_false, if_true, abs_neg] at h <;>
    rwa [abs_of_nonneg this] at h

/-- Without a bound: infinite, or close. -/
theorem round32_or (s : Bool) (q : ℚ) (hq : 0 ≤ q) :
    round binary32 s q = .inf s ∨ Close (round binary32 s q) (if s then -(q : ℝ) else q) := by
  by_cases h : round binary32 s q = .inf s
  · exact Or.inl h
  · right
    have hlt := not_le.1 ((round_inf_iff binary32 (by decide) (by decide) s q hq).not.1 h)
    exact round32_thr s q hq hlt

theorem add32_or {v w : Val} (hv : Finite v) (hw : Finite w) :
    (∃ s, add binary32 v w = .inf s) ∨ Close (add binary32 v w) (val v + val w) := by
  obtain ⟨s, q, rfl, hq⟩ := hv
  obtain ⟨t, r, rfl, hr⟩ := hw
  unfold add
  dsimp only
  split
  · rename_i h0
    right
    have : val (.fin s q) + val (.fin t r) = 0 := by
      unfold val; rw [← Rat.cast_add, h0]; simp
    rw [this]
    exact close_zero _
  · have e : val (.fin s q) + val (.fin t r) =
        (((Val.fin s q).toRat + (Val.fin t r).toRat : ℚ) : ℝ) := by
      unfold val; push_cast; rfl
    rw [e]
    generalize (Val.fin s q).toRat + (Val.fin t r).toRat = x
    unfold roundRat
    rcases round32_or (decide (x < 0)) |x| (abs_nonneg _) with h | h
    · exact Or.inl ⟨_, h⟩
    · right
      convert h using 1
      by_cases hn : x < 0
      · rw [if_pos (by simpa using hn), abs_of_neg hn]; push_cast; ring
      · rw [if_neg (by simpa using hn), abs_of_nonneg (not_lt.1 hn)]

theorem mul32_or {v w : Val} (hv : Finite v) (hw : Finite w) :
    (∃ s, mul binary32 v w = .inf s) ∨ Close (mul binary32 v w) (val v * val w) := by
  obtain ⟨s, q, rfl, hq⟩ := hv
  obtain ⟨t, r, rfl, hr⟩ := hw
  have e : val (.fin s q) * val (.fin t r) =
      if (s != t) then -((q * r : ℚ) : ℝ) else ((q * r : ℚ) : ℝ) := by
    rw [val_fin, val_fin]; push_cast
    cases s <;> cases t <;> simp
  rw [e]
  rcases round32_or (s != t) (q * r) (mul_nonneg hq hr) with h | h
  · exact Or.inl ⟨_, h⟩
  · exact Or.inr h

/-- Comparison of finite data. -/
theorem cmp_finite {v w : Val} (hv : Finite v) (hw : Finite w) :
    cmp v w = if val v < val w then some .lt else if val w < val v then some .gt else some .eq := by
  obtain ⟨s, q, rfl, hq⟩ := hv
  obtain ⟨t, r, rfl, hr⟩ := hw
  unfold cmp
  have hc : ∀ a b : ℚ, ((a : ℝ) < b) ↔ a < b := fun a b => by exact_mod_cast Iff.rfl
  simp only [lt, val, hc]

/-- Overflow. -/
theorem round32_inf (s : Bool) (q : ℚ) (h : (2 : ℝ) ^ 128 - 2 ^ 103 ≤ q) : round binary32 s q = .inf s := by
  have h' : (2 : ℚ) ^ 128 - 2 ^ 103 ≤ q := by exact_mod_cast h
  refine (round_inf_iff binary32 (by decide) (by decide) s q ?_).2 ?_
  · exact le_trans (by norm_num) h'
  · refine le_trans (le_of_eq ?_) h'
    simp only [binary32]; norm_num [zpow_ofNat]

theorem div32_inf {v w : Val} (hv : Finite v) (hw : Finite w) (h0 : val w ≠ 0)
    (h : (2 : ℝ) ^ 128 - 2 ^ 103 ≤ |val v / val w|) : ∃ s, div binary32 v w = .inf s := by
  obtain ⟨s, q, rfl, hq⟩ := hv
  obtain ⟨t, r, rfl, hr⟩ := hw
  have hq' : (0 : ℝ) ≤ q := by exact_mod_cast hq
  have hr' : (0 : ℝ) ≤ r := by exact_mod_cast hr
  have hr0 : r ≠ 0 := by
    rintro rfl
    apply h0
    rw [val_fin]
    cases t <;> simp
  have e : |val (.fin s q) / val (.fin t r)| = ((q / r : ℚ) : ℝ) := by
    rw [val_fin, val_fin, abs_div]; push_cast
    cases s <;> cases t <;> simp [abs_of_nonneg hq', abs_of_nonneg hr']
  rw [e] at h
  refine ⟨s != t, ?_⟩
  unfold div
  dsimp only
  rw [if_neg hr0]
  exact round32_inf _ _ h

theorem add32_inf {v w : Val} (hv : Finite v) (hw : Finite w)
    (h : (2 : ℝ) ^ 128 - 2 ^ 103 ≤ val v + val w) : add binary32 v w = .inf false := by
  obtain ⟨s, q, rfl, hq⟩ := hv
  obtain ⟨t, r, rfl, hr⟩ := hw
  have e : val (.fin s q) + val (.fin t r) =
      (((Val.fin s q).toRat + (Val.fin t r).toRat : ℚ) : ℝ) := by
    unfold val; push_cast; rfl
  rw [e] at h
  unfold add
  dsimp only
  generalize (Val.fin s q).toRat + (Val.fin t r).toRat = x at *
  have hx : (0 : ℝ) < x := lt_of_lt_of_le (by norm_num) h
  have hx' : 0 < x := by exact_mod_cast hx
  rw [if_neg hx'.ne']
  unfold roundRat
  rw [abs_of_pos hx', show decide (x < 0) = false by simp [hx'.le]]
  exact round32_inf _ _ h

end Verif.Fp
