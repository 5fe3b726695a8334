import Verif.Arm.AtanModel
import Verif.Angle.FastProps
import Verif.Fp.FpErr

/-!
# Rounding errors in `fastAtan2` and `fastAtan2_2` (dsp/math32.go:128-183): lemmas
-/

namespace Verif.Angle

open Real Verif.Fp Verif.Arm

/-- binary32 arithmetic with the constants of the Go source. -/
abbrev go32 : AOps Val := ieeeOps Const.go

theorem close_of {v : Val} {x e b : ℝ} (h : Close v x) (hb : |x| ≤ b) (he : 6e-8 * b + 1e-45 ≤ e) :
    |val v - x| ≤ e := by
  have := h.2
  linarith

theorem lit_close (k : Const) : Close (go32.lit k) ((Const.go k : ℚ) : ℝ) := by
  refine roundRat32 _ ?_
  have : |Const.go k| ≤ 2 ^ 128 - 2 ^ 104 := by
    cases k <;> simp only [Const.go, goPi, abs_neg] <;> rw [abs_of_nonneg (by norm_num)] <;> norm_num
  exact_mod_cast this

theorem lit0 : go32.lit .zero = .fin false 0 := by decide +kernel
theorem lit1 : go32.lit .one = .fin false 1 := by decide +kernel

theorem val_zero : val (go32.lit .zero) = 0 := by
  rw [lit0, val_fin]; simp

theorem val_one : val (go32.lit .one) = 1 := by
  rw [lit1, val_fin]; simp

theorem goPi_near : |((goPi : ℚ) : ℝ) - π| ≤ 1e-15 := by
  have h1 := pi_gt_d20
  have h2 := pi_lt_d20
  have e : ((goPi : ℚ) : ℝ) = 314159265358979323846264338327950288419716939937510582097494459 / 10 ^ 62 := by
    unfold goPi; push_cast; rfl
  rw [e, abs_le]
  constructor <;> norm_num <;> linarith

theorem lt_iff {v w : Val} (hv : Finite v) (hw : Finite w) : go32.lt v w = true ↔ val v < val w := by
  unfold AOps.lt
  show (Fp.cmp v w == some .lt) = true ↔ _
  rw [cmp_finite hv hw]
  split
  · simp [*]
  · split <;> simp [*]

theorem gt_iff {v w : Val} (hv : Finite v) (hw : Finite w) : go32.gt v w = true ↔ val w < val v := by
  unfold AOps.gt
  show (Fp.cmp v w == some .gt) = true ↔ _
  rw [cmp_finite hv hw]
  split
  · rename_i h; simp [h.le]
  · split <;> simp [*]

theorem eq_iff {v w : Val} (hv : Finite v) (hw : Finite w) : go32.eq v w = true ↔ val v = val w := by
  unfold AOps.eq
  show (Fp.cmp v w == some .eq) = true ↔ _
  rw [cmp_finite hv hw]
  split
  · rename_i h; simp [h.ne]
  · split
    · rename_i h; simp [h.ne']
    · rename_i h1 h2; simp [le_antisymm (not_lt.1 h2) (not_lt.1 h1)]

theorem lt_zero_iff {v : Val} (hv : Finite v) : go32.lt v (go32.lit .zero) = true ↔ val v < 0 := by
  rw [lt_iff hv (lit_close .zero).1, val_zero]

theorem gt_zero_iff {v : Val} (hv : Finite v) : go32.gt v (go32.lit .zero) = true ↔ 0 < val v := by
  rw [gt_iff hv (lit_close .zero).1, val_zero]

theorem eq_zero_iff {v : Val} (hv : Finite v) : go32.eq v (go32.lit .zero) = true ↔ val v = 0 := by
  rw [eq_iff hv (lit_close .zero).1, val_zero]

/-- Change of one factor. -/
theorem mul_near {a b r e : ℝ} (h : |a - b| ≤ e) (hr : |r| ≤ 1.01) : |a * r - b * r| ≤ 1.01 * e := by
  rw [← sub_mul, abs_mul]
  have h0 := abs_nonneg (a - b)
  have h1 := abs_nonneg r
  nlinarith

theorem big127 : (1000 : ℝ) ≤ 2 ^ 128 - 2 ^ 104 := by norm_num

theorem fastPoly_lipschitz {r s : ℝ} (hr : |r| ≤ 1.01) (hs : |s| ≤ 1.01) :
    |fastPoly r - fastPoly s| ≤ |r - s| := by
  have e : fastPoly r - fastPoly s = (1963 / 10000 * (r * r + r * s + s * s) - 9817 / 10000) * (r - s) := by
    unfold fastPoly; ring
  have hrs : |1963 / 10000 * (r * r + r * s + s * s) - 9817 / 10000| ≤ 1 := by
    rw [abs_le] at hr hs ⊢
    have h1 : r * r ≤ 1.0201 := by nlinarith
    have h2 : s * s ≤ 1.0201 := by nlinarith
    have h3 : r * s ≤ 1.0201 := by nlinarith [sq_nonneg (r - s)]
    have h4 : 0 ≤ r * r + r * s + s * s := by nlinarith [sq_nonneg (r + s)]
    constructor <;> linarith
  rw [e, abs_mul]
  have := abs_nonneg (r - s)
  nlinarith

/-- The quotient of `fastAtan2`. -/
theorem quot_near {n d : Val} {N D : ℝ} (hn : Close n N) (hd : Close d D) (hND : |N| ≤ D)
    (hD : 1e-30 ≤ D) :
    Finite (Fp.div binary32 n d) ∧ |val (Fp.div binary32 n d) - N / D| ≤ 4e-7 ∧
      |val (Fp.div binary32 n d)| ≤ 1.01 := by
  have hb := big127
  obtain ⟨fn, en⟩ := hn
  obtain ⟨fd, ed⟩ := hd
  have hD0 : 0 < D := by linarith
  rw [abs_of_pos hD0] at ed
  have en' : |val n - N| ≤ 6.1e-8 * D := by linarith
  have ed' : |val d - D| ≤ 6.1e-8 * D := by linarith
  have hd1 : D * (1 - 6.1e-8) ≤ val d := by rw [abs_le] at ed'; linarith [ed'.1]
  have hdpos : 0 < val d := by nlinarith
  have hND1 : |N / D| ≤ 1 := by rw [abs_div, abs_of_pos hD0, div_le_one hD0]; exact hND
  have hq : |val n / val d - N / D| ≤ 1.3e-7 := by
    have e : val n / val d - N / D = ((val n - N) - N / D * (val d - D)) / val d := by
      field_simp; ring
    rw [e, abs_div, abs_of_pos hdpos, div_le_iff₀ hdpos]
    have h1 : |N / D * (val d - D)| ≤ 6.1e-8 * D := by
      rw [abs_mul]
      have := abs_nonneg (val d - D)
      nlinarith [abs_nonneg (N / D)]
    have h2 : |val n - N - N / D * (val d - D)| ≤ 12.2e-8 * D := by
      rw [abs_le] at en' h1 ⊢; constructor <;> linarith [en'.1, en'.2, h1.1, h1.2]
    nlinarith
  have hq1 : |val n / val d| ≤ 1.001 := by
    rw [abs_le] at hq hND1 ⊢; constructor <;> linarith [hq.1, hq.2, hND1.1, hND1.2]
  have c := div32 fn fd hdpos.ne' (hq1.trans (by linarith))
  have c2 := close_of (e := 7e-8) c hq1 (by norm_num)
  refine ⟨c.1, ?_, ?_⟩
  · rw [abs_le] at c2 hq ⊢; constructor <;> linarith [c2.1, c2.2, hq.1, hq.2]
  · rw [abs_le] at c2 hq1 ⊢; constructor <;> linarith [c2.1, c2.2, hq1.1, hq1.2]

/-- Moving the point vertically, upper half plane. -/
theorem angle_shift {x a b κ m : ℝ} (hx : x ≠ 0) (ha : 0 ≤ a) (hb : 0 ≤ b) (h : |a - b| ≤ κ)
    (hm : 0 < m) (hm2 : m ≤ |x| ∨ (m ≤ a ∧ m ≤ b)) : |angle x a - angle x b| ≤ κ / m := by
  have key : ∀ c d : ℝ, 0 ≤ c → c ≤ d → d - c ≤ κ → (m ≤ |x| ∨ m ≤ c) →
      |arctan (d / |x|) - arctan (c / |x|)| ≤ κ / m := by
    intro c d hc hcd hκ hmc
    have := shift_right (x := |x|) (a := c) (κ := d - c) (m := m) (abs_pos.2 hx) hc (by linarith) hm hmc
    rw [show c + (d - c) = d by ring] at this
    exact this.trans (div_le_div_of_nonneg_right hκ hm.le)
  have hxx : |angle x a - angle x b| = |arctan (a / |x|) - arctan (b / |x|)| := by
    rcases lt_or_gt_of_ne hx with hx' | hx'
    · rw [angle_left hx' ha, angle_left hx' hb, abs_of_neg hx', div_neg, div_neg, arctan_neg, arctan_neg,
        show π + arctan (a / x) - (π + arctan (b / x)) = -(-arctan (a / x) - -arctan (b / x)) by ring, abs_neg]
    · rw [angle_right hx', angle_right hx', abs_of_pos hx']
  rw [hxx]
  rw [abs_le] at h
  rcases le_total a b with hab | hab
  · rw [abs_sub_comm]
    exact key a b ha hab (by linarith) (hm2.imp_right (fun h => h.1))
  · exact key b a hb hab (by linarith) (hm2.imp_right (fun h => h.2))

/-- A quotient below the threshold of overflow. -/
theorem div32_lt {v w : Val} (hv : Finite v) (hw : Finite w) (h0 : val w ≠ 0)
    (h : |val v / val w| < 2 ^ 128 - 2 ^ 103) : Close (Fp.div binary32 v w) (val v / val w) := by
  obtain ⟨s, q, rfl, hq⟩ := hv
  obtain ⟨t, r, rfl, hr⟩ := hw
  have hr0 : r ≠ 0 := by
    rintro rfl
    apply h0
    rw [val_fin]
    cases t <;> simp
  have e : val (.fin s q) / val (.fin t r) =
      if (s != t) then -((q / r : ℚ) : ℝ) else ((q / r : ℚ) : ℝ) := by
    rw [val_fin, val_fin]; push_cast
    cases s <;> cases t <;> simp [div_neg, neg_div]
  rw [e] at h ⊢
  unfold Fp.div
  dsimp only
  rw [if_neg hr0]
  refine round32_thr _ _ (div_nonneg hq hr) ?_
  have hthr : (2 : ℚ) ^ (binary32.emax + 1) - 2 ^ (binary32.emax - binary32.p) = 2 ^ 128 - 2 ^ 103 := by
    simp only [binary32]; norm_num [zpow_ofNat]
  have h1 : ((q / r : ℚ) : ℝ) < 2 ^ 128 - 2 ^ 103 := by
    refine lt_of_le_of_lt (le_abs_self _) ?_
    cases hb : (s != t) <;> rw [hb] at h <;> simp only [Bool.false_eq_true, if_false, if_true, abs_neg] at h <;> exact h
  rw [hthr]
  exact_mod_cast h1

end Verif.Angle
