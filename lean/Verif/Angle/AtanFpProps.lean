import Verif.Angle.AtanFused

/-!
# C89 and C141: the fast arctangents in single precision

C33 and C34 are about exact arithmetic.  Here every operation rounds to binary32, as in the Go code.  The theorems of C141 are for every choice of
products to fuse; those of C89 are the case in which none is.
-/

namespace Verif.Angle

open Real Verif.Fp Verif.Arm Verif.Fp.Expr

/-! ### FastAtan2 -/

/-- The magnitude of `y` plus the constant. -/
theorem absY_near {y : Val} (hy : Finite y) (hb : |val y| ≤ 3.402823e38) :
    Close (go32.add (if go32.lt y (go32.lit .zero) then go32.neg y else y) (go32.lit .tiny))
      (|val y| + val (go32.lit .tiny)) ∧ 0.99e-20 ≤ val (go32.lit .tiny) ∧ val (go32.lit .tiny) ≤ 1.01e-20 := by
  have ht : |val (go32.lit .tiny) - 1 / 10 ^ 20| ≤ 1e-25 := by
    have := close_of (e := 1e-25) (b := 1 / 10 ^ 20) (lit_close .tiny)
      (by simp only [Const.go]; push_cast; rw [abs_of_nonneg (by positivity)]) (by norm_num)
    simpa [Const.go] using this
  have ht' := abs_le.1 ht
  have t1 : 0.99e-20 ≤ val (go32.lit .tiny) := by norm_num at ht' ⊢; linarith [ht'.1]
  have t2 : val (go32.lit .tiny) ≤ 1.01e-20 := by norm_num at ht' ⊢; linarith [ht'.2]
  refine ⟨?_, t1, t2⟩
  have hsum : |val y| + val (go32.lit .tiny) ≤ 2 ^ 128 - 2 ^ 104 := by
    linarith
  have h0 := abs_nonneg (val y)
  by_cases h : val y < 0
  · rw [if_pos ((lt_zero_iff hy).2 h)]
    obtain ⟨f, e⟩ := Fp.finite_neg hy
    have := add32 f (lit_close .tiny).1 (by rw [e, ← abs_of_neg h, abs_of_nonneg (by linarith)]; exact hsum)
    rw [e, ← abs_of_neg h] at this
    exact this
  · rw [if_neg (by rw [lt_zero_iff hy]; exact h)]
    have hn := abs_of_nonneg (not_lt.1 h)
    have := add32 hy (lit_close .tiny).1 (by rw [← hn, abs_of_nonneg (by linarith)]; exact hsum)
    rw [← hn] at this
    exact this

theorem combine {v p t w C : ℝ} (e : |v - (C + p)| ≤ 2e-6) (hc : |t + p| ≤ 0.01016)
    (hs : |C - t - w| ≤ 1.2e-5) : |v - w| ≤ 0.01019 := by
  rw [abs_le] at *
  norm_num at *
  constructor <;> linarith [e.1, e.2, hc.1, hc.2, hs.1, hs.2]

/-- The value before the sign of `y` is applied. -/
theorem upper_near {ev : Expr binary32 → Val} (hev : ∀ e, Eval e (ev e)) {x a : Val} {b : ℝ} (hx : Finite x) (hx0 : val x ≠ 0) (hxb : |val x| + b ≤ 3.402823e38)
    (hb : 0 ≤ b) (ha : Finite a) (hab : |val a - b| ≤ 1.1e-20 + 6.1e-8 * b) (ha0 : 0 ≤ val a)
    (hm : 1e-15 ≤ max |val x| b) :
    Finite (if val x < 0 then
        ev (tailExpr (go32.lit .threeQuarterPi) (go32.div (go32.add x a) (go32.sub a x)))
      else ev (tailExpr (go32.lit .quarterPi) (go32.div (go32.sub x a) (go32.add x a)))) ∧
    |val (if val x < 0 then
        ev (tailExpr (go32.lit .threeQuarterPi) (go32.div (go32.add x a) (go32.sub a x)))
      else ev (tailExpr (go32.lit .quarterPi) (go32.div (go32.sub x a) (go32.add x a)))) -
        angle (val x) b| ≤ 0.01019 := by
  have hx1 := abs_nonneg (val x)
  have hM : |val x| ≤ max |val x| b := le_max_left _ _
  have hM2 : b ≤ max |val x| b := le_max_right _ _
  generalize hMd : max |val x| b = M at hm hM hM2
  have hshift : |angle (val x) (val a) - angle (val x) b| ≤ 1.2e-5 := by
    have hm2 : M * 0.999 ≤ |val x| ∨ (M * 0.999 ≤ val a ∧ M * 0.999 ≤ b) := by
      rcases max_choice |val x| b with h | h
      · left; rw [hMd] at h; linarith
      · right
        rw [hMd] at h
        rw [abs_le] at hab
        norm_num at hab hm ⊢
        constructor <;> linarith [hab.1, hab.2]
    refine (angle_shift hx0 ha0 hb hab (by linarith) hm2).trans ?_
    rw [div_le_iff₀ (by linarith)]
    norm_num at hm ⊢
    linarith
  have hab' := abs_le.1 hab
  have hp1 := pi_gt_d6
  have hp2 := pi_lt_d6
  have hpi := abs_le.1 goPi_near
  have hsum : |val x| + val a ≤ 2 ^ 128 - 2 ^ 104 := by
    norm_num at hab' hxb ⊢
    linarith [hab'.2]
  have hlow : 1e-30 ≤ |val x| + val a := by
    rcases max_choice |val x| b with h | h
    · rw [hMd] at h; norm_num at hm ⊢; linarith
    · rw [hMd] at h
      norm_num at hab' hm ⊢
      linarith [hab'.1]
  by_cases hneg : val x < 0
  · simp only [if_pos hneg]
    rw [abs_of_neg hneg] at hsum hlow
    have c1 := add32 hx ha (by rw [abs_le]; constructor <;> linarith)
    have c2 := sub32 ha hx (by rw [abs_le]; constructor <;> linarith)
    have hk : |val (go32.lit .threeQuarterPi) - π * 3 / 4| ≤ 2e-7 := by
      have h1 := close_of (e := 1.5e-7) (b := 2.4) (lit_close .threeQuarterPi)
        (by simp only [Const.go]; push_cast; rw [abs_le]; constructor <;> linarith [hpi.1, hpi.2]) (by norm_num)
      simp only [Const.go] at h1
      push_cast at h1
      rw [abs_le] at h1 ⊢
      constructor <;> linarith [h1.1, h1.2, hpi.1, hpi.2]
    have hND : |val x + val a| ≤ val a - val x := by rw [abs_le]; constructor <;> linarith
    obtain ⟨f, e⟩ := tail_eval c1 c2 hND (by linarith) (lit_close .threeQuarterPi).1 hk
      (by rw [abs_of_nonneg (by linarith)]; linarith) (hev _)
    refine ⟨f, ?_⟩
    have hd := angle_diag_left hneg ha0
    have hD0 : 0 < val a - val x := by linarith
    have hr : |(val x + val a) / (val a - val x)| ≤ 1 := by
      rw [abs_div, abs_of_pos hD0, div_le_one hD0]; exact hND
    have hc := cubic_bound (abs_le.1 hr).1 (abs_le.1 hr).2
    rw [hd, mul_comm 3 π] at hshift
    exact combine e hc hshift
  · simp only [if_neg hneg]
    have hpos : 0 < val x := lt_of_le_of_ne (not_lt.1 hneg) (Ne.symm hx0)
    rw [abs_of_pos hpos] at hsum hlow
    have c1 := sub32 hx ha (by rw [abs_le]; constructor <;> linarith)
    have c2 := add32 hx ha (by rw [abs_le]; constructor <;> linarith)
    have hk : |val (go32.lit .quarterPi) - π / 4| ≤ 2e-7 := by
      have h1 := close_of (e := 1.5e-7) (b := 2.4) (lit_close .quarterPi)
        (by simp only [Const.go]; push_cast; rw [abs_le]; constructor <;> linarith [hpi.1, hpi.2]) (by norm_num)
      simp only [Const.go] at h1
      push_cast at h1
      rw [abs_le] at h1 ⊢
      constructor <;> linarith [h1.1, h1.2, hpi.1, hpi.2]
    have hND : |val x - val a| ≤ val x + val a := by rw [abs_le]; constructor <;> linarith
    obtain ⟨f, e⟩ := tail_eval c1 c2 hND hlow (lit_close .quarterPi).1 hk
      (by rw [abs_of_nonneg (by linarith)]; linarith) (hev _)
    refine ⟨f, ?_⟩
    have hD0 : 0 < val x + val a := by linarith
    have hd := angle_diag_right hpos.le ha0 hD0
    have hr : |(val x - val a) / (val x + val a)| ≤ 1 := by
      rw [abs_div, abs_of_pos hD0, div_le_one hD0]; exact hND
    have hc := cubic_bound (abs_le.1 hr).1 (abs_le.1 hr).2
    rw [hd] at hshift
    exact combine e hc hshift

/-- C141, `FastAtan2` (part).  Whatever products are fused, in binary32 arithmetic and for finite arguments not both below `1e-15` in magnitude and whose
magnitudes add to at most `3.402823e38`, `FastAtan2` returns a finite value within 0.0102 of the angle of the
point `(x, y)`. -/
theorem C141_fast_partial {ev : Expr binary32 → Val} (hev : ∀ e, Eval e (ev e)) (y x : Val) (hy : Finite y) (hx : Finite x)
    (hlow : 1e-15 ≤ max |val x| |val y|) (hhigh : |val x| + |val y| ≤ 3.402823e38) :
    Finite (fastAtan2By ev y x) ∧ |val (fastAtan2By ev y x) - Complex.arg ⟨val x, val y⟩| ≤ 0.0102 := by
  have hx1 := abs_nonneg (val x)
  have hy1 := abs_nonneg (val y)
  obtain ⟨ca, t1, t2⟩ := absY_near hy (by linarith)
  have hp1 := pi_gt_d6
  have hp2 := pi_lt_d6
  have hpi := abs_le.1 goPi_near
  unfold fastAtan2By
  dsimp only
  generalize go32.add (if go32.lt y (go32.lit .zero) then go32.neg y else y) (go32.lit .tiny) = a at *
  generalize val (go32.lit .tiny) = t at *
  obtain ⟨fa, ea⟩ := ca
  rw [abs_of_nonneg (show 0 ≤ |val y| + t by norm_num at t1; linarith)] at ea
  have hab : |val a - abs (val y)| ≤ 1.1e-20 + 6.1e-8 * |val y| := by
    rw [abs_le] at ea ⊢
    norm_num at *
    constructor <;> linarith [ea.1, ea.2]
  have ha0 : 0 ≤ val a := by
    rw [abs_le] at ea
    norm_num at ea t1
    linarith [ea.1]
  change _ ∧ |_ - angle (val x) (val y)| ≤ _
  by_cases hx0 : val x = 0
  · have l1 : ¬ go32.lt x (go32.lit .zero) = true := by rw [lt_zero_iff hx, hx0]; exact lt_irrefl _
    have l2 : ¬ go32.gt x (go32.lit .zero) = true := by rw [gt_zero_iff hx, hx0]; exact lt_irrefl _
    rw [if_neg l1, if_neg l2, hx0]
    rw [hx0, abs_zero] at hlow
    by_cases hn : val y < 0
    · rw [if_pos ((lt_zero_iff hy).2 hn)]
      refine ⟨(lit_close _).1, ?_⟩
      rw [angle_neg hn, angle_up (by linarith)]
      have h1 := close_of (e := 1e-6) (b := 2) (lit_close .negHalfPi)
        (by simp only [Const.go]; push_cast; rw [abs_le]; constructor <;> linarith [hpi.1, hpi.2]) (by norm_num)
      simp only [Const.go] at h1
      push_cast at h1
      rw [abs_le] at h1 ⊢
      constructor <;> linarith [h1.1, h1.2, hpi.1, hpi.2]
    · have hp : 0 < val y := by
        rw [abs_of_nonneg (not_lt.1 hn), max_eq_right (not_lt.1 hn)] at hlow
        norm_num at hlow
        linarith
      rw [if_neg (by rw [lt_zero_iff hy]; exact hn), if_pos ((gt_zero_iff hy).2 hp)]
      refine ⟨(lit_close _).1, ?_⟩
      rw [angle_up hp]
      have h1 := close_of (e := 1e-6) (b := 2) (lit_close .halfPi)
        (by simp only [Const.go]; push_cast; rw [abs_le]; constructor <;> linarith [hpi.1, hpi.2]) (by norm_num)
      simp only [Const.go] at h1
      push_cast at h1
      rw [abs_le] at h1 ⊢
      constructor <;> linarith [h1.1, h1.2, hpi.1, hpi.2]
  · obtain ⟨f, e⟩ := upper_near hev hx hx0 hhigh hy1 fa hab ha0 hlow
    have hsign : ∀ u : Val, Finite u → |val u - angle (val x) (abs (val y))| ≤ 0.01019 →
        Finite (if go32.lt y (go32.lit .zero) then go32.neg u else u) ∧
        |val (if go32.lt y (go32.lit .zero) then go32.neg u else u) - angle (val x) (val y)| ≤ 0.0102 := by
      intro u hu hue
      by_cases hn : val y < 0
      · rw [if_pos ((lt_zero_iff hy).2 hn)]
        obtain ⟨g, ge⟩ := Fp.finite_neg hu
        refine ⟨g, ?_⟩
        change |val (Fp.neg u) - _| ≤ _
        rw [ge, angle_neg hn]
        rw [abs_of_neg hn] at hue
        rw [abs_le] at hue ⊢
        constructor <;> linarith [hue.1, hue.2]
      · rw [if_neg (by rw [lt_zero_iff hy]; exact hn)]
        rw [abs_of_nonneg (not_lt.1 hn)] at hue
        exact ⟨hu, by linarith⟩
    by_cases hneg : val x < 0
    · rw [if_pos ((lt_zero_iff hx).2 hneg)]
      simp only [if_pos hneg] at f e
      exact hsign _ f e
    · have hpos : 0 < val x := lt_of_le_of_ne (not_lt.1 hneg) (Ne.symm hx0)
      rw [if_neg (by rw [lt_zero_iff hx]; exact hneg), if_pos ((gt_zero_iff hx).2 hpos)]
      simp only [if_neg hneg] at f e
      exact hsign _ f e

/-- C89 (part).  In binary32 arithmetic, for finite arguments not both below `1e-15` in magnitude and whose
magnitudes add to at most `3.402823e38`, `FastAtan2` returns a finite value within 0.0102 of the angle of the
point `(x, y)`. -/
theorem C89_fast_partial (y x : Val) (hy : Finite y) (hx : Finite x) (hlow : 1e-15 ≤ max |val x| |val y|)
    (hhigh : |val x| + |val y| ≤ 3.402823e38) :
    Finite (fastAtan2Go go32 y x) ∧
      |val (fastAtan2Go go32 y x) - Complex.arg ⟨val x, val y⟩| ≤ 0.0102 :=
  C141_fast_partial eval_unfused y x hy hx hlow hhigh

/-! ### FastAtan2_2 -/

/-- The rational approximation. -/
noncomputable def rat (z : ℝ) : ℝ := z / (1 + 28 / 100 * (z * z))

theorem rat_den_pos (z : ℝ) : 0 < 1 + 28 / 100 * (z * z) := by
  have := mul_self_nonneg z
  linarith

theorem rat_lipschitz (u v : ℝ) : |rat u - rat v| ≤ |u - v| := by
  have hu := rat_den_pos u
  have hv := rat_den_pos v
  have e : rat u - rat v = (1 - 28 / 100 * (u * v)) / ((1 + 28 / 100 * (u * u)) * (1 + 28 / 100 * (v * v))) * (u - v) := by
    unfold rat; field_simp; ring
  rw [e, abs_mul, abs_div, abs_of_pos (mul_pos hu hv)]
  refine mul_le_of_le_one_left (abs_nonneg _) ?_
  rw [div_le_one (mul_pos hu hv), abs_le]
  have := mul_self_nonneg u
  have := mul_self_nonneg v
  have := mul_self_nonneg (u - v)
  have := mul_self_nonneg (u + v)
  have := mul_self_nonneg (u * v)
  constructor <;> nlinarith

/-- The rational approximation slightly beyond one. -/
theorem rat_bound {z : ℝ} (h : |z| ≤ 1 + 1e-6) : |rat z - arctan z| ≤ 0.004992 := by
  obtain ⟨w, hw, hd⟩ : ∃ w : ℝ, w * w ≤ 1 ∧ |z - w| ≤ 1e-6 := by
    rw [abs_le] at h
    refine ⟨max (-1) (min 1 z), ?_, ?_⟩
    · have h1 : -1 ≤ max (-1) (min 1 z) := le_max_left _ _
      have h2 : max (-1) (min 1 z) ≤ 1 := max_le (by norm_num) (min_le_left _ _)
      nlinarith
    · rw [abs_le]
      rcases le_total 1 z with h1 | h1
      · rw [min_eq_left h1, max_eq_right (by norm_num)]; constructor <;> linarith [h.1, h.2]
      · rw [min_eq_right h1]
        rcases le_total (-1) z with h2 | h2
        · rw [max_eq_right h2]; norm_num
        · rw [max_eq_left h2]; constructor <;> linarith [h.1, h.2]
  have h1 := (rat_lipschitz z w).trans hd
  have h2 := (arctan_lipschitz z w).trans hd
  have h3 := rational_bound hw
  change |rat w - _| ≤ _ at h3
  rw [abs_le] at *
  constructor <;> linarith [h1.1, h1.2, h2.1, h2.2, h3.1, h3.2]

/-- A quotient whose denominator is slightly off. -/
theorem quot_rel {z s : Val} {D : ℝ} (hz : Finite z) (hs : Finite s) (hD : 0 < D) (hsD : |val s - D| ≤ 3e-7 * D)
    (hzD : |val z / D| ≤ 1.01) :
    Finite (Fp.div binary32 z s) ∧ |val (Fp.div binary32 z s) - val z / D| ≤ 5e-7 := by
  have hb := big127
  have hs' := abs_le.1 hsD
  have hpos : 0 < val s := by nlinarith [hs'.1]
  have hq : |val z / val s - val z / D| ≤ 3.2e-7 := by
    have e : val z / val s - val z / D = -(val z / D * (val s - D)) / val s := by
      field_simp; ring
    rw [e, abs_div, abs_neg, abs_of_pos hpos, div_le_iff₀ hpos, abs_mul]
    have := abs_nonneg (val s - D)
    have := abs_nonneg (val z / D)
    nlinarith [hs'.1]
  have hq1 : |val z / val s| ≤ 1.02 := by
    rw [abs_le] at hq hzD ⊢; constructor <;> linarith [hq.1, hq.2, hzD.1, hzD.2]
  have c := div32 hz hs hpos.ne' (hq1.trans (by linarith))
  have c2 := close_of (e := 7e-8) c hq1 (by norm_num)
  refine ⟨c.1, ?_⟩
  rw [abs_le] at c2 hq ⊢; constructor <;> linarith [c2.1, c2.2, hq.1, hq.2]

theorem c28_near : |val (go32.lit .c28) - 28 / 100| ≤ 2e-8 := by
  have := close_of (e := 2e-8) (b := 28 / 100) (lit_close .c28)
    (by simp only [Const.go]; norm_num [abs_of_nonneg]) (by norm_num)
  have e : ((Const.go .c28 : ℚ) : ℝ) = 28 / 100 := by simp only [Const.go]; norm_num
  rwa [e] at this

theorem sq_or {z : Val} (hz : Finite z) :
    (Fp.mul binary32 z z = .inf false ∧ (2 : ℝ) ^ 126 ≤ val z * val z) ∨
      Close (Fp.mul binary32 z z) (val z * val z) := by
  by_cases h : |val z * val z| ≤ 2 ^ 128 - 2 ^ 104
  · exact Or.inr (mul32 hz hz h)
  · have h' := not_le.1 h
    rw [abs_of_nonneg (mul_self_nonneg _)] at h'
    obtain ⟨s, q, rfl, hq⟩ := hz
    have hm : Fp.mul binary32 (.fin s q) (.fin s q) = round binary32 false (q * q) := by
      simp [Fp.mul]
    obtain h1 | h1 := round32_or false (q * q) (by positivity)
    · exact Or.inl ⟨hm.trans h1, by linarith [show (2 : ℝ) ^ 126 ≤ 2 ^ 128 - 2 ^ 104 by norm_num]⟩
    · right
      rw [hm]
      have e : val (.fin s q) * val (.fin s q) = ((q * q : ℚ) : ℝ) := by
        rw [val_fin]; push_cast; cases s <;> simp
      rw [e]
      simpa using h1

/-- The quotient of the first branch. -/
theorem inner_near {z d : Val} (hz : Finite z) (hf : Finite (go32.mul z z)) (hle : val (go32.mul z z) ≤ 1) (hd : Eval (denExpr (go32.mul z z)) d) :
    |val z| ≤ 1 + 1e-6 ∧
    Finite (go32.div z d) ∧
    |val (go32.div z d) - rat (val z)| ≤ 5e-7 := by
  have hb := big127
  have hsq := mul_self_nonneg (val z)
  have hc := c28_near
  obtain ⟨hi, -⟩ | cz := sq_or hz
  · exfalso
    change Finite (Fp.mul binary32 z z) at hf
    rw [hi] at hf
    obtain ⟨_, _, h, -⟩ := hf
    cases h
  have hlt' : val (Fp.mul binary32 z z) ≤ 1 := hle
  have e1 := cz.2
  rw [abs_of_nonneg hsq] at e1
  have e1' := abs_le.1 e1
  have hz2 : val z * val z ≤ 1 + 1e-7 := by norm_num at e1' ⊢; linarith [e1'.1]
  have hz1 : |val z| ≤ 1 + 1e-6 := by
    refine abs_le_of_sq_le_sq (by nlinarith) (by norm_num)
  refine ⟨hz1, ?_⟩
  change Finite (Fp.div binary32 z d) ∧ |val (Fp.div binary32 z d) - _| ≤ _
  change Eval (denExpr (Fp.mul binary32 z z)) d at hd
  generalize Fp.mul binary32 z z = zz at *
  have ez : |val zz - val z * val z| ≤ 6.1e-8 := by
    norm_num at e1 ⊢; linarith
  have h1 : |val zz| ≤ 1.01 := by
    rw [abs_le] at ez ⊢; constructor <;> linarith [ez.1, ez.2]
  have n1 : |val (go32.lit .c28) * val zz - 28 / 100 * (val z * val z)| ≤ 5e-8 := by
    have := mul_near hc h1
    rw [abs_le] at this ez ⊢
    constructor <;> linarith [this.1, this.2, ez.1, ez.2]
  have hu := uR32
  have hw := wR32
  have hw0 := wR_pos binary32
  have hm := emax32
  have s1 : |val (go32.lit .c28)| ≤ 0.29 := by rw [abs_le] at hc ⊢; constructor <;> linarith [hc.1, hc.2]
  have s2 : |val (go32.lit .one)| ≤ 1 := by rw [val_one]; simp
  have c1 := (bd_mul binary32_ok (bd_leaf (φ := binary32) (lit_close .c28).1 s1) (bd_leaf (φ := binary32) cz.1 h1)
    (by norm_num at *; linarith)).mono (S' := 0.37) (E' := 1.8e-8) (by norm_num at *; linarith) (by rw [hu]; norm_num at *; linarith)
  have c2 := (bd_add binary32_ok (bd_leaf (φ := binary32) (lit_close .one).1 s2) c1
    (by norm_num at *; linarith)).mono (S' := 2) (E' := 1e-7) (by norm_num at *; linarith) (by rw [hu]; norm_num at *; linarith)
  obtain ⟨fd, ed⟩ := c2.eval binary32_ok hd
  have ex : (denExpr zz).exact = val (go32.lit .one) + val (go32.lit .c28) * val zz := rfl
  change |val d - (denExpr zz).exact| ≤ _ at ed
  rw [ex, val_one] at ed
  refine quot_rel hz fd (rat_den_pos _) ?_ ?_
  · rw [abs_le] at ed n1 ⊢
    constructor <;> linarith [ed.1, ed.2, n1.1, n1.2]
  · rw [abs_div, abs_of_pos (rat_den_pos _), div_le_iff₀ (rat_den_pos _)]
    norm_num at hz1 ⊢
    linarith

/-- The rational approximation of the reciprocal. -/
theorem rat_inv {z : ℝ} (hz : z ≠ 0) : rat z⁻¹ = z / (z * z + 28 / 100) := by
  have h1 := rat_den_pos z⁻¹
  have h2 : 0 < z * z + 28 / 100 := by have := mul_self_nonneg z; linarith
  unfold rat
  rw [div_eq_div_iff h1.ne' h2.ne']
  field_simp

theorem rat_le (z : ℝ) : |rat z| ≤ |z| := by
  have := rat_lipschitz z 0
  simpa [rat] using this

/-- A large denominator. -/
theorem div_inf {z : Val} (hz : Finite z) (s : Bool) :
    Finite (Fp.div binary32 z (.inf s)) ∧ val (Fp.div binary32 z (.inf s)) = 0 := by
  obtain ⟨t, q, rfl, hq⟩ := hz
  refine ⟨⟨t != s, 0, rfl, le_refl _⟩, ?_⟩
  show val (.fin _ 0) = 0
  rw [val_fin]; simp

/-- The quotient of the second branch. -/
theorem outer_near {z : Val} (hz : Finite z) (hlt : ¬ go32.lt (go32.mul z z) (go32.lit .one) = true) :
    0.9 ≤ |val z| ∧ |(val z)⁻¹| ≤ 1 + 1e-6 ∧
    Finite (go32.div z (go32.add (go32.mul z z) (go32.lit .c28))) ∧
    |val (go32.div z (go32.add (go32.mul z z) (go32.lit .c28))) - rat (val z)⁻¹| ≤ 5e-7 := by
  have hb := big127
  have hsq := mul_self_nonneg (val z)
  have hc := c28_near
  -- a large argument
  have large : (2 : ℝ) ^ 60 ≤ val z * val z → 0.9 ≤ |val z| ∧ |(val z)⁻¹| ≤ 1 + 1e-6 ∧ |rat (val z)⁻¹| ≤ 5e-7 := by
    intro h
    have h1 : (2 : ℝ) ^ 30 ≤ |val z| := by
      refine le_of_sq_le_sq ?_ (abs_nonneg _)
      rw [sq_abs]; norm_num at h ⊢; nlinarith
    have h2 : |(val z)⁻¹| ≤ 5e-7 := by
      rw [abs_inv]
      exact (inv_anti₀ (by norm_num) h1).trans (by norm_num)
    have : (1 : ℝ) ≤ 2 ^ 30 := by norm_num
    refine ⟨by linarith, by linarith, (rat_le _).trans h2⟩
  obtain ⟨hi, hbig⟩ | cz := sq_or hz
  · obtain ⟨l1, l2, l3⟩ := large (le_trans (by norm_num) hbig)
    refine ⟨l1, l2, ?_⟩
    have e : go32.add (go32.mul z z) (go32.lit .c28) = .inf false := by
      change Fp.add binary32 (Fp.mul binary32 z z) _ = _
      rw [hi]
      obtain ⟨s, q, hq, -⟩ := (lit_close .c28).1
      rw [hq]; rfl
    rw [e]
    obtain ⟨g1, g2⟩ := div_inf hz false
    refine ⟨g1, ?_⟩
    change |val (Fp.div binary32 z _) - _| ≤ _
    rw [g2, zero_sub, abs_neg]; exact l3
  have hlt' := (lt_iff cz.1 (lit_close .one).1).not.1 hlt
  rw [val_one, not_lt] at hlt'
  have e1 := cz.2
  rw [abs_of_nonneg hsq] at e1
  have e1' := abs_le.1 e1
  change 0.9 ≤ |val z| ∧ |(val z)⁻¹| ≤ 1 + 1e-6 ∧ Finite (Fp.div binary32 z (Fp.add binary32 (Fp.mul binary32 z z) (go32.lit .c28))) ∧
    |val (Fp.div binary32 z (Fp.add binary32 (Fp.mul binary32 z z) (go32.lit .c28))) - _| ≤ _
  generalize Fp.mul binary32 z z = zz at *
  have hz2 : 1 - 1e-7 ≤ val z * val z := by norm_num at e1' hlt' ⊢; linarith [e1'.2]
  have hz9 : 1 - 1e-7 ≤ |val z| := by
    refine le_of_sq_le_sq ?_ (abs_nonneg _)
    rw [sq_abs]; nlinarith
  have hzi : |(val z)⁻¹| ≤ 1 + 1e-6 := by
    rw [abs_inv]
    exact (inv_anti₀ (by norm_num) hz9).trans (by norm_num)
  have hz0 : val z ≠ 0 := by intro h; rw [h] at hz9; norm_num at hz9
  refine ⟨by linarith, hzi, ?_⟩
  have hsp : 0 ≤ val zz + val (go32.lit .c28) := by have := (abs_le.1 hc).1; linarith
  by_cases hov : |val zz + val (go32.lit .c28)| ≤ 2 ^ 128 - 2 ^ 104
  · have c2 := add32 cz.1 (lit_close .c28).1 hov
    have hD : 0 < val z * val z + 28 / 100 := by linarith
    rw [rat_inv hz0]
    refine quot_rel hz c2.1 hD ?_ ?_
    · have d2 := c2.2
      rw [abs_le] at hc
      rw [abs_of_nonneg hsp] at d2
      rw [abs_le] at d2 ⊢
      norm_num at *
      constructor <;> linarith [d2.1, d2.2, hc.1, hc.2, e1'.1, e1'.2]
    · rw [abs_div, abs_of_pos hD, div_le_iff₀ hD]
      have : |val z| * |val z| = val z * val z := abs_mul_abs_self _
      nlinarith
  · have hov' := not_le.1 hov
    rw [abs_le] at hc
    rw [abs_of_nonneg (by linarith [hc.1])] at hov'
    have hbig : (2 : ℝ) ^ 126 ≤ val z * val z := by
      norm_num at *
      linarith [hc.2, e1'.2]
    obtain ⟨l1, l2, l3⟩ := large (le_trans (by norm_num) hbig)
    obtain ⟨s, hi⟩ | c2 := add32_or cz.1 (lit_close .c28).1
    · rw [hi]
      obtain ⟨g1, g2⟩ := div_inf hz s
      refine ⟨g1, ?_⟩
      rw [g2, zero_sub, abs_neg]; exact l3
    · have hD : 0 < val z * val z + 28 / 100 := by linarith
      rw [rat_inv hz0]
      refine quot_rel hz c2.1 hD ?_ ?_
      · have d2 := c2.2
        rw [abs_of_nonneg hsp] at d2
        rw [abs_le] at d2 ⊢
        norm_num at *
        constructor <;> linarith [d2.1, d2.2, hc.1, hc.2, e1'.1, e1'.2]
      · rw [abs_div, abs_of_pos hD, div_le_iff₀ hD]
        have : |val z| * |val z| = val z * val z := abs_mul_abs_self _
        nlinarith

/-- The angle from the reciprocal of the quotient. -/
theorem angle_outer {x y : ℝ} (hx : x ≠ 0) (hy : y ≠ 0) :
    angle x y = π / 2 - arctan (y / x)⁻¹ - (if y < 0 then π else 0) := by
  rw [angle_quot hx]
  rcases lt_or_gt_of_ne hx with h1 | h1 <;> rcases lt_or_gt_of_ne hy with h2 | h2
  · rw [if_neg (by linarith : ¬ x > 0), if_pos h2, if_pos h2, arctan_inv_of_pos (div_pos_of_neg_of_neg h2 h1)]; ring
  · rw [if_neg (by linarith : ¬ x > 0), if_neg (by linarith), if_neg (by linarith),
      arctan_inv_of_neg (div_neg_of_pos_of_neg h2 h1)]; ring
  · rw [if_pos h1, if_pos h2, arctan_inv_of_neg (div_neg_of_neg_of_pos h2 h1)]; ring
  · rw [if_pos h1, if_neg (by linarith), arctan_inv_of_pos (div_pos h2 h1)]; ring

/-- A square that compares as less than one. -/
theorem sq_le {z : Val} (hz : Finite z) (hlt : go32.lt (go32.mul z z) (go32.lit .one) = true) : Finite (go32.mul z z) ∧ val (go32.mul z z) ≤ 1 := by
  obtain ⟨hi, -⟩ | cz := sq_or hz
  · exfalso
    change go32.lt (Fp.mul binary32 z z) _ = true at hlt
    rw [hi, lit1] at hlt
    revert hlt
    decide
  have hlt' := (lt_iff cz.1 (lit_close .one).1).1 hlt
  rw [val_one] at hlt'
  exact ⟨cz.1, hlt'.le⟩

/-- The first branch, up to one inclusive. -/
theorem inner_by {x y z d : Val} (hx : Finite x) (hy : Finite y) (hx0 : val x ≠ 0) (cz : Close z (val y / val x)) (hf : Finite (go32.mul z z))
    (hle : val (go32.mul z z) ≤ 1) (hd : Eval (denExpr (go32.mul z z)) d) :
    let w := go32.div z d
    let r := if go32.lt x (go32.lit .zero) then (if go32.lt y (go32.lit .zero) then go32.sub w (go32.lit .pi) else go32.add w (go32.lit .pi)) else w
    Finite r ∧ |val r - angle (val x) (val y)| ≤ 0.005 := by
  have hb := big127
  have hp1 := pi_gt_d6
  have hp2 := pi_lt_d6
  have hpi := abs_le.1 goPi_near
  have kp : |val (go32.lit .pi) - π| ≤ 3e-7 := by
    have h1 := close_of (e := 2e-7) (b := 3.2) (lit_close .pi)
      (by simp only [Const.go]; rw [abs_le]; constructor <;> linarith [hpi.1, hpi.2]) (by norm_num)
    simp only [Const.go] at h1
    rw [abs_le] at h1 ⊢
    constructor <;> linarith [h1.1, h1.2, hpi.1, hpi.2]
  obtain ⟨fz, ez⟩ := cz
  dsimp only
  obtain ⟨i1, i2, i3⟩ := inner_near fz hf hle hd
  generalize go32.div z d = w at *
  have r1 := rat_bound i1
  have hq2 : |val y / val x| ≤ 1.001 := by
    have := abs_sub_abs_le_abs_sub (val y / val x) (val z)
    rw [abs_sub_comm] at this
    linarith
  have r2 : |arctan (val z) - arctan (val y / val x)| ≤ 1e-7 :=
    (arctan_lipschitz _ _).trans (ez.trans (by linarith))
  have r3 : |val w - arctan (val y / val x)| ≤ 0.004993 := by
    rw [abs_le] at i3 r1 r2 ⊢
    constructor <;> linarith [i3.1, i3.2, r1.1, r1.2, r2.1, r2.2]
  have r4 : |arctan (val y / val x)| ≤ 1.001 := by
    have := arctan_lipschitz (val y / val x) 0
    rw [arctan_zero, sub_zero, sub_zero] at this
    exact this.trans hq2
  rw [angle_quot hx0]
  by_cases hneg : val x < 0
  · rw [if_pos ((lt_zero_iff hx).2 hneg), if_neg (by linarith : ¬ val x > 0)]
    by_cases hyn : val y < 0
    · rw [if_pos ((lt_zero_iff hy).2 hyn), if_pos hyn]
      have b : |val w - val (go32.lit .pi)| ≤ 5 := by
        rw [abs_le] at r3 r4 kp ⊢
        constructor <;> linarith [r3.1, r3.2, r4.1, r4.2, kp.1, kp.2]
      have c := sub32 i2 (lit_close .pi).1 (b.trans (by linarith))
      have d := close_of (e := 4e-7) c b (by norm_num)
      refine ⟨c.1, ?_⟩
      change |val (Fp.sub binary32 w _) - _| ≤ _
      rw [abs_le] at r3 kp d ⊢
      constructor <;> linarith [r3.1, r3.2, d.1, d.2, kp.1, kp.2]
    · rw [if_neg (by rw [lt_zero_iff hy]; exact hyn), if_neg hyn]
      have b : |val w + val (go32.lit .pi)| ≤ 5 := by
        rw [abs_le] at r3 r4 kp ⊢
        constructor <;> linarith [r3.1, r3.2, r4.1, r4.2, kp.1, kp.2]
      have c := add32 i2 (lit_close .pi).1 (b.trans (by linarith))
      have d := close_of (e := 4e-7) c b (by norm_num)
      refine ⟨c.1, ?_⟩
      change |val (Fp.add binary32 w _) - _| ≤ _
      rw [abs_le] at r3 kp d ⊢
      constructor <;> linarith [r3.1, r3.2, d.1, d.2, kp.1, kp.2]
  · have hpos : 0 < val x := lt_of_le_of_ne (not_lt.1 hneg) (Ne.symm hx0)
    rw [if_neg (by rw [lt_zero_iff hx]; exact hneg), if_pos hpos, add_zero]
    exact ⟨i2, by linarith⟩

/-- Nothing fused. -/
theorem inner_angle {x y z : Val} (hx : Finite x) (hy : Finite y) (hx0 : val x ≠ 0) (cz : Close z (val y / val x)) (hf : Finite (go32.mul z z))
    (hle : val (go32.mul z z) ≤ 1) :
    let w := go32.div z (go32.add (go32.lit .one) (go32.mul (go32.lit .c28) (go32.mul z z)))
    let r := if go32.lt x (go32.lit .zero) then (if go32.lt y (go32.lit .zero) then go32.sub w (go32.lit .pi) else go32.add w (go32.lit .pi)) else w
    Finite r ∧ |val r - angle (val x) (val y)| ≤ 0.005 :=
  inner_by hx hy hx0 cz hf hle (eval_unfused (denExpr (go32.mul z z)))

/-- C141, `FastAtan2_2` (part).  Whatever products are fused, in binary32 arithmetic and for all finite arguments for which the magnitude of `y` is below
`2^128 - 2^103` times that of `x` (from there on the quotient overflows), or `x` is zero, `FastAtan2_2` returns a finite value within 0.005 of the angle of
the point `(x, y)`. -/
theorem C141_fast2_partial {ev : Expr binary32 → Val} (hev : ∀ e, Eval e (ev e)) (y x : Val) (hy : Finite y) (hx : Finite x)
    (h : val x = 0 ∨ |val y| < (2 ^ 128 - 2 ^ 103) * |val x|) :
    Finite (fastAtan2_2By ev y x) ∧ |val (fastAtan2_2By ev y x) - Complex.arg ⟨val x, val y⟩| ≤ 0.005 := by
  have hb := big127
  have hp1 := pi_gt_d6
  have hp2 := pi_lt_d6
  have hpi := abs_le.1 goPi_near
  have kh : |val (go32.lit .halfPi) - π / 2| ≤ 2e-7 := by
    have h1 := close_of (e := 1.5e-7) (b := 2) (lit_close .halfPi)
      (by simp only [Const.go]; push_cast; rw [abs_le]; constructor <;> linarith [hpi.1, hpi.2]) (by norm_num)
    simp only [Const.go] at h1
    push_cast at h1
    rw [abs_le] at h1 ⊢
    constructor <;> linarith [h1.1, h1.2, hpi.1, hpi.2]
  have kp : |val (go32.lit .pi) - π| ≤ 3e-7 := by
    have h1 := close_of (e := 2e-7) (b := 3.2) (lit_close .pi)
      (by simp only [Const.go]; rw [abs_le]; constructor <;> linarith [hpi.1, hpi.2]) (by norm_num)
    simp only [Const.go] at h1
    rw [abs_le] at h1 ⊢
    constructor <;> linarith [h1.1, h1.2, hpi.1, hpi.2]
  change _ ∧ |_ - angle (val x) (val y)| ≤ _
  unfold fastAtan2_2By
  dsimp only
  by_cases hx0 : val x = 0
  · rw [if_pos ((eq_zero_iff hx).2 hx0), hx0]
    rcases lt_trichotomy (val y) 0 with hn | hn | hn
    · rw [if_neg (by rw [gt_zero_iff hy]; linarith), if_pos ((lt_zero_iff hy).2 hn)]
      refine ⟨(lit_close _).1, ?_⟩
      rw [angle_neg hn, angle_up (by linarith)]
      have h1 := close_of (e := 1e-6) (b := 2) (lit_close .negHalfPi)
        (by simp only [Const.go]; push_cast; rw [abs_le]; constructor <;> linarith [hpi.1, hpi.2]) (by norm_num)
      simp only [Const.go] at h1
      push_cast at h1
      rw [abs_le] at h1 ⊢
      constructor <;> linarith [h1.1, h1.2, hpi.1, hpi.2]
    · rw [if_neg (by rw [gt_zero_iff hy, hn]; exact lt_irrefl _), if_neg (by rw [lt_zero_iff hy, hn]; exact lt_irrefl _)]
      refine ⟨(lit_close _).1, ?_⟩
      rw [hn, val_zero, show angle 0 0 = 0 from Complex.arg_zero]
      norm_num
    · rw [if_pos ((gt_zero_iff hy).2 hn)]
      refine ⟨(lit_close _).1, ?_⟩
      rw [angle_up hn]
      linarith
  rw [if_neg (by rw [eq_zero_iff hx]; exact hx0)]
  have hxa : 0 < |val x| := abs_pos.2 hx0
  have hq : |val y / val x| < 2 ^ 128 - 2 ^ 103 := by
    rw [abs_div, div_lt_iff₀ hxa]
    exact h.resolve_left hx0
  have cz := div32_lt hy hx hx0 hq
  change Close (go32.div y x) _ at cz
  generalize go32.div y x = z at *
  obtain ⟨fz, ez⟩ := cz
  by_cases hlt : go32.lt (go32.mul z z) (go32.lit .one) = true
  · rw [if_pos hlt]
    exact inner_by hx hy hx0 ⟨fz, ez⟩ (sq_le fz hlt).1 (sq_le fz hlt).2 (hev _)
  · rw [if_neg hlt]
    obtain ⟨o0, o1, o2, o3⟩ := outer_near fz hlt
    generalize go32.div z (go32.add (go32.mul z z) (go32.lit .c28)) = w at *
    have r1 := rat_bound o1
    have hzpos : 0 < |val z| := by linarith
    have hqlow : 0.8 ≤ |val y / val x| := by
      have := abs_sub_abs_le_abs_sub (val z) (val y / val x)
      have h1 := abs_nonneg (val y / val x)
      by_contra hc
      rw [not_le] at hc
      linarith
    have hqpos : 0 < |val y / val x| := by linarith
    have hy0 : val y ≠ 0 := by
      intro h0; rw [h0, zero_div, abs_zero] at hqlow; norm_num at hqlow
    have r2 : |arctan (val z)⁻¹ - arctan (val y / val x)⁻¹| ≤ 1e-7 := by
      refine (arctan_lipschitz _ _).trans ?_
      have hz0 : val z ≠ 0 := abs_pos.1 hzpos
      have hq0 : val y / val x ≠ 0 := abs_pos.1 hqpos
      have e : (val z)⁻¹ - (val y / val x)⁻¹ = (val y / val x - val z) / (val z * (val y / val x)) :=
        inv_sub_inv hz0 hq0
      rw [e, abs_div, abs_mul, div_le_iff₀ (mul_pos hzpos hqpos), abs_sub_comm]
      nlinarith
    have r3 : |val w - arctan (val y / val x)⁻¹| ≤ 0.004993 := by
      rw [abs_le] at o3 r1 r2 ⊢
      constructor <;> linarith [o3.1, o3.2, r1.1, r1.2, r2.1, r2.2]
    have r4 := arctan_lt_pi_div_two (val y / val x)⁻¹
    have r5 := neg_pi_div_two_lt_arctan (val y / val x)⁻¹
    rw [angle_outer hx0 hy0]
    have b : |val (go32.lit .halfPi) - val w| ≤ 3.5 := by
      rw [abs_le] at r3 kh ⊢
      constructor <;> linarith [r3.1, r3.2, kh.1, kh.2]
    have c := sub32 (lit_close .halfPi).1 o2 (b.trans (by linarith))
    have d := close_of (e := 3e-7) c b (by norm_num)
    change Close (go32.sub (go32.lit .halfPi) w) _ at c
    change |val (go32.sub (go32.lit .halfPi) w) - _| ≤ _ at d
    generalize go32.sub (go32.lit .halfPi) w = u at *
    by_cases hyn : val y < 0
    · rw [if_pos ((lt_zero_iff hy).2 hyn), if_pos hyn]
      have b2 : |val u - val (go32.lit .pi)| ≤ 7 := by
        rw [abs_le] at b d kp ⊢
        constructor <;> linarith [b.1, b.2, d.1, d.2, kp.1, kp.2]
      have c2 := sub32 c.1 (lit_close .pi).1 (b2.trans (by linarith))
      have d2 := close_of (e := 5e-7) c2 b2 (by norm_num)
      refine ⟨c2.1, ?_⟩
      change |val (Fp.sub binary32 u _) - _| ≤ _
      rw [abs_le] at r3 kp kh d d2 ⊢
      constructor <;> linarith [r3.1, r3.2, d.1, d.2, kp.1, kp.2, kh.1, kh.2, d2.1, d2.2]
    · rw [if_neg (by rw [lt_zero_iff hy]; exact hyn), if_neg hyn]
      refine ⟨c.1, ?_⟩
      rw [abs_le] at r3 kh d ⊢
      constructor <;> linarith [r3.1, r3.2, d.1, d.2, kh.1, kh.2]

/-- C89 (part).  In binary32 arithmetic, for all finite arguments for which the magnitude of `y` is below
`2^128 - 2^103` times that of `x` (from there on the quotient overflows), or `x` is zero, `FastAtan2_2` returns a finite value within 0.005 of the angle of
the point `(x, y)`. -/
theorem C89_fast2_partial (y x : Val) (hy : Finite y) (hx : Finite x)
    (h : val x = 0 ∨ |val y| < (2 ^ 128 - 2 ^ 103) * |val x|) :
    Finite (fastAtan2_2Go go32 y x) ∧
      |val (fastAtan2_2Go go32 y x) - Complex.arg ⟨val x, val y⟩| ≤ 0.005 :=
  C141_fast2_partial eval_unfused y x hy hx h

/-! ### Where the bounds stop -/

/-- Everything fused, at one point. -/
example : |val (fastAtan2By fuse (.fin true 2) (.fin false 3)) - Complex.arg ⟨3, -2⟩| ≤ 0.0102 ∧
    |val (fastAtan2_2By fuse (.fin true 2) (.fin false 3)) - Complex.arg ⟨3, -2⟩| ≤ 0.005 := by
  have h1 := C141_fast_partial eval_fuse (.fin true 2) (.fin false 3) ⟨_, _, rfl, by norm_num⟩ ⟨_, _, rfl, by norm_num⟩
    (by rw [val_fin, val_fin]; norm_num) (by rw [val_fin, val_fin]; norm_num)
  have h2 := C141_fast2_partial eval_fuse (.fin true 2) (.fin false 3) ⟨_, _, rfl, by norm_num⟩ ⟨_, _, rfl, by norm_num⟩
    (Or.inr (by rw [val_fin, val_fin]; norm_num))
  exact ⟨by simpa [val_fin] using h1.2, by simpa [val_fin] using h2.2⟩

/-- Both partial results at one point: a finite value for `x = 3`, `y = -2`. -/
example : Finite (fastAtan2Go go32 (.fin true 2) (.fin false 3)) ∧
    |val (fastAtan2Go go32 (.fin true 2) (.fin false 3)) - Complex.arg ⟨3, -2⟩| ≤ 0.0102 := by
  have := C89_fast_partial (.fin true 2) (.fin false 3) ⟨_, _, rfl, by norm_num⟩ ⟨_, _, rfl, by norm_num⟩
    (by rw [val_fin, val_fin]; norm_num) (by rw [val_fin, val_fin]; norm_num)
  simpa [val_fin] using this

example : Finite (fastAtan2_2Go go32 (.fin true 2) (.fin true 3)) ∧
    |val (fastAtan2_2Go go32 (.fin true 2) (.fin true 3)) - Complex.arg ⟨-3, -2⟩| ≤ 0.005 := by
  have := C89_fast2_partial (.fin true 2) (.fin true 3) ⟨_, _, rfl, by norm_num⟩ ⟨_, _, rfl, by norm_num⟩
    (Or.inr (by rw [val_fin, val_fin]; norm_num))
  simpa [val_fin] using this

/-- C141 fails for `FastAtan2_2` wherever the quotient overflows, whatever is fused: the result is not a number. -/
theorem C141_violated_nan (ev : Expr binary32 → Val) (y x : Val) (hy : Finite y) (hx : Finite x) (hx0 : val x ≠ 0)
    (h : (2 ^ 128 - 2 ^ 103) * |val x| ≤ |val y|) : fastAtan2_2By ev y x = .nan := by
  obtain ⟨s, hs⟩ := div32_inf hy hx hx0 (by rw [abs_div, le_div_iff₀ (abs_pos.2 hx0)]; exact h)
  have hs' : go32.div y x = .inf s := hs
  obtain ⟨t, q, hq, -⟩ := (lit_close .c28).1
  obtain ⟨t', q', hq', -⟩ := (lit_close .halfPi).1
  unfold fastAtan2_2By
  dsimp only
  rw [if_neg (by rw [eq_zero_iff hx]; exact hx0), hs']
  have hm : go32.mul (.inf s) (.inf s) = .inf false := by cases s <;> rfl
  rw [hm, if_neg (by rw [lit1]; decide), hq, hq']
  have hd : go32.sub (.fin t' q') (go32.div (.inf s) (go32.add (.inf false) (.fin t q))) = .nan := rfl
  rw [hd]
  split
  · rfl
  · rfl

/-- C89 fails for `FastAtan2_2` wherever the quotient overflows: the result is not a number. -/
theorem C89_violated_nan (y x : Val) (hy : Finite y) (hx : Finite x) (hx0 : val x ≠ 0)
    (h : (2 ^ 128 - 2 ^ 103) * |val x| ≤ |val y|) : fastAtan2_2Go go32 y x = .nan :=
  C141_violated_nan unfused y x hy hx hx0 h

/-- `FastAtan2_2` for all finite arguments, whatever is fused: within 0.005 of the angle exactly if `x` is zero or the quotient does
not overflow, and not a number otherwise. -/
theorem C141_fast2_iff {ev : Expr binary32 → Val} (hev : ∀ e, Eval e (ev e)) (y x : Val) (hy : Finite y) (hx : Finite x) :
    (Finite (fastAtan2_2By ev y x) ∧ |val (fastAtan2_2By ev y x) - Complex.arg ⟨val x, val y⟩| ≤ 0.005 ↔
      val x = 0 ∨ |val y| < (2 ^ 128 - 2 ^ 103) * |val x|) ∧
    (¬ Finite (fastAtan2_2By ev y x) → fastAtan2_2By ev y x = .nan) := by
  by_cases h : val x = 0 ∨ |val y| < (2 ^ 128 - 2 ^ 103) * |val x|
  · have := C141_fast2_partial hev y x hy hx h
    exact ⟨⟨fun _ => h, fun _ => this⟩, fun c => absurd this.1 c⟩
  · rw [not_or, not_lt] at h
    have e := C141_violated_nan ev y x hy hx h.1 h.2
    refine ⟨⟨fun c => ?_, fun c => ?_⟩, fun _ => e⟩
    · rw [e] at c
      obtain ⟨⟨s, q, c, -⟩, -⟩ := c
      cases c
    · rcases c with c | c
      · exact absurd c h.1
      · exact absurd c (not_lt.2 h.2)

/-- The hypotheses are met by `y = 2^127`, `x = 2^-10`. -/
example : fastAtan2_2Go go32 (.fin false (2 ^ 127)) (.fin false (1 / 1024)) = .nan :=
  C89_violated_nan _ _ ⟨_, _, rfl, by norm_num⟩ ⟨_, _, rfl, by norm_num⟩ (by rw [val_fin]; norm_num)
    (by rw [val_fin, val_fin]; norm_num [abs_of_nonneg])

/-- C89 fails for `FastAtan2` wherever the sum of the magnitudes overflows: on the right the result is an
eighth turn whatever the point. -/
theorem C89_violated_large (y x : Val) (hy : Finite y) (hx : Finite x) (hxm : val x ≤ 2 ^ 128 - 2 ^ 104)
    (hx0 : 0 < val x) (hy0 : 0 ≤ val y) (hym : val y ≤ 3.4e38) (h : 3.402824e38 ≤ val x + val y) :
    fastAtan2Go go32 y x = go32.lit .quarterPi := by
  obtain ⟨ca, t1, t2⟩ := absY_near hy (by rw [abs_of_nonneg hy0]; linarith)
  unfold fastAtan2Go
  dsimp only
  rw [if_neg (by rw [lt_zero_iff hx]; linarith), if_pos ((gt_zero_iff hx).2 hx0),
    if_neg (by rw [lt_zero_iff hy]; linarith)]
  generalize go32.add (if go32.lt y (go32.lit .zero) then go32.neg y else y) (go32.lit .tiny) = a at *
  generalize val (go32.lit .tiny) = t at *
  obtain ⟨fa, ea⟩ := ca
  rw [abs_of_nonneg hy0, abs_of_nonneg (show 0 ≤ val y + t by norm_num at t1; linarith), abs_le] at ea
  have a1 : val y * (1 - 6e-8) - 1e-10 ≤ val a := by norm_num at ea t1 t2 ⊢; linarith [ea.1]
  have a2 : val a ≤ 3.4001e38 := by norm_num at ea t1 t2 hym ⊢; linarith [ea.2]
  have hs : go32.add x a = .inf false := by
    refine add32_inf hx fa ?_
    norm_num at *
    linarith
  have hsub := sub32 hx fa (by
    rw [abs_le]
    norm_num at *
    constructor <;> linarith)
  obtain ⟨s, q, hq, -⟩ := hsub.1
  have hq' : go32.sub x a = .fin s q := hq
  rw [hs, hq']
  have hd : go32.div (.fin s q) (.inf false) = .fin (s != false) 0 := rfl
  rw [hd]
  cases s <;> decide +kernel

/-- The hypotheses are met by the largest number and a quarter of it, and there the error is more than half a
radian. -/
example : fastAtan2Go go32 (.fin false (2 ^ 126)) (.fin false (2 ^ 128 - 2 ^ 104)) = go32.lit .quarterPi ∧
    0.5 < val (go32.lit .quarterPi) - Complex.arg ⟨2 ^ 128 - 2 ^ 104, 2 ^ 126⟩ := by
  constructor
  · refine C89_violated_large _ _ ⟨_, _, rfl, by norm_num⟩ ⟨_, _, rfl, by norm_num⟩ ?_ ?_ ?_ ?_ ?_ <;>
      simp only [val_fin] <;> norm_num
  · change _ < _ - angle _ _
    rw [angle_right (by norm_num)]
    have h1 : arctan (2 ^ 126 / (2 ^ 128 - 2 ^ 104)) ≤ 0.26 := by
      have := arctan_lipschitz (2 ^ 126 / (2 ^ 128 - 2 ^ 104)) 0
      rw [arctan_zero, sub_zero, sub_zero] at this
      refine (le_abs_self _).trans (this.trans ?_)
      rw [abs_of_nonneg (by norm_num)]
      norm_num
    have h2 := close_of (e := 1e-6) (b := 0.8) (lit_close .quarterPi)
      (by
        have hpi := abs_le.1 goPi_near
        have := pi_gt_d6
        have := pi_lt_d6
        simp only [Const.go]; push_cast; rw [abs_le]; constructor <;> linarith [hpi.1, hpi.2]) (by norm_num)
    have hpi := abs_le.1 goPi_near
    have := pi_gt_d6
    simp only [Const.go] at h2
    push_cast at h2
    rw [abs_le] at h2
    linarith [h2.1, hpi.1]

/-- C89 fails for `FastAtan2` near the origin: the added constant counts, and a point on the positive half
axis gets more than an eighth of a turn. -/
theorem C89_violated_small : ∃ y x : Val, Finite y ∧ Finite x ∧ 0 < val x ∧ val y = 0 ∧
    1 < val (fastAtan2Go go32 y x) - Complex.arg ⟨val x, val y⟩ := by
  refine ⟨.fin false 0, .fin false (1 / 2 ^ 100), ⟨_, _, rfl, le_refl _⟩, ⟨_, _, rfl, by norm_num⟩, ?_, ?_, ?_⟩
  · rw [val_fin]; norm_num
  · rw [val_fin]; norm_num
  · have e : ∃ q : ℚ, fastAtan2Go go32 (.fin false 0) (.fin false (1 / 2 ^ 100)) = .fin false q ∧ 1 < q := by
      have hc : (match fastAtan2Go go32 (.fin false 0) (.fin false (1 / 2 ^ 100)) with
          | .fin false q => decide (1 < q) | _ => false) = true := by decide +kernel
      split at hc
      · exact ⟨_, by assumption, by simpa using hc⟩
      · cases hc
    obtain ⟨q, hq, h1⟩ := e
    have h2 : (1 : ℝ) < q := by exact_mod_cast h1
    change _ < _ - angle _ _
    rw [hq, val_fin, val_fin, val_fin, angle_right (by norm_num)]
    simpa using h2

end Verif.Angle
