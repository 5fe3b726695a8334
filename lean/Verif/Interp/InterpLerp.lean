import Verif.Interp.InterpFp

/-!
# Property C100, continued: what rounding does not spoil

Linear interpolation never leaves the interval between the two neighbours and is monotone between them; at a sample both
linear and Hermite interpolation return it exactly.
-/

namespace Verif.Interp
open Verif.Fp Verif.Angle Verif.Filt Expr

variable {φ : Format}

/-! ## Rounded numbers -/

/-- The rounding error of a normal number is relative. -/
theorem rd_rel {x : ℚ} (hx : 0 < x) (hn : 2 ^ φ.emin ≤ x) : |rd φ x - x| ≤ x * 2 ^ (-(φ.p : ℤ)) := by
  have hu := ulp_pos φ x
  have hlog : φ.emin ≤ Int.log 2 x := by
    have := (Int.zpow_le_iff_le_log (b := 2) (by norm_num) hx).1 (by exact_mod_cast hn)
    exact this
  have hul : ulp φ x / 2 ≤ x * 2 ^ (-(φ.p : ℤ)) := by
    have h1 := Int.zpow_log_le_self (b := 2) (by norm_num) hx
    have e : ulp φ x / 2 = 2 ^ Int.log 2 x * 2 ^ (-(φ.p : ℤ)) := by
      unfold ulp
      rw [max_eq_left hlog, ← zpow_add₀ (by norm_num), div_eq_mul_inv, ← zpow_neg_one, ← zpow_add₀ (by norm_num)]
      congr 1
      ring
    rw [e]
    exact mul_le_mul_of_nonneg_right (by exact_mod_cast h1) (by positivity)
  refine le_trans ?_ hul
  have h := roundEven_half (x / ulp φ x)
  have e : roundEven (x / ulp φ x) * ulp φ x - x = -((x / ulp φ x - roundEven (x / ulp φ x)) * ulp φ x) := by
    field_simp
    ring
  rw [rd_pos φ hx, e, abs_neg, abs_mul, abs_of_pos hu]
  calc _ ≤ 1 / 2 * ulp φ x := mul_le_mul_of_nonneg_right h hu.le
    _ = _ := by ring

/-- A datum below one is at most one minus an ulp. -/
theorem grid_lt_one {t : ℚ} (hg : Grid φ t) (h0 : 0 ≤ t) (h1 : t < 1) : t ≤ 1 - 2 ^ (-(φ.p : ℤ)) := by
  obtain ⟨m, e, hm, -, ht⟩ := hg
  rw [abs_of_nonneg h0] at ht
  have hpow : (0 : ℚ) < 2 ^ e := by positivity
  have hp0 : (0 : ℚ) < 2 ^ (-(φ.p : ℤ)) := by positivity
  have hpp : (2 : ℚ) ^ φ.p * 2 ^ (-(φ.p : ℤ)) = 1 := by
    rw [← zpow_natCast, ← zpow_add₀ (by norm_num), add_neg_cancel, zpow_zero]
  have hm' : (m : ℚ) + 1 ≤ 2 ^ φ.p := by exact_mod_cast hm
  rcases lt_or_ge e (-(φ.p : ℤ)) with he | he
  · have hle : (2 : ℚ) ^ e ≤ 2 ^ (-(φ.p : ℤ)) := zpow_le_zpow_right₀ (by norm_num) he.le
    calc t = m * (2 : ℚ) ^ e := ht
      _ ≤ m * 2 ^ (-(φ.p : ℤ)) := mul_le_mul_of_nonneg_left hle (Nat.cast_nonneg _)
      _ ≤ (2 ^ φ.p - 1) * 2 ^ (-(φ.p : ℤ)) := mul_le_mul_of_nonneg_right (by linarith) hp0.le
      _ = 1 - 2 ^ (-(φ.p : ℤ)) := by rw [sub_mul, hpp, one_mul]
  · have hone : (2 : ℚ) ^ (-(φ.p : ℤ)) ≤ 2 ^ e := zpow_le_zpow_right₀ (by norm_num) he
    rcases Nat.eq_zero_or_pos m with hm0 | hm0
    · have hz : t = 0 := by rw [ht, hm0]; simp
      have : (2 : ℚ) ^ (-(φ.p : ℤ)) ≤ 1 := zpow_le_one_of_nonpos₀ (by norm_num) (by omega)
      linarith
    · -- `m + 1` quanta make at most one
      have hm1 : (1 : ℚ) ≤ m := by exact_mod_cast hm0
      have he0 : e < 0 := by
        by_contra hc
        have h2 : (1 : ℚ) ≤ 2 ^ e := one_le_zpow₀ (by norm_num) (by omega)
        have := mul_le_mul hm1 h2 zero_le_one (by linarith)
        linarith
      obtain ⟨k, hk⟩ := Int.eq_ofNat_of_zero_le (show 0 ≤ -e by omega)
      have e1 : (2 : ℚ) ^ k * 2 ^ e = 1 := by
        rw [← zpow_natCast, ← zpow_add₀ (by norm_num), ← hk, neg_add_cancel, zpow_zero]
      have hlt : (m : ℚ) < 2 ^ k := by
        by_contra hc
        have := mul_le_mul_of_nonneg_right (not_lt.1 hc) hpow.le
        linarith
      have hlt' : (m : ℚ) + 1 ≤ 2 ^ k := by exact_mod_cast hlt
      have := mul_le_mul_of_nonneg_right hlt' hpow.le
      rw [add_mul, one_mul, e1, ← ht] at this
      linarith

/-- A difference that is not a datum is normal. -/
theorem sub_normal {a b : ℚ} (ha : Grid φ a) (hb : Grid φ b) (h : a ≤ b) (hn : ¬ Grid φ (b - a)) : 2 ^ φ.emin ≤ b - a := by
  obtain ⟨y, hy⟩ := grid_int ha
  obtain ⟨z, hz⟩ := grid_int hb
  have hq : (0 : ℚ) < 2 ^ (φ.emin - (φ.p - 1)) := by positivity
  have e : b - a = ((z - y : ℤ) : ℚ) * 2 ^ (φ.emin - (φ.p - 1)) := by rw [hy, hz]; push_cast; ring
  have h0 : 0 ≤ z - y := by
    have : 0 ≤ b - a := sub_nonneg.2 h
    rw [e] at this
    exact_mod_cast nonneg_of_mul_nonneg_left this hq
  obtain ⟨k, hk⟩ := Int.eq_ofNat_of_zero_le h0
  have hk2 : 2 ^ φ.p ≤ k := by
    by_contra hc
    refine hn ⟨k, _, not_le.1 hc, le_rfl, ?_⟩
    rw [abs_of_nonneg (sub_nonneg.2 h), e, hk]
    push_cast
    rfl
  rw [e, hk]
  have h2 : ((2 : ℚ) ^ φ.p) ≤ ((k : ℤ) : ℚ) := by exact_mod_cast hk2
  refine le_trans ?_ (mul_le_mul_of_nonneg_right h2 hq.le)
  rw [← zpow_natCast, ← zpow_add₀ (by norm_num)]
  exact zpow_le_zpow_right₀ (by norm_num) (by omega)

/-- The step of linear interpolation, rounded or not, is at most the distance of the neighbours. -/
theorem step_le (hok : φ.Ok) {a b t : ℚ} (ha : Grid φ a) (hb : Grid φ b) (h : a ≤ b) (t0 : 0 ≤ t)
    (t1 : t ≤ 1 - 2 ^ (-(φ.p : ℤ))) : t * rd φ (b - a) ≤ b - a ∧ rd φ (t * rd φ (b - a)) ≤ b - a := by
  have hp1 : 1 ≤ φ.p := by have := hok.hp; omega
  set d := rd φ (b - a) with hd
  have hD : 0 ≤ b - a := sub_nonneg.2 h
  have hd0 : 0 ≤ d := rd_nonneg φ hD
  have hu : (0 : ℚ) < 2 ^ (-(φ.p : ℤ)) := by positivity
  have htd : t * d ≤ d := by nlinarith
  have hgd : Grid φ d := grid_rd φ hp1 _
  have hrd : rd φ (t * d) ≤ d := rd_le φ hp1 hgd htd
  rcases le_or_gt d (b - a) with hle | hgt
  · exact ⟨htd.trans hle, hrd.trans hle⟩
  · have hng : ¬ Grid φ (b - a) := fun hg => by
      rw [hd, rd_grid φ hp1 hg] at hgt
      exact lt_irrefl _ hgt
    have hnorm := sub_normal ha hb h hng
    have hpos : 0 < b - a := lt_of_lt_of_le (by positivity) hnorm
    have herr := (abs_le.1 (rd_rel hpos hnorm)).2
    rw [← hd] at herr
    have htd2 : t * d ≤ b - a := by
      have h1 : t * d ≤ (1 - 2 ^ (-(φ.p : ℤ))) * d := mul_le_mul_of_nonneg_right t1 hd0
      have hu1 : (2 : ℚ) ^ (-(φ.p : ℤ)) ≤ 1 := zpow_le_one_of_nonpos₀ (by norm_num) (by omega)
      have h2 : (1 - 2 ^ (-(φ.p : ℤ))) * d ≤ (1 - 2 ^ (-(φ.p : ℤ))) * ((b - a) * (1 + 2 ^ (-(φ.p : ℤ)))) :=
        mul_le_mul_of_nonneg_left (by linarith) (by linarith)
      have h3 : 0 ≤ (b - a) * (2 ^ (-(φ.p : ℤ)) * 2 ^ (-(φ.p : ℤ))) := by positivity
      nlinarith
    refine ⟨htd2, ?_⟩
    by_contra hc
    have hc := not_le.1 hc
    -- the rounded step would be the rounded distance
    have hne := rd_nearest φ hp1 (b - a) (grid_rd φ hp1 (t * d))
    rw [← hd, abs_of_neg (by linarith), abs_of_neg (by linarith)] at hne
    have heq : rd φ (t * d) = d := le_antisymm hrd (by linarith)
    have hg : Grid φ ((2 : ℚ) ^ φ.emin) := grid_pow φ hp1 _ (by have := hok.hp; omega)
    have hn2 : 2 ^ φ.emin ≤ t * d := by
      by_contra hc2
      have := rd_le φ hp1 hg (not_le.1 hc2).le
      linarith
    have hpos2 : 0 < t * d := lt_of_lt_of_le (by positivity) hn2
    have herr2 := (abs_le.1 (rd_rel hpos2 hn2)).2
    rw [heq] at herr2
    have h1 : t * d ≤ (1 - 2 ^ (-(φ.p : ℤ))) * d := mul_le_mul_of_nonneg_right t1 hd0
    have hdpos : 0 < d := hpos.trans hgt
    have h4 : t * d < d := by nlinarith
    have h5 : t * d * 2 ^ (-(φ.p : ℤ)) < d * 2 ^ (-(φ.p : ℤ)) := mul_lt_mul_of_pos_right h4 hu
    linarith

/-- Linear interpolation between two data, rounded without fusing. -/
def lerp (φ : Format) (a b t : ℚ) : ℚ := rd φ (a + rd φ (t * rd φ (b - a)))

/-- Linear interpolation between two data, with the product fused. -/
def lerpF (φ : Format) (a b t : ℚ) : ℚ := rd φ (t * rd φ (b - a) + a)

theorem lerp_neg (a b t : ℚ) : lerp φ (-a) (-b) t = -lerp φ a b t := by
  unfold lerp
  rw [show -b - -a = -(b - a) by ring, rd_neg, mul_neg, rd_neg, ← neg_add, rd_neg]

theorem lerpF_neg (a b t : ℚ) : lerpF φ (-a) (-b) t = -lerpF φ a b t := by
  unfold lerpF
  rw [show -b - -a = -(b - a) by ring, rd_neg, mul_neg, ← neg_add, rd_neg]

theorem lerp_rising (hok : φ.Ok) {a b t : ℚ} (ha : Grid φ a) (hb : Grid φ b) (h : a ≤ b) (t0 : 0 ≤ t)
    (t1 : t ≤ 1 - 2 ^ (-(φ.p : ℤ))) : (a ≤ lerp φ a b t ∧ lerp φ a b t ≤ b) ∧ a ≤ lerpF φ a b t ∧ lerpF φ a b t ≤ b := by
  have hp1 : 1 ≤ φ.p := by have := hok.hp; omega
  obtain ⟨s1, s2⟩ := step_le hok ha hb h t0 t1
  have hd0 : 0 ≤ rd φ (b - a) := rd_nonneg φ (sub_nonneg.2 h)
  have htd0 : 0 ≤ t * rd φ (b - a) := mul_nonneg t0 hd0
  have hr0 := rd_nonneg φ htd0
  have lo : ∀ y, a ≤ y → a ≤ rd φ y := fun y hy => (rd_grid φ hp1 ha).symm.le.trans (rd_mono φ hp1 hy)
  exact ⟨⟨lo _ (by linarith), rd_le φ hp1 hb (by linarith)⟩, lo _ (by linarith), rd_le φ hp1 hb (by linarith)⟩

theorem lerp_mono (hok : φ.Ok) {a b t u : ℚ} (h : a ≤ b) (htu : t ≤ u) :
    lerp φ a b t ≤ lerp φ a b u ∧ lerpF φ a b t ≤ lerpF φ a b u := by
  have hp1 : 1 ≤ φ.p := by have := hok.hp; omega
  have hd0 : 0 ≤ rd φ (b - a) := rd_nonneg φ (sub_nonneg.2 h)
  have h1 := mul_le_mul_of_nonneg_right htu hd0
  exact ⟨rd_mono φ hp1 (by have := rd_mono φ hp1 h1; linarith), rd_mono φ hp1 (by linarith)⟩

/-! ## The values of the expression -/

theorem abs_rd_real {X : ℝ} (h : Scale φ X) {x : ℚ} {c : ℝ} (hx : |(x : ℝ)| ≤ c * X) (c64 : c ≤ 64) :
    |rd φ x| < 2 ^ (φ.emax + 1) ∧ |((rd φ x : ℚ) : ℝ)| ≤ (c + 1 / 2 ^ 24 * (c + 1)) * X := by
  have hX := h.pos
  have hu := uR_pos φ
  have ht : |(x : ℝ)| ≤ 2 ^ φ.emax := by
    have := h.top
    have := mul_le_mul_of_nonneg_right c64 hX.le
    linarith
  obtain ⟨h1, h2⟩ := rd_real h.ok ht
  refine ⟨h1, ?_⟩
  have h3 : |((rd φ x : ℚ) : ℝ)| ≤ |(x : ℝ)| + |((rd φ x : ℚ) : ℝ) - x| := by
    have := abs_add_le (x : ℝ) (((rd φ x : ℚ) : ℝ) - x)
    rwa [add_sub_cancel] at this
  have h4 : uR φ * |(x : ℝ)| ≤ 1 / 2 ^ 24 * (c * X) := mul_le_mul h.small hx (abs_nonneg _) (by positivity)
  have h5 : wR φ ≤ 1 / 2 ^ 24 * X := h.w.trans (mul_le_mul_of_nonneg_right h.small hX.le)
  have : (c + 1 / 2 ^ 24 * (c + 1)) * X = c * X + 1 / 2 ^ 24 * (c * X) + 1 / 2 ^ 24 * X := by ring
  rw [this]
  linarith

theorem line_values {X : ℝ} (h : Scale φ X) {a t b : FVal φ} {A B T : ℚ} (ha : Is a A) (hb : Is b B) (ht : Is t T)
    (hA : |(A : ℝ)| ≤ X) (hB : |(B : ℝ)| ≤ X) (hT : |(T : ℝ)| ≤ 1) :
    Is ((lineBody (.leaf a) (.leaf t) (.leaf b) : Expr φ).unfused) (lerp φ A B T) ∧
    Is (fma φ t (b - a) a) (lerpF φ A B T) ∧
    ∀ v, Eval (lineBody (.leaf a) (.leaf t) (.leaf b)) v →
      v = (lineBody (.leaf a) (.leaf t) (.leaf b) : Expr φ).unfused ∨ v = fma φ t (b - a) a := by
  have hX := h.pos
  have h1 : |((B - A : ℚ) : ℝ)| ≤ 2 * X := by
    push_cast
    have := abs_sub (B : ℝ) A
    linarith
  obtain ⟨r1, r2⟩ := abs_rd_real h h1 (by norm_num)
  have d1 := sub_rd φ hb ha r1
  have h2 : |((T * rd φ (B - A) : ℚ) : ℝ)| ≤ 3 * X := by
    push_cast
    rw [abs_mul]
    have := mul_le_mul hT r2 (abs_nonneg _) (by norm_num)
    linarith
  obtain ⟨r3, r4⟩ := abs_rd_real h h2 (by norm_num)
  have d2 := mul_rd φ ht d1 r3
  have h3 : |((A + rd φ (T * rd φ (B - A)) : ℚ) : ℝ)| ≤ 5 * X := by
    push_cast
    have := abs_add_le (A : ℝ) ((rd φ (T * rd φ (B - A)) : ℚ) : ℝ)
    linarith
  obtain ⟨r5, -⟩ := abs_rd_real h h3 (by norm_num)
  have h4 : |((T * rd φ (B - A) + A : ℚ) : ℝ)| ≤ 4 * X := by
    push_cast at h2 ⊢
    have := abs_add_le ((T : ℝ) * ((rd φ (B - A) : ℚ) : ℝ)) (A : ℝ)
    linarith
  obtain ⟨r6, -⟩ := abs_rd_real h h4 (by norm_num)
  refine ⟨add_rd φ ha d2 r5, fma_rd φ ht d1 ha r6, fun v hv => ?_⟩
  change Eval (.add (.leaf a) (.mul (.leaf t) (.sub (.leaf b) (.leaf a)))) v at hv
  cases hv with
  | add h1 h2 =>
    cases h1
    cases h2 with
    | mul h3 h4 =>
      cases h3
      cases h4 with
      | sub h5 h6 =>
        cases h5
        cases h6
        exact Or.inl rfl
  | fmadd' h3 h4 h1 =>
    cases h1
    cases h3
    cases h4 with
    | sub h5 h6 =>
      cases h5
      cases h6
      exact Or.inr rfl

/-! ## Positions -/

/-- Samples that are data of the format. -/
def Data (φ : Format) (s : List (FVal φ)) : Prop := ∀ v ∈ s, Datum φ v

theorem datum_zero : Datum φ (0 : FVal φ) := by
  refine ⟨finite_zero, ?_, ?_⟩
  · show Grid φ 0
    exact grid_zero φ
  · show |(0 : ℚ)| < _
    rw [abs_zero]
    positivity

theorem index_ext {s : List (FVal φ)} (hd : Data φ s) {n : Int} (h0 : 0 ≤ n) (hn : n < s.length) :
    ∃ a : FVal φ, indexV s n = some a ∧ a ∈ s ∧ Datum φ a ∧ val a = ext (exactly s) n := by
  obtain ⟨k, rfl⟩ := Int.eq_ofNat_of_zero_le h0
  have hk : k < s.length := by omega
  refine ⟨s[k], ?_, List.getElem_mem hk, hd _ (List.getElem_mem hk), ?_⟩
  · unfold indexV
    rw [if_pos h0, Int.toNat_natCast, List.getElem?_eq_getElem hk]
  · rw [ext_nat, List.getD_eq_getElem?_getD]
    unfold exactly
    rw [List.getElem?_map, List.getElem?_eq_getElem hk]
    rfl

/-- Within the samples the code interpolates between the two neighbours. -/
theorem line_shape {flo : FVal φ → FVal φ} (hf : Floor φ flo) {X : ℝ} (hX : 0 ≤ X) {s : List (FVal φ)} (hs : Bounded X s)
    (hd : Data φ s) (hl : s.length < 9223372036854775807) {x : FVal φ} (hx : Datum φ x) (h0 : 0 ≤ val x)
    (hn : ⌊val x⌋ < s.length) :
    ∃ a b : FVal φ, line flo s x = some (lineBody (.leaf a) (.leaf (x - flo x)) (.leaf b)) ∧
      (Datum φ a ∧ |val a| ≤ X ∧ val a = ext (exactly s) ⌊val x⌋) ∧
      Datum φ b ∧ |val b| ≤ X ∧ val b = ext (exactly s) (⌊val x⌋ + 1) := by
  have f0 : 0 ≤ ⌊val x⌋ := Int.floor_nonneg.2 h0
  have hg : intV (flo x) = ⌊val x⌋ := by
    rw [intV_floor hf hx, goInt_of_nonneg (by exact_mod_cast f0) (by rw [Int.floor_intCast]; omega), Int.floor_intCast]
  obtain ⟨a, a1, a2, a3, a4⟩ := index_ext hd f0 hn
  have hw : wrap (⌊val x⌋ + 1) = ⌊val x⌋ + 1 := wrap_id (by unfold IsInt; omega)
  obtain ⟨b, b1, b2⟩ : ∃ b : FVal φ, highV s ⌊val x⌋ = some b ∧
      Datum φ b ∧ |val b| ≤ X ∧ val b = ext (exactly s) (⌊val x⌋ + 1) := by
    unfold highV
    simp only
    rw [hw]
    by_cases hc : ⌊val x⌋ + 1 ≥ s.length
    · refine ⟨0, if_pos hc, datum_zero, ?_, ?_⟩
      · rw [val_zero, abs_zero]; exact hX
      · rw [val_zero, ext_ge _ (by rw [exactly_length]; exact hc)]
    · obtain ⟨b, b1, b2, b3, b4⟩ := index_ext hd (n := ⌊val x⌋ + 1) (by omega) (by omega)
      exact ⟨b, by rw [if_neg hc, b1], b3, (hs b b2).2, b4⟩
  refine ⟨a, b, ?_, ⟨a3, (hs a a2).2, a4⟩, b2⟩
  unfold line
  simp only
  rw [hg, if_pos hn, a1, b1]
  rfl

theorem line_beyond {flo : FVal φ → FVal φ} (hf : Floor φ flo) {s : List (FVal φ)} {x : FVal φ} (hx : Datum φ x)
    (h0 : 0 ≤ val x) (h63 : val x < 9223372036854775808) (hn : ¬ ⌊val x⌋ < s.length) : line flo s x = some (.leaf 0) := by
  have f0 : 0 ≤ ⌊val x⌋ := Int.floor_nonneg.2 h0
  have f1 : ⌊val x⌋ < 9223372036854775808 := Int.floor_lt.2 (by exact_mod_cast h63)
  have hg : intV (flo x) = ⌊val x⌋ := by
    rw [intV_floor hf hx, goInt_of_nonneg (by exact_mod_cast f0) (by rw [Int.floor_intCast]; omega), Int.floor_intCast]
  unfold line
  simp only
  rw [hg, if_neg hn]

/-- The fraction is exact. -/
theorem fract_is (hok : φ.Ok) {flo : FVal φ → FVal φ} (hf : Floor φ flo) {x : FVal φ} (hx : Datum φ x) (h0 : 0 ≤ val x) :
    Is (x - flo x : FVal φ) (Val.toRat x - ⌊Val.toRat x⌋) ∧ Grid φ (Val.toRat x - ⌊Val.toRat x⌋) ∧
      ((Val.toRat x - ⌊Val.toRat x⌋ : ℚ) : ℝ) = Int.fract (val x) := by
  have hp1 : 1 ≤ φ.p := by have := hok.hp; omega
  have hq0 : 0 ≤ Val.toRat x := by unfold val at h0; exact_mod_cast h0
  have hg := grid_fract hq0 hx.grid
  have f0 : 0 ≤ Val.toRat x - ⌊Val.toRat x⌋ := Int.fract_nonneg _
  have f1 : Val.toRat x - ⌊Val.toRat x⌋ < 1 := Int.fract_lt_one _
  have hi := sub_rd φ (v := x) (w := flo x) ⟨hx.fin, rfl⟩ (hf x hx) (by
    rw [rd_grid φ hp1 hg, abs_of_nonneg f0]
    refine f1.trans ?_
    have : (2 : ℚ) ^ (0 : ℤ) < 2 ^ (φ.emax + 1) := zpow_lt_zpow_right₀ (by norm_num) (by have := hok.hmax; omega)
    rwa [zpow_zero] at this)
  rw [rd_grid φ hp1 hg] at hi
  refine ⟨hi, hg, ?_⟩
  unfold Int.fract val
  rw [Rat.floor_cast]
  push_cast
  rfl

/-- C100: rounding never takes linear interpolation out of the interval between the two neighbours (the samples being
continued by zeros), on any platform. -/
theorem C100_between {X : ℝ} (h : Scale φ X) (flo : FVal φ → FVal φ) (hf : Floor φ flo) (s : List (FVal φ))
    (hs : Bounded X s) (hd : Data φ s) (hl : s.length < 9223372036854775807) (x : FVal φ) (hx : Datum φ x)
    (h0 : 0 ≤ val x) (h63 : val x < 9223372036854775808) (v : FVal φ) (hv : Returns (line flo s x) v) :
    min (ext (exactly s) ⌊val x⌋) (ext (exactly s) (⌊val x⌋ + 1)) ≤ val v ∧
      val v ≤ max (ext (exactly s) ⌊val x⌋) (ext (exactly s) (⌊val x⌋ + 1)) := by
  obtain ⟨e, he, hev⟩ := hv
  by_cases hn : ⌊val x⌋ < s.length
  · obtain ⟨a, b, hab, ⟨a1, a2, a3⟩, b1, b2, b3⟩ := line_shape hf h.pos.le hs hd hl hx h0 hn
    rw [hab] at he
    cases he
    obtain ⟨t1, t2, t3⟩ := fract_is h.ok hf hx h0
    set T : ℚ := Val.toRat x - ⌊Val.toRat x⌋ with hT
    have T0 : 0 ≤ T := Int.fract_nonneg _
    have T1 : T < 1 := Int.fract_lt_one _
    have T2 := grid_lt_one t2 T0 T1
    obtain ⟨l1, l2, l3⟩ := line_values h (a := a) (b := b) (t := x - flo x) ⟨a1.fin, rfl⟩ ⟨b1.fin, rfl⟩ t1 a2 b2 (by
      rw [t3, abs_of_nonneg (Int.fract_nonneg _)]
      exact (Int.fract_lt_one _).le)
    rw [← a3, ← b3]
    have key : ∀ q : ℚ, (q = lerp φ (Val.toRat a) (Val.toRat b) T ∨ q = lerpF φ (Val.toRat a) (Val.toRat b) T) →
        min (Val.toRat a) (Val.toRat b) ≤ q ∧ q ≤ max (Val.toRat a) (Val.toRat b) := by
      intro q hq
      rcases le_total (Val.toRat a) (Val.toRat b) with hle | hle
      · obtain ⟨⟨r1, r2⟩, r3, r4⟩ := lerp_rising h.ok a1.grid b1.grid hle T0 T2
        rw [min_eq_left hle, max_eq_right hle]
        rcases hq with rfl | rfl
        · exact ⟨r1, r2⟩
        · exact ⟨r3, r4⟩
      · obtain ⟨⟨r1, r2⟩, r3, r4⟩ := lerp_rising h.ok (grid_neg a1.grid) (grid_neg b1.grid) (neg_le_neg hle) T0 T2
        rw [lerp_neg] at r1 r2
        rw [lerpF_neg] at r3 r4
        rw [min_eq_right hle, max_eq_left hle]
        rcases hq with rfl | rfl <;> constructor <;> linarith
    have fin : ∀ (w : FVal φ) (q : ℚ), Is w q → min (Val.toRat a) (Val.toRat b) ≤ q ∧ q ≤ max (Val.toRat a) (Val.toRat b) →
        min (val a) (val b) ≤ val w ∧ val w ≤ max (val a) (val b) := by
      rintro w q hw ⟨q1, q2⟩
      rw [val_of_is hw]
      unfold val
      constructor
      · exact_mod_cast q1
      · exact_mod_cast q2
    rcases l3 v hev with rfl | rfl
    · exact fin _ _ l1 (key _ (Or.inl rfl))
    · exact fin _ _ l2 (key _ (Or.inr rfl))
  · rw [line_beyond hf hx h0 h63 hn] at he
    cases he
    cases hev
    rw [ext_ge _ (by rw [exactly_length]; omega), ext_ge _ (by rw [exactly_length]; omega), val_zero]
    simp

/-- C100: without fused operations linear interpolation is monotone between two neighbours: rising where they rise, falling
where they fall. -/
theorem C100_monotone {X : ℝ} (h : Scale φ X) (flo : FVal φ → FVal φ) (hf : Floor φ flo) (s : List (FVal φ))
    (hs : Bounded X s) (hd : Data φ s) (hl : s.length < 9223372036854775807) (x y : FVal φ) (hx : Datum φ x) (hy : Datum φ y)
    (h0 : 0 ≤ val x) (hxy : val x ≤ val y) (hfl : ⌊val x⌋ = ⌊val y⌋) (hn : ⌊val x⌋ < s.length) :
    ∃ e f : Expr φ, line flo s x = some e ∧ line flo s y = some f ∧
      (ext (exactly s) ⌊val x⌋ ≤ ext (exactly s) (⌊val x⌋ + 1) → val e.unfused ≤ val f.unfused) ∧
      (ext (exactly s) (⌊val x⌋ + 1) ≤ ext (exactly s) ⌊val x⌋ → val f.unfused ≤ val e.unfused) := by
  have h0y := h0.trans hxy
  obtain ⟨a, b, hab, ⟨a1, a2, a3⟩, b1, b2, b3⟩ := line_shape hf h.pos.le hs hd hl hx h0 hn
  obtain ⟨a', b', hab', ⟨a1', a2', a3'⟩, b1', b2', b3'⟩ := line_shape hf h.pos.le hs hd hl hy h0y (hfl ▸ hn)
  obtain ⟨t1, t2, t3⟩ := fract_is h.ok hf hx h0
  obtain ⟨u1, u2, u3⟩ := fract_is h.ok hf hy h0y
  set T : ℚ := Val.toRat x - ⌊Val.toRat x⌋ with hT
  set U : ℚ := Val.toRat y - ⌊Val.toRat y⌋ with hU
  obtain ⟨l1, -, -⟩ := line_values h (a := a) (b := b) (t := x - flo x) ⟨a1.fin, rfl⟩ ⟨b1.fin, rfl⟩ t1 a2 b2 (by
      rw [t3, abs_of_nonneg (Int.fract_nonneg _)]
      exact (Int.fract_lt_one _).le)
  obtain ⟨m1, -, -⟩ := line_values h (a := a') (b := b') (t := y - flo y) ⟨a1'.fin, rfl⟩ ⟨b1'.fin, rfl⟩ u1 a2' b2' (by
      rw [u3, abs_of_nonneg (Int.fract_nonneg _)]
      exact (Int.fract_lt_one _).le)
  have hTU : T ≤ U := by
    have : ((T : ℚ) : ℝ) ≤ ((U : ℚ) : ℝ) := by
      rw [t3, u3]
      unfold Int.fract
      rw [hfl]
      linarith
    exact_mod_cast this
  have ea : Val.toRat a' = Val.toRat a := by
    have : val a' = val a := by rw [a3, a3', hfl]
    unfold val at this
    exact_mod_cast this
  have eb : Val.toRat b' = Val.toRat b := by
    have : val b' = val b := by rw [b3, b3', hfl]
    unfold val at this
    exact_mod_cast this
  rw [ea, eb] at m1
  refine ⟨_, _, hab, hab', ?_, ?_⟩
  · intro hle
    rw [← a3, ← b3] at hle
    rw [val_of_is l1, val_of_is m1]
    have := (lerp_mono h.ok (a := Val.toRat a) (b := Val.toRat b) (by unfold val at hle; exact_mod_cast hle) hTU).1
    exact_mod_cast this
  · intro hle
    rw [← a3, ← b3] at hle
    rw [val_of_is l1, val_of_is m1]
    have := (lerp_mono h.ok (a := -Val.toRat a) (b := -Val.toRat b) (by unfold val at hle; exact neg_le_neg (by exact_mod_cast hle)) hTU).1
    rw [lerp_neg, lerp_neg] at this
    have : lerp φ (Val.toRat a) (Val.toRat b) U ≤ lerp φ (Val.toRat a) (Val.toRat b) T := by linarith
    exact_mod_cast this

/-! ## At the samples -/

theorem at_zero (hok : φ.Ok) {e : Expr φ} {x c : FVal φ} (he : ∀ v, Eval e v → Finite v) (hx : Is x 0) (hc : Datum φ c) {v : FVal φ}
    (hv : Eval (.add (.mul e (.leaf x)) (.leaf c)) v) : Finite v ∧ val v = val c := by
  have hp1 : 1 ≤ φ.p := by have := hok.hp; omega
  have hrc := rd_grid φ hp1 hc.grid
  have fin : ∀ w : FVal φ, Is w (Val.toRat c) → Finite w ∧ val w = val c := fun w hw => ⟨hw.1, val_of_is hw⟩
  cases hv with
  | add h1 h2 =>
    cases h2
    cases h1 with
    | mul h3 h4 =>
      cases h4
      rename_i p
      have m := mul_rd φ (v := p) ⟨he p h3, rfl⟩ hx (by rw [mul_zero, rd_zero, abs_zero]; positivity)
      rw [mul_zero, rd_zero] at m
      have := add_rd φ (w := c) m ⟨hc.fin, rfl⟩ (by rw [zero_add, hrc]; exact hc.range)
      rw [zero_add, hrc] at this
      exact fin _ this
  | fmadd h3 h4 h2 =>
    cases h2
    cases h4
    rename_i p
    have := fma_rd φ (a := p) (c := c) ⟨he p h3, rfl⟩ hx ⟨hc.fin, rfl⟩ (by rw [mul_zero, zero_add, hrc]; exact hc.range)
    rw [mul_zero, zero_add, hrc] at this
    exact fin _ this

theorem tap_datum {s : List (FVal φ)} (hd : Data φ s) (xi i : Int) : Datum φ (tapV s xi i) := by
  unfold tapV
  simp only
  split
  · rw [List.getD_eq_getElem?_getD]
    cases hc : s[(wrap (xi + i)).toNat]? with
    | none => exact datum_zero
    | some v => exact hd v (List.mem_of_getElem? hc)
  · exact datum_zero

/-- C100: at an integer position linear and Hermite interpolation return the sample there without error, on any platform. -/
theorem C100_sample {X : ℝ} (h : Scale φ X) (flo : FVal φ → FVal φ) (hf : Floor φ flo) (s : List (FVal φ))
    (hs : Bounded X s) (hd : Data φ s) (hl : s.length < 9223372036854775807) (x : FVal φ) (hx : Datum φ x) (n : Nat)
    (hn : n < s.length) (hxn : val x = n) (v : FVal φ) :
    (Returns (line flo s x) v → Finite v ∧ val v = val s[n]) ∧
      (Eval (hermiteFp flo s x) v → Finite v ∧ val v = val s[n]) := by
  have h0 : 0 ≤ val x := by rw [hxn]; positivity
  have hfl : ⌊val x⌋ = n := by rw [hxn, Int.floor_natCast]
  have hext : ext (exactly s) n = val s[n] := by
    rw [ext_nat, List.getD_eq_getElem?_getD]
    unfold exactly
    rw [List.getElem?_map, List.getElem?_eq_getElem hn]
    rfl
  obtain ⟨t1, -, t3⟩ := fract_is h.ok hf hx h0
  have tz : Val.toRat x - ⌊Val.toRat x⌋ = 0 := by
    have : Int.fract (val x) = 0 := by rw [hxn, Int.fract_natCast]
    rw [this] at t3
    exact_mod_cast t3
  rw [tz] at t1
  constructor
  · rintro ⟨e, he, hev⟩
    obtain ⟨a, b, hab, ⟨a1, a2, a3⟩, b1, b2, b3⟩ := line_shape hf h.pos.le hs hd hl hx h0 (by rw [hfl]; exact_mod_cast hn)
    rw [hab] at he
    cases he
    have hp1 : 1 ≤ φ.p := by have := h.ok.hp; omega
    obtain ⟨l1, l2, l3⟩ := line_values h (a := a) (b := b) (t := x - flo x) ⟨a1.fin, rfl⟩ ⟨b1.fin, rfl⟩ t1 a2 b2 (by
      rw [Rat.cast_zero, abs_zero]; norm_num)
    rw [hfl, hext] at a3
    unfold lerp at l1
    unfold lerpF at l2
    rw [zero_mul, rd_zero, add_zero, rd_grid φ hp1 a1.grid] at l1
    rw [zero_mul, zero_add, rd_grid φ hp1 a1.grid] at l2
    rw [← a3]
    rcases l3 v hev with rfl | rfl
    · exact ⟨l1.1, val_of_is l1⟩
    · exact ⟨l2.1, val_of_is l2⟩
  · intro hev
    have tp := fun i => bounded_tap h.pos.le hs (intV x) i
    have lf := fun i => Vec.leaf (tp i).1 (tp i).2
    have hb := (hermite_bound h (lf (-1)) (lf 0) (lf 1) (lf 2) (fract_sca h hf hx).1).1
    obtain ⟨_, _, _, _, _, _, -, g1, -⟩ := hb.add_inv
    obtain ⟨_, _, _, _, _, _, -, g2, -⟩ := g1.mul_inv
    have hi : intV x = n := by rw [intV_eq hx.fin, goInt_of_nonneg h0 (by omega), hfl]
    have hz := at_zero h.ok (fun w hw => (An.eval h.ok hw g2).1) t1 (tap_datum hd (intV x) 0) hev
    have ht : tap (exactly s) (intV x) 0 = val s[n] := by
      rw [hi, ← hext, ext_nat]
      unfold tap
      simp only
      rw [add_zero, wrap_id (by unfold IsInt; omega), if_pos ⟨by omega, by rw [exactly_length]; omega⟩, Int.toNat_natCast]
    exact ⟨hz.1, hz.2.trans ((tapV_eq s (intV x) 0).symm.trans ht)⟩

/-! ## What fails -/

/-- `-math.MaxFloat32`. -/
def min32 : FVal binary32 := Fp.neg max32

/-- C100: not so where the samples are large: the distance of the neighbours overflows, and the interpolation of two finite
samples is not a number even at the first of them, on any platform. -/
theorem C100_violated_overflow (v : FVal binary32)
    (hv : Returns (linear32 [max32, min32] (0 : FVal binary32)) v) : (show Val from v) = .nan := by
  obtain ⟨e, he, hev⟩ := hv
  have h1 : linear32 [max32, min32] (0 : FVal binary32) =
      some (lineBody (.leaf max32) (.leaf ((0 : FVal binary32) - floor32 0)) (.leaf min32)) := by
    have c : (ltV (0 : FVal binary32) (0 : FVal binary32) || ltV max32 (0 : FVal binary32)) = false := by decide +kernel
    have z : intV (floor32 (0 : FVal binary32)) = 0 := by decide +kernel
    have w : wrap 1 = 1 := by decide +kernel
    unfold linear32 line
    rw [c]
    simp only
    rw [z]
    simp [highV, indexV, w]
  rw [h1] at he
  cases he
  change Eval (.add (.leaf max32) (.mul (.leaf ((0 : FVal binary32) - floor32 0)) (.sub (.leaf min32) (.leaf max32)))) v at hev
  have n1 : (show Val from (show FVal binary32 from max32 + ((0 : FVal binary32) - floor32 0) * (min32 - max32))) = .nan := by
    decide +kernel
  have n2 : (show Val from fma binary32 ((0 : FVal binary32) - floor32 0) (min32 - max32) max32) = .nan := by
    decide +kernel
  cases hev with
  | add h1 h2 =>
    cases h1
    cases h2 with
    | mul h3 h4 =>
      cases h3
      cases h4 with
      | sub h5 h6 =>
        cases h5
        cases h6
        exact n1
  | fmadd' h3 h4 h1 =>
    cases h1
    cases h3
    cases h4 with
    | sub h5 h6 =>
      cases h5
      cases h6
      exact n2

theorem line_bad {flo : FVal φ → FVal φ} {x : FVal φ} (h : intV (flo x) = -9223372036854775808) (s : List (FVal φ)) :
    line flo s x = none := by
  unfold line
  simp only
  rw [h, if_pos (by omega)]
  unfold indexV
  rw [if_neg (by norm_num)]
  rfl

/-- C100: a position that is not a number makes both linear interpolators panic, whatever the samples; an infinite one
makes the double-precision one panic, and a negative infinite one too, where the single-precision one returns zero. -/
theorem C100_violated_nan (s : List (FVal binary32)) (t : List (FVal binary64)) (b : Bool) :
    linear32 s (Val.nan : FVal binary32) = none ∧ linear64 t (Val.nan : FVal binary64) = none ∧
      linear64 t (Val.inf b : FVal binary64) = none ∧ linear32 s (Val.inf b : FVal binary32) = some (.leaf 0) := by
  refine ⟨?_, line_bad rfl t, line_bad rfl t, ?_⟩
  · unfold linear32
    have c : (ltV (Val.nan : FVal binary32) (0 : FVal binary32) || ltV max32 (Val.nan : FVal binary32)) = false := by
      decide +kernel
    rw [c]
    exact line_bad (flo := floor32) (x := (Val.nan : FVal binary32)) (by decide +kernel) s
  · unfold linear32
    have c : (ltV (Val.inf b : FVal binary32) (0 : FVal binary32) || ltV max32 (Val.inf b : FVal binary32)) = true := by
      cases b <;> decide +kernel
    rw [c]
    rfl

/-! ## Examples -/

/-- The hypotheses are satisfiable: audio samples in single precision. -/
theorem scale32_one : Scale binary32 1 :=
  scale32 (by
    have e : wR binary32 = 2 ^ (-150 : ℤ) := rfl
    have hu : uR binary32 = 1 / 2 ^ 24 := by unfold uR; norm_num [binary32]
    rw [e, hu, mul_one]
    norm_num) (by norm_num [binary32])

def half32 : FVal binary32 := (Val.fin false (1 / 2) : Val)
def quarter32 : FVal binary32 := (Val.fin true (1 / 4) : Val)

theorem datum_half : Datum binary32 half32 ∧ |val half32| ≤ 1 := by
  refine ⟨⟨⟨_, _, rfl, by norm_num⟩, ⟨1, -1, by decide, by decide, ?_⟩, ?_⟩, ?_⟩
  · show |(1 / 2 : ℚ)| = _
    norm_num
  · show |(1 / 2 : ℚ)| < 2 ^ (128 : ℤ)
    norm_num
  · show |val (Val.fin false (1 / 2))| ≤ 1
    rw [val_fin]
    norm_num

theorem datum_quarter : Datum binary32 quarter32 ∧ |val quarter32| ≤ 1 := by
  refine ⟨⟨⟨_, _, rfl, by norm_num⟩, ⟨1, -2, by decide, by decide, ?_⟩, ?_⟩, ?_⟩
  · show |(-(1 / 4) : ℚ)| = _
    norm_num
  · show |(-(1 / 4) : ℚ)| < 2 ^ (128 : ℤ)
    norm_num
  · show |val (Val.fin true (1 / 4))| ≤ 1
    rw [val_fin]
    norm_num [abs_le]

def audio : List (FVal binary32) := [quarter32, half32, half32, quarter32, half32]

theorem audio_ok : Bounded 1 audio ∧ Data binary32 audio := by
  constructor <;> intro v hv <;>
    · simp only [audio, List.mem_cons, List.not_mem_nil, or_false] at hv
      rcases hv with rfl | rfl | rfl | rfl | rfl <;>
        first
          | exact ⟨datum_half.1.fin, datum_half.2⟩
          | exact ⟨datum_quarter.1.fin, datum_quarter.2⟩
          | exact datum_half.1
          | exact datum_quarter.1

example (v : FVal binary32) (hv : Eval (opt6Fp floor32 audio half32) v) :
    |val v - optimal6 (exactly audio) (val half32)| ≤ 35 * uR binary32 :=
  (C100_optimal6 scale32_one _ C100_floor.2 _ audio_ok.1 _ datum_half.1 v hv).2.trans (by rw [mul_one])

example (v : FVal binary32) (hv : Eval (opt4Fp floor32 audio half32) v) :
    |val v - optimal4 (exactly audio) (val half32)| ≤ 34 * uR binary32 :=
  (C100_optimal4 scale32_one _ C100_floor.2 _ audio_ok.1 _ datum_half.1 v hv).2.trans (by rw [mul_one])

example (v : FVal binary32) (hv : Eval (hermiteFp floor32 audio half32) v) :
    |val v - hermite (exactly audio) (val half32)| ≤ 171 * uR binary32 :=
  (C100_hermite scale32_one _ C100_floor.2 _ audio_ok.1 _ datum_half.1 v hv).2.trans (by rw [mul_one])

example := C100_linear32 scale32_one audio audio_ok.1 half32 datum_half.1
example := C100_between scale32_one floor32 C100_floor.2 audio audio_ok.1 audio_ok.2 (by decide) half32 datum_half.1
  (by show 0 ≤ val (Val.fin false (1 / 2)); rw [val_fin]; norm_num)
  (by show val (Val.fin false (1 / 2)) < _; rw [val_fin]; norm_num)

end Verif.Interp
