import Verif.Dtmf.DialCheck
import Verif.Dtmf.ToneFp

/-!
# What the detectors get of a tone through the effective window

Helper for C140: the integers of `DialCheck` as bounds on real numbers, for all frequencies within a quarter of a percent of the eight tones.
-/

namespace Verif.Dtmf.Dial
open Complex Verif.Ax25.Ear Verif.Ax25.Ear.Ball

/-- The effective window of examples/dtmf_file.go: a sample in full flow has been multiplied by the window at each position it has been at. -/
noncomputable def effW (n : Nat) : ℝ := ∏ m ∈ Finset.range 5, if n + 51 * m < 205 then ham 205 (n + 51 * m) else 1

/-- What bin `k` would get of a complex tone, `θ` being the difference of the angles per sample. -/
noncomputable def gain (θ : ℝ) : ℝ := ‖∑ n ∈ Finset.range 205, (effW n : ℂ) * exp ((θ * n : ℝ) * I)‖

theorem hamRun_cons (c : Nat) (l : List Nat) (P : Ball) : hamRun (c :: l) P = (nearW c P && hamRun l (turn P stepW)) := by
  have h := forceB_eq (turn P stepW) (hamRun l)
  show (nearW c P && forceB (turn P stepW) (hamRun l)) = _
  rw [h]

theorem scale_val : (scale : ℝ) = 1000000000000 := by norm_num [scale]

theorem nearW_spec {c : Nat} {P : Ball} {t : ℝ} (hP : P.Has (exp ((t : ℝ) * I))) (h : nearW c P = true) :
    |(0.53836 - 0.46164 * Real.cos t) - (c : ℝ) / scale| ≤ 0.00000003 ∧ c ≤ unitN := by
  unfold nearW at h
  rw [Bool.and_eq_true] at h
  have h1 := of_decide_eq_true h.1
  have h2 := Nat.le_of_ble_eq_true h.2
  refine ⟨?_, h2⟩
  unfold Has at hP
  have hre := (Complex.abs_re_le_norm _).trans hP
  rw [sub_re, re_mul_ofReal, exp_ofReal_mul_I_re] at hre
  have h1r : |(538360000000 - (c : ℝ)) * scale - 461640000000 * P.re| + 461640000000 * P.err ≤ 30000 * scale := by
    have := (Int.cast_le (R := ℝ)).2 h1
    push_cast at this
    exact this
  simp only [mid] at hre
  rw [scale_val] at hre h1r ⊢
  have a1 := neg_abs_le ((538360000000 - (c : ℝ)) * 1000000000000 - 461640000000 * P.re)
  have a2 := le_abs_self ((538360000000 - (c : ℝ)) * 1000000000000 - 461640000000 * P.re)
  rw [abs_le] at hre ⊢
  constructor <;> linarith

theorem hamRun_spec (l : List Nat) : ∀ (n0 : Nat) (P : Ball), P.Has (exp ((2 * Real.pi * n0 / 204 : ℝ) * I)) → hamRun l P = true →
    ∀ i (hi : i < l.length), |ham 205 (n0 + i) - (l[i] : ℝ) / scale| ≤ 0.00000003 ∧ l[i] ≤ unitN := by
  induction l with
  | nil => intro _ _ _ _ i hi; simp at hi
  | cons c l ih =>
    intro n0 P hP h i hi
    rw [hamRun_cons, Bool.and_eq_true] at h
    cases i with
    | zero =>
      have := nearW_spec hP h.1
      rw [ham]
      simp only [Nat.cast_ofNat, Nat.add_zero, List.getElem_cons_zero]
      rw [show (205 - 1 : ℝ) = 204 by norm_num]
      exact this
    | succ i =>
      have h2 := has_turn hP has_stepW (norm_cis _)
      have e : exp ((2 * Real.pi * n0 / 204 : ℝ) * I) * exp ((2 * Real.pi / 204 : ℝ) * I) = exp ((2 * Real.pi * (n0 + 1 : Nat) / 204 : ℝ) * I) := by
        rw [← Complex.exp_add]
        congr 1
        push_cast
        ring
      rw [e] at h2
      have := ih (n0 + 1) _ h2 h.2 i (by simpa using hi)
      rw [show n0 + (i + 1) = n0 + 1 + i by omega]
      simpa using this

theorem hamList_near {n : Nat} (hn : n < 205) : |(hamList.getD n 0 : ℝ) / scale - ham 205 n| ≤ 0.00000003 ∧ hamList.getD n 0 ≤ unitN := by
  have hl : hamList.length = 205 := by decide +kernel
  have h := hamRun_spec hamList 0 one (by simpa using has_one) hamRun_ok n (by omega)
  rw [List.getD_eq_getElem?_getD, List.getElem?_eq_getElem (by omega), Option.getD_some, abs_sub_comm]
  rw [zero_add] at h
  exact h

/-- A number in units near a real number between 0 and 1. -/
def Near (p : Nat) (x e : ℝ) : Prop := |(p : ℝ) / scale - x| ≤ e ∧ 0 ≤ x ∧ x ≤ 1

theorem near_step {p h : Nat} {x y e δ : ℝ} (hp : Near p x e) (hh : Near h y δ) (hu : h ≤ unitN) : Near (p * h / unitN) (x * y) (e + δ + 1 / scale) := by
  have hs := scale_pos
  obtain ⟨p1, p2, p3⟩ := hp
  obtain ⟨h1, h2, h3⟩ := hh
  refine ⟨?_, mul_nonneg p2 h2, mul_le_one₀ p3 h2 h3⟩
  have huR : (h : ℝ) / scale ≤ 1 := by
    rw [div_le_one hs, scale_eq]
    exact_mod_cast hu
  have hu0 : 0 ≤ (h : ℝ) / scale := by positivity
  have hfl : |((p * h / unitN : Nat) : ℝ) / scale - (p : ℝ) / scale * (h / scale)| ≤ 1 / scale := by
    have d := Nat.div_add_mod (p * h) unitN
    have m := Nat.mod_lt (p * h) (show 0 < unitN by decide)
    have dr : (unitN : ℝ) * ((p * h / unitN : Nat) : ℝ) + ((p * h % unitN : Nat) : ℝ) = p * h := by exact_mod_cast d
    have mr : ((p * h % unitN : Nat) : ℝ) < unitN := by exact_mod_cast m
    have m0 : (0 : ℝ) ≤ ((p * h % unitN : Nat) : ℝ) := Nat.cast_nonneg _
    have es : (scale : ℝ) = unitN := by rw [scale_eq]; simp
    rw [es] at hs ⊢
    have e1 : ((p * h / unitN : Nat) : ℝ) / unitN - (p : ℝ) / unitN * (h / unitN) = -(((p * h % unitN : Nat) : ℝ) / unitN) / unitN := by
      field_simp
      linarith
    rw [e1, abs_div, abs_neg, abs_of_pos hs, abs_of_nonneg (by positivity)]
    apply div_le_div_of_nonneg_right _ hs.le
    rw [div_le_one hs]
    exact mr.le
  have e2 : ((p * h / unitN : Nat) : ℝ) / scale - x * y = (((p * h / unitN : Nat) : ℝ) / scale - (p : ℝ) / scale * (h / scale))
      + ((p : ℝ) / scale - x) * (h / scale) + x * (h / scale - y) := by ring
  rw [e2]
  have t1 : |((p : ℝ) / scale - x) * (h / scale)| ≤ e := by
    rw [abs_mul, abs_of_nonneg hu0]
    calc _ ≤ e * 1 := mul_le_mul p1 huR hu0 ((abs_nonneg _).trans p1)
      _ = e := mul_one e
  have t2 : |x * (h / scale - y)| ≤ δ := by
    rw [abs_mul, abs_of_nonneg p2]
    calc _ ≤ 1 * δ := mul_le_mul p3 h1 (abs_nonneg _) zero_le_one
      _ = δ := one_mul δ
  have := abs_add_le (((p * h / unitN : Nat) : ℝ) / scale - (p : ℝ) / scale * (h / scale) + ((p : ℝ) / scale - x) * (h / scale)) (x * (h / scale - y))
  have := abs_add_le (((p * h / unitN : Nat) : ℝ) / scale - (p : ℝ) / scale * (h / scale)) (((p : ℝ) / scale - x) * (h / scale))
  linarith

theorem near_if {p n : Nat} {x e : ℝ} (hp : Near p x e) :
    Near (if n < 205 then p * hamList.getD n 0 / unitN else p) (x * if n < 205 then ham 205 n else 1) (e + 0.00000003 + 1 / scale) := by
  have hs := scale_pos
  by_cases h : n < 205
  · rw [if_pos h, if_pos h]
    obtain ⟨h1, h2⟩ := hamList_near h
    exact near_step hp ⟨h1, ham_nonneg _ _, ham_le_one _ _⟩ h2
  · rw [if_neg h, if_neg h, mul_one]
    refine ⟨hp.1.trans ?_, hp.2⟩
    have : 0 ≤ 1 / (scale : ℝ) := by positivity
    linarith

theorem eff_near (n : Nat) : Near (effOf n) (effW n) 0.0000002 := by
  have hs := scale_pos
  have es := scale_val
  have h0 : Near unitN 1 0 := by
    refine ⟨?_, zero_le_one, le_rfl⟩
    rw [scale_eq]
    norm_num [unitN]
  have d : (0 : ℝ) ≤ 0.00000003 + 1 / (scale : ℝ) := by positivity
  have h1 := near_if (n := n + 51 * 0) h0
  have h2 := near_if (n := n + 51 * 1) h1
  have h3 := near_if (n := n + 51 * 2) h2
  have h4 := near_if (n := n + 51 * 3) h3
  have h5 := near_if (n := n + 51 * 4) h4
  rw [one_mul] at h5
  unfold effW
  rw [Finset.prod_range_succ, Finset.prod_range_succ, Finset.prod_range_succ, Finset.prod_range_succ, Finset.prod_range_one]
  refine ⟨h5.1.trans ?_, h5.2⟩
  rw [es]
  norm_num

theorem effW_nonneg (n : Nat) : 0 ≤ effW n := (eff_near n).2.1
theorem effW_le_one (n : Nat) : effW n ≤ 1 := (eff_near n).2.2

theorem effList_length : effList.length = 205 := by rw [effList_eq]; simp

theorem effList_get {n : Nat} (hn : n < 205) : effList.getD n 0 = effOf n := by
  rw [effList_eq, List.getD_eq_getElem?_getD, List.getElem?_map, List.getElem?_range hn]
  rfl

/-- The sum of the effective window. -/
theorem effW_sum : ∑ n ∈ Finset.range 205, effW n ≤ 32.9252 := by
  have h1 : ∀ n ∈ Finset.range 205, effW n ≤ (effOf n : ℝ) / scale + 0.0000002 := by
    intro n _
    have := (abs_le.1 (eff_near n).1).1
    linarith
  refine (Finset.sum_le_sum h1).trans ?_
  rw [Finset.sum_add_distrib, ← Finset.sum_div, ← Nat.cast_sum]
  have h2 : ∑ n ∈ Finset.range 205, effOf n ≤ 32925110000000 := by decide +kernel
  have h3 : ((∑ n ∈ Finset.range 205, effOf n : Nat) : ℝ) ≤ 32925110000000 := by exact_mod_cast h2
  generalize ((∑ n ∈ Finset.range 205, effOf n : Nat) : ℝ) = x at h3
  norm_num [scale]
  linarith

/-- The first moment around the middle of the effective window. -/
theorem effW_moment : ∑ n ∈ Finset.range 205, effW n * |(n : ℝ) - 121| ≤ 1284.7 := by
  have h1 : ∀ n ∈ Finset.range 205, effW n * |(n : ℝ) - 121| ≤ ((effOf n * ((n : Int) - 121).natAbs : Nat) : ℝ) / scale + 0.00003 := by
    intro n hn
    rw [Finset.mem_range] at hn
    have h := (abs_le.1 (eff_near n).1).1
    have e : |(n : ℝ) - 121| = (((n : Int) - 121).natAbs : ℝ) := by
      rw [Nat.cast_natAbs]; push_cast; rfl
    have hb : (((n : Int) - 121).natAbs : ℝ) ≤ 121 := by
      have : ((n : Int) - 121).natAbs ≤ 121 := by omega
      exact_mod_cast this
    rw [e]
    push_cast
    generalize (((n : Int) - 121).natAbs : ℝ) = y at *
    have hy : 0 ≤ y := by rw [← e]; exact abs_nonneg _
    have : effW n * y ≤ ((effOf n : ℝ) / scale + 0.0000002) * y := mul_le_mul_of_nonneg_right (by linarith) hy
    have e2 : ((effOf n : ℝ) / scale + 0.0000002) * y = (effOf n : ℝ) * y / scale + 0.0000002 * y := by ring
    linarith
  refine (Finset.sum_le_sum h1).trans ?_
  rw [Finset.sum_add_distrib, ← Finset.sum_div, ← Nat.cast_sum]
  have h2 : ∑ n ∈ Finset.range 205, effOf n * ((n : Int) - 121).natAbs ≤ 1284690000000000 := by decide +kernel
  have h3 : ((∑ n ∈ Finset.range 205, effOf n * ((n : Int) - 121).natAbs : Nat) : ℝ) ≤ 1284690000000000 := by exact_mod_cast h2
  generalize ((∑ n ∈ Finset.range 205, effOf n * ((n : Int) - 121).natAbs : Nat) : ℝ) = x at h3
  norm_num [scale]
  linarith

/-! ## Horner's rule -/

theorem hornerC_eq (z : ℂ) (l : List Nat) (h : ℂ) :
    hornerC z l h = h * z ^ l.length + ∑ n ∈ Finset.range l.length, (l.getD n 0 : ℂ) / (scale : ℝ) * z ^ (l.length - 1 - n) := by
  induction l generalizing h with
  | nil => simp [hornerC]
  | cons c l ih =>
    have e : hornerC z (c :: l) h = hornerC z l (h * z + (c : ℂ) / (scale : ℝ)) := rfl
    rw [e, ih, List.length_cons, Finset.sum_range_succ']
    have e2 : ∀ n ∈ Finset.range l.length, ((c :: l).getD (n + 1) 0 : ℂ) / (scale : ℝ) * z ^ (l.length + 1 - 1 - (n + 1)) =
        (l.getD n 0 : ℂ) / (scale : ℝ) * z ^ (l.length - 1 - n) := by
      intro n hn
      rw [List.getD_cons_succ]
      congr 2
      omega
    rw [Finset.sum_congr rfl e2]
    simp only [List.getD_cons_zero, Nat.add_sub_cancel, Nat.sub_zero]
    ring

/-- The modulus of the result is that of the sum in the other direction. -/
theorem hornerC_norm (θ : ℝ) :
    ‖hornerC (exp ((θ : ℝ) * I)) effList 0‖ = ‖∑ n ∈ Finset.range 205, (((effOf n : ℝ) / scale : ℝ) : ℂ) * exp ((θ * n : ℝ) * I)‖ := by
  rw [hornerC_eq, effList_length, zero_mul, zero_add]
  have e : ∑ n ∈ Finset.range 205, (effList.getD n 0 : ℂ) / (scale : ℝ) * exp ((θ : ℝ) * I) ^ (205 - 1 - n)
      = exp ((204 * θ : ℝ) * I) * (starRingEnd ℂ) (∑ n ∈ Finset.range 205, (((effOf n : ℝ) / scale : ℝ) : ℂ) * exp ((θ * n : ℝ) * I)) := by
    rw [map_sum, Finset.mul_sum]
    refine Finset.sum_congr rfl fun n hn => ?_
    rw [Finset.mem_range] at hn
    rw [effList_get hn, map_mul, Complex.conj_ofReal, ← Complex.exp_conj, map_mul, Complex.conj_I, Complex.conj_ofReal, cis_pow]
    have e1 : exp (((205 - 1 - n : Nat) * θ : ℝ) * I) = exp ((204 * θ : ℝ) * I) * exp (((θ * n : ℝ) : ℂ) * -I) := by
      rw [← Complex.exp_add]
      congr 1
      rw [Nat.cast_sub (by omega)]
      push_cast
      ring
    rw [e1]
    push_cast
    ring
  rw [e, norm_mul, norm_cis, one_mul, Complex.norm_conj]

theorem hornerC_gain (θ : ℝ) : |‖hornerC (exp ((θ : ℝ) * I)) effList 0‖ - gain θ| ≤ 0.00005 := by
  rw [hornerC_norm, gain]
  refine (abs_norm_sub_norm_le _ _).trans ?_
  rw [← Finset.sum_sub_distrib]
  refine (norm_sum_le _ _).trans ?_
  have : ∀ n ∈ Finset.range 205, ‖(((effOf n : ℝ) / scale : ℝ) : ℂ) * exp ((θ * n : ℝ) * I) - (effW n : ℂ) * exp ((θ * n : ℝ) * I)‖ ≤ 0.0000002 := by
    intro n _
    rw [← sub_mul, norm_mul, norm_cis, mul_one, ← Complex.ofReal_sub, Complex.norm_real, Real.norm_eq_abs]
    exact (eff_near n).1
  refine (Finset.sum_le_sum this).trans ?_
  rw [Finset.sum_const, Finset.card_range, nsmul_eq_mul]
  norm_num

/-- `evalAt` on the effective window. -/
theorem evalAt_gain {θ : ℝ} {Z : Ball} (hZ : Z.Has (exp ((θ : ℝ) * I))) (he : Z.err ≤ errZ) (fin : Nat → Bool) (h : evalAt Z effList fin = true) :
    ∃ s : Nat, fin s = true ∧ |gain θ * scale - Real.sqrt s| ≤ 2200000000 := by
  obtain ⟨s, h1, h2⟩ := evalAt_spec (norm_cis θ) hZ he effList (by decide +kernel) (by rw [effList_length]; decide) fin h
  refine ⟨s, h1, ?_⟩
  have h3 := hornerC_gain θ
  rw [effList_length] at h2
  norm_num [scale, errZ] at h2 h3 ⊢
  rw [abs_le] at *
  constructor <;> linarith

theorem sqrt_le_of {s a : Nat} (h : s ≤ a * a) : Real.sqrt s ≤ a := by
  rw [Real.sqrt_le_left (Nat.cast_nonneg _), pow_two]
  exact_mod_cast h

theorem le_sqrt_of {s a : Nat} (h : a * a ≤ s) : (a : ℝ) ≤ Real.sqrt s := by
  apply Real.le_sqrt_of_sq_le
  rw [pow_two]
  exact_mod_cast h

/-- The angle of bin `k`. -/
noncomputable def binAngle (k : Nat) : ℝ := 2 * Real.pi * k / 205

/-- The angle of `q` quarters of a hertz. -/
noncomputable def toneAngle (f : ℝ) : ℝ := 2 * Real.pi * f / 8000

/-- The statement of a column at one frequency. -/
def ColOk (f : ℝ) (c : Col) (e : ℝ) : Prop :=
  c.lo / 1000 - e ≤ gain (toneAngle f - binAngle c.k) ∧ gain (toneAngle f - binAngle c.k) ≤ c.up / 1000 + e ∧
    gain (toneAngle f + binAngle c.k) ≤ c.mir / 1000 + e

theorem colCheck_spec {P : Ball} {f : ℝ} (hP : P.Has (exp ((toneAngle f : ℝ) * I))) {c : Col} (hc : c.k ∈ binList) (h : colCheck P c = true) :
    ColOk f c 0.0022 := by
  unfold colCheck at h
  rw [forceB_eq, forceB_eq] at h
  simp only [Bool.and_eq_true, decide_eq_true_eq] at h
  obtain ⟨⟨a1, a2⟩, b1, b2⟩ := h
  have hq := has_binBall hc
  have n1 : ‖(starRingEnd ℂ) (exp ((2 * Real.pi * c.k / 205 : ℝ) * I))‖ = 1 := by rw [Complex.norm_conj, norm_cis]
  have t1 := has_turn hP (has_conj hq) n1
  have t2 := has_turn hP hq (norm_cis _)
  have e1 : exp ((toneAngle f : ℝ) * I) * (starRingEnd ℂ) (exp ((2 * Real.pi * c.k / 205 : ℝ) * I)) = exp ((toneAngle f - binAngle c.k : ℝ) * I) := by
    rw [← Complex.exp_conj, map_mul, Complex.conj_I, Complex.conj_ofReal, ← Complex.exp_add, binAngle]
    congr 1
    push_cast
    ring
  have e2 : exp ((toneAngle f : ℝ) * I) * exp ((2 * Real.pi * c.k / 205 : ℝ) * I) = exp ((toneAngle f + binAngle c.k : ℝ) * I) := by
    rw [← Complex.exp_add, binAngle]
    congr 1
    push_cast
    ring
  rw [e1] at t1
  rw [e2] at t2
  obtain ⟨s, s1, s2⟩ := evalAt_gain t1 a1 _ a2
  obtain ⟨r, r1, r2⟩ := evalAt_gain t2 b1 _ b2
  rw [Bool.and_eq_true, Nat.ble_eq, Nat.ble_eq] at s1
  rw [Nat.ble_eq] at r1
  have u1 := le_sqrt_of (a := c.lo * milli) s1.1
  have u2 := sqrt_le_of (a := c.up * milli) s1.2
  have u3 := sqrt_le_of (a := c.mir * milli) r1
  generalize Real.sqrt s = x at *
  generalize Real.sqrt r = y at *
  norm_num [scale, milli] at s2 r2 u1 u2 u3
  rw [abs_le] at s2 r2
  unfold ColOk
  refine ⟨?_, ?_, ?_⟩ <;> linarith

theorem rowRun_succ (cols : List Col) (n : Nat) (P : Ball) : rowRun cols (n + 1) P = (cols.all (colCheck P) && rowRun cols n (turn P rootF)) := by
  have h := forceB_eq (turn P rootF) (rowRun cols n)
  show (cols.all (colCheck P) && forceB (turn P rootF) (rowRun cols n)) = _
  rw [h]

theorem rowRun_spec {cols : List Col} (hb : ∀ c ∈ cols, c.k ∈ binList) (n : Nat) : ∀ (q : Nat) (P : Ball), P.Has (exp ((toneAngle (q / 4) : ℝ) * I)) →
    rowRun cols n P = true → ∀ i < n, ∀ c ∈ cols, ColOk ((q + i : Nat) / 4) c 0.0022 := by
  induction n with
  | zero => intro _ _ _ _ i hi; omega
  | succ n ih =>
    intro q P hP h i hi c hc
    rw [rowRun_succ, Bool.and_eq_true, List.all_eq_true] at h
    cases i with
    | zero => exact colCheck_spec hP (hb c hc) (h.1 c hc)
    | succ i =>
      have h2 := has_turn hP has_rootF (norm_cis _)
      have e : exp ((toneAngle (q / 4) : ℝ) * I) * exp ((2 * Real.pi / 32000 : ℝ) * I) = exp ((toneAngle ((q + 1 : Nat) / 4) : ℝ) * I) := by
        rw [← Complex.exp_add, toneAngle, toneAngle]
        congr 1
        push_cast
        ring
      rw [e] at h2
      have := ih (q + 1) _ h2 h.2 i (by omega) c hc
      rwa [show q + 1 + i = q + (i + 1) by omega] at this

theorem rows_bins : ∀ r ∈ rows, ∀ c ∈ r.cols, c.k ∈ binList := by decide

theorem rows_grid {r : Row} (hr : r ∈ rows) {i : Nat} (hi : i < 2 * r.j + 1) {c : Col} (hc : c ∈ r.cols) : ColOk ((4 * r.f - r.j + i : Nat) / 4) c 0.0022 := by
  have h := List.all_eq_true.1 rows_ok r hr
  unfold rowCheck at h
  rw [forceB_eq] at h
  have hlt : 4 * r.f - r.j < 2 ^ 13 := by
    have : ∀ r ∈ rows, 4 * r.f - r.j < 2 ^ 13 := by decide
    exact this r hr
  have h0 := has_fpow has_rootF (norm_cis _) 13 (4 * r.f - r.j) hlt
  rw [cis_pow] at h0
  have e : ((4 * r.f - r.j : Nat) * (2 * Real.pi / 32000) : ℝ) = toneAngle ((4 * r.f - r.j : Nat) / 4) := by
    rw [toneAngle]; ring
  rw [e] at h0
  exact rowRun_spec (rows_bins r hr) _ _ _ h0 h i hi c hc

/-! ## Between the frequencies of the grid -/

theorem gain_lip (θ η : ℝ) : |gain θ - gain η| ≤ 1284.7 * |θ - η| := by
  have shift : ∀ t, gain t = ‖∑ n ∈ Finset.range 205, (effW n : ℂ) * exp ((t * (n - 121) : ℝ) * I)‖ := by
    intro t
    have e : ∑ n ∈ Finset.range 205, (effW n : ℂ) * exp ((t * (n - 121) : ℝ) * I) = exp ((-(121 * t) : ℝ) * I) * ∑ n ∈ Finset.range 205, (effW n : ℂ) * exp ((t * n : ℝ) * I) := by
      rw [Finset.mul_sum]
      refine Finset.sum_congr rfl fun n _ => ?_
      have : exp ((t * (n - 121) : ℝ) * I) = exp ((-(121 * t) : ℝ) * I) * exp ((t * n : ℝ) * I) := by
        rw [← Complex.exp_add]; congr 1; push_cast; ring
      rw [this]; ring
    rw [e, norm_mul, norm_cis, one_mul, gain]
  rw [shift, shift]
  refine (abs_norm_sub_norm_le _ _).trans ?_
  rw [← Finset.sum_sub_distrib]
  refine (norm_sum_le _ _).trans ?_
  have hb : ∀ n ∈ Finset.range 205, ‖(effW n : ℂ) * exp ((θ * (n - 121) : ℝ) * I) - (effW n : ℂ) * exp ((η * (n - 121) : ℝ) * I)‖ ≤ effW n * |(n : ℝ) - 121| * |θ - η| := by
    intro n _
    rw [← mul_sub, norm_mul, Complex.norm_real, Real.norm_eq_abs, abs_of_nonneg (effW_nonneg n), mul_assoc]
    refine mul_le_mul_of_nonneg_left ?_ (effW_nonneg n)
    have e : exp ((θ * (n - 121) : ℝ) * I) - exp ((η * (n - 121) : ℝ) * I) = exp ((η * (n - 121) : ℝ) * I) * (exp (I * (((θ - η) * (n - 121) : ℝ) : ℂ)) - 1) := by
      rw [mul_sub (exp _), ← Complex.exp_add, mul_one]
      congr 2
      push_cast
      ring
    rw [e, norm_mul, norm_cis, one_mul]
    refine (Real.norm_exp_I_mul_ofReal_sub_one_le).trans ?_
    rw [Real.norm_eq_abs, abs_mul, mul_comm]
  refine (Finset.sum_le_sum hb).trans ?_
  rw [← Finset.sum_mul]
  exact mul_le_mul_of_nonneg_right effW_moment (abs_nonneg _)

theorem colOk_lip {f g : ℝ} {c : Col} (h : ColOk f c 0.0022) (hfg : |g - f| ≤ 1 / 8) : ColOk g c 0.1285 := by
  have hpi := Real.pi_lt_d4
  have hp0 := Real.pi_pos
  have key : ∀ s : ℝ, |gain (toneAngle g + s) - gain (toneAngle f + s)| ≤ 0.1262 := by
    intro s
    refine (gain_lip _ _).trans ?_
    have e : toneAngle g + s - (toneAngle f + s) = (g - f) * (2 * Real.pi / 8000) := by rw [toneAngle, toneAngle]; ring
    rw [e, abs_mul, abs_of_pos (show 0 < 2 * Real.pi / 8000 by positivity)]
    have : |g - f| * (2 * Real.pi / 8000) ≤ 1 / 8 * (2 * Real.pi / 8000) := mul_le_mul_of_nonneg_right hfg (by positivity)
    linarith
  obtain ⟨h1, h2, h3⟩ := h
  have k1 := key (-binAngle c.k)
  have k2 := key (binAngle c.k)
  rw [← sub_eq_add_neg, ← sub_eq_add_neg] at k1
  rw [abs_le] at k1 k2
  refine ⟨?_, ?_, ?_⟩ <;> linarith

/-- What the detectors get of a tone within a quarter of a percent. -/
theorem rows_spec {r : Row} (hr : r ∈ rows) {f : ℝ} (hf : |f - r.f| ≤ r.f / 400) {c : Col} (hc : c ∈ r.cols) : ColOk f c 0.1285 := by
  have hj : ∀ r ∈ rows, r.f ≤ 100 * r.j + 50 ∧ r.j ≤ 4 * r.f := by decide
  obtain ⟨j1, j2⟩ := hj r hr
  have j1r : (r.f : ℝ) ≤ 100 * r.j + 50 := by exact_mod_cast j1
  have j2r : (r.j : ℝ) ≤ 4 * r.f := by exact_mod_cast j2
  rw [abs_le] at hf
  -- distance from the first frequency of the grid, in quarters of a hertz
  obtain ⟨x, hx⟩ : ∃ x : ℝ, x = 4 * f - (4 * r.f - r.j) := ⟨_, rfl⟩
  have x1 : -(1 / 2) ≤ x := by rw [hx]; linarith
  have x2 : x ≤ 2 * r.j + 1 / 2 := by rw [hx]; linarith
  obtain ⟨i, hi, hxi⟩ : ∃ i : Nat, i < 2 * r.j + 1 ∧ |x - i| ≤ 1 / 2 := by
    have b1 : ⌊x + 1 / 2⌋₊ ≤ x + 1 / 2 := Nat.floor_le (by linarith)
    have b2 := Nat.lt_floor_add_one (x + 1 / 2)
    by_cases hlt : ⌊x + 1 / 2⌋₊ < 2 * r.j + 1
    · refine ⟨_, hlt, ?_⟩
      rw [abs_le]
      constructor <;> linarith
    · have : (2 * r.j + 1 : ℝ) ≤ ⌊x + 1 / 2⌋₊ := by exact_mod_cast (not_lt.1 hlt)
      refine ⟨2 * r.j, by omega, ?_⟩
      push_cast
      rw [abs_le]
      constructor <;> linarith
  refine colOk_lip (rows_grid hr hi hc) ?_
  have e : f - ((4 * r.f - r.j + i : Nat) : ℝ) / 4 = (x - i) / 4 := by
    rw [hx, Nat.cast_add, Nat.cast_sub j2]
    push_cast
    ring
  rw [e, abs_div, abs_of_pos (show (0 : ℝ) < 4 by norm_num)]
  linarith

end Verif.Dtmf.Dial
