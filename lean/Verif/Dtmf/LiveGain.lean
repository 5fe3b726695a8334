import Verif.Dtmf.LiveRowsA
import Verif.Dtmf.LiveRowsB
import Verif.Dtmf.LiveRowsC
import Verif.Dtmf.DialGain
import Verif.Dtmf.ToneFp

/-!
# What the detectors get of a tone through the effective window

Helper for C151: the integers of `LiveCheck` as bounds on real numbers, for all frequencies within a quarter of a percent of the eight tones.
-/

set_option maxRecDepth 100000

namespace Verif.Dtmf.Live
open Complex Verif.Ax25.Ear Verif.Ax25.Ear.Ball
open Dial (forceB forceB_eq norm_cis cis_pow has_fpow sizeAt sizeAt_spec cval cval_sum chunks_rows chunks_flatten chunks_length chunks_cval errO errP scale_val near_step Near sqrt_le_of le_sqrt_of binList milli unitN scale_eq Col Row)

/-- The effective window of examples/dtmf_live.go: a sample in full flow has been multiplied by the window at each position it has been at. -/
noncomputable def effW (n : Nat) : ℝ := ∏ m ∈ Finset.range 5, if n + 282 * m < 1130 then ham 1130 (n + 282 * m) else 1

/-- What bin `k` would get of a complex tone, `θ` being the difference of the angles per sample. -/
noncomputable def gain (θ : ℝ) : ℝ := ‖∑ n ∈ Finset.range 1130, (effW n : ℂ) * exp ((θ * n : ℝ) * I)‖

theorem hamRun_cons (c : Nat) (l : List Nat) (P : Ball) : hamRun (c :: l) P = (nearW c P && hamRun l (turn P stepW)) := by
  have h := forceB_eq (turn P stepW) (hamRun l)
  show (nearW c P && forceB (turn P stepW) (hamRun l)) = _
  rw [h]

theorem nearW_spec {c : Nat} {P : Ball} {t : ℝ} (hP : P.Has (exp ((t : ℝ) * I))) (h : nearW c P = true) :
    |(0.53836 - 0.46164 * Real.cos t) - (c : ℝ) / scale| ≤ 0.0000003 ∧ c ≤ unitN := by
  unfold nearW at h
  rw [Bool.and_eq_true] at h
  have h1 := of_decide_eq_true h.1
  have h2 := Nat.le_of_ble_eq_true h.2
  refine ⟨?_, h2⟩
  unfold Has at hP
  have hre := (Complex.abs_re_le_norm _).trans hP
  rw [sub_re, re_mul_ofReal, exp_ofReal_mul_I_re] at hre
  have h1r : |(538360000000 - (c : ℝ)) * scale - 461640000000 * P.re| + 461640000000 * P.err ≤ 300000 * scale := by
    have := (Int.cast_le (R := ℝ)).2 h1
    push_cast at this
    exact this
  simp only [mid] at hre
  rw [scale_val] at hre h1r ⊢
  have a1 := neg_abs_le ((538360000000 - (c : ℝ)) * 1000000000000 - 461640000000 * P.re)
  have a2 := le_abs_self ((538360000000 - (c : ℝ)) * 1000000000000 - 461640000000 * P.re)
  rw [abs_le] at hre ⊢
  constructor <;> linarith

theorem hamRun_spec (l : List Nat) : ∀ (n0 : Nat) (P : Ball), P.Has (exp ((2 * Real.pi * n0 / 1129 : ℝ) * I)) → hamRun l P = true →
    ∀ i (hi : i < l.length), |ham 1130 (n0 + i) - (l[i] : ℝ) / scale| ≤ 0.0000003 ∧ l[i] ≤ unitN := by
  induction l with
  | nil => intro _ _ _ _ i hi; simp at hi
  | cons c l ih =>
    intro n0 P hP h i hi
    rw [hamRun_cons, Bool.and_eq_true] at h
    cases i with
    | zero =>
      have := nearW_spec hP h.1
      rw [ham]
      simp only [Nat.cast_ofNat, Nat.add_zero, List.getElem_cons_zero]
      rw [show (1130 - 1 : ℝ) = 1129 by norm_num]
      exact this
    | succ i =>
      have h2 := has_turn hP has_stepW (norm_cis _)
      have e : exp ((2 * Real.pi * n0 / 1129 : ℝ) * I) * exp ((2 * Real.pi / 1129 : ℝ) * I) = exp ((2 * Real.pi * (n0 + 1 : Nat) / 1129 : ℝ) * I) := by
        rw [← Complex.exp_add]
        congr 1
        push_cast
        ring
      rw [e] at h2
      have := ih (n0 + 1) _ h2 h.2 i (by simpa using hi)
      rw [show n0 + (i + 1) = n0 + 1 + i by omega]
      simpa using this

theorem hamList_near {n : Nat} (hn : n < 1130) : |(hamList.getD n 0 : ℝ) / scale - ham 1130 n| ≤ 0.0000003 ∧ hamList.getD n 0 ≤ unitN := by
  have hl := hamList_length
  have h := hamRun_spec hamList 0 one (by simpa using has_one) hamRun_ok n (by omega)
  rw [List.getD_eq_getElem?_getD, List.getElem?_eq_getElem (by omega), Option.getD_some, abs_sub_comm]
  rw [zero_add] at h
  exact h

/-- The effective window in units. -/
def effOf (n : Nat) : Nat := effList.getD n 0

theorem laterList_get {n m : Nat} (hn : n < 1130) (hm : m ≤ 4) :
    (laterList m)[n]? = some (if n + 282 * m < 1130 then hamList.getD (n + 282 * m) 0 else unitN) := by
  have hl := hamList_length
  unfold laterList
  by_cases h : n + 282 * m < 1130
  · rw [if_pos h, List.getElem?_append_left (by rw [List.length_drop]; omega), List.getElem?_drop, List.getD_eq_getElem?_getD, Nat.add_comm,
      List.getElem?_eq_getElem (by omega)]
    rfl
  · rw [if_neg h, List.getElem?_append_right (by rw [List.length_drop]; omega), List.length_drop, List.getElem?_replicate, if_pos (by omega)]

theorem later_near {n m : Nat} {x e : ℝ} {p : Nat} (hp : Near p x e) :
    Near (mulN p (if n + 282 * m < 1130 then hamList.getD (n + 282 * m) 0 else unitN)) (x * if n + 282 * m < 1130 then ham 1130 (n + 282 * m) else 1)
      (e + 0.0000003 + 1 / scale) := by
  by_cases h : n + 282 * m < 1130
  · rw [if_pos h, if_pos h]
    obtain ⟨h1, h2⟩ := hamList_near h
    exact near_step hp ⟨h1, ham_nonneg _ _, ham_le_one _ _⟩ h2
  · rw [if_neg h, if_neg h]
    refine near_step hp ⟨?_, zero_le_one, le_rfl⟩ le_rfl
    rw [scale_eq]
    norm_num [unitN]

theorem zip_get {l k : List Nat} {n a b : Nat} (h1 : l[n]? = some a) (h2 : k[n]? = some b) : (List.zipWith mulN l k)[n]? = some (mulN a b) := by
  rw [List.getElem?_zipWith, h1, h2]

theorem eff_near {n : Nat} (hn : n < 1130) : Near (effOf n) (effW n) 0.0000016 := by
  have hs := scale_pos
  have es := scale_val
  have hl := hamList_length
  have g0 : hamList[n]? = some (hamList.getD n 0) := by
    rw [List.getD_eq_getElem?_getD, List.getElem?_eq_getElem (by omega)]
    rfl
  have g := zip_get (zip_get (zip_get (zip_get g0 (laterList_get (m := 1) hn (by norm_num))) (laterList_get (m := 2) hn (by norm_num)))
    (laterList_get (m := 3) hn (by norm_num))) (laterList_get (m := 4) hn (by norm_num))
  rw [← effList_eq] at g
  have h1 : Near (hamList.getD n 0) (ham 1130 n) 0.0000003 := ⟨(hamList_near hn).1, ham_nonneg _ _, ham_le_one _ _⟩
  have h5 := later_near (n := n) (m := 4) (later_near (n := n) (m := 3) (later_near (n := n) (m := 2) (later_near (n := n) (m := 1) h1)))
  unfold effW effOf
  rw [List.getD_eq_getElem?_getD, g, Option.getD_some]
  rw [Finset.prod_range_succ, Finset.prod_range_succ, Finset.prod_range_succ, Finset.prod_range_succ, Finset.prod_range_one]
  have e0 : n + 282 * 0 = n := rfl
  rw [e0, if_pos hn]
  refine ⟨h5.1.trans ?_, h5.2⟩
  rw [es]
  norm_num

theorem effW_nonneg (n : Nat) : 0 ≤ effW n := Finset.prod_nonneg fun m _ => by
  split
  · exact ham_nonneg _ _
  · exact zero_le_one

theorem effW_le_one (n : Nat) : effW n ≤ 1 := Finset.prod_le_one (fun m _ => by
  split
  · exact ham_nonneg _ _
  · exact zero_le_one) fun m _ => by
  split
  · exact ham_le_one _ _
  · exact le_rfl

theorem effList_length : effList.length = 1130 := by decide +kernel

theorem effList_get {n : Nat} (_ : n < 1130) : effList.getD n 0 = effOf n := rfl

theorem sum_getD (l : List Nat) : ∑ n ∈ Finset.range l.length, l.getD n 0 = l.sum := by
  induction l with
  | nil => rfl
  | cons c l ih =>
    rw [List.length_cons, Finset.sum_range_succ', List.sum_cons]
    simp only [List.getD_cons_succ, List.getD_cons_zero]
    rw [ih, Nat.add_comm]

theorem sum_moment (l : List Nat) : ∀ k, ∑ n ∈ Finset.range l.length, l.getD n 0 * (((k + n : Nat) : Int) - 659).natAbs = moment l k := by
  induction l with
  | nil => exact fun k => rfl
  | cons c l ih =>
    intro k
    rw [List.length_cons, Finset.sum_range_succ', moment, ← ih (k + 1)]
    simp only [List.getD_cons_succ, List.getD_cons_zero, Nat.add_zero]
    rw [Nat.add_comm]
    congr 1
    refine Finset.sum_congr rfl fun n _ => ?_
    rw [show k + (n + 1) = k + 1 + n by omega]

/-- The sum of the effective window. -/
theorem effW_sum : ∑ n ∈ Finset.range 1130, effW n ≤ 184.668 := by
  have h1 : ∀ n ∈ Finset.range 1130, effW n ≤ (effOf n : ℝ) / scale + 0.0000016 := by
    intro n hn
    have := (abs_le.1 (eff_near (Finset.mem_range.1 hn)).1).1
    linarith
  refine (Finset.sum_le_sum h1).trans ?_
  rw [Finset.sum_add_distrib, ← Finset.sum_div, ← Nat.cast_sum]
  have h2 : ∑ n ∈ Finset.range 1130, effOf n ≤ 184666160759588 := by
    have := sum_getD effList
    rw [effList_length] at this
    exact this.trans_le effList_sum
  have h3 : ((∑ n ∈ Finset.range 1130, effOf n : Nat) : ℝ) ≤ 184666160759588 := by exact_mod_cast h2
  generalize ((∑ n ∈ Finset.range 1130, effOf n : Nat) : ℝ) = x at h3
  norm_num [scale]
  linarith

/-- The first moment around the middle of the effective window. -/
theorem effW_moment : ∑ n ∈ Finset.range 1130, effW n * |(n : ℝ) - 659| ≤ 39759 := by
  have h1 : ∀ n ∈ Finset.range 1130, effW n * |(n : ℝ) - 659| ≤ ((effOf n * ((n : Int) - 659).natAbs : Nat) : ℝ) / scale + 0.0011 := by
    intro n hn
    have hn2 := Finset.mem_range.1 hn
    have h := (abs_le.1 (eff_near (Finset.mem_range.1 hn)).1).1
    have e : |(n : ℝ) - 659| = (((n : Int) - 659).natAbs : ℝ) := by
      rw [Nat.cast_natAbs]; push_cast; rfl
    have hb : (((n : Int) - 659).natAbs : ℝ) ≤ 659 := by
      have : ((n : Int) - 659).natAbs ≤ 659 := by omega
      exact_mod_cast this
    rw [e]
    push_cast
    generalize (((n : Int) - 659).natAbs : ℝ) = y at *
    have hy : 0 ≤ y := by rw [← e]; exact abs_nonneg _
    have : effW n * y ≤ ((effOf n : ℝ) / scale + 0.0000016) * y := mul_le_mul_of_nonneg_right (by linarith) hy
    have e2 : ((effOf n : ℝ) / scale + 0.0000016) * y = (effOf n : ℝ) * y / scale + 0.0000016 * y := by ring
    linarith
  refine (Finset.sum_le_sum h1).trans ?_
  rw [Finset.sum_add_distrib, ← Finset.sum_div, ← Nat.cast_sum]
  have h2 : ∑ n ∈ Finset.range 1130, effOf n * ((n : Int) - 659).natAbs ≤ 39757575433099590 := by
    have := sum_moment effList 0
    rw [effList_length] at this
    simp only [Nat.zero_add] at this
    exact this.trans_le effList_moment
  have h3 : ((∑ n ∈ Finset.range 1130, effOf n * ((n : Int) - 659).natAbs : Nat) : ℝ) ≤ 39757575433099590 := by exact_mod_cast h2
  generalize ((∑ n ∈ Finset.range 1130, effOf n * ((n : Int) - 659).natAbs : Nat) : ℝ) = x at h3
  norm_num [scale]
  linarith

/-! ## The sums -/

theorem cval_eff (θ : ℝ) : cval (exp ((θ : ℝ) * I)) effList = ∑ n ∈ Finset.range 1130, (((effOf n : ℝ) / scale : ℝ) : ℂ) * exp ((θ * n : ℝ) * I) := by
  rw [cval_sum, effList_length]
  refine Finset.sum_congr rfl fun n _ => ?_
  rw [cis_pow, effOf, mul_comm (n : ℝ) θ]
  push_cast
  rfl

theorem cval_gain (θ : ℝ) : |‖cval (exp ((θ : ℝ) * I)) effList‖ - gain θ| ≤ 0.0019 := by
  rw [cval_eff, gain]
  refine (abs_norm_sub_norm_le _ _).trans ?_
  rw [← Finset.sum_sub_distrib]
  refine (norm_sum_le _ _).trans ?_
  have : ∀ n ∈ Finset.range 1130, ‖(((effOf n : ℝ) / scale : ℝ) : ℂ) * exp ((θ * n : ℝ) * I) - (effW n : ℂ) * exp ((θ * n : ℝ) * I)‖ ≤ 0.0000016 := by
    intro n hn
    rw [← sub_mul, norm_mul, norm_cis, mul_one, ← Complex.ofReal_sub, Complex.norm_real, Real.norm_eq_abs]
    exact (eff_near (Finset.mem_range.1 hn)).1
  refine (Finset.sum_le_sum this).trans ?_
  rw [Finset.sum_const, Finset.card_range, nsmul_eq_mul]
  norm_num

theorem effFull_length : (effList ++ List.replicate 26 0).length = 34 * 34 := by
  rw [List.length_append, List.length_replicate, effList_length]

theorem effFull_le : ∀ c ∈ effList ++ List.replicate 26 0, c ≤ unitN := by
  intro c hc
  rw [List.mem_append, List.mem_replicate] at hc
  rcases hc with hc | ⟨-, rfl⟩
  · exact effList_le c hc
  · exact Nat.zero_le _

theorem effFull_sum : effRows.flatten.sum ≤ 199 * unitN := by
  unfold effRows
  rw [chunks_flatten 34 34 _ effFull_length, List.sum_append, List.sum_replicate, smul_zero, Nat.add_zero]
  exact effList_sum.trans (by decide)

/-- `sizeAt` on the effective window. -/
theorem sizeAt_gain {θ : ℝ} {Z : Ball} (hZ : Z.Has (exp ((θ : ℝ) * I))) (fin : Nat → Bool) (h : sizeAt Z effPacks effSums 34 fin = true) :
    ∃ s : Nat, fin s = true ∧ |gain θ * scale - Real.sqrt s| ≤ 65000000000 := by
  obtain ⟨s, h1, h2⟩ := sizeAt_spec (norm_cis θ) hZ (le_refl 34) (chunks_rows 34 34 _ effFull_length effFull_le) effFull_sum effPacks_eq effSums_eq
    (chunks_length 34 34 _).symm (le_refl 34) h
  refine ⟨s, h1, ?_⟩
  have h3 := cval_gain θ
  rw [chunks_cval _ (by rw [effList_length])] at h2
  norm_num [scale, errO, errP] at h2 h3 ⊢
  rw [abs_le] at *
  constructor <;> linarith

/-- The angle of bin `k`. -/
noncomputable def binAngle (k : Nat) : ℝ := 2 * Real.pi * k / 1130

/-- The angle of `q` quarters of a hertz. -/
noncomputable def toneAngle (f : ℝ) : ℝ := 2 * Real.pi * f / 44100

/-- The statement of a column at one frequency. -/
def ColOk (f : ℝ) (c : Col) (e : ℝ) : Prop :=
  c.lo / 1000 - e ≤ gain (toneAngle f - binAngle c.k) ∧ gain (toneAngle f - binAngle c.k) ≤ c.up / 1000 + e ∧
    gain (toneAngle f + binAngle c.k) ≤ c.mir / 1000 + e

theorem colCheck_spec {P : Ball} {f : ℝ} (hP : P.Has (exp ((toneAngle f : ℝ) * I))) {c : Col} (hc : c.k ∈ binList) (h : colCheck P c = true) :
    ColOk f c 0.065 := by
  unfold colCheck at h
  rw [forceB_eq, forceB_eq] at h
  rw [Bool.and_eq_true] at h
  obtain ⟨a2, b2⟩ := h
  have hq := has_binBall hc
  have n1 : ‖(starRingEnd ℂ) (exp ((2 * Real.pi * c.k / 1130 : ℝ) * I))‖ = 1 := by rw [Complex.norm_conj, norm_cis]
  have t1 := has_turn hP (has_conj hq) n1
  have t2 := has_turn hP hq (norm_cis _)
  have e1 : exp ((toneAngle f : ℝ) * I) * (starRingEnd ℂ) (exp ((2 * Real.pi * c.k / 1130 : ℝ) * I)) = exp ((toneAngle f - binAngle c.k : ℝ) * I) := by
    rw [← Complex.exp_conj, map_mul, Complex.conj_I, Complex.conj_ofReal, ← Complex.exp_add, binAngle]
    congr 1
    push_cast
    ring
  have e2 : exp ((toneAngle f : ℝ) * I) * exp ((2 * Real.pi * c.k / 1130 : ℝ) * I) = exp ((toneAngle f + binAngle c.k : ℝ) * I) := by
    rw [← Complex.exp_add, binAngle]
    congr 1
    push_cast
    ring
  rw [e1] at t1
  rw [e2] at t2
  obtain ⟨s, s1, s2⟩ := sizeAt_gain t1 _ a2
  obtain ⟨r, r1, r2⟩ := sizeAt_gain t2 _ b2
  rw [Bool.and_eq_true, Nat.ble_eq, Nat.ble_eq] at s1
  rw [Nat.ble_eq] at r1
  have u1 := le_sqrt_of (a := c.lo * milli) s1.1
  have u2 := sqrt_le_of (a := c.up * milli) s1.2
  have u3 := sqrt_le_of (a := c.mir * milli) r1
  generalize Real.sqrt s = x at *
  generalize Real.sqrt r = y at *
  norm_num [scale, milli] at s2 r2 u1 u2 u3
  rw [abs_le] at s2 r2
  unfold ColOk
  refine ⟨?_, ?_, ?_⟩ <;> linarith

theorem rowRun_succ (cols : List Col) (n : Nat) (P : Ball) : rowRun cols (n + 1) P = (cols.all (colCheck P) && rowRun cols n (turn P rootF)) := by
  have h := forceB_eq (turn P rootF) (rowRun cols n)
  show (cols.all (colCheck P) && forceB (turn P rootF) (rowRun cols n)) = _
  rw [h]

theorem rowRun_spec {cols : List Col} (hb : ∀ c ∈ cols, c.k ∈ binList) (n : Nat) : ∀ (q : Nat) (P : Ball), P.Has (exp ((toneAngle (q / 4) : ℝ) * I)) →
    rowRun cols n P = true → ∀ i < n, ∀ c ∈ cols, ColOk ((q + i : Nat) / 4) c 0.065 := by
  induction n with
  | zero => intro _ _ _ _ i hi; omega
  | succ n ih =>
    intro q P hP h i hi c hc
    rw [rowRun_succ, Bool.and_eq_true, List.all_eq_true] at h
    cases i with
    | zero => exact colCheck_spec hP (hb c hc) (h.1 c hc)
    | succ i =>
      have h2 := has_turn hP has_rootF (norm_cis _)
      have e : exp ((toneAngle (q / 4) : ℝ) * I) * exp ((2 * Real.pi / 176400 : ℝ) * I) = exp ((toneAngle ((q + 1 : Nat) / 4) : ℝ) * I) := by
        rw [← Complex.exp_add, toneAngle, toneAngle]
        congr 1
        push_cast
        ring
      rw [e] at h2
      have := ih (q + 1) _ h2 h.2 i (by omega) c hc
      rwa [show q + 1 + i = q + (i + 1) by omega] at this

theorem rows_bins : ∀ r ∈ rows, ∀ c ∈ r.cols, c.k ∈ binList := by decide

theorem rows_grid {r : Row} (hr : r ∈ rows) {i : Nat} (hi : i < 2 * r.j + 1) {c : Col} (hc : c ∈ r.cols) : ColOk ((4 * r.f - r.j + i : Nat) / 4) c 0.065 := by
  have h : rowCheck r = true := by
    have e : rows = rows.take 4 ++ ((rows.drop 4).take 2 ++ rows.drop 6) := rfl
    rw [e, List.mem_append, List.mem_append] at hr
    rcases hr with hr | hr | hr
    · exact List.all_eq_true.1 rowsA_ok r hr
    · exact List.all_eq_true.1 rowsB_ok r hr
    · exact List.all_eq_true.1 rowsC_ok r hr
  unfold rowCheck at h
  rw [forceB_eq] at h
  have hlt : 4 * r.f - r.j < 2 ^ 13 := by
    have : ∀ r ∈ rows, 4 * r.f - r.j < 2 ^ 13 := by decide
    exact this r hr
  have h0 := has_fpow has_rootF (norm_cis _) 13 (4 * r.f - r.j) hlt
  rw [cis_pow] at h0
  have e : ((4 * r.f - r.j : Nat) * (2 * Real.pi / 176400) : ℝ) = toneAngle ((4 * r.f - r.j : Nat) / 4) := by
    rw [toneAngle]; ring
  rw [e] at h0
  exact rowRun_spec (rows_bins r hr) _ _ _ h0 h i hi c hc

/-! ## Between the frequencies of the grid -/

theorem gain_lip (θ η : ℝ) : |gain θ - gain η| ≤ 39759 * |θ - η| := by
  have shift : ∀ t, gain t = ‖∑ n ∈ Finset.range 1130, (effW n : ℂ) * exp ((t * (n - 659) : ℝ) * I)‖ := by
    intro t
    have e : ∑ n ∈ Finset.range 1130, (effW n : ℂ) * exp ((t * (n - 659) : ℝ) * I) = exp ((-(659 * t) : ℝ) * I) * ∑ n ∈ Finset.range 1130, (effW n : ℂ) * exp ((t * n : ℝ) * I) := by
      rw [Finset.mul_sum]
      refine Finset.sum_congr rfl fun n _ => ?_
      have : exp ((t * (n - 659) : ℝ) * I) = exp ((-(659 * t) : ℝ) * I) * exp ((t * n : ℝ) * I) := by
        rw [← Complex.exp_add]; congr 1; push_cast; ring
      rw [this]; ring
    rw [e, norm_mul, norm_cis, one_mul, gain]
  rw [shift, shift]
  refine (abs_norm_sub_norm_le _ _).trans ?_
  rw [← Finset.sum_sub_distrib]
  refine (norm_sum_le _ _).trans ?_
  have hb : ∀ n ∈ Finset.range 1130, ‖(effW n : ℂ) * exp ((θ * (n - 659) : ℝ) * I) - (effW n : ℂ) * exp ((η * (n - 659) : ℝ) * I)‖ ≤ effW n * |(n : ℝ) - 659| * |θ - η| := by
    intro n _
    rw [← mul_sub, norm_mul, Complex.norm_real, Real.norm_eq_abs, abs_of_nonneg (effW_nonneg n), mul_assoc]
    refine mul_le_mul_of_nonneg_left ?_ (effW_nonneg n)
    have e : exp ((θ * (n - 659) : ℝ) * I) - exp ((η * (n - 659) : ℝ) * I) = exp ((η * (n - 659) : ℝ) * I) * (exp (I * (((θ - η) * (n - 659) : ℝ) : ℂ)) - 1) := by
      rw [mul_sub (exp _), ← Complex.exp_add, mul_one]
      congr 2
      push_cast
      ring
    rw [e, norm_mul, norm_cis, one_mul]
    refine (Real.norm_exp_I_mul_ofReal_sub_one_le).trans ?_
    rw [Real.norm_eq_abs, abs_mul, mul_comm]
  refine (Finset.sum_le_sum hb).trans ?_
  rw [← Finset.sum_mul]
  exact mul_le_mul_of_nonneg_right effW_moment (abs_nonneg _)

theorem colOk_lip {f g : ℝ} {c : Col} (h : ColOk f c 0.065) (hfg : |g - f| ≤ 1 / 8) : ColOk g c 0.7735 := by
  have hpi := Real.pi_lt_d4
  have hp0 := Real.pi_pos
  have key : ∀ s : ℝ, |gain (toneAngle g + s) - gain (toneAngle f + s)| ≤ 0.7082 := by
    intro s
    refine (gain_lip _ _).trans ?_
    have e : toneAngle g + s - (toneAngle f + s) = (g - f) * (2 * Real.pi / 44100) := by rw [toneAngle, toneAngle]; ring
    rw [e, abs_mul, abs_of_pos (show 0 < 2 * Real.pi / 44100 by positivity)]
    have : |g - f| * (2 * Real.pi / 44100) ≤ 1 / 8 * (2 * Real.pi / 44100) := mul_le_mul_of_nonneg_right hfg (by positivity)
    linarith
  obtain ⟨h1, h2, h3⟩ := h
  have k1 := key (-binAngle c.k)
  have k2 := key (binAngle c.k)
  rw [← sub_eq_add_neg, ← sub_eq_add_neg] at k1
  rw [abs_le] at k1 k2
  refine ⟨?_, ?_, ?_⟩ <;> linarith

/-- What the detectors get of a tone within a quarter of a percent. -/
theorem rows_spec {r : Row} (hr : r ∈ rows) {f : ℝ} (hf : |f - r.f| ≤ r.f / 400) {c : Col} (hc : c ∈ r.cols) : ColOk f c 0.7735 := by
  have hj : ∀ r ∈ rows, r.f ≤ 100 * r.j + 50 ∧ r.j ≤ 4 * r.f := by decide
  obtain ⟨j1, j2⟩ := hj r hr
  have j1r : (r.f : ℝ) ≤ 100 * r.j + 50 := by exact_mod_cast j1
  have j2r : (r.j : ℝ) ≤ 4 * r.f := by exact_mod_cast j2
  rw [abs_le] at hf
  -- distance from the first frequency of the grid, in quarters of a hertz
  obtain ⟨x, hx⟩ : ∃ x : ℝ, x = 4 * f - (4 * r.f - r.j) := ⟨_, rfl⟩
  have x1 : -(1 / 2) ≤ x := by rw [hx]; linarith
  have x2 : x ≤ 2 * r.j + 1 / 2 := by rw [hx]; linarith
  obtain ⟨i, hi, hxi⟩ : ∃ i : Nat, i < 2 * r.j + 1 ∧ |x - i| ≤ 1 / 2 := by
    have b1 : ⌊x + 1 / 2⌋₊ ≤ x + 1 / 2 := Nat.floor_le (by linarith)
    have b2 := Nat.lt_floor_add_one (x + 1 / 2)
    by_cases hlt : ⌊x + 1 / 2⌋₊ < 2 * r.j + 1
    · refine ⟨_, hlt, ?_⟩
      rw [abs_le]
      constructor <;> linarith
    · have : (2 * r.j + 1 : ℝ) ≤ ⌊x + 1 / 2⌋₊ := by exact_mod_cast (not_lt.1 hlt)
      refine ⟨2 * r.j, by omega, ?_⟩
      push_cast
      rw [abs_le]
      constructor <;> linarith
  refine colOk_lip (rows_grid hr hi hc) ?_
  have e : f - ((4 * r.f - r.j + i : Nat) : ℝ) / 4 = (x - i) / 4 := by
    rw [hx, Nat.cast_add, Nat.cast_sub j2]
    push_cast
    ring
  rw [e, abs_div, abs_of_pos (show (0 : ℝ) < 4 by norm_num)]
  linarith

end Verif.Dtmf.Live
