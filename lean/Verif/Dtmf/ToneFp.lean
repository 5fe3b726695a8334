import Verif.Dtmf.DtmfFpModel
import Verif.Dtmf.ToneProps
import Verif.Window.WindowFp

/-!
# A key that is pressed is recognised, computed with rounding
-/

namespace Verif.Dtmf
open Verif.Fp Verif.Conv Verif.Dft Verif.Filt Verif.WinFp Real

/-! ## `max` -/

theorem lt_val {φ : Format} {v w : FVal φ} (hv : Fp.Finite v) (hw : Fp.Finite w) : v < w ↔ val v < val w := by
  obtain ⟨s, q, rfl, -⟩ := hv
  obtain ⟨t, r, rfl, -⟩ := hw
  show (Val.fin s q).toRat < (Val.fin t r).toRat ↔ ((Val.fin s q).toRat : ℝ) < ((Val.fin t r).toRat : ℝ)
  rw [Rat.cast_lt]

theorem max_before {φ : Format} {V : ℝ} (l : List (FVal φ × Nat)) (hl : ∀ x ∈ l, Fp.Finite x.1 ∧ val x.1 < V) (st : Nat × FVal φ)
    (h : Fp.Finite st.2 ∧ val st.2 < V) : Fp.Finite (l.foldl maxStep st).2 ∧ val (l.foldl maxStep st).2 < V := by
  induction l generalizing st with
  | nil => exact h
  | cons x xs ih =>
    rw [List.foldl_cons]
    refine ih (fun y hy => hl y (by simp [hy])) _ ?_
    unfold maxStep
    split
    · exact hl x (by simp)
    · exact h

theorem max_after {φ : Format} (l : List (FVal φ × Nat)) (i : Nat) (v : FVal φ) (hv : Fp.Finite v)
    (hl : ∀ x ∈ l, Fp.Finite x.1 ∧ val x.1 < val v) : l.foldl maxStep (i, v) = (i, v) := by
  induction l with
  | nil => rfl
  | cons x xs ih =>
    rw [List.foldl_cons]
    have hx := hl x (by simp)
    have e : maxStep (i, v) x = (i, v) := by
      unfold maxStep
      rw [if_neg]
      intro h
      have := (lt_val hv hx.1).1 h
      linarith [hx.2]
    rw [e]
    exact ih fun y hy => hl y (by simp [hy])

theorem max_peak {φ : Format} (vs : List (FVal φ)) (i : Nat) (v : FVal φ) (hi : vs[i]? = some v) (hv : Fp.Finite v) (h0 : 0 < val v)
    (ho : ∀ j w, j ≠ i → vs[j]? = some w → Fp.Finite w ∧ val w < val v) : maxOf vs = (i, v) := by
  obtain ⟨hlt, hget⟩ := List.getElem?_eq_some_iff.1 hi
  have hsplit : vs.zipIdx = (vs.zipIdx.take i) ++ (v, i) :: vs.zipIdx.drop (i + 1) := by
    have hl : i < vs.zipIdx.length := by rw [List.length_zipIdx]; exact hlt
    have e : vs.zipIdx[i] = (v, i) := by rw [List.getElem_zipIdx, hget]; simp
    rw [← e, List.getElem_cons_drop, List.take_append_drop]
  have hmem : ∀ x : FVal φ × Nat, x ∈ vs.zipIdx → x.2 ≠ i → Fp.Finite x.1 ∧ val x.1 < val v := by
    intro x hx hne
    rw [List.mem_zipIdx_iff_getElem?] at hx
    exact ho x.2 x.1 hne hx
  have z0 : Fp.Finite (0 : FVal φ) ∧ val (0 : FVal φ) < val v := by
    refine ⟨⟨false, 0, rfl, le_rfl⟩, ?_⟩
    have : val (0 : FVal φ) = 0 := by
      show (((Val.fin false 0).toRat : ℚ) : ℝ) = 0
      simp [Val.toRat]
    rw [this]
    exact h0
  rw [maxOf, hsplit, List.foldl_append, List.foldl_cons]
  have hb := max_before (V := val v) (vs.zipIdx.take i) (fun x hx => hmem x (List.mem_of_mem_take hx) ?_) (0, 0) z0
  · have e : maxStep ((vs.zipIdx.take i).foldl maxStep (0, 0)) (v, i) = (i, v) := by
      unfold maxStep
      rw [if_pos]
      exact (lt_val hb.1 hv).2 hb.2
    rw [e]
    refine max_after _ i v hv fun x hx => hmem x (List.mem_of_mem_drop hx) ?_
    obtain ⟨k, hk, rfl⟩ := List.mem_iff_getElem.1 hx
    rw [List.getElem_drop, List.getElem_zipIdx]
    simp
    omega
  · obtain ⟨k, hk, rfl⟩ := List.mem_iff_getElem.1 hx
    rw [List.getElem_take, List.getElem_zipIdx]
    rw [List.length_take] at hk
    simp
    omega

/-! ## The window and the samples -/

theorem hamming_eq (n : Nat) (hn : 2 ≤ n) : Verif.Window.hamming n = some ((List.range n).map fun i => some (ham n i)) := by
  rw [Verif.Window.hamming, Verif.Window.window, if_neg (by simp)]
  congr 1
  refine List.map_congr_left fun i _ => ?_
  rw [Verif.Window.windowAt_eq _ _ _ hn]
  simp [ham, Verif.Window.angle]
  norm_num

theorem ham_le_one (n i : Nat) : ham n i ≤ 1 := by
  have := Real.neg_one_le_cos (2 * π * i / ((n : ℝ) - 1))
  rw [ham]
  linarith

theorem u64 : uR binary64 = 1 / 2 ^ 53 := by unfold uR; norm_num [binary64]
theorem u32 : uR binary32 = 1 / 2 ^ 24 := by unfold uR; norm_num [binary32]
theorem w64 : wR binary64 ≤ 1 / 2 ^ 200 := by
  have : (2 : ℝ) ^ (-1075 : ℤ) ≤ 2 ^ (-200 : ℤ) := zpow_le_zpow_right₀ (by norm_num) (by norm_num)
  have e : wR binary64 = 2 ^ (-1075 : ℤ) := rfl
  rw [e]
  exact this.trans (by norm_num)
theorem w32 : wR binary32 = 1 / 2 ^ 150 := by
  have e : wR binary32 = 2 ^ (-150 : ℤ) := rfl
  rw [e]
  norm_num

/-- The stored window. -/
theorem window32 {cos : FVal binary64 → FVal binary64} {η : ℝ} (hη0 : 0 ≤ η) (hη : η ≤ 1 / 2 ^ 50) (hc : Cos cos η) {n : Nat} (hn : 2 ≤ n)
    (hn2 : n < 2 ^ 53) {es : List (Expr binary64)} {w : List (FVal binary32)} (h1 : hammingFp cos n = some es) (h2 : Stored32 es w) :
    w.length = n ∧ ∀ i < n, ∃ v, w[i]? = some v ∧ Fp.Finite v ∧ |val v - ham n i| ≤ 1 / 2 ^ 22 := by
  obtain ⟨es', ws, e1, e2, -, e4⟩ := C101_hamming cos η hη0 (hη.trans (by norm_num)) hc n hn hn2
  rw [h1] at e1
  obtain rfl := Option.some.inj e1
  have hcl := e4 w h2
  rw [hamming_eq n hn] at e2
  obtain rfl := Option.some.inj e2
  have hlen : w.length = n := by simpa using hcl.length_eq
  refine ⟨hlen, fun i hi => ?_⟩
  obtain ⟨r, r1, r2, r3⟩ := (List.forall₂_iff_get.1 hcl).2 i (by omega) (by simpa using hi)
  refine ⟨w[i], List.getElem?_eq_getElem (by omega), r2, ?_⟩
  have er : r = ham n i := by
    have : (some (ham n i) : Option ℝ) = some r := by
      rw [← r1]; simp
    exact (Option.some.inj this).symm
  rw [er] at r3
  refine le_trans r3 ?_
  unfold winErr
  rw [u64, u32]
  norm_num at hη ⊢
  linarith

/-- One sample times its window factor. -/
theorem sample_err {x w : FVal binary32} {a t h : ℝ} (ha : 1 / 2 ^ 50 ≤ a) (ha2 : a ≤ 2 ^ 40) (hx : Fp.Finite x) (hw : Fp.Finite w)
    (hh0 : 0 ≤ h) (hh1 : h ≤ 1) (ht : |t| ≤ 9 * a) (hxt : |val x - t| ≤ a / 25) (hwh : |val w - h| ≤ 1 / 2 ^ 22) :
    Fp.Finite (x * w : FVal binary32) ∧ Grid binary32 (Val.toRat (x * w : FVal binary32)) ∧ |val (x * w : FVal binary32)| ≤ 9.1 * a ∧
      |val (x * w : FVal binary32) - t * h| ≤ a / 25 * h + 0.000003 * a := by
  have ha0 : 0 < a := lt_of_lt_of_le (by norm_num) ha
  have hxa : |val x| ≤ 9.04 * a := by
    have e : val x = (val x - t) + t := by ring
    rw [e]
    exact (abs_add_le _ _).trans (by linarith)
  have hwa : |val w| ≤ 1.000001 := by
    have e : val w = (val w - h) + h := by ring
    rw [e]
    refine (abs_add_le _ _).trans ?_
    rw [abs_of_nonneg hh0]
    norm_num at hwh ⊢
    linarith
  have hp : |val x * val w| ≤ 9.0401 * a := by
    rw [abs_mul]
    calc |val x| * |val w| ≤ 9.04 * a * 1.000001 := mul_le_mul hxa hwa (abs_nonneg _) (by positivity)
      _ ≤ 9.0401 * a := by linarith
  have hbig : 9.0401 * a ≤ 2 ^ binary32.emax := by
    have e : (2 : ℝ) ^ (44 : ℤ) ≤ 2 ^ binary32.emax := zpow_le_zpow_right₀ (by norm_num) (by decide)
    refine le_trans ?_ e
    norm_num at ha2 ⊢
    linarith
  obtain ⟨m1, m2⟩ := mul_val binary32_ok hx hw (hp.trans hbig)
  have hg : Grid binary32 (Val.toRat (x * w : FVal binary32)) := by
    have e : val x * val w = ((Val.toRat x * Val.toRat w : ℚ) : ℝ) := by unfold val; push_cast; rfl
    have ht := hp.trans hbig
    rw [e] at ht
    obtain ⟨r1, -⟩ := rd_real binary32_ok ht
    have hi := mul_rd binary32 (v := x) (w := w) ⟨hx, rfl⟩ ⟨hw, rfl⟩ r1
    have e2 : Val.toRat (x * w : FVal binary32) = _ := hi.2
    rw [e2]
    exact grid_rd binary32 (by decide) _
  clear hbig
  have hwa32 : wR binary32 ≤ 0.000000001 * a := by
    rw [w32]
    norm_num at ha ⊢
    linarith
  have hm : |val (x * w : FVal binary32) - val x * val w| ≤ 0.0000006 * a := by
    refine m2.trans ?_
    rw [u32]
    linarith
  refine ⟨m1, hg, ?_, ?_⟩
  · have e : val (x * w : FVal binary32) = (val (x * w : FVal binary32) - val x * val w) + val x * val w := by ring
    rw [e]
    exact (abs_add_le _ _).trans (by linarith)
  · have e : val (x * w : FVal binary32) - t * h = (val (x * w : FVal binary32) - val x * val w) + val x * (val w - h) + (val x - t) * h := by ring
    rw [e]
    have h1 : |val x * (val w - h)| ≤ 9.04 * a * (1 / 2 ^ 22) := by
      rw [abs_mul]
      exact mul_le_mul hxa hwh (abs_nonneg _) (by positivity)
    have h2 : |(val x - t) * h| ≤ a / 25 * h := by
      rw [abs_mul, abs_of_nonneg hh0]
      exact mul_le_mul_of_nonneg_right hxt hh0
    have h3 := abs_add_le (val (x * w : FVal binary32) - val x * val w + val x * (val w - h)) ((val x - t) * h)
    have h4 := abs_add_le (val (x * w : FVal binary32) - val x * val w) (val x * (val w - h))
    linarith

/-! ## The detectors -/

theorem nearest_bin {fs n : Nat} (hf : 8000 ≤ fs) (hn : n = 205 * fs / 8000) {f : Nat} (hm : f ∈ stdLowFreq ++ stdHighFreq) {k : Nat}
    (hk : |(n * f : ℝ) / fs - k| ≤ 1 / 2) : k = binOf f := by
  obtain ⟨-, h1, h2⟩ := rate_bounds hf hn
  have hfr : (0 : ℝ) < fs := by
    have : 0 < fs := by omega
    exact_mod_cast this
  have hf0 : (0 : ℝ) ≤ f := Nat.cast_nonneg f
  have c1 : 0.0255 * (f : ℝ) ≤ (n * f : ℝ) / fs := by
    rw [le_div_iff₀ hfr]
    nlinarith
  have c2 : (n * f : ℝ) / fs ≤ 0.025625 * (f : ℝ) := by
    rw [div_le_iff₀ hfr]
    nlinarith
  have key : ∀ b : Nat, (b : ℝ) - 1 / 2 < 0.0255 * f → 0.025625 * f < (b : ℝ) + 1 / 2 → k = b := by
    intro b g1 g2
    rw [abs_le] at hk
    have p1 : (k : ℝ) < b + 1 := by linarith
    have p2 : (b : ℝ) < k + 1 := by linarith
    have p1' : k < b + 1 := by exact_mod_cast p1
    have p2' : b < k + 1 := by exact_mod_cast p2
    omega
  simp only [stdLowFreq, stdHighFreq, List.cons_append, List.nil_append, List.mem_cons, List.not_mem_nil, or_false] at hm
  rcases hm with rfl | rfl | rfl | rfl | rfl | rfl | rfl | rfl <;> exact key _ (by norm_num [binOf]) (by norm_num [binOf])

theorem dft_le {n : Nat} (k : Nat) {xs : List ℝ} {X : ℝ} (hX : 0 ≤ X) (h : ∀ x ∈ xs, |x| ≤ X) : ‖dft n k (sampleR xs)‖ ≤ n * X := by
  rw [dft]
  refine (norm_sum_le _ _).trans ?_
  have : ∀ i ∈ Finset.range n, ‖sampleR xs i * Complex.exp (-(2 * π * (k : ℤ) * i / n : ℝ) * Complex.I)‖ ≤ X := by
    intro i _
    have e0 : (-((2 * π * (k : ℤ) * i / n : ℝ) : ℂ)) = ((-(2 * π * k * i / n) : ℝ) : ℂ) := by push_cast; rfl
    rw [e0, norm_mul, Complex.norm_exp_ofReal_mul_I, mul_one, sampleR, Complex.norm_real, Real.norm_eq_abs]
    rcases lt_or_ge i xs.length with hi | hi
    · rw [List.getD_eq_getElem?_getD, List.getElem?_eq_getElem hi, Option.getD_some]
      exact h _ (List.getElem_mem hi)
    · rw [List.getD_eq_getElem?_getD, List.getElem?_eq_none hi, Option.getD_none, abs_zero]
      exact hX
  refine (Finset.sum_le_sum this).trans ?_
  rw [Finset.sum_const, Finset.card_range, nsmul_eq_mul]

/-- The bound of `C98_magnitude_partial` in terms of the block and the amplitude. -/
theorem mag_bound {n a δ w : ℝ} (hn : 205 ≤ n) (hn5 : n ≤ 5125) (ha : 1 / 2 ^ 50 ≤ a) (hδ0 : 0 ≤ δ) (hδ : δ ≤ 29 / 2 ^ 53) (hw0 : 0 ≤ w)
    (hw : w ≤ 1 / 2 ^ 200) :
    3 * n ^ 2 * (9.1 * a) * ((2 * δ + 14 * (1 / 2 ^ 53)) * (n * (n + 1) * (9.1 * a)) + 4 * w)
      + ((2 * δ + 18 * (1 / 2 ^ 53)) * (n * (n + 1) * (9.1 * a)) ^ 2 + 12 * w) ≤ 0.00009 * (n * a) ^ 2 ∧
    (2 * δ + 14 * (1 / 2 ^ 53)) * (n * (n + 1) * (9.1 * a)) + 4 * w ≤ 9.1 * a := by
  have ha0 : 0 < a := lt_of_lt_of_le (by norm_num) ha
  have h1 : 2 * δ + 14 * (1 / 2 ^ 53) ≤ 8 * (1 / 10 ^ 15) := by norm_num at hδ ⊢; linarith
  have h2 : 2 * δ + 18 * (1 / 2 ^ 53) ≤ 8.5 * (1 / 10 ^ 15) := by norm_num at hδ ⊢; linarith
  have h10 : 0 ≤ 2 * δ + 14 * (1 / 2 ^ 53) := by positivity
  have h20 : 0 ≤ 2 * δ + 18 * (1 / 2 ^ 53) := by positivity
  have hq : n * (n + 1) ≤ 26270750 := by nlinarith
  have hq0 : 0 ≤ n * (n + 1) := by nlinarith
  have hwa : w ≤ 1 / 10 ^ 20 * a := by norm_num at hw ha ⊢; linarith
  have hwa2 : w ≤ 1 / 10 ^ 20 * a ^ 2 := by
    have : (1 / 2 ^ 50) ^ 2 ≤ a ^ 2 := pow_le_pow_left₀ (by norm_num) ha 2
    norm_num at hw this ⊢
    linarith
  have p1 : (2 * δ + 14 * (1 / 2 ^ 53)) * (n * (n + 1) * (9.1 * a)) ≤ 8 * (1 / 10 ^ 15) * (26270750 * (9.1 * a)) :=
    mul_le_mul h1 (mul_le_mul_of_nonneg_right hq (by positivity)) (by positivity) (by positivity)
  have s1 : (2 * δ + 14 * (1 / 2 ^ 53)) * (n * (n + 1) * (9.1 * a)) + 4 * w ≤ 0.00000193 * a := by
    norm_num at p1 hwa ⊢
    linarith
  have n2 : 0 ≤ n ^ 2 := by positivity
  constructor
  · have t1 : 3 * n ^ 2 * (9.1 * a) * ((2 * δ + 14 * (1 / 2 ^ 53)) * (n * (n + 1) * (9.1 * a)) + 4 * w) ≤ 3 * n ^ 2 * (9.1 * a) * (0.00000193 * a) :=
      mul_le_mul_of_nonneg_left s1 (by positivity)
    have e2 : (n * (n + 1) * (9.1 * a)) ^ 2 = (n + 1) ^ 2 * 82.81 * (n * a) ^ 2 := by ring
    have q2 : (n + 1) ^ 2 ≤ 26275876 := by nlinarith
    have t2 : (2 * δ + 18 * (1 / 2 ^ 53)) * (n * (n + 1) * (9.1 * a)) ^ 2 ≤ 8.5 * (1 / 10 ^ 15) * (26275876 * 82.81 * (n * a) ^ 2) := by
      rw [e2]
      refine mul_le_mul h2 ?_ (by positivity) (by positivity)
      exact mul_le_mul_of_nonneg_right (mul_le_mul_of_nonneg_right q2 (by norm_num)) (by positivity)
    have t3 : a ^ 2 ≤ (n * a) ^ 2 := pow_le_pow_left₀ ha0.le (by nlinarith) 2
    have e3 : 3 * n ^ 2 * (9.1 * a) * (0.00000193 * a) = 3 * 9.1 * 0.00000193 * (n * a) ^ 2 := by ring
    rw [e3] at t1
    norm_num at t1 t2 hwa2 ⊢
    linarith
  · linarith

/-- A detector of the standard set reports the squared bin of its tone, up to a ten-thousandth of `n² a²`, for samples of
at most `9.1 a`. -/
theorem detector_err {other : Val → Nat} {cos sin : FVal binary64 → FVal binary64} {η : ℝ} (hη0 : 0 ≤ η) (hη : η ≤ 1 / 2 ^ 50)
    (hT : Trig cos sin 21 η) {fs n : Nat} (hf : 8000 ≤ fs) (hf2 : fs ≤ 200000) (hn : n = 205 * fs / 8000) {f : Nat}
    (hm : f ∈ stdLowFreq ++ stdHighFreq) {a : ℝ} (ha : 1 / 2 ^ 50 ≤ a) (ha2 : a ≤ 2 ^ 40) {xs : List (FVal binary32)} (hlen : xs.length = n)
    (hxs : ∀ x ∈ xs, Fp.Finite x ∧ Grid binary32 x.toRat ∧ |val x| ≤ 9.1 * a) {st : FVal binary64 × FVal binary64} {mag : FVal binary64}
    (h1 : After (newGzFp other cos sin f fs n) (xs.map widen) st) (h2 : ReportsMagnitude (newGzFp other cos sin f fs n) st mag) :
    Fp.Finite (narrow mag) ∧ |val (narrow mag) - ‖dft n (bucket f fs n) (sampleR (vals xs))‖ ^ 2| ≤
      0.0001 * (n * a) ^ 2 + 0.000001 * ‖dft n (bucket f fs n) (sampleR (vals xs))‖ ^ 2 := by
  have ha0 : 0 < a := lt_of_lt_of_le (by norm_num) ha
  have hf1 : f ≤ 1633 := by
    simp [stdLowFreq, stdHighFreq] at hm
    omega
  have hn205 : 205 ≤ n := by omega
  have hn5 : n ≤ 5125 := by omega
  have hnr : (205 : ℝ) ≤ n := by exact_mod_cast hn205
  have hnr5 : (n : ℝ) ≤ 5125 := by exact_mod_cast hn5
  have hw0 := wR_pos binary64
  have hw := w64
  have hmul : n * f ≤ 5125 * 1633 := Nat.mul_le_mul hn5 hf1
  have hT9 : Trig cos sin 9 η := fun x hx hx9 => hT x hx (hx9.trans (by norm_num))
  have hne : newErr η ≤ 29 / 2 ^ 53 := by
    unfold newErr
    rw [u64]
    norm_num at hη hw ⊢
    linarith
  have hne0 : 0 ≤ newErr η := by
    unfold newErr
    rw [u64]
    linarith
  obtain ⟨b1, b2⟩ := C99_bucket_partial other f fs n (by omega) (by omega)
  obtain ⟨k, k1, k2, k3, k4⟩ := C99_new other cos sin η hη0 (hne.trans (by norm_num)) hT9 f fs n (by omega) (by omega) (by omega) (by omega) (by omega)
  rw [nearest_bin hf hn hm k1] at k3
  rw [bucket_bin hf (by omega) hn hm]
  clear k k1 k2 k4 b1 b2
  have hX127 : 9.1 * a ≤ 2 ^ 127 := by norm_num at ha2 ⊢; linarith
  obtain ⟨v1, v2⟩ := vals_widen xs (X := 9.1 * a) hX127 hxs
  obtain ⟨q1, q2⟩ := mag_bound hnr hnr5 ha hne0 hne hw0.le hw
  have hlw : (xs.map widen).length = n := by rw [List.length_map, hlen]
  have hM0 : 0 ≤ (n : ℝ) * (n + 1) * (9.1 * a) := by positivity
  have hMle : (n : ℝ) * (n + 1) * (9.1 * a) ≤ 2 ^ 80 := by
    have : (n : ℝ) * (n + 1) ≤ 26270750 := by nlinarith
    calc (n : ℝ) * (n + 1) * (9.1 * a) ≤ 26270750 * (9.1 * 2 ^ 40) := mul_le_mul this (by linarith) (by positivity) (by norm_num)
      _ ≤ 2 ^ 80 := by norm_num
  have hM2le : ((n : ℝ) * (n + 1) * (9.1 * a)) ^ 2 ≤ (2 ^ 80) ^ 2 := pow_le_pow_left₀ hM0 hMle 2
  have hbig : (2 : ℝ) ^ 170 ≤ 2 ^ binary64.emax := by
    have : (2 : ℝ) ^ (170 : ℤ) ≤ 2 ^ binary64.emax := zpow_le_zpow_right₀ (by norm_num) (by decide)
    exact_mod_cast this
  have hX0 : 0 < 9.1 * a := by positivity
  have hA : 8 * ((n : ℝ) * (n + 1) * (9.1 * a)) + 4 ≤ 2 ^ 170 := by
    norm_num at hMle ⊢
    linarith
  have hB : 8 * ((n : ℝ) * (n + 1) * (9.1 * a)) ^ 2 + 4 ≤ 2 ^ 170 := by
    norm_num at hM2le ⊢
    linarith
  obtain ⟨r1, r2⟩ := C98_magnitude_partial binary64_ok (newGzFp other cos sin f fs n) (2 * π * (binOf f : ℕ) / n) (newErr η) (9.1 * a) (n * (n + 1) * (9.1 * a))
    k3 hne0 (hne.trans (by norm_num)) hX0 hM0 (hA.trans hbig) (hB.trans hbig) (by rw [u64]; exact q2) (xs.map widen) v2
    (by rw [hlw]; exact Or.inl le_rfl) st h1 mag h2
  clear hbig
  rw [hlw, v1, fourier_dft, u64] at r2
  have r3 := r2.trans q1
  have hle := dft_le (n := n) (binOf f) hX0.le (vals_le (X := 9.1 * a) fun x hx => ⟨(hxs x hx).1, (hxs x hx).2.2⟩)
  have hP0 : 0 ≤ ‖dft n (binOf f) (sampleR (vals xs))‖ ^ 2 := sq_nonneg _
  have hP : ‖dft n (binOf f) (sampleR (vals xs))‖ ^ 2 ≤ (n * (9.1 * a)) ^ 2 := pow_le_pow_left₀ (norm_nonneg _) hle 2
  generalize ‖dft n (binOf f) (sampleR (vals xs))‖ ^ 2 = P at *
  have hna : (n * a) ^ 2 ≤ (5125 * 2 ^ 40) ^ 2 := pow_le_pow_left₀ (by positivity) (mul_le_mul hnr5 ha2 ha0.le (by norm_num)) 2
  have hna0 : (205 * (1 / 2 ^ 50)) ^ 2 ≤ (n * a) ^ 2 := pow_le_pow_left₀ (by positivity) (mul_le_mul hnr ha (by norm_num) (by positivity)) 2
  have hmag : |val mag| ≤ P + 0.00009 * (n * a) ^ 2 := by
    have e : val mag = (val mag - P) + P := by ring
    rw [e]
    refine (abs_add_le _ _).trans ?_
    rw [abs_of_nonneg hP0]
    linarith
  have hmag2 : |val mag| ≤ 2 ^ 127 := by
    refine hmag.trans ?_
    have e : (n * (9.1 * a)) ^ 2 = 82.81 * (n * a) ^ 2 := by ring
    rw [e] at hP
    norm_num at hna ⊢
    linarith
  obtain ⟨s1, s2⟩ := narrow_val r1 hmag2
  refine ⟨s1, ?_⟩
  rw [u32, w32] at s2
  have e : val (narrow mag) - P = (val (narrow mag) - val mag) + (val mag - P) := by ring
  rw [e]
  refine (abs_add_le _ _).trans ?_
  norm_num at s2 hna0 ⊢
  linarith

/-! ## The key -/

theorem tones_index {c : Char} {lo hi : Nat} (h : tones c = some (lo, hi)) :
    ∃ row col, stdLowFreq[row]? = some lo ∧ stdHighFreq[col]? = some hi ∧ keypad[row * 4 + col]? = some c := by
  refine ⟨stdLowFreq.idxOf lo, stdHighFreq.idxOf hi, ?_⟩
  unfold tones at h
  split at h <;> first
    | (obtain ⟨rfl, rfl⟩ := Prod.mk.inj (Option.some.inj h); decide)
    | cases h

theorem vals_getD {φ : Format} (xs : List (FVal φ)) (i : Nat) (hi : i < xs.length) : (vals xs).getD i 0 = val xs[i] := by
  induction xs generalizing i with
  | nil => simp at hi
  | cons x xs ih =>
    rw [vals]
    cases i with
    | zero => rfl
    | succ i =>
      rw [List.getD_cons_succ]
      exact ih i (by simpa using hi)

/-- The largest magnitude of a group. -/
theorem group_peak {freqs : List Nat} {vs : List (FVal binary32)} {N a A : ℝ} {P : Nat → ℝ} (hN : 0 < N) (ha : 0 < a) (haA : a ≤ A)
    (hF : List.Forall₂ (fun f (v : FVal binary32) => Fp.Finite v ∧ |val v - P f ^ 2| ≤ 0.0001 * (N * a) ^ 2 + 0.000001 * P f ^ 2) freqs vs)
    {row lo : Nat} (hrow : freqs[row]? = some lo) (hnd : freqs.Nodup) (h0 : ∀ f, 0 ≤ P f) (h1 : 0.1024 * N * A ≤ P lo)
    (h2 : ∀ b ∈ freqs, b ≠ lo → P b ≤ 0.1 * N * A) : ∃ v, maxOf vs = (row, v) ∧ Fp.Finite v ∧ 0.0103 * (N * A) ^ 2 ≤ val v := by
  have hlen := hF.length_eq
  obtain ⟨hr, hr'⟩ := List.getElem?_eq_some_iff.1 hrow
  have hget : ∀ j (hj : j < freqs.length), Fp.Finite (vs[j]'(by omega)) ∧ |val (vs[j]'(by omega)) - P freqs[j] ^ 2| ≤ 0.0001 * (N * a) ^ 2 + 0.000001 * P freqs[j] ^ 2 := by
    intro j hj
    exact (List.forall₂_iff_get.1 hF).2 j hj (by omega)
  have hA : 0 < A := ha.trans_le haA
  have hNA : 0 < N * A := by positivity
  have hNa : (N * a) ^ 2 ≤ (N * A) ^ 2 := pow_le_pow_left₀ (by positivity) (mul_le_mul_of_nonneg_left haA hN.le) 2
  have hsq : 0 < (N * A) ^ 2 := by positivity
  obtain ⟨o1, o2⟩ := hget row hr
  rw [hr'] at o2
  have hown : 0.0103 * (N * A) ^ 2 ≤ val (vs[row]'(by omega)) := by
    have : (0.1024 * N * A) ^ 2 ≤ P lo ^ 2 := pow_le_pow_left₀ (by positivity) h1 2
    have e : (0.1024 * N * A) ^ 2 = 0.01048576 * (N * A) ^ 2 := by ring
    rw [e] at this
    have := (abs_le.1 o2).1
    linarith
  refine ⟨_, max_peak vs row _ (List.getElem?_eq_getElem (by omega)) o1 (by linarith) ?_, o1, hown⟩
  intro j w hj hw
  obtain ⟨hj1, rfl⟩ := List.getElem?_eq_some_iff.1 hw
  obtain ⟨w1, w2⟩ := hget j (by omega)
  refine ⟨w1, lt_of_lt_of_le ?_ hown⟩
  have hne : freqs[j]'(by omega) ≠ lo := by
    rw [← hr']
    intro h
    exact hj ((List.Nodup.getElem_inj_iff hnd).1 h)
  have : P freqs[j] ^ 2 ≤ (0.1 * N * A) ^ 2 := pow_le_pow_left₀ (h0 _) (h2 _ (List.getElem_mem _) hne) 2
  have e : (0.1 * N * A) ^ 2 = 0.01 * (N * A) ^ 2 := by ring
  rw [e] at this
  have := (abs_le.1 w2).2
  linarith

/-- C103 with rounding: `NewStandard` and `Feed` in floating point, on any platform, with a library cosine and sine within
`2^-50`, sampling rates from 8000 to 200000 per second, and amplitudes from `2^-50` to `2^40`.  The key is the one that is
pressed and the threshold is a number at least `(n · weaker / 10)²`. -/
theorem C103_rounded (other : Val → Nat) (cos sin : FVal binary64 → FVal binary64) (η : ℝ) (hη0 : 0 ≤ η) (hη : η ≤ 1 / 2 ^ 50)
    (hT : Trig cos sin 21 η) (fs n : Nat) (hf : 8000 ≤ fs) (hf2 : fs ≤ 200000) (hn : n = 205 * fs / 8000) (c : Char) (lo hi : Nat)
    (hc : tones c = some (lo, hi)) (f g A B φ ψ : ℝ) (hlf : |f - lo| ≤ lo / 400) (hhg : |g - hi| ≤ hi / 400)
    (hA : 1 / 2 ^ 50 ≤ A) (hB : 1 / 2 ^ 50 ≤ B) (hA2 : A ≤ 2 ^ 40) (hBA : B ≤ 8 * A) (hAB : A ≤ 8 * B)
    (d : DTMF (FVal binary64) (FVal binary32)) (hd : NewStandardFp other cos sin fs n d) (m : Nat → FVal binary32) (s : Slice) (hs : n ≤ s.len)
    (hm : ∀ i < n, Fp.Finite (m (s.base + i)) ∧ |val (m (s.base + i)) - (A * toneAt f fs φ i + B * toneAt g fs ψ i)| ≤ min A B / 25)
    (key : Nat) (thresh : FVal binary32) (hfeed : FeedFp d m s key thresh) :
    keypad[key]? = some c ∧ Fp.Finite thresh ∧ (n * min A B / 10) ^ 2 ≤ val thresh := by
  obtain ⟨es, w, hw1, hw2, rfl⟩ := hd
  obtain ⟨s', m', low, high, t1, t2, t3, t4, rfl, rfl⟩ := hfeed
  have hn205 : 205 ≤ n := by omega
  have hn0 : (0 : ℝ) < n := by
    have : 0 < n := by omega
    exact_mod_cast this
  have hA0 : 0 < A := lt_of_lt_of_le (by norm_num) hA
  have hB0 : 0 < B := lt_of_lt_of_le (by norm_num) hB
  obtain ⟨wl, wi⟩ := window32 hη0 hη (fun x hx hx2 => ⟨(hT x hx hx2).1.1, (hT x hx hx2).1.2.2⟩) (n := n) (by omega) (by omega) hw1 hw2
  have e1 : s' = ⟨s.base, n⟩ := by
    have ht : trim s n = some ⟨s.base, min n s.len⟩ := by
      unfold trim
      split
      · rw [take_ok (by omega), Nat.min_eq_left (by omega)]
      · rw [Nat.min_eq_right (by omega)]
    rw [Nat.min_eq_left hs] at ht
    exact (Option.some.inj (ht.symm.trans t1)).symm
  subst e1
  simp only at t2 t3 t4
  rw [applyWindow_eq _ _ _ (by simp only; omega)] at t2
  have e2 := Option.some.inj t2
  have e3 : contents m' ⟨s.base, n⟩ = List.zipWith (· * ·) (contents m ⟨s.base, n⟩) w := by
    rw [← e2]
    exact contents_windowed w m s.base n (by omega)
  rw [e3] at t3 t4
  clear e2 e3 t1 t2 m'
  generalize hY : List.zipWith (· * ·) (contents m ⟨s.base, n⟩) w = Y at *
  have hYl : Y.length = n := by
    rw [← hY, List.length_zipWith, contents_length, wl]
    simp
  have hmin0 : 1 / 2 ^ 50 ≤ min A B := le_min hA hB
  have hmin2 : min A B ≤ 2 ^ 40 := (min_le_left _ _).trans hA2
  have hminp : 0 < min A B := lt_min hA0 hB0
  have hsum : A + B ≤ 9 * min A B := by
    rcases min_choice A B with h | h <;> rw [h] <;> linarith
  have hYi : ∀ i (hi : i < Y.length), (Fp.Finite Y[i] ∧ Grid binary32 (Val.toRat Y[i]) ∧ |val Y[i]| ≤ 9.1 * min A B) ∧
      |val Y[i] - (A * toneAt f fs φ i + B * toneAt g fs ψ i) * ham n i| ≤ min A B / 25 * ham n i + 0.000003 * min A B := by
    intro i hi
    have hin : i < n := by omega
    obtain ⟨v, v1, v2, v3⟩ := wi i hin
    obtain ⟨x1, x2⟩ := hm i hin
    have ey : Y[i] = m (s.base + i) * v := by
      have : Y[i]? = some (m (s.base + i) * v) := by
        rw [← hY, List.getElem?_zipWith, contents_get _ _ hin, v1]
      rw [List.getElem?_eq_getElem hi] at this
      exact Option.some.inj this
    rw [ey]
    have tb : |A * toneAt f fs φ i + B * toneAt g fs ψ i| ≤ 9 * min A B := by
      have a1 := Real.abs_cos_le_one (2 * π * f * i / fs + φ)
      have a2 := Real.abs_cos_le_one (2 * π * g * i / fs + ψ)
      refine (abs_add_le _ _).trans ?_
      rw [abs_mul, abs_mul, abs_of_pos hA0, abs_of_pos hB0, toneAt, toneAt]
      have b1 := mul_le_mul_of_nonneg_left a1 hA0.le
      have b2 := mul_le_mul_of_nonneg_left a2 hB0.le
      linarith
    obtain ⟨s1, s2, s3, s4⟩ := sample_err hmin0 hmin2 x1 v2 (ham_nonneg n i) (ham_le_one n i) tb x2 v3
    exact ⟨⟨s1, s2, s3⟩, s4⟩
  have hxs : ∀ x ∈ Y, Fp.Finite x ∧ Grid binary32 x.toRat ∧ |val x| ≤ 9.1 * min A B := by
    intro x hx
    obtain ⟨i, hi, rfl⟩ := List.mem_iff_getElem.1 hx
    exact (hYi i hi).1
  have he : ∑ i ∈ Finset.range n, |(vals Y).getD i 0 - (A * toneAt f fs φ i + B * toneAt g fs ψ i) * ham n i| ≤ 0.0217 * n * min A B := by
    calc _ ≤ ∑ i ∈ Finset.range n, (min A B / 25 * ham n i + 0.000003 * min A B) := by
          refine Finset.sum_le_sum fun i hi => ?_
          rw [Finset.mem_range] at hi
          rw [vals_getD Y i (by omega)]
          exact (hYi i (by omega)).2
      _ = min A B / 25 * ∑ i ∈ Finset.range n, ham n i + n * (0.000003 * min A B) := by
          rw [Finset.sum_add_distrib, ← Finset.mul_sum, Finset.sum_const, Finset.card_range, nsmul_eq_mul]
      _ ≤ min A B / 25 * (0.53836 * n) + n * (0.000003 * min A B) := by
          have := mul_le_mul_of_nonneg_left (ham_sum hn205) (show 0 ≤ min A B / 25 by positivity)
          linarith
      _ ≤ 0.0217 * n * min A B := by nlinarith [mul_pos hn0 hminp]
  obtain ⟨hlo, hhi⟩ := tones_mem hc
  obtain ⟨⟨a1, a2⟩, b1, b2⟩ := dual_bins hf (by omega) hn hlo hhi hlf hhg hA0 hB0 hBA hAB (vals Y) he
  have hdet : ∀ (freqs : List Nat) (vs : List (FVal binary32)), (∀ x ∈ freqs, x ∈ stdLowFreq ++ stdHighFreq) →
      MagnitudesFp (freqs.map fun f => newGzFp other cos sin f fs n) Y vs →
      List.Forall₂ (fun f (v : FVal binary32) => Fp.Finite v ∧ |val v - ‖dft n (bucket f fs n) (sampleR (vals Y))‖ ^ 2| ≤
        0.0001 * (n * min A B) ^ 2 + 0.000001 * ‖dft n (bucket f fs n) (sampleR (vals Y))‖ ^ 2) freqs vs := by
    intro freqs vs hsub h
    rw [MagnitudesFp, List.forall₂_map_left_iff] at h
    refine (forall₂_mem h).imp ?_
    rintro x v ⟨hx, st, mag, u1, u2, rfl⟩
    exact detector_err hη0 hη hT hf hf2 hn (hsub x hx) hmin0 hmin2 hYl hxs u1 u2
  have dl := hdet stdLowFreq low (fun x hx => List.mem_append.2 (Or.inl hx)) t3
  have dh := hdet stdHighFreq high (fun x hx => List.mem_append.2 (Or.inr hx)) t4
  obtain ⟨row, col, hrow, hcol, hkey⟩ := tones_index hc
  obtain ⟨v, v1, v2, v3⟩ := group_peak hn0 hminp (min_le_left A B) dl hrow (by decide) (fun _ => norm_nonneg _) a1 a2
  obtain ⟨u, u1, u2, u3⟩ := group_peak hn0 hminp (min_le_right A B) dh hcol (by decide) (fun _ => norm_nonneg _) b1 b2
  rw [v1, u1]
  refine ⟨hkey, ?_⟩
  have sqA : (n * min A B) ^ 2 ≤ (n * A) ^ 2 := pow_le_pow_left₀ (by positivity) (mul_le_mul_of_nonneg_left (min_le_left _ _) hn0.le) 2
  have sqB : (n * min A B) ^ 2 ≤ (n * B) ^ 2 := pow_le_pow_left₀ (by positivity) (mul_le_mul_of_nonneg_left (min_le_right _ _) hn0.le) 2
  have sq0 : 0 ≤ (n * min A B) ^ 2 := sq_nonneg _
  have ee : (n * min A B / 10) ^ 2 = 0.01 * (n * min A B) ^ 2 := by ring
  rw [ee]
  simp only
  split
  · exact ⟨u2, by linarith⟩
  · exact ⟨v2, by linarith⟩

/-! ## The function that fuses nothing -/

theorem after_reset {g : Gz (FVal binary64)} {xs : List (FVal binary64)} {st : FVal binary64 × FVal binary64}
    (h : After { g with q1 := 0, q2 := 0 } xs st) : After g xs st := by
  induction h with
  | new => exact .new
  | feed _ hs ih => exact .feed ih hs

theorem magnitudes_unfused (freq : List (Gz (FVal binary64))) (xs : List (FVal binary32)) :
    MagnitudesFp freq xs (magnitude narrow (Verif.Dft.feed widen (reset freq) xs)) := by
  rw [feed_eq, reset, magnitude, List.map_map, List.map_map, MagnitudesFp, List.forall₂_map_right_iff, List.forall₂_same]
  intro g _
  obtain ⟨c, mag, st, h1, -, h3, -, h5⟩ := C98_unfused { g with q1 := 0, q2 := 0 } ⟨rfl, rfl⟩ (xs.map widen)
  refine ⟨st, mag, after_reset h1, h3, ?_⟩
  rw [feed_eq, magnitude] at h5
  simp only [List.map_cons, List.map_nil, List.cons.injEq, and_true, List.map_id_fun, id] at h5
  simp only [Function.comp]
  rw [← h5]

/-- C103: the function that rounds every operation is one of the implementations `FeedFp` allows. -/
theorem C103_unfused (d : DTMF (FVal binary64) (FVal binary32)) (hd : d.Ok) (m : Nat → FVal binary32) (s : Slice) :
    ∃ r, d.feed widen narrow m s = some r ∧ FeedFp d m s r.2.2.1 r.2.2.2 := by
  refine ⟨_, feed_closed widen narrow d hd m s, ⟨s.base, min d.blockSize s.len⟩, _, _, _, ?_, applyWindow_eq _ _ _ (by rw [hd]; simp only; omega),
    magnitudes_unfused _ _, magnitudes_unfused _ _, ?_⟩
  · unfold trim
    split
    · rw [take_ok (by omega), Nat.min_eq_left (by omega)]
    · rw [Nat.min_eq_right (by omega)]
  · have e : contents (fill m s.base (min d.blockSize s.len) fun i => m (s.base + i) * d.w.getD i 0) ⟨s.base, min d.blockSize s.len⟩ =
        windowed d.w d.blockSize (contents m s) := by
      rw [contents_windowed _ _ _ _ (by rw [hd]; omega), windowed, contents_take]
    rw [e]
    exact ⟨rfl, rfl⟩

/-- Such a detector exists, whatever the sample rate, the block size and the trigonometric functions. -/
theorem standard_exists (other : Val → Nat) (cos sin : FVal binary64 → FVal binary64) (fs n : Nat) : ∃ d, NewStandardFp other cos sin fs n d := by
  obtain ⟨es, hes⟩ : ∃ es, hammingFp cos n = some es := ⟨_, rfl⟩
  refine ⟨_, es, es.map fun e => narrow e.unfused, hes, ?_, rfl⟩
  rw [Stored32, List.forall₂_map_right_iff, List.forall₂_same]
  exact fun e _ => ⟨_, Expr.eval_unfused e, rfl⟩

theorem standard_ok {other : Val → Nat} {cos sin : FVal binary64 → FVal binary64} {fs n : Nat} {d : DTMF (FVal binary64) (FVal binary32)}
    (h : NewStandardFp other cos sin fs n d) : d.Ok := by
  obtain ⟨es, w, hes, hst, rfl⟩ := h
  have e : es = (List.range n).map (windowE cos hammingA n) := (Option.some.inj hes).symm
  have := hst.length_eq
  rw [e] at this
  simp at this
  exact this.symm

theorem exists_float32 (r : ℝ) (hr : |r| ≤ 1000) : ∃ v : FVal binary32, Fp.Finite v ∧ |val v - r| ≤ 1 / 8 := by
  obtain ⟨q, q1, q2⟩ := exists_rat_btwn (show r < r + 1 / 1000 by linarith)
  rw [abs_le] at hr
  have hq : |(q : ℝ)| ≤ 1001 := by rw [abs_le]; constructor <;> linarith
  have hbig : (1001 : ℝ) ≤ 2 ^ binary32.emax := by
    have : (2 : ℝ) ^ (10 : ℤ) ≤ 2 ^ binary32.emax := zpow_le_zpow_right₀ (by norm_num) (by decide)
    exact le_trans (by norm_num) this
  obtain ⟨-, h2⟩ := rd_real binary32_ok (hq.trans hbig)
  clear hbig
  have main : |((rd binary32 q : ℚ) : ℝ) - r| ≤ 1 / 8 := by
    have e : ((rd binary32 q : ℚ) : ℝ) - r = (((rd binary32 q : ℚ) : ℝ) - q) + (q - r) := by ring
    rw [e]
    refine (abs_add_le _ _).trans ?_
    rw [u32, w32] at h2
    have h3 : |(q : ℝ) - r| ≤ 1 / 1000 := by rw [abs_le]; constructor <;> linarith
    norm_num at h2 h3 ⊢
    linarith
  rcases le_or_gt 0 (rd binary32 q) with h0 | h0
  · exact ⟨Val.fin false (rd binary32 q), ⟨_, _, rfl, h0⟩, by rw [val_fin]; exact main⟩
  · exact ⟨Val.fin true (-rd binary32 q), ⟨_, _, rfl, by linarith⟩, by rw [val_fin]; simpa using main⟩

/-- The hypotheses of `C103_rounded`: the key D at 44100 samples per second, tones of amplitudes 10 and 16 at any phases, rounded to
single precision. -/
example (other : Val → Nat) (φ ψ : ℝ) : ∃ (cos sin : FVal binary64 → FVal binary64) (d : DTMF (FVal binary64) (FVal binary32))
    (m : Nat → FVal binary32) (r : _), NewStandardFp other cos sin 44100 1130 d ∧ d.feed widen narrow m ⟨3, 1130⟩ = some r ∧
    keypad[r.2.2.1]? = some 'D' ∧ (1130 : ℝ) ^ 2 ≤ val r.2.2.2 := by
  choose co c1 c2 c3 using fun x : FVal binary64 => exists_float (Real.cos (val x)) (Real.abs_cos_le_one _)
  choose si s1 _ s3 using fun x : FVal binary64 => exists_float (Real.sin (val x)) (Real.abs_sin_le_one _)
  have hT : Trig co si 21 (1 / 2 ^ 50) := fun x _ _ => ⟨⟨c1 x, c2 x, c3 x⟩, s1 x, s3 x⟩
  have hb : ∀ i : Nat, |10 * toneAt 941 44100 φ i + 16 * toneAt 1633 44100 ψ i| ≤ 1000 := by
    intro i
    have a1 := abs_le.1 (Real.abs_cos_le_one (2 * π * 941 * i / (44100 : ℕ) + φ))
    have a2 := abs_le.1 (Real.abs_cos_le_one (2 * π * 1633 * i / (44100 : ℕ) + ψ))
    rw [abs_le, toneAt, toneAt]
    constructor <;> linarith
  choose sa a1 a2 using fun i : Nat => exists_float32 _ (hb i)
  obtain ⟨d, hd⟩ := standard_exists other co si 44100 1130
  obtain ⟨r, r1, r2⟩ := C103_unfused d (standard_ok hd) (fun i => sa (i - 3)) ⟨3, 1130⟩
  refine ⟨co, si, d, fun i => sa (i - 3), r, hd, r1, ?_⟩
  have h := C103_rounded other co si (1 / 2 ^ 50) (by norm_num) le_rfl hT 44100 1130 (by norm_num) (by norm_num) (by norm_num) 'D' 941 1633 rfl
    941 1633 10 16 φ ψ (by norm_num) (by norm_num) (by norm_num) (by norm_num) (by norm_num) (by norm_num) (by norm_num) _ hd
    (fun i => sa (i - 3)) ⟨3, 1130⟩ le_rfl (fun i _ => by
      have e : 3 + i - 3 = i := by omega
      have em : min (10 : ℝ) 16 = 10 := by norm_num
      simp only [e, em]
      exact ⟨a1 i, (a2 i).trans (by norm_num)⟩) _ _ r2
  refine ⟨h.1, ?_⟩
  have h2 := h.2.2
  have em : min (10 : ℝ) 16 = 10 := by norm_num
  rw [em] at h2
  norm_num at h2 ⊢
  exact h2

/-! ## Blocks that are too short -/

section
variable {F S : Type} [Add F] [Sub F] [Mul F] [Zero F] [Mul S] [LT S] [DecidableLT S] [Zero S]

omit [Mul S] in
theorem max_first (hirr : ∀ a : S, ¬ a < a) (htr : ∀ a b c : S, a < b → b < c → a < c) (vs : List S) (i j : Nat) (hij : i < j) (v : S)
    (hi : vs[i]? = some v) (hj : vs[j]? = some v) : (maxOf vs).1 ≠ j := by
  have key : ∀ vs : List S, vs[i]? = some v → ¬ (maxOf vs).2 < v ∧ (vs[j]? = some v → (maxOf vs).1 ≠ j) := by
    intro vs
    induction vs using List.reverseRecOn with
    | nil => simp
    | append_singleton xs x ih =>
      intro h
      have e : maxOf (xs ++ [x]) = maxStep (maxOf xs) (x, xs.length) := by
        unfold maxOf
        rw [List.zipIdx_append, List.foldl_append]
        simp
      rw [e]
      rcases Nat.lt_trichotomy i xs.length with hlt | heq | hgt
      · rw [List.getElem?_append_left hlt] at h
        obtain ⟨i1, i2⟩ := ih h
        unfold maxStep
        by_cases hx : x > (maxOf xs).2
        · rw [if_pos hx]
          refine ⟨fun hv => i1 (htr _ _ _ hx hv), fun hjv => ?_⟩
          intro hjl
          simp only at hjl
          rw [← hjl] at hjv
          simp at hjv
          rw [hjv] at hx
          exact i1 hx
        · rw [if_neg hx]
          refine ⟨i1, fun hjv => ?_⟩
          rcases Nat.lt_trichotomy j xs.length with jl | je | jg
          · rw [List.getElem?_append_left jl] at hjv
            exact i2 hjv
          · rw [je]
            have hne : xs ≠ [] := by rintro rfl; simp at hlt
            exact (maxOf_lt xs hne).ne
          · rw [List.getElem?_eq_none (by simp; omega)] at hjv
            cases hjv
      · rw [heq] at h
        simp at h
        subst h
        have hjn : (xs ++ [x])[j]? ≠ some x := by
          rw [List.getElem?_eq_none (by simp; omega)]
          simp
        refine ⟨?_, fun h => absurd h hjn⟩
        unfold maxStep
        by_cases hx : x > (maxOf xs).2
        · rw [if_pos hx]; exact hirr x
        · rw [if_neg hx]; exact hx
      · rw [List.getElem?_eq_none (by simp; omega)] at h
        cases h
  exact (key vs hi).2 hj

/-- C103, the other side: two low tones that share a bin.  The detector never names a key of the later row, whatever it
is fed, in any arithmetic whose comparison is irreflexive and transitive. -/
theorem C103_blind (hirr : ∀ a : S, ¬ a < a) (htr : ∀ a b c : S, a < b → b < c → a < c) (wide : S → F) (narrow : F → S) (d : DTMF F S)
    (hd : d.Ok) (hh : d.nHigh = d.highFreq.length) (hh0 : d.highFreq ≠ []) (i j : Nat) (hij : i < j) (g : Gz F) (hi : d.lowFreq[i]? = some g)
    (hj : d.lowFreq[j]? = some g) (m : Nat → S) (s : Slice) : ∃ r, d.feed wide narrow m s = some r ∧ r.2.2.1 / d.nHigh ≠ j := by
  refine ⟨_, feed_closed wide narrow d hd m s, ?_⟩
  have hc : (maxOf (magnitude narrow (Verif.Dft.feed wide (reset d.highFreq) (windowed d.w d.blockSize (contents m s))))).1 < d.nHigh := by
    have := maxOf_lt (magnitude narrow (Verif.Dft.feed wide (reset d.highFreq) (windowed d.w d.blockSize (contents m s)))) (by
      intro h
      have := congrArg List.length h
      rw [magnitude_length, reset, List.length_map] at this
      exact hh0 (List.eq_nil_of_length_eq_zero this))
    rw [magnitude_length, reset, List.length_map, ← hh] at this
    exact this
  simp only [outcome]
  rw [Nat.mul_comm, Nat.mul_add_div (by omega), Nat.div_eq_of_lt hc, Nat.add_zero]
  refine max_first hirr htr _ i j hij (narrow (((windowed d.w d.blockSize (contents m s)).map wide).foldl Gz.step { g with q1 := 0, q2 := 0 } |> fun g =>
    g.q1 * g.q1 + g.q2 * g.q2 - g.q1 * g.q2 * g.coeff)) ?_ ?_
  · rw [magnitude, feed_eq, reset, List.map_map, List.map_map, List.getElem?_map, hi]; rfl
  · rw [magnitude, feed_eq, reset, List.map_map, List.map_map, List.getElem?_map, hj]; rfl

end

theorem fp_lt_irrefl (φ : Format) (a : FVal φ) : ¬ a < a := by
  show ¬ Fp.lt a a
  rcases a with _ | s | ⟨s, q⟩ <;> simp [Fp.lt]

theorem fp_lt_trans (φ : Format) (a b c : FVal φ) : a < b → b < c → a < c := by
  show Fp.lt a b → Fp.lt b c → Fp.lt a c
  rcases a with _ | s | ⟨s, q⟩ <;> rcases b with _ | t | ⟨t, r⟩ <;> rcases c with _ | u | ⟨u, p⟩ <;> simp only [Fp.lt] <;>
    first
      | exact fun h1 h2 => lt_trans h1 h2
      | tauto
      | (intro h1 h2; simp_all)

/-- C103 does not hold for short blocks: 50 samples at 8000 per second; the tones 770 and 852 share a bin, and the keys 7, 8,
9 and C are never named, with rounding. -/
theorem C103_violated_short (other : Val → Nat) (cos sin : FVal binary64 → FVal binary64) (d : DTMF (FVal binary64) (FVal binary32))
    (hd : NewStandardFp other cos sin 8000 50 d) (m : Nat → FVal binary32) (s : Slice) :
    ∃ r, d.feed widen narrow m s = some r ∧ ∀ c ∈ ['7', '8', '9', 'C'], keypad[r.2.2.1]? ≠ some c := by
  have hok := standard_ok hd
  obtain ⟨es, w, -, -, rfl⟩ := hd
  have e : newGzFp other cos sin 852 8000 50 = newGzFp other cos sin 770 8000 50 := by
    unfold newGzFp
    rw [(C99_bucket_partial other 852 8000 50 (by norm_num) (by norm_num)).2, (C99_bucket_partial other 770 8000 50 (by norm_num) (by norm_num)).2]
    rfl
  obtain ⟨r, r1, r2⟩ := C103_blind (fp_lt_irrefl binary32) (fp_lt_trans binary32) widen narrow _ hok rfl (by simp [stdHighFreq]) 1 2 (by norm_num)
    (newGzFp other cos sin 770 8000 50) rfl (by rw [← e]; rfl) m s
  refine ⟨r, r1, ?_⟩
  have e4 : stdHighFreq.length = 4 := rfl
  simp only [e4] at r2
  generalize r.2.2.1 = k at *
  rcases Nat.lt_or_ge k 16 with hk | hk
  · have : ∀ k < 16, k / 4 ≠ 2 → ∀ c ∈ ['7', '8', '9', 'C'], keypad[k]? ≠ some c := by decide
    exact this k hk r2
  · intro c _
    rw [List.getElem?_eq_none (by simpa [keypad] using hk)]
    simp

example (other : Val → Nat) (cos sin : FVal binary64 → FVal binary64) : ∃ d, NewStandardFp other cos sin 8000 50 d :=
  standard_exists other cos sin 8000 50

/-- The same in exact arithmetic. -/
theorem C103_violated_short_exact (m : Nat → ℝ) (s : Slice) :
    ∃ d r, newStandard 8000 50 = some d ∧ d.feed id id m s = some r ∧ ∀ c ∈ ['7', '8', '9', 'C'], keypad[r.2.2.1]? ≠ some c := by
  have e : newGz 852 8000 50 = newGz 770 8000 50 := by
    have b1 : bucket 852 8000 50 = 5 := by
      rw [bucket, nearest_exact _ _ (by norm_num)]
      decide
    have b2 : bucket 770 8000 50 = 5 := by
      rw [bucket, nearest_exact _ _ (by norm_num)]
      decide
    unfold newGz
    rw [b1, b2]
  obtain ⟨r, r1, r2⟩ := C103_blind (fun a : ℝ => lt_irrefl a) (fun a b c => lt_trans) id id (new stdLowFreq stdHighFreq 8000 50 (ham 50)) (by simp [DTMF.Ok, new])
    (by simp [new, newGoertzel]) (by simp [new, newGoertzel, stdHighFreq]) 1 2 (by norm_num) (newGz 770 8000 50) rfl (by rw [← e]; rfl) m s
  refine ⟨_, r, newStandard_eq 8000 50 (by norm_num), r1, ?_⟩
  have e4 : (new stdLowFreq stdHighFreq 8000 50 (ham 50)).nHigh = 4 := rfl
  rw [e4] at r2
  generalize r.2.2.1 = k at *
  rcases Nat.lt_or_ge k 16 with hk | hk
  · have : ∀ k < 16, k / 4 ≠ 2 → ∀ c ∈ ['7', '8', '9', 'C'], keypad[k]? ≠ some c := by decide
    exact this k hk r2
  · intro c _
    rw [List.getElem?_eq_none (by simpa [keypad] using hk)]
    simp

end Verif.Dtmf
