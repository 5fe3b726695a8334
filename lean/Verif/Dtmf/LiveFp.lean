import Verif.Dtmf.LiveTone
import Verif.Dtmf.DialFp

/-!
# A block of the program examples/dtmf_live.go, computed with rounding
-/

set_option maxRecDepth 20000

namespace Verif.Dtmf.Live
open Verif.Fp Verif.Conv Verif.Dft Verif.Filt Verif.WinFp Real

/-! ## A full block -/

/-- What the windows make of a sample. -/
theorem aged_err {w : Nat → FVal binary32} (hw : ∀ i < 1130, Fp.Finite (w i) ∧ |val (w i) - ham 1130 i| ≤ 1 / 2 ^ 22) {X : ℝ}
    (hX : 1 / 2 ^ 40 ≤ X) (hX2 : X ≤ 2 ^ 40) {v : FVal binary32} (hv : Fp.Finite v) (hvX : |val v| ≤ X) (q : Nat) (hq4 : q ≤ 4) :
    ∀ i, i + 282 * q < 1130 → Fp.Finite (aged w 282 i v q * w i : FVal binary32) ∧ Grid binary32 (Val.toRat (aged w 282 i v q * w i : FVal binary32)) ∧
      |val (aged w 282 i v q * w i : FVal binary32) - val v * ∏ m ∈ Finset.range (q + 1), ham 1130 (i + 282 * m)| ≤ (q + 1) * (0.00000031 * X) := by
  have hX0 : 0 < X := lt_of_lt_of_le (by norm_num) hX
  induction q with
  | zero =>
    intro i hi
    obtain ⟨w1, w2⟩ := hw i (by omega)
    obtain ⟨t1, t2, t3⟩ := times_err (e := 0) hX hX2 hv w1 hvX (ham_nonneg _ _) (ham_le_one _ _) (by positivity) (by simp) w2
    refine ⟨t1, t2, ?_⟩
    simp only [Nat.zero_add, Finset.prod_range_one, Nat.mul_zero, Nat.add_zero]
    refine t3.trans ?_
    simp
  | succ q ih =>
    intro i hi
    obtain ⟨i1, -, i3⟩ := ih (by omega) (i + 282) (by omega)
    obtain ⟨w1, w2⟩ := hw i (by omega)
    rw [aged_succ]
    have hprod : |∏ m ∈ Finset.range (q + 1), ham 1130 (i + 282 + 282 * m)| ≤ 1 := by
      rw [Finset.abs_prod]
      refine Finset.prod_le_one (fun _ _ => abs_nonneg _) fun m _ => ?_
      rw [abs_of_nonneg (ham_nonneg _ _)]
      exact ham_le_one _ _
    have hs : |val v * ∏ m ∈ Finset.range (q + 1), ham 1130 (i + 282 + 282 * m)| ≤ X := by
      rw [abs_mul]
      calc _ ≤ X * 1 := mul_le_mul hvX hprod (abs_nonneg _) hX0.le
        _ = X := mul_one X
    have hqr : (q : ℝ) ≤ 4 := by exact_mod_cast (by omega : q ≤ 4)
    obtain ⟨t1, t2, t3⟩ := times_err hX hX2 i1 w1 hs (ham_nonneg _ _) (ham_le_one _ _) (by nlinarith) i3 w2
    refine ⟨t1, t2, ?_⟩
    have e : ∏ m ∈ Finset.range (q + 1 + 1), ham 1130 (i + 282 * m) = (∏ m ∈ Finset.range (q + 1), ham 1130 (i + 282 + 282 * m)) * ham 1130 i := by
      rw [Finset.prod_range_succ']
      refine congrArg₂ (· * ·) (Finset.prod_congr rfl fun m _ => ?_) (by simp)
      congr 1
      omega
    rw [e, ← mul_assoc]
    refine t3.trans (le_of_eq ?_)
    push_cast
    ring

theorem effW_prod (i : Nat) (hi : i < 1130) : effW i = ∏ m ∈ Finset.range ((1129 - i) / 282 + 1), ham 1130 (i + 282 * m) := by
  rw [effW]
  have hq : (1129 - i) / 282 + 1 ≤ 5 := by omega
  rw [← Finset.prod_subset (Finset.range_subset_range.2 hq) (f := fun m => if i + 282 * m < 1130 then ham 1130 (i + 282 * m) else 1)]
  · refine Finset.prod_congr rfl fun m hm => ?_
    rw [Finset.mem_range] at hm
    rw [if_pos (by omega)]
  · intro m _ h2
    rw [Finset.mem_range] at h2
    rw [if_neg (by omega)]

/-- The largest magnitude of a group. -/
theorem group_first {freqs : List Nat} {vs : List (FVal binary32)} {a : ℝ} {P : Nat → ℝ} (ha : 0 < a)
    (hF : List.Forall₂ (fun f (v : FVal binary32) => Fp.Finite v ∧ |val v - P f ^ 2| ≤ 18.4 * a ^ 2) freqs vs)
    {row lo : Nat} (hrow : freqs[row]? = some lo) (hnd : freqs.Nodup) (h0 : ∀ f, 0 ≤ P f) (h1 : 40 * a ≤ P lo)
    (h2 : ∀ b ∈ freqs, b ≠ lo → P b + 1 * a ≤ P lo) : ∃ v, maxOf vs = (row, v) ∧ Fp.Finite v ∧ 0 < val v := by
  have hlen := hF.length_eq
  obtain ⟨hr, hr'⟩ := List.getElem?_eq_some_iff.1 hrow
  have hget : ∀ j (hj : j < freqs.length), Fp.Finite (vs[j]'(by omega)) ∧ |val (vs[j]'(by omega)) - P freqs[j] ^ 2| ≤ 18.4 * a ^ 2 := by
    intro j hj
    exact (List.forall₂_iff_get.1 hF).2 j hj (by omega)
  have hsq : 0 < a ^ 2 := by positivity
  obtain ⟨o1, o2⟩ := hget row hr
  rw [hr'] at o2
  have hown := (abs_le.1 o2).1
  have h1600 : (40 * a) ^ 2 ≤ P lo ^ 2 := pow_le_pow_left₀ (by positivity) h1 2
  have hpos : 0 < val (vs[row]'(by omega)) := by nlinarith
  refine ⟨_, max_peak vs row _ (List.getElem?_eq_getElem (by omega)) o1 hpos ?_, o1, hpos⟩
  intro j w hj hw
  obtain ⟨hj1, rfl⟩ := List.getElem?_eq_some_iff.1 hw
  obtain ⟨w1, w2⟩ := hget j (by omega)
  refine ⟨w1, ?_⟩
  have hne : freqs[j]'(by omega) ≠ lo := by
    rw [← hr']
    intro h
    exact hj ((List.Nodup.getElem_inj_iff hnd).1 h)
  have g := h2 _ (List.getElem_mem (by omega)) hne
  have g0 := h0 (freqs[j]'(by omega))
  have w3 := (abs_le.1 w2).2
  generalize P freqs[j] = Q at *
  have : Q ^ 2 + 40 * a ^ 2 ≤ P lo ^ 2 := by
    have e1 : 0 ≤ (P lo - Q - a) * (P lo + Q) := mul_nonneg (by linarith) (by linarith)
    have e2 : 0 ≤ a * (P lo + Q - 40 * a) := mul_nonneg ha.le (by linarith)
    nlinarith
  linarith

theorem trim_1130 {d : DTMF (FVal binary64) (FVal binary32)} (hd : d.blockSize = 1130) {s : Slice} (h : trim ⟨0, 1130⟩ d.blockSize = some s) : s = ⟨0, 1130⟩ := by
  unfold trim at h
  rw [hd, if_neg (by simp)] at h
  exact (Option.some.inj h).symm

/-- A block that lies in a press: the key is recognised. -/
theorem block_key {other : Val → Nat} {cos sin : FVal binary64 → FVal binary64} {η : ℝ} (hη0 : 0 ≤ η) (hη : η ≤ 1 / 2 ^ 50)
    (hT : Trig cos sin 21 η) {d : DTMF (FVal binary64) (FVal binary32)} (hd : NewStandardFp other cos sin 44100 1130 d) {c : Char} {lo hi : Nat}
    (hc : tones c = some (lo, hi)) {f g A B φ ψ : ℝ} (hlf : |f - lo| ≤ lo / 400) (hhg : |g - hi| ≤ hi / 400)
    (hA : 1 / 2 ^ 40 ≤ A) (hB : 1 / 2 ^ 40 ≤ B) (hA2 : A ≤ 2 ^ 20) (hBA : B ≤ 1.5 * A) (hAB : A ≤ 1.5 * B) {m X : Nat → FVal binary32}
    (hm : ∀ i < 1130, m i = aged (fun i => d.w.getD i 0) 282 i (X i) ((1129 - i) / 282))
    (hX : ∀ i < 1130, Fp.Finite (X i) ∧ |val (X i) - (A * toneAt f 44100 φ i + B * toneAt g 44100 ψ i)| ≤ min A B / 30)
    {key : Nat} {thresh : FVal binary32} (hfeed : FeedFp d m ⟨0, 1130⟩ key thresh) : keypad[key]? = some c ∧ thresh > 0 := by
  obtain ⟨es, w, hw1, hw2, rfl⟩ := hd
  obtain ⟨s', m', low, high, t1, t2, t3, t4, rfl, rfl⟩ := hfeed
  have hA0 : 0 < A := lt_of_lt_of_le (by norm_num) hA
  have hB0 : 0 < B := lt_of_lt_of_le (by norm_num) hB
  obtain ⟨wl, wi⟩ := window32 hη0 hη (fun x hx hx2 => ⟨(hT x hx hx2).1.1, (hT x hx hx2).1.2.2⟩) (n := 1130) (by omega) (by norm_num) hw1 hw2
  have e1 : s' = ⟨0, 1130⟩ := trim_1130 rfl t1
  subst e1
  simp only at t2 t3 t4 hm
  rw [applyWindow_eq _ _ _ (by simp only; omega)] at t2
  have e2 := Option.some.inj t2
  have e3 : contents m' ⟨0, 1130⟩ = List.zipWith (· * ·) (contents m ⟨0, 1130⟩) w := by
    rw [← e2]
    exact contents_windowed w m 0 1130 (by omega)
  rw [e3] at t3 t4
  clear e2 e3 t1 t2 m'
  generalize hY : List.zipWith (· * ·) (contents m ⟨0, 1130⟩) w = Y at *
  have hYl : Y.length = 1130 := by
    rw [← hY, List.length_zipWith, contents_length, wl]
    simp
  set a := min A B with ha
  have hmin0 : 1 / 2 ^ 40 ≤ a := le_min hA hB
  have hmin2 : a ≤ 2 ^ 20 := (min_le_left _ _).trans hA2
  have hminp : 0 < a := lt_min hA0 hB0
  have hsum : A + B ≤ 2.5 * a := by
    rw [ha]
    rcases min_choice A B with h | h <;> rw [h] <;> linarith
  have hwD : ∀ i < 1130, Fp.Finite (w.getD i 0) ∧ |val (w.getD i 0) - ham 1130 i| ≤ 1 / 2 ^ 22 := by
    intro i hi
    obtain ⟨v, v1, v2, v3⟩ := wi i hi
    rw [List.getD_eq_getElem?_getD, v1]
    exact ⟨v2, v3⟩
  have hYi : ∀ i (hi : i < Y.length), (Fp.Finite Y[i] ∧ Grid binary32 (Val.toRat Y[i]) ∧ |val Y[i]| ≤ 9.1 * (0.28 * a)) ∧
      |val Y[i] - (A * toneAt f 44100 φ i + B * toneAt g 44100 ψ i) * effW i| ≤ a / 30 * effW i + 0.000004 * a := by
    intro i hi
    have hin : i < 1130 := by omega
    obtain ⟨v, v1, v2, v3⟩ := wi i hin
    obtain ⟨x1, x2⟩ := hX i hin
    have ey : Y[i] = m i * w.getD i 0 := by
      have : Y[i]? = some (m i * w.getD i 0) := by
        rw [← hY, List.getElem?_zipWith, contents_get _ _ hin, v1, List.getD_eq_getElem?_getD, v1]
        simp
      rw [List.getElem?_eq_getElem hi] at this
      exact Option.some.inj this
    rw [ey, hm i hin]
    have tb : |A * toneAt f 44100 φ i + B * toneAt g 44100 ψ i| ≤ 2.5 * a := by
      have a1 := Real.abs_cos_le_one (2 * π * f * i / (44100 : ℕ) + φ)
      have a2 := Real.abs_cos_le_one (2 * π * g * i / (44100 : ℕ) + ψ)
      refine (abs_add_le _ _).trans ?_
      rw [abs_mul, abs_mul, abs_of_pos hA0, abs_of_pos hB0, toneAt, toneAt]
      have b1 := mul_le_mul_of_nonneg_left a1 hA0.le
      have b2 := mul_le_mul_of_nonneg_left a2 hB0.le
      linarith
    generalize A * toneAt f 44100 φ i + B * toneAt g 44100 ψ i = t at *
    have hXb : |val (X i)| ≤ 2.54 * a := by
      have e : val (X i) = (val (X i) - t) + t := by ring
      rw [e]
      exact (abs_add_le _ _).trans (by linarith)
    obtain ⟨s1, s2, s3⟩ := aged_err (w := fun i => w.getD i 0) hwD (X := 2.54 * a) (by norm_num at hmin0 ⊢; linarith) (by norm_num at hmin2 ⊢; linarith) x1 hXb
      ((1129 - i) / 282) (by omega) i (by omega)
    rw [← effW_prod i hin] at s3
    have hqr : ((((1129 - i) / 282 : ℕ)) : ℝ) ≤ 4 := by exact_mod_cast (by omega : (1129 - i) / 282 ≤ 4)
    have s4 : |val (aged (fun i => w.getD i 0) 282 i (X i) ((1129 - i) / 282) * w.getD i 0 : FVal binary32) - val (X i) * effW i| ≤ 0.000004 * a := by
      refine s3.trans ?_
      nlinarith
    generalize (aged (fun i => w.getD i 0) 282 i (X i) ((1129 - i) / 282) * w.getD i 0 : FVal binary32) = y at *
    have ew0 := effW_nonneg i
    have ew1 := effW_le_one i
    refine ⟨⟨s1, s2, ?_⟩, ?_⟩
    · have e : val y = (val y - val (X i) * effW i) + val (X i) * effW i := by ring
      rw [e]
      refine (abs_add_le _ _).trans ?_
      have : |val (X i) * effW i| ≤ 2.54 * a := by
        rw [abs_mul, abs_of_nonneg ew0]
        have := abs_nonneg (val (X i))
        nlinarith
      linarith
    · have e : val y - t * effW i = (val y - val (X i) * effW i) + (val (X i) - t) * effW i := by ring
      rw [e]
      refine (abs_add_le _ _).trans ?_
      have : |(val (X i) - t) * effW i| ≤ a / 30 * effW i := by
        rw [abs_mul, abs_of_nonneg ew0]
        exact mul_le_mul_of_nonneg_right x2 ew0
      linarith
  have hxs : ∀ x ∈ Y, Fp.Finite x ∧ Grid binary32 x.toRat ∧ |val x| ≤ 9.1 * (0.28 * a) := by
    intro x hx
    obtain ⟨i, hi, rfl⟩ := List.mem_iff_getElem.1 hx
    exact (hYi i hi).1
  have he : ∑ i ∈ Finset.range 1130, |(vals Y).getD i 0 - (A * toneAt f 44100 φ i + B * toneAt g 44100 ψ i) * effW i| ≤ 6.17 * a := by
    calc _ ≤ ∑ i ∈ Finset.range 1130, (a / 30 * effW i + 0.000004 * a) := by
          refine Finset.sum_le_sum fun i hi => ?_
          rw [Finset.mem_range] at hi
          rw [vals_getD Y i (by omega)]
          exact (hYi i (by omega)).2
      _ = a / 30 * ∑ i ∈ Finset.range 1130, effW i + 1130 * (0.000004 * a) := by
          rw [Finset.sum_add_distrib, ← Finset.mul_sum, Finset.sum_const, Finset.card_range, nsmul_eq_mul]
          norm_num
      _ ≤ a / 30 * 184.668 + 1130 * (0.000004 * a) := by
          have := mul_le_mul_of_nonneg_left effW_sum (show 0 ≤ a / 30 by positivity)
          linarith
      _ ≤ 6.17 * a := by linarith
  obtain ⟨hlo, hhi⟩ := tones_mem hc
  obtain ⟨⟨a1, a2⟩, b1, b2⟩ := dial_bins hlo hhi hlf hhg hA0 hB0 hBA hAB (vals Y) he
  have hdet : ∀ (freqs : List Nat) (vs : List (FVal binary32)), (∀ x ∈ freqs, x ∈ stdLowFreq ++ stdHighFreq) →
      MagnitudesFp (freqs.map fun f => newGzFp other cos sin f 44100 1130) Y vs →
      List.Forall₂ (fun f (v : FVal binary32) => Fp.Finite v ∧ |val v - ‖dft 1130 (binOf f) (sampleR (vals Y))‖ ^ 2| ≤ 18.4 * a ^ 2) freqs vs := by
    intro freqs vs hsub h
    rw [MagnitudesFp, List.forall₂_map_left_iff] at h
    refine (forall₂_mem h).imp ?_
    rintro x v ⟨hx, st, mag, u1, u2, rfl⟩
    obtain ⟨r1, r2⟩ := detector_err hη0 hη hT (fs := 44100) (n := 1130) (by norm_num) (by norm_num) (by norm_num) (hsub x hx) (a := 0.28 * a)
      (by norm_num at hmin0 ⊢; linarith) (by norm_num at hmin2 ⊢; linarith) hYl hxs u1 u2
    rw [bucket_bin (by norm_num) (by norm_num) (by norm_num) (hsub x hx)] at r2
    refine ⟨r1, r2.trans ?_⟩
    have hle := dft_le (n := 1130) (binOf x) (X := 9.1 * (0.28 * a)) (by positivity) (vals_le (X := 9.1 * (0.28 * a)) fun x hx => ⟨(hxs x hx).1, (hxs x hx).2.2⟩)
    have hle2 : ‖dft 1130 (binOf x) (sampleR (vals Y))‖ ^ 2 ≤ ((1130 : ℕ) * (9.1 * (0.28 * a))) ^ 2 := pow_le_pow_left₀ (norm_nonneg _) hle 2
    generalize ‖dft 1130 (binOf x) (sampleR (vals Y))‖ ^ 2 = P at *
    push_cast at hle2 ⊢
    have : 0 < a ^ 2 := by positivity
    nlinarith
  have dl := hdet stdLowFreq low (fun x hx => List.mem_append.2 (Or.inl hx)) t3
  have dh := hdet stdHighFreq high (fun x hx => List.mem_append.2 (Or.inr hx)) t4
  obtain ⟨row, col, hrow, hcol, hkey⟩ := tones_index hc
  obtain ⟨v, v1, v2, v3⟩ := group_first hminp dl hrow (by decide) (fun _ => norm_nonneg _) a1 a2
  obtain ⟨u, u1, u2, u3⟩ := group_first hminp dh hcol (by decide) (fun _ => norm_nonneg _) b1 b2
  rw [v1, u1]
  refine ⟨hkey, ?_⟩
  simp only
  split
  · exact (zero_lt_val u2).2 u3
  · exact (zero_lt_val v2).2 v3

theorem coeff_finite {other : Val → Nat} {cos sin : FVal binary64 → FVal binary64} {η : ℝ} (hη0 : 0 ≤ η) (hη : η ≤ 1 / 2 ^ 50)
    (hT : Trig cos sin 21 η) {f : Nat} (hf : f ≤ 1633) : Fp.Finite (newGzFp other cos sin f 44100 1130).coeff := by
  have hw := w64
  have hT9 : Trig cos sin 9 η := fun x hx hx9 => hT x hx (hx9.trans (by norm_num))
  have hne : newErr η ≤ 29 / 2 ^ 53 := by
    unfold newErr
    rw [u64]
    norm_num at hη hw ⊢
    linarith
  obtain ⟨k, -, -, k3, -⟩ := C99_new other cos sin η hη0 (hne.trans (by norm_num)) hT9 f 44100 1130 (by omega) (by omega) (by omega) (by omega) (by omega)
  exact k3.fcoeff

/-- A block of silence: the threshold is not positive. -/
theorem block_silent {other : Val → Nat} {cos sin : FVal binary64 → FVal binary64} {η : ℝ} (hη0 : 0 ≤ η) (hη : η ≤ 1 / 2 ^ 50)
    (hT : Trig cos sin 21 η) {d : DTMF (FVal binary64) (FVal binary32)} (hd : NewStandardFp other cos sin 44100 1130 d) {m X : Nat → FVal binary32}
    {q : Nat → Nat} (hq : ∀ i < 1130, i + 282 * q i < 1130)
    (hm : ∀ i < 1130, m i = aged (fun i => d.w.getD i 0) 282 i (X i) (q i)) (hX : ∀ i < 1130, IsZero (X i))
    {key : Nat} {thresh : FVal binary32} (hfeed : FeedFp d m ⟨0, 1130⟩ key thresh) : ¬ thresh > 0 := by
  obtain ⟨es, w, hw1, hw2, rfl⟩ := hd
  obtain ⟨s', m', low, high, t1, t2, t3, t4, rfl, rfl⟩ := hfeed
  obtain ⟨wl, wi⟩ := window32 hη0 hη (fun x hx hx2 => ⟨(hT x hx hx2).1.1, (hT x hx hx2).1.2.2⟩) (n := 1130) (by omega) (by norm_num) hw1 hw2
  have e1 : s' = ⟨0, 1130⟩ := trim_1130 rfl t1
  subst e1
  simp only at t2 t3 t4 hm
  rw [applyWindow_eq _ _ _ (by simp only; omega)] at t2
  have e2 := Option.some.inj t2
  have e3 : contents m' ⟨0, 1130⟩ = List.zipWith (· * ·) (contents m ⟨0, 1130⟩) w := by
    rw [← e2]
    exact contents_windowed w m 0 1130 (by omega)
  rw [e3] at t3 t4
  have hwD : ∀ i < 1130, Fp.Finite (w.getD i 0) := by
    intro i hi
    obtain ⟨v, v1, v2, v3⟩ := wi i hi
    rw [List.getD_eq_getElem?_getD, v1]
    exact v2
  have haged : ∀ k i, i + 282 * k < 1130 → ∀ v : FVal binary32, IsZero v → IsZero (aged (fun i => w.getD i 0) 282 i v k) := by
    intro k
    induction k with
    | zero => exact fun i _ v hv => hv
    | succ k ih =>
      intro i hi v hv
      rw [aged_succ]
      exact mul_zero_fin (ih (i + 282) (by omega) v hv) (hwD _ (by omega))
  have hz : ∀ x ∈ List.zipWith (· * ·) (contents m ⟨0, 1130⟩) w, IsZero x := by
    intro x hx
    obtain ⟨i, hi, rfl⟩ := List.mem_iff_getElem.1 hx
    have hin : i < 1130 := by
      rw [List.length_zipWith, wl] at hi
      omega
    obtain ⟨v, v1, v2, v3⟩ := wi i hin
    have : (List.zipWith (· * ·) (contents m ⟨0, 1130⟩) w)[i]? = some (m i * v) := by
      rw [List.getElem?_zipWith, contents_get _ _ hin, v1]
      simp
    rw [List.getElem?_eq_getElem hi] at this
    rw [Option.some.inj this, hm i hin]
    exact mul_zero_fin (haged _ i (hq i hin) _ (hX i hin)) v2
  have hdet : ∀ (freqs : List Nat) (vs : List (FVal binary32)), (∀ x ∈ freqs, x ≤ 1633) →
      MagnitudesFp (freqs.map fun f => newGzFp other cos sin f 44100 1130) (List.zipWith (· * ·) (contents m ⟨0, 1130⟩) w) vs → IsZero (maxOf vs).2 := by
    intro freqs vs hsub h
    refine max_zeros vs fun v hv => ?_
    rw [MagnitudesFp, List.forall₂_map_left_iff] at h
    obtain ⟨k, hk, rfl⟩ := List.mem_iff_getElem.1 hv
    obtain ⟨st, mag, u1, u2, u3⟩ := (List.forall₂_iff_get.1 h).2 k (by rw [h.length_eq]; exact hk) hk
    rw [List.get_eq_getElem] at u3
    rw [u3]
    have hc := coeff_finite hη0 hη hT (other := other) (hsub _ (List.get_mem freqs ⟨k, by rw [h.length_eq]; exact hk⟩))
    obtain ⟨z1, z2⟩ := after_zero hc u1 fun x hx => by
      obtain ⟨y, hy, rfl⟩ := List.mem_map.1 hx
      exact convert_zero (hz y hy)
    exact convert_zero (reports_zero hc u2 z1 z2)
  have zl := hdet stdLowFreq low (by decide) t3
  have zh := hdet stdHighFreq high (by decide) t4
  have hnot : ∀ v : FVal binary32, IsZero v → ¬ v > 0 := by
    rintro v ⟨s, rfl⟩ h
    have : (Val.fin false 0).toRat < (Val.fin s 0).toRat := h
    cases s <;> simp [Val.toRat] at this
  split
  · exact hnot _ zh
  · exact hnot _ zl

end Verif.Dtmf.Live
