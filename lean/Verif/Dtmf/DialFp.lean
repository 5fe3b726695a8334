import Verif.Dtmf.DialTone
import Verif.Dtmf.DialModel
import Verif.Dtmf.ToneFp
import Verif.Dtmf.ToolProps

/-!
# A block of the program examples/dtmf_file.go, computed with rounding
-/

namespace Verif.Dtmf
open Verif.Fp Verif.Conv Verif.Dft Verif.Filt Verif.WinFp Real Dial

/-! ## A full block -/

/-- One more factor of the window. -/
theorem times_err {v w : FVal binary32} {X s h e : ℝ} (hX : 1 / 2 ^ 40 ≤ X) (hX2 : X ≤ 2 ^ 40) (hv : Fp.Finite v) (hw : Fp.Finite w)
    (hs : |s| ≤ X) (hh0 : 0 ≤ h) (hh1 : h ≤ 1) (he : e ≤ X / 100) (hvs : |val v - s| ≤ e) (hwh : |val w - h| ≤ 1 / 2 ^ 22) :
    Fp.Finite (v * w : FVal binary32) ∧ Grid binary32 (Val.toRat (v * w : FVal binary32)) ∧
      |val (v * w : FVal binary32) - s * h| ≤ e + 0.00000031 * X := by
  have hX0 : 0 < X := lt_of_lt_of_le (by norm_num) hX
  have hva : |val v| ≤ 1.01 * X := by
    have e1 : val v = (val v - s) + s := by ring
    rw [e1]
    exact (abs_add_le _ _).trans (by linarith)
  have hwa : |val w| ≤ 1.000001 := by
    have e1 : val w = (val w - h) + h := by ring
    rw [e1]
    refine (abs_add_le _ _).trans ?_
    rw [abs_of_nonneg hh0]
    norm_num at hwh ⊢
    linarith
  have hp : |val v * val w| ≤ 1.0101 * X := by
    rw [abs_mul]
    calc |val v| * |val w| ≤ 1.01 * X * 1.000001 := mul_le_mul hva hwa (abs_nonneg _) (by positivity)
      _ ≤ 1.0101 * X := by linarith
  have hbig : 1.0101 * X ≤ 2 ^ binary32.emax := by
    have e1 : (2 : ℝ) ^ (44 : ℤ) ≤ 2 ^ binary32.emax := zpow_le_zpow_right₀ (by norm_num) (by decide)
    refine le_trans ?_ e1
    norm_num at hX2 ⊢
    linarith
  obtain ⟨m1, m2⟩ := mul_val binary32_ok hv hw (hp.trans hbig)
  have hg : Grid binary32 (Val.toRat (v * w : FVal binary32)) := by
    have e1 : val v * val w = ((Val.toRat v * Val.toRat w : ℚ) : ℝ) := by unfold val; push_cast; rfl
    have ht := hp.trans hbig
    rw [e1] at ht
    obtain ⟨r1, -⟩ := rd_real binary32_ok ht
    have hi := mul_rd binary32 (v := v) (w := w) ⟨hv, rfl⟩ ⟨hw, rfl⟩ r1
    have e2 : Val.toRat (v * w : FVal binary32) = _ := hi.2
    rw [e2]
    exact grid_rd binary32 (by decide) _
  clear hbig
  refine ⟨m1, hg, ?_⟩
  have hw32 : wR binary32 ≤ 0.0000000001 * X := by
    rw [w32]
    norm_num at hX ⊢
    linarith
  have hm : |val (v * w : FVal binary32) - val v * val w| ≤ 0.000000061 * X := by
    refine m2.trans ?_
    rw [u32]
    norm_num at hp hw32 ⊢
    linarith
  have e1 : val (v * w : FVal binary32) - s * h = (val (v * w : FVal binary32) - val v * val w) + val v * (val w - h) + (val v - s) * h := by ring
  rw [e1]
  have h1 : |val v * (val w - h)| ≤ 0.000000241 * X := by
    rw [abs_mul]
    refine (mul_le_mul hva hwh (abs_nonneg _) (by positivity)).trans ?_
    norm_num
    linarith
  have h2 : |(val v - s) * h| ≤ e := by
    rw [abs_mul, abs_of_nonneg hh0]
    have := abs_nonneg (val v - s)
    nlinarith
  have h3 := abs_add_le (val (v * w : FVal binary32) - val v * val w + val v * (val w - h)) ((val v - s) * h)
  have h4 := abs_add_le (val (v * w : FVal binary32) - val v * val w) (val v * (val w - h))
  linarith

/-- What the windows make of a sample. -/
theorem aged_err {w : Nat → FVal binary32} (hw : ∀ i < 205, Fp.Finite (w i) ∧ |val (w i) - ham 205 i| ≤ 1 / 2 ^ 22) {X : ℝ}
    (hX : 1 / 2 ^ 40 ≤ X) (hX2 : X ≤ 2 ^ 40) {v : FVal binary32} (hv : Fp.Finite v) (hvX : |val v| ≤ X) (q : Nat) (hq4 : q ≤ 4) :
    ∀ i, i + 51 * q < 205 → Fp.Finite (aged w 51 i v q * w i : FVal binary32) ∧ Grid binary32 (Val.toRat (aged w 51 i v q * w i : FVal binary32)) ∧
      |val (aged w 51 i v q * w i : FVal binary32) - val v * ∏ m ∈ Finset.range (q + 1), ham 205 (i + 51 * m)| ≤ (q + 1) * (0.00000031 * X) := by
  have hX0 : 0 < X := lt_of_lt_of_le (by norm_num) hX
  induction q with
  | zero =>
    intro i hi
    obtain ⟨w1, w2⟩ := hw i (by omega)
    obtain ⟨t1, t2, t3⟩ := times_err (e := 0) hX hX2 hv w1 hvX (ham_nonneg _ _) (ham_le_one _ _) (by positivity) (by simp) w2
    refine ⟨t1, t2, ?_⟩
    simp only [Nat.zero_add, Finset.prod_range_one, Nat.mul_zero, Nat.add_zero]
    refine t3.trans ?_
    simp
  | succ q ih =>
    intro i hi
    obtain ⟨i1, -, i3⟩ := ih (by omega) (i + 51) (by omega)
    obtain ⟨w1, w2⟩ := hw i (by omega)
    rw [aged_succ]
    have hprod : |∏ m ∈ Finset.range (q + 1), ham 205 (i + 51 + 51 * m)| ≤ 1 := by
      rw [Finset.abs_prod]
      refine Finset.prod_le_one (fun _ _ => abs_nonneg _) fun m _ => ?_
      rw [abs_of_nonneg (ham_nonneg _ _)]
      exact ham_le_one _ _
    have hs : |val v * ∏ m ∈ Finset.range (q + 1), ham 205 (i + 51 + 51 * m)| ≤ X := by
      rw [abs_mul]
      calc _ ≤ X * 1 := mul_le_mul hvX hprod (abs_nonneg _) hX0.le
        _ = X := mul_one X
    have hqr : (q : ℝ) ≤ 4 := by exact_mod_cast (by omega : q ≤ 4)
    obtain ⟨t1, t2, t3⟩ := times_err hX hX2 i1 w1 hs (ham_nonneg _ _) (ham_le_one _ _) (by nlinarith) i3 w2
    refine ⟨t1, t2, ?_⟩
    have e : ∏ m ∈ Finset.range (q + 1 + 1), ham 205 (i + 51 * m) = (∏ m ∈ Finset.range (q + 1), ham 205 (i + 51 + 51 * m)) * ham 205 i := by
      rw [Finset.prod_range_succ']
      refine congrArg₂ (· * ·) (Finset.prod_congr rfl fun m _ => ?_) (by simp)
      congr 1
      omega
    rw [e, ← mul_assoc]
    refine t3.trans (le_of_eq ?_)
    push_cast
    ring

theorem effW_prod (i : Nat) (hi : i < 205) : effW i = ∏ m ∈ Finset.range ((204 - i) / 51 + 1), ham 205 (i + 51 * m) := by
  rw [effW]
  have hq : (204 - i) / 51 + 1 ≤ 5 := by omega
  rw [← Finset.prod_subset (Finset.range_subset_range.2 hq) (f := fun m => if i + 51 * m < 205 then ham 205 (i + 51 * m) else 1)]
  · refine Finset.prod_congr rfl fun m hm => ?_
    rw [Finset.mem_range] at hm
    rw [if_pos (by omega)]
  · intro m _ h2
    rw [Finset.mem_range] at h2
    rw [if_neg (by omega)]

/-- The largest magnitude of a group. -/
theorem group_first {freqs : List Nat} {vs : List (FVal binary32)} {a : ℝ} {P : Nat → ℝ} (ha : 0 < a)
    (hF : List.Forall₂ (fun f (v : FVal binary32) => Fp.Finite v ∧ |val v - P f ^ 2| ≤ 0.61 * a ^ 2) freqs vs)
    {row lo : Nat} (hrow : freqs[row]? = some lo) (hnd : freqs.Nodup) (h0 : ∀ f, 0 ≤ P f) (h1 : 10 * a ≤ P lo)
    (h2 : ∀ b ∈ freqs, b ≠ lo → P b + 0.38 * a ≤ P lo) : ∃ v, maxOf vs = (row, v) ∧ Fp.Finite v ∧ 0 < val v := by
  have hlen := hF.length_eq
  obtain ⟨hr, hr'⟩ := List.getElem?_eq_some_iff.1 hrow
  have hget : ∀ j (hj : j < freqs.length), Fp.Finite (vs[j]'(by omega)) ∧ |val (vs[j]'(by omega)) - P freqs[j] ^ 2| ≤ 0.61 * a ^ 2 := by
    intro j hj
    exact (List.forall₂_iff_get.1 hF).2 j hj (by omega)
  have hsq : 0 < a ^ 2 := by positivity
  obtain ⟨o1, o2⟩ := hget row hr
  rw [hr'] at o2
  have hown := (abs_le.1 o2).1
  have h100 : (10 * a) ^ 2 ≤ P lo ^ 2 := pow_le_pow_left₀ (by positivity) h1 2
  have hpos : 0 < val (vs[row]'(by omega)) := by nlinarith
  refine ⟨_, max_peak vs row _ (List.getElem?_eq_getElem (by omega)) o1 hpos ?_, o1, hpos⟩
  intro j w hj hw
  obtain ⟨hj1, rfl⟩ := List.getElem?_eq_some_iff.1 hw
  obtain ⟨w1, w2⟩ := hget j (by omega)
  refine ⟨w1, ?_⟩
  have hne : freqs[j]'(by omega) ≠ lo := by
    rw [← hr']
    intro h
    exact hj ((List.Nodup.getElem_inj_iff hnd).1 h)
  have g := h2 _ (List.getElem_mem (by omega)) hne
  have g0 := h0 (freqs[j]'(by omega))
  have w3 := (abs_le.1 w2).2
  generalize P freqs[j] = Q at *
  have : Q ^ 2 + 3.8 * a ^ 2 ≤ P lo ^ 2 := by nlinarith
  linarith

theorem zero_lt_val {v : FVal binary32} (hv : Fp.Finite v) : v > 0 ↔ 0 < val v := by
  have z : val (0 : FVal binary32) = 0 := by
    show (((Val.fin false 0).toRat : ℚ) : ℝ) = 0
    simp [Val.toRat]
  have := lt_val (v := (0 : FVal binary32)) (w := v) ⟨false, 0, rfl, le_rfl⟩ hv
  rw [z] at this
  exact this

theorem trim_205 {d : DTMF (FVal binary64) (FVal binary32)} (hd : d.blockSize = 205) {s : Slice} (h : trim ⟨0, 205⟩ d.blockSize = some s) : s = ⟨0, 205⟩ := by
  unfold trim at h
  rw [hd, if_neg (by simp)] at h
  exact (Option.some.inj h).symm

/-- A block that lies in a press: the key is recognised. -/
theorem block_key {other : Val → Nat} {cos sin : FVal binary64 → FVal binary64} {η : ℝ} (hη0 : 0 ≤ η) (hη : η ≤ 1 / 2 ^ 50)
    (hT : Trig cos sin 21 η) {d : DTMF (FVal binary64) (FVal binary32)} (hd : NewStandardFp other cos sin 8000 205 d) {c : Char} {lo hi : Nat}
    (hc : tones c = some (lo, hi)) {f g A B φ ψ : ℝ} (hlf : |f - lo| ≤ lo / 400) (hhg : |g - hi| ≤ hi / 400)
    (hA : 1 / 2 ^ 15 ≤ A) (hB : 1 / 2 ^ 15 ≤ B) (hA2 : A ≤ 2 ^ 20) (hBA : B ≤ 1.5 * A) (hAB : A ≤ 1.5 * B) {m X : Nat → FVal binary32}
    (hm : ∀ i < 205, m i = aged (fun i => d.w.getD i 0) 51 i (X i) ((204 - i) / 51))
    (hX : ∀ i < 205, Fp.Finite (X i) ∧ |val (X i) - (A * toneAt f 8000 φ i + B * toneAt g 8000 ψ i)| ≤ min A B / 30)
    {key : Nat} {thresh : FVal binary32} (hfeed : FeedFp d m ⟨0, 205⟩ key thresh) : keypad[key]? = some c ∧ thresh > 0 := by
  obtain ⟨es, w, hw1, hw2, rfl⟩ := hd
  obtain ⟨s', m', low, high, t1, t2, t3, t4, rfl, rfl⟩ := hfeed
  have hA0 : 0 < A := lt_of_lt_of_le (by norm_num) hA
  have hB0 : 0 < B := lt_of_lt_of_le (by norm_num) hB
  obtain ⟨wl, wi⟩ := window32 hη0 hη (fun x hx hx2 => ⟨(hT x hx hx2).1.1, (hT x hx hx2).1.2.2⟩) (n := 205) (by omega) (by norm_num) hw1 hw2
  have e1 : s' = ⟨0, 205⟩ := trim_205 rfl t1
  subst e1
  simp only at t2 t3 t4 hm
  rw [applyWindow_eq _ _ _ (by simp only; omega)] at t2
  have e2 := Option.some.inj t2
  have e3 : contents m' ⟨0, 205⟩ = List.zipWith (· * ·) (contents m ⟨0, 205⟩) w := by
    rw [← e2]
    exact contents_windowed w m 0 205 (by omega)
  rw [e3] at t3 t4
  clear e2 e3 t1 t2 m'
  generalize hY : List.zipWith (· * ·) (contents m ⟨0, 205⟩) w = Y at *
  have hYl : Y.length = 205 := by
    rw [← hY, List.length_zipWith, contents_length, wl]
    simp
  set a := min A B with ha
  have hmin0 : 1 / 2 ^ 15 ≤ a := le_min hA hB
  have hmin2 : a ≤ 2 ^ 20 := (min_le_left _ _).trans hA2
  have hminp : 0 < a := lt_min hA0 hB0
  have hsum : A + B ≤ 2.5 * a := by
    rw [ha]
    rcases min_choice A B with h | h <;> rw [h] <;> linarith
  have hwD : ∀ i < 205, Fp.Finite (w.getD i 0) ∧ |val (w.getD i 0) - ham 205 i| ≤ 1 / 2 ^ 22 := by
    intro i hi
    obtain ⟨v, v1, v2, v3⟩ := wi i hi
    rw [List.getD_eq_getElem?_getD, v1]
    exact ⟨v2, v3⟩
  have hYi : ∀ i (hi : i < Y.length), (Fp.Finite Y[i] ∧ Grid binary32 (Val.toRat Y[i]) ∧ |val Y[i]| ≤ 9.1 * (0.28 * a)) ∧
      |val Y[i] - (A * toneAt f 8000 φ i + B * toneAt g 8000 ψ i) * effW i| ≤ a / 30 * effW i + 0.000004 * a := by
    intro i hi
    have hin : i < 205 := by omega
    obtain ⟨v, v1, v2, v3⟩ := wi i hin
    obtain ⟨x1, x2⟩ := hX i hin
    have ey : Y[i] = m i * w.getD i 0 := by
      have : Y[i]? = some (m i * w.getD i 0) := by
        rw [← hY, List.getElem?_zipWith, contents_get _ _ hin, v1, List.getD_eq_getElem?_getD, v1]
        simp
      rw [List.getElem?_eq_getElem hi] at this
      exact Option.some.inj this
    rw [ey, hm i hin]
    have tb : |A * toneAt f 8000 φ i + B * toneAt g 8000 ψ i| ≤ 2.5 * a := by
      have a1 := Real.abs_cos_le_one (2 * π * f * i / (8000 : ℕ) + φ)
      have a2 := Real.abs_cos_le_one (2 * π * g * i / (8000 : ℕ) + ψ)
      refine (abs_add_le _ _).trans ?_
      rw [abs_mul, abs_mul, abs_of_pos hA0, abs_of_pos hB0, toneAt, toneAt]
      have b1 := mul_le_mul_of_nonneg_left a1 hA0.le
      have b2 := mul_le_mul_of_nonneg_left a2 hB0.le
      linarith
    generalize A * toneAt f 8000 φ i + B * toneAt g 8000 ψ i = t at *
    have hXb : |val (X i)| ≤ 2.54 * a := by
      have e : val (X i) = (val (X i) - t) + t := by ring
      rw [e]
      exact (abs_add_le _ _).trans (by linarith)
    obtain ⟨s1, s2, s3⟩ := aged_err (w := fun i => w.getD i 0) hwD (X := 2.54 * a) (by norm_num at hmin0 ⊢; linarith) (by norm_num at hmin2 ⊢; linarith) x1 hXb
      ((204 - i) / 51) (by omega) i (by omega)
    beta_reduce at s1 s2 s3
    rw [← effW_prod i hin] at s3
    have hqr : ((((204 - i) / 51 : ℕ)) : ℝ) ≤ 4 := by exact_mod_cast (by omega : (204 - i) / 51 ≤ 4)
    have s4 : |val (aged (fun i => w.getD i 0) 51 i (X i) ((204 - i) / 51) * w.getD i 0 : FVal binary32) - val (X i) * effW i| ≤ 0.000004 * a := by
      refine s3.trans ?_
      nlinarith
    generalize (aged (fun i => w.getD i 0) 51 i (X i) ((204 - i) / 51) * w.getD i 0 : FVal binary32) = y at *
    have ew0 := effW_nonneg i
    have ew1 := effW_le_one i
    refine ⟨⟨s1, s2, ?_⟩, ?_⟩
    · have e : val y = (val y - val (X i) * effW i) + val (X i) * effW i := by ring
      rw [e]
      refine (abs_add_le _ _).trans ?_
      have : |val (X i) * effW i| ≤ 2.54 * a := by
        rw [abs_mul, abs_of_nonneg ew0]
        have := abs_nonneg (val (X i))
        nlinarith
      linarith
    · have e : val y - t * effW i = (val y - val (X i) * effW i) + (val (X i) - t) * effW i := by ring
      rw [e]
      refine (abs_add_le _ _).trans ?_
      have : |(val (X i) - t) * effW i| ≤ a / 30 * effW i := by
        rw [abs_mul, abs_of_nonneg ew0]
        exact mul_le_mul_of_nonneg_right x2 ew0
      linarith
  have hxs : ∀ x ∈ Y, Fp.Finite x ∧ Grid binary32 x.toRat ∧ |val x| ≤ 9.1 * (0.28 * a) := by
    intro x hx
    obtain ⟨i, hi, rfl⟩ := List.mem_iff_getElem.1 hx
    exact (hYi i hi).1
  have he : ∑ i ∈ Finset.range 205, |(vals Y).getD i 0 - (A * toneAt f 8000 φ i + B * toneAt g 8000 ψ i) * effW i| ≤ 1.0995 * a := by
    calc _ ≤ ∑ i ∈ Finset.range 205, (a / 30 * effW i + 0.000004 * a) := by
          refine Finset.sum_le_sum fun i hi => ?_
          rw [Finset.mem_range] at hi
          rw [vals_getD Y i (by omega)]
          exact (hYi i (by omega)).2
      _ = a / 30 * ∑ i ∈ Finset.range 205, effW i + 205 * (0.000004 * a) := by
          rw [Finset.sum_add_distrib, ← Finset.mul_sum, Finset.sum_const, Finset.card_range, nsmul_eq_mul]
          norm_num
      _ ≤ a / 30 * 32.9252 + 205 * (0.000004 * a) := by
          have := mul_le_mul_of_nonneg_left effW_sum (show 0 ≤ a / 30 by positivity)
          linarith
      _ ≤ 1.0995 * a := by linarith
  obtain ⟨hlo, hhi⟩ := tones_mem hc
  obtain ⟨⟨a1, a2⟩, b1, b2⟩ := dial_bins hlo hhi hlf hhg hA0 hB0 hBA hAB (vals Y) he
  have hdet : ∀ (freqs : List Nat) (vs : List (FVal binary32)), (∀ x ∈ freqs, x ∈ stdLowFreq ++ stdHighFreq) →
      MagnitudesFp (freqs.map fun f => newGzFp other cos sin f 8000 205) Y vs →
      List.Forall₂ (fun f (v : FVal binary32) => Fp.Finite v ∧ |val v - ‖dft 205 (binOf f) (sampleR (vals Y))‖ ^ 2| ≤ 0.61 * a ^ 2) freqs vs := by
    intro freqs vs hsub h
    rw [MagnitudesFp, List.forall₂_map_left_iff] at h
    refine (forall₂_mem h).imp ?_
    rintro x v ⟨hx, st, mag, u1, u2, rfl⟩
    obtain ⟨r1, r2⟩ := detector_err hη0 hη hT (fs := 8000) (n := 205) (by norm_num) (by norm_num) (by norm_num) (hsub x hx) (a := 0.28 * a)
      (by norm_num at hmin0 ⊢; linarith) (by norm_num at hmin2 ⊢; linarith) hYl hxs u1 u2
    rw [bucket_bin (by norm_num) (by norm_num) (by norm_num) (hsub x hx)] at r2
    refine ⟨r1, r2.trans ?_⟩
    have hle := dft_le (n := 205) (binOf x) (X := 9.1 * (0.28 * a)) (by positivity) (vals_le (X := 9.1 * (0.28 * a)) fun x hx => ⟨(hxs x hx).1, (hxs x hx).2.2⟩)
    have hle2 : ‖dft 205 (binOf x) (sampleR (vals Y))‖ ^ 2 ≤ ((205 : ℕ) * (9.1 * (0.28 * a))) ^ 2 := pow_le_pow_left₀ (norm_nonneg _) hle 2
    generalize ‖dft 205 (binOf x) (sampleR (vals Y))‖ ^ 2 = P at *
    push_cast at hle2 ⊢
    have : 0 < a ^ 2 := by positivity
    nlinarith
  have dl := hdet stdLowFreq low (fun x hx => List.mem_append.2 (Or.inl hx)) t3
  have dh := hdet stdHighFreq high (fun x hx => List.mem_append.2 (Or.inr hx)) t4
  obtain ⟨row, col, hrow, hcol, hkey⟩ := tones_index hc
  obtain ⟨v, v1, v2, v3⟩ := group_first hminp dl hrow (by decide) (fun _ => norm_nonneg _) a1 a2
  obtain ⟨u, u1, u2, u3⟩ := group_first hminp dh hcol (by decide) (fun _ => norm_nonneg _) b1 b2
  rw [v1, u1]
  refine ⟨hkey, ?_⟩
  simp only
  split
  · exact (zero_lt_val u2).2 u3
  · exact (zero_lt_val v2).2 v3

/-! ## A block of zeros -/

/-- A zero of either sign. -/
def IsZero {φ : Format} (v : FVal φ) : Prop := ∃ s, v = Val.fin s 0

theorem round_zero (φ : Format) (s : Bool) : Fp.round φ s 0 = Val.fin s 0 := by simp [Fp.round]

theorem mul_zero_fin {φ : Format} {v w : FVal φ} (hv : IsZero v) (hw : Fp.Finite w) : IsZero (v * w) := by
  obtain ⟨s, rfl⟩ := hv
  obtain ⟨t, q, rfl, -⟩ := hw
  refine ⟨s != t, ?_⟩
  show Fp.round φ (s != t) (0 * q) = _
  rw [zero_mul, round_zero]

theorem mul_fin_zero {φ : Format} {v w : FVal φ} (hv : Fp.Finite v) (hw : IsZero w) : IsZero (v * w) := by
  obtain ⟨s, rfl⟩ := hw
  obtain ⟨t, q, rfl, -⟩ := hv
  refine ⟨t != s, ?_⟩
  show Fp.round φ (t != s) (q * 0) = _
  rw [mul_zero, round_zero]

theorem add_zeros {φ : Format} {v w : FVal φ} (hv : IsZero v) (hw : IsZero w) : IsZero (v + w) := by
  obtain ⟨s, rfl⟩ := hv
  obtain ⟨t, rfl⟩ := hw
  refine ⟨s && t, ?_⟩
  show Fp.add φ _ _ = _
  simp [Fp.add, Val.toRat]

theorem neg_zero_is {φ : Format} {v : FVal φ} (hv : IsZero v) : IsZero (φ := φ) (Fp.neg v) := by
  obtain ⟨s, rfl⟩ := hv
  exact ⟨!s, rfl⟩

theorem sub_zeros {φ : Format} {v w : FVal φ} (hv : IsZero v) (hw : IsZero w) : IsZero (v - w) :=
  add_zeros hv (neg_zero_is hw)

theorem IsZero.finite {φ : Format} {v : FVal φ} (hv : IsZero v) : Fp.Finite v := by
  obtain ⟨s, rfl⟩ := hv
  exact ⟨s, 0, rfl, le_rfl⟩

theorem mulExact_zero {φ : Format} {v w : FVal φ} (h : (IsZero v ∧ Fp.Finite w) ∨ (Fp.Finite v ∧ IsZero w)) : IsZero (φ := φ) (mulExact v w) := by
  rcases h with ⟨⟨s, rfl⟩, ⟨t, q, rfl, -⟩⟩ | ⟨⟨t, q, rfl, -⟩, ⟨s, rfl⟩⟩
  · exact ⟨_, by simp [mulExact]; rfl⟩
  · exact ⟨_, by simp [mulExact]; rfl⟩

theorem fma_zero {φ : Format} {v w x : FVal φ} (h : (IsZero v ∧ Fp.Finite w) ∨ (Fp.Finite v ∧ IsZero w)) (hx : IsZero x) :
    IsZero (φ := φ) (fma φ v w x) := add_zeros (mulExact_zero h) hx

/-- Expressions all of whose terms have a zero factor. -/
def Nil {φ : Format} : Expr φ → Prop
  | .leaf v => IsZero v
  | .add a b => Nil a ∧ Nil b
  | .sub a b => Nil a ∧ Nil b
  | .mul a b => (Nil a ∧ (Nil b ∨ ∃ v, b = .leaf v ∧ Fp.Finite v)) ∨ ((∃ v, a = .leaf v ∧ Fp.Finite v) ∧ Nil b)

theorem neg_fin {φ : Format} {v : FVal φ} (hv : Fp.Finite v) : Fp.Finite (Fp.neg v) := by
  obtain ⟨s, q, rfl, h⟩ := hv
  exact ⟨!s, q, rfl, h⟩

theorem nil_eval {φ : Format} {e : Expr φ} {v : FVal φ} (h : Expr.Eval e v) : Nil e → IsZero v := by
  have key : ∀ {a b : Expr φ} {x y : FVal φ}, Expr.Eval a x → Expr.Eval b y → (Nil a → IsZero x) → (Nil b → IsZero y) → Nil (.mul a b) →
      (IsZero x ∧ Fp.Finite y) ∨ (Fp.Finite x ∧ IsZero y) := by
    intro a b x y ha hb iha ihb hn
    rcases hn with ⟨h1, h2 | ⟨w, rfl, hw⟩⟩ | ⟨⟨w, rfl, hw⟩, h2⟩
    · exact Or.inl ⟨iha h1, (ihb h2).finite⟩
    · cases hb
      exact Or.inl ⟨iha h1, hw⟩
    · cases ha
      exact Or.inr ⟨hw, ihb h2⟩
  induction h with
  | leaf v => exact fun h => h
  | add _ _ iha ihb => exact fun h => add_zeros (iha h.1) (ihb h.2)
  | sub _ _ iha ihb => exact fun h => sub_zeros (iha h.1) (ihb h.2)
  | mul ha hb iha ihb =>
    intro h
    rcases key ha hb iha ihb h with ⟨h1, h2⟩ | ⟨h1, h2⟩
    · exact mul_zero_fin h1 h2
    · exact mul_fin_zero h1 h2
  | fmadd ha hb hc iha ihb ihc => exact fun h => fma_zero (key ha hb iha ihb h.1) (ihc h.2)
  | fmadd' ha hb hc iha ihb ihc => exact fun h => fma_zero (key ha hb iha ihb h.2) (ihc h.1)
  | fmsub ha hb hc iha ihb ihc => exact fun h => fma_zero (key ha hb iha ihb h.1) (neg_zero_is (ihc h.2))
  | fnmsub ha hb hc iha ihb ihc =>
    intro h
    refine fma_zero ?_ (ihc h.1)
    rcases key ha hb iha ihb h.2 with ⟨h1, h2⟩ | ⟨h1, h2⟩
    · exact Or.inl ⟨neg_zero_is h1, h2⟩
    · exact Or.inr ⟨neg_fin h1, h2⟩

theorem after_zero {g : Gz (FVal binary64)} (hg : Fp.Finite g.coeff) {xs : List (FVal binary64)} {st : FVal binary64 × FVal binary64}
    (h : After g xs st) : (∀ x ∈ xs, IsZero x) → IsZero st.1 ∧ IsZero st.2 := by
  induction h with
  | new => exact fun _ => ⟨⟨false, rfl⟩, ⟨false, rfl⟩⟩
  | feed _ hs ih =>
    intro h
    obtain ⟨i1, i2⟩ := ih fun x hx => h x (by simp [hx])
    refine ⟨nil_eval hs ?_, i1⟩
    exact ⟨⟨Or.inr ⟨⟨_, rfl, hg⟩, i1⟩, i2⟩, h _ (by simp)⟩

theorem reports_zero {g : Gz (FVal binary64)} (hg : Fp.Finite g.coeff) {st : FVal binary64 × FVal binary64} {mag : FVal binary64}
    (h : ReportsMagnitude g st mag) (h1 : IsZero st.1) (h2 : IsZero st.2) : IsZero mag := by
  obtain ⟨e, he, hev⟩ := h
  have he' := (List.cons.inj he).1
  subst he'
  refine nil_eval hev ?_
  exact ⟨⟨Or.inl ⟨h1, Or.inl h1⟩, Or.inl ⟨h2, Or.inl h2⟩⟩, Or.inl ⟨Or.inl ⟨h1, Or.inl h2⟩, Or.inr ⟨_, rfl, hg⟩⟩⟩

theorem convert_zero {φ ψ : Format} {v : FVal φ} (h : IsZero v) : IsZero (φ := ψ) (convert ψ v) := by
  obtain ⟨s, rfl⟩ := h
  exact ⟨s, round_zero ψ s⟩

theorem max_zeros {φ : Format} (vs : List (FVal φ)) (h : ∀ v ∈ vs, IsZero v) : IsZero (maxOf vs).2 := by
  have key : ∀ (l : List (FVal φ × Nat)) (st : Nat × FVal φ), (∀ x ∈ l, IsZero x.1) → IsZero st.2 → IsZero (l.foldl maxStep st).2 := by
    intro l
    induction l with
    | nil => exact fun st _ h => h
    | cons x xs ih =>
      intro st hl hst
      rw [List.foldl_cons]
      refine ih _ (fun y hy => hl y (by simp [hy])) ?_
      unfold maxStep
      split
      · exact hl x (by simp)
      · exact hst
  refine key _ _ (fun x hx => ?_) ⟨false, rfl⟩
  obtain ⟨k, hk, rfl⟩ := List.mem_iff_getElem.1 hx
  rw [List.getElem_zipIdx]
  exact h _ (List.getElem_mem _)

theorem coeff_finite {other : Val → Nat} {cos sin : FVal binary64 → FVal binary64} {η : ℝ} (hη0 : 0 ≤ η) (hη : η ≤ 1 / 2 ^ 50)
    (hT : Trig cos sin 21 η) {f : Nat} (hf : f ≤ 1633) : Fp.Finite (newGzFp other cos sin f 8000 205).coeff := by
  have hw := w64
  have hT9 : Trig cos sin 9 η := fun x hx hx9 => hT x hx (hx9.trans (by norm_num))
  have hne : newErr η ≤ 29 / 2 ^ 53 := by
    unfold newErr
    rw [u64]
    norm_num at hη hw ⊢
    linarith
  obtain ⟨k, -, -, k3, -⟩ := C99_new other cos sin η hη0 (hne.trans (by norm_num)) hT9 f 8000 205 (by omega) (by omega) (by omega) (by omega) (by omega)
  exact k3.fcoeff

/-- A block of silence: the threshold is not positive. -/
theorem block_silent {other : Val → Nat} {cos sin : FVal binary64 → FVal binary64} {η : ℝ} (hη0 : 0 ≤ η) (hη : η ≤ 1 / 2 ^ 50)
    (hT : Trig cos sin 21 η) {d : DTMF (FVal binary64) (FVal binary32)} (hd : NewStandardFp other cos sin 8000 205 d) {m X : Nat → FVal binary32}
    {q : Nat → Nat} (hq : ∀ i < 205, i + 51 * q i < 205)
    (hm : ∀ i < 205, m i = aged (fun i => d.w.getD i 0) 51 i (X i) (q i)) (hX : ∀ i < 205, IsZero (X i))
    {key : Nat} {thresh : FVal binary32} (hfeed : FeedFp d m ⟨0, 205⟩ key thresh) : ¬ thresh > 0 := by
  obtain ⟨es, w, hw1, hw2, rfl⟩ := hd
  obtain ⟨s', m', low, high, t1, t2, t3, t4, rfl, rfl⟩ := hfeed
  obtain ⟨wl, wi⟩ := window32 hη0 hη (fun x hx hx2 => ⟨(hT x hx hx2).1.1, (hT x hx hx2).1.2.2⟩) (n := 205) (by omega) (by norm_num) hw1 hw2
  have e1 : s' = ⟨0, 205⟩ := trim_205 rfl t1
  subst e1
  simp only at t2 t3 t4 hm
  rw [applyWindow_eq _ _ _ (by simp only; omega)] at t2
  have e2 := Option.some.inj t2
  have e3 : contents m' ⟨0, 205⟩ = List.zipWith (· * ·) (contents m ⟨0, 205⟩) w := by
    rw [← e2]
    exact contents_windowed w m 0 205 (by omega)
  rw [e3] at t3 t4
  have hwD : ∀ i < 205, Fp.Finite (w.getD i 0) := by
    intro i hi
    obtain ⟨v, v1, v2, v3⟩ := wi i hi
    rw [List.getD_eq_getElem?_getD, v1]
    exact v2
  have haged : ∀ k i, i + 51 * k < 205 → ∀ v : FVal binary32, IsZero v → IsZero (aged (fun i => w.getD i 0) 51 i v k) := by
    intro k
    induction k with
    | zero => exact fun i _ v hv => hv
    | succ k ih =>
      intro i hi v hv
      rw [aged_succ]
      exact mul_zero_fin (ih (i + 51) (by omega) v hv) (hwD _ (by omega))
  have hz : ∀ x ∈ List.zipWith (· * ·) (contents m ⟨0, 205⟩) w, IsZero x := by
    intro x hx
    obtain ⟨i, hi, rfl⟩ := List.mem_iff_getElem.1 hx
    have hin : i < 205 := by
      rw [List.length_zipWith, wl] at hi
      omega
    obtain ⟨v, v1, v2, v3⟩ := wi i hin
    have : (List.zipWith (· * ·) (contents m ⟨0, 205⟩) w)[i]? = some (m i * v) := by
      rw [List.getElem?_zipWith, contents_get _ _ hin, v1]
      simp
    rw [List.getElem?_eq_getElem hi] at this
    rw [Option.some.inj this, hm i hin]
    exact mul_zero_fin (haged _ i (hq i hin) _ (hX i hin)) v2
  have hdet : ∀ (freqs : List Nat) (vs : List (FVal binary32)), (∀ x ∈ freqs, x ≤ 1633) →
      MagnitudesFp (freqs.map fun f => newGzFp other cos sin f 8000 205) (List.zipWith (· * ·) (contents m ⟨0, 205⟩) w) vs → IsZero (maxOf vs).2 := by
    intro freqs vs hsub h
    refine max_zeros vs fun v hv => ?_
    rw [MagnitudesFp, List.forall₂_map_left_iff] at h
    obtain ⟨k, hk, rfl⟩ := List.mem_iff_getElem.1 hv
    obtain ⟨st, mag, u1, u2, u3⟩ := (List.forall₂_iff_get.1 h).2 k (by rw [h.length_eq]; exact hk) hk
    rw [List.get_eq_getElem] at u3
    rw [u3]
    have hc := coeff_finite hη0 hη hT (other := other) (hsub _ (List.get_mem freqs ⟨k, by rw [h.length_eq]; exact hk⟩))
    obtain ⟨z1, z2⟩ := after_zero hc u1 fun x hx => by
      obtain ⟨y, hy, rfl⟩ := List.mem_map.1 hx
      exact convert_zero (hz y hy)
    exact convert_zero (reports_zero hc u2 z1 z2)
  have zl := hdet stdLowFreq low (by decide) t3
  have zh := hdet stdHighFreq high (by decide) t4
  have hnot : ∀ v : FVal binary32, IsZero v → ¬ v > 0 := by
    rintro v ⟨s, rfl⟩ h
    have : (Val.fin false 0).toRat < (Val.fin s 0).toRat := h
    cases s <;> simp [Val.toRat] at this
  split
  · exact hnot _ zh
  · exact hnot _ zl

end Verif.Dtmf
