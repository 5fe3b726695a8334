import Verif.Dtmf.DialProps

/-!
# Property C140: a constant is taken for a key
-/

namespace Verif.Dtmf.Dial
open Complex Verif.Ax25.Ear Verif.Ax25.Ear.Ball Verif.Dft

/-- What the detectors get of a constant, in thousandths: bounds from below and above. -/
def hums : List (Nat × Nat × Nat) :=
  [(18, 560, 600), (20, 1968, 1975), (22, 450, 500), (24, 1640, 1655), (31, 478, 490), (34, 300, 309), (38, 250, 300), (42, 200, 300)]

/-- The check of one detector. -/
noncomputable def humCheck (c : Nat × Nat × Nat) : Bool :=
  decide ((binBall c.1).err ≤ errZ) &&
    evalAt (binBall c.1) effList fun s => Nat.ble (Nat.mul (Nat.mul c.2.1 milli) (Nat.mul c.2.1 milli)) s &&
      Nat.ble s (Nat.mul (Nat.mul c.2.2 milli) (Nat.mul c.2.2 milli))

theorem hums_ok : hums.all humCheck = true := by decide +kernel

theorem hum_gain {c : Nat × Nat × Nat} (hc : c ∈ hums) : (c.2.1 : ℝ) / 1000 - 0.0022 ≤ gain (binAngle c.1) ∧ gain (binAngle c.1) ≤ (c.2.2 : ℝ) / 1000 + 0.0022 := by
  have h := List.all_eq_true.1 hums_ok c hc
  have hk : c.1 ∈ binList := by
    have : ∀ c ∈ hums, c.1 ∈ binList := by decide
    exact this c hc
  unfold humCheck at h
  rw [Bool.and_eq_true, decide_eq_true_eq] at h
  obtain ⟨h1, h2⟩ := h
  obtain ⟨s, s1, s2⟩ := evalAt_gain (θ := binAngle c.1) (has_binBall hk) h1 _ h2
  rw [Bool.and_eq_true] at s1
  have l1 := le_sqrt_of (Nat.le_of_ble_eq_true s1.1)
  have l2 := sqrt_le_of (Nat.le_of_ble_eq_true s1.2)
  have e1 : ((Nat.mul c.2.1 milli : ℕ) : ℝ) = c.2.1 * 1000000000 := by
    show ((c.2.1 * milli : ℕ) : ℝ) = _
    push_cast [milli]
    rfl
  have e2 : ((Nat.mul c.2.2 milli : ℕ) : ℝ) = c.2.2 * 1000000000 := by
    show ((c.2.2 * milli : ℕ) : ℝ) = _
    push_cast [milli]
    rfl
  rw [e1] at l1
  rw [e2] at l2
  norm_num [scale] at s2
  rw [abs_le] at s2
  constructor <;> linarith

theorem hum_bin (k : Nat) (block : List ℝ) (c : ℝ) :
    |‖dft 205 k (sampleR block)‖ - |c| * gain (binAngle k)| ≤ ∑ i ∈ Finset.range 205, |block.getD i 0 - c * effW i| := by
  have h := dial_split k block c 0 0 0 0 0
  have e1 : ‖(c : ℂ) * effBin 0 0 k + ((0 : ℝ) : ℂ) * effBin 0 0 k‖ = |c| * gain (binAngle k) := by
    rw [Complex.ofReal_zero, zero_mul, add_zero, norm_mul, Complex.norm_real, Real.norm_eq_abs, ← gain_neg, gain, effBin]
    congr 2
    refine Finset.sum_congr rfl fun n _ => ?_
    congr 1
    · simp [toneAt]
    · congr 1
      rw [binAngle]
      push_cast
      ring
  have e2 : ∀ i, (c * toneAt 0 8000 0 i + 0 * toneAt 0 8000 0 i) * effW i = c * effW i := by
    intro i
    simp [toneAt]
  simp only [e2] at h
  rw [← e1]
  exact (abs_norm_sub_norm_le _ _).trans h

end Verif.Dtmf.Dial

namespace Verif.Dtmf
open Verif.Fp Verif.Conv Verif.Dft Verif.Filt Verif.WinFp Real Dial

/-- What a block in full flow leads to. -/
theorem block_feed {other : Val → Nat} {cos sin : FVal binary64 → FVal binary64} {η : ℝ} (hη0 : 0 ≤ η) (hη : η ≤ 1 / 2 ^ 50)
    (hT : Trig cos sin 21 η) {d : DTMF (FVal binary64) (FVal binary32)} (hd : NewStandardFp other cos sin 8000 205 d) {M : ℝ} (hM : 1 / 2 ^ 40 ≤ M)
    (hM2 : M ≤ 2 ^ 40) {m X : Nat → FVal binary32} (hm : ∀ i < 205, m i = aged (fun i => d.w.getD i 0) 51 i (X i) ((204 - i) / 51))
    (hX : ∀ i < 205, Fp.Finite (X i) ∧ |val (X i)| ≤ M) {key : Nat} {thresh : FVal binary32} (hfeed : FeedFp d m ⟨0, 205⟩ key thresh) :
    ∃ Y low high : List (FVal binary32), Y.length = 205 ∧
      (∀ i (hi : i < Y.length), Fp.Finite Y[i] ∧ Grid binary32 (Val.toRat Y[i]) ∧ |val Y[i] - val (X i) * effW i| ≤ 0.0000016 * M) ∧
      MagnitudesFp (stdLowFreq.map fun f => newGzFp other cos sin f 8000 205) Y low ∧
      MagnitudesFp (stdHighFreq.map fun f => newGzFp other cos sin f 8000 205) Y high ∧
      key = (maxOf low).1 * 4 + (maxOf high).1 ∧ thresh = if (maxOf high).2 < (maxOf low).2 then (maxOf high).2 else (maxOf low).2 := by
  obtain ⟨es, w, hw1, hw2, rfl⟩ := hd
  obtain ⟨s', m', low, high, t1, t2, t3, t4, rfl, rfl⟩ := hfeed
  obtain ⟨wl, wi⟩ := window32 hη0 hη (fun x hx hx2 => ⟨(hT x hx hx2).1.1, (hT x hx hx2).1.2.2⟩) (n := 205) (by omega) (by norm_num) hw1 hw2
  have e1 : s' = ⟨0, 205⟩ := trim_205 rfl t1
  subst e1
  simp only at t2 t3 t4 hm
  rw [applyWindow_eq _ _ _ (by simp only; omega)] at t2
  have e2 := Option.some.inj t2
  have e3 : contents m' ⟨0, 205⟩ = List.zipWith (· * ·) (contents m ⟨0, 205⟩) w := by
    rw [← e2]
    exact contents_windowed w m 0 205 (by omega)
  rw [e3] at t3 t4
  have hwD : ∀ i < 205, Fp.Finite (w.getD i 0) ∧ |val (w.getD i 0) - ham 205 i| ≤ 1 / 2 ^ 22 := by
    intro i hi
    obtain ⟨v, v1, v2, v3⟩ := wi i hi
    rw [List.getD_eq_getElem?_getD, v1]
    exact ⟨v2, v3⟩
  have hM0 : 0 < M := lt_of_lt_of_le (by norm_num) hM
  refine ⟨_, low, high, ?_, ?_, t3, t4, rfl, rfl⟩
  · rw [List.length_zipWith, contents_length, wl]
    simp
  · intro i hi
    have hin : i < 205 := by
      rw [List.length_zipWith, wl] at hi
      omega
    obtain ⟨v, v1, v2, v3⟩ := wi i hin
    obtain ⟨x1, x2⟩ := hX i hin
    have ey : (List.zipWith (· * ·) (contents m ⟨0, 205⟩) w)[i] = m i * w.getD i 0 := by
      have : (List.zipWith (· * ·) (contents m ⟨0, 205⟩) w)[i]? = some (m i * w.getD i 0) := by
        rw [List.getElem?_zipWith, contents_get _ _ hin, v1, List.getD_eq_getElem?_getD, v1]
        simp
      rw [List.getElem?_eq_getElem hi] at this
      exact Option.some.inj this
    rw [ey, hm i hin]
    obtain ⟨s1, s2, s3⟩ := aged_err (w := fun i => w.getD i 0) hwD hM hM2 x1 x2 ((204 - i) / 51) (by omega) i (by omega)
    beta_reduce at s1 s2 s3
    rw [← effW_prod i hin] at s3
    have hqr : ((((204 - i) / 51 : ℕ)) : ℝ) ≤ 4 := by exact_mod_cast (by omega : (204 - i) / 51 ≤ 4)
    refine ⟨s1, s2, s3.trans ?_⟩
    nlinarith

/-- The largest magnitude of a group. -/
theorem group_gap {freqs : List Nat} {vs : List (FVal binary32)} {δ L U : ℝ} {P : Nat → ℝ}
    (hF : List.Forall₂ (fun f (v : FVal binary32) => Fp.Finite v ∧ |val v - P f| ≤ δ) freqs vs)
    {row lo : Nat} (hrow : freqs[row]? = some lo) (hnd : freqs.Nodup) (h1 : L ≤ P lo) (h0 : δ < L) (hU : U + 2 * δ < L)
    (h2 : ∀ b ∈ freqs, b ≠ lo → P b ≤ U) : ∃ v, maxOf vs = (row, v) ∧ Fp.Finite v ∧ 0 < val v := by
  have hlen := hF.length_eq
  obtain ⟨hr, hr'⟩ := List.getElem?_eq_some_iff.1 hrow
  have hget : ∀ j (hj : j < freqs.length), Fp.Finite (vs[j]'(by omega)) ∧ |val (vs[j]'(by omega)) - P freqs[j]| ≤ δ := by
    intro j hj
    exact (List.forall₂_iff_get.1 hF).2 j hj (by omega)
  obtain ⟨o1, o2⟩ := hget row hr
  rw [hr'] at o2
  have hown := (abs_le.1 o2).1
  have hpos : 0 < val (vs[row]'(by omega)) := by linarith
  refine ⟨_, max_peak vs row _ (List.getElem?_eq_getElem (by omega)) o1 hpos ?_, o1, hpos⟩
  intro j w hj hw
  obtain ⟨hj1, rfl⟩ := List.getElem?_eq_some_iff.1 hw
  obtain ⟨w1, w2⟩ := hget j (by omega)
  refine ⟨w1, ?_⟩
  have hne : freqs[j]'(by omega) ≠ lo := by
    rw [← hr']
    intro h
    exact hj ((List.Nodup.getElem_inj_iff hnd).1 h)
  have g := h2 _ (List.getElem_mem (by omega)) hne
  have w3 := (abs_le.1 w2).2
  linarith

/-- A block of a constant: the key 4. -/
theorem block_hum {other : Val → Nat} {cos sin : FVal binary64 → FVal binary64} {η : ℝ} (hη0 : 0 ≤ η) (hη : η ≤ 1 / 2 ^ 50)
    (hT : Trig cos sin 21 η) {d : DTMF (FVal binary64) (FVal binary32)} (hd : NewStandardFp other cos sin 8000 205 d) {c : ℝ} (hc : 1 / 2 ^ 15 ≤ |c|)
    (hc2 : |c| ≤ 2 ^ 20) {m X : Nat → FVal binary32} (hm : ∀ i < 205, m i = aged (fun i => d.w.getD i 0) 51 i (X i) ((204 - i) / 51))
    (hX : ∀ i < 205, Fp.Finite (X i) ∧ val (X i) = c) {key : Nat} {thresh : FVal binary32} (hfeed : FeedFp d m ⟨0, 205⟩ key thresh) :
    keypad[key]? = some '4' ∧ thresh > 0 := by
  have hc0 : 0 < |c| := lt_of_lt_of_le (by norm_num) hc
  obtain ⟨Y, low, high, y1, y2, y3, y4, rfl, rfl⟩ := block_feed hη0 hη hT hd (M := |c|) (by norm_num at hc ⊢; linarith) (by norm_num at hc2 ⊢; linarith) hm
    (fun i hi => ⟨(hX i hi).1, by rw [(hX i hi).2]⟩) hfeed
  have hxs : ∀ x ∈ Y, Fp.Finite x ∧ Grid binary32 x.toRat ∧ |val x| ≤ 9.1 * (0.11 * |c|) := by
    intro x hx
    obtain ⟨i, hi, rfl⟩ := List.mem_iff_getElem.1 hx
    obtain ⟨g1, g2, g3⟩ := y2 i hi
    rw [(hX i (by omega)).2] at g3
    refine ⟨g1, g2, ?_⟩
    have e : val Y[i] = (val Y[i] - c * effW i) + c * effW i := by ring
    rw [e]
    refine (abs_add_le _ _).trans ?_
    have : |c * effW i| ≤ |c| := by
      rw [abs_mul, abs_of_nonneg (effW_nonneg i)]
      have := effW_le_one i
      nlinarith
    linarith
  have hsum : ∑ i ∈ Finset.range 205, |(vals Y).getD i 0 - c * effW i| ≤ 0.0004 * |c| := by
    calc _ ≤ ∑ i ∈ Finset.range 205, 0.0000016 * |c| := by
          refine Finset.sum_le_sum fun i hi => ?_
          rw [Finset.mem_range] at hi
          rw [vals_getD Y i (by omega), ← (hX i hi).2]
          exact ((y2 i (by omega)).2.2).trans (by rw [(hX i hi).2])
      _ ≤ 0.0004 * |c| := by
          rw [Finset.sum_const, Finset.card_range, nsmul_eq_mul]
          norm_num
          linarith
  have hbin : ∀ k lo up, (k, lo, up) ∈ hums → ((lo : ℝ) / 1000 - 0.0026) * |c| ≤ ‖dft 205 k (sampleR (vals Y))‖ ∧
      ‖dft 205 k (sampleR (vals Y))‖ ≤ ((up : ℝ) / 1000 + 0.0026) * |c| := by
    intro k lo up hk
    have h1 := abs_le.1 ((hum_bin k (vals Y) c).trans hsum)
    obtain ⟨g1, g2⟩ := hum_gain hk
    simp only at g1 g2
    constructor <;> nlinarith
  have hdet : ∀ (freqs : List Nat) (vs : List (FVal binary32)), (∀ x ∈ freqs, x ∈ stdLowFreq ++ stdHighFreq) →
      MagnitudesFp (freqs.map fun f => newGzFp other cos sin f 8000 205) Y vs →
      List.Forall₂ (fun f (v : FVal binary32) => Fp.Finite v ∧ |val v - ‖dft 205 (binOf f) (sampleR (vals Y))‖ ^ 2| ≤ 0.06 * |c| ^ 2) freqs vs := by
    intro freqs vs hsub h
    rw [MagnitudesFp, List.forall₂_map_left_iff] at h
    refine (forall₂_mem h).imp ?_
    rintro x v ⟨hx, st, mag, u1, u2, rfl⟩
    obtain ⟨r1, r2⟩ := detector_err hη0 hη hT (fs := 8000) (n := 205) (by norm_num) (by norm_num) (by norm_num) (hsub x hx) (a := 0.11 * |c|)
      (by norm_num at hc ⊢; linarith) (by norm_num at hc2 ⊢; linarith) y1 hxs u1 u2
    rw [bucket_bin (by norm_num) (by norm_num) (by norm_num) (hsub x hx)] at r2
    refine ⟨r1, r2.trans ?_⟩
    have hup : ‖dft 205 (binOf x) (sampleR (vals Y))‖ ≤ 2 * |c| := by
      have : ∃ lo up, (binOf x, lo, up) ∈ hums ∧ up ≤ 1975 := by
        have hx' := hsub x hx
        simp only [stdLowFreq, stdHighFreq, List.cons_append, List.nil_append, List.mem_cons, List.not_mem_nil, or_false] at hx'
        rcases hx' with rfl | rfl | rfl | rfl | rfl | rfl | rfl | rfl
        · exact ⟨560, 600, by decide, by norm_num⟩
        · exact ⟨1968, 1975, by decide, by norm_num⟩
        · exact ⟨450, 500, by decide, by norm_num⟩
        · exact ⟨1640, 1655, by decide, by norm_num⟩
        · exact ⟨478, 490, by decide, by norm_num⟩
        · exact ⟨300, 309, by decide, by norm_num⟩
        · exact ⟨250, 300, by decide, by norm_num⟩
        · exact ⟨200, 300, by decide, by norm_num⟩
      obtain ⟨lo, up, hmem, hle⟩ := this
      have h1 := (hbin _ _ _ hmem).2
      have h2 : (up : ℝ) ≤ 1975 := by exact_mod_cast hle
      nlinarith
    have hup2 : ‖dft 205 (binOf x) (sampleR (vals Y))‖ ^ 2 ≤ (2 * |c|) ^ 2 := pow_le_pow_left₀ (norm_nonneg _) hup 2
    generalize ‖dft 205 (binOf x) (sampleR (vals Y))‖ ^ 2 = P at *
    push_cast
    have : 0 < |c| ^ 2 := by positivity
    nlinarith
  have dl := hdet stdLowFreq low (fun x hx => List.mem_append.2 (Or.inl hx)) y3
  have dh := hdet stdHighFreq high (fun x hx => List.mem_append.2 (Or.inr hx)) y4
  have hsq : 0 < |c| ^ 2 := by positivity
  have hlow : ∀ k lo up, (k, lo, up) ∈ hums → ∀ l : ℝ, 0 ≤ l → l ≤ (lo : ℝ) / 1000 - 0.0026 → l ^ 2 * |c| ^ 2 ≤ ‖dft 205 k (sampleR (vals Y))‖ ^ 2 := by
    intro k lo up h l l0 hl
    rw [← mul_pow]
    refine pow_le_pow_left₀ (by positivity) (le_trans ?_ (hbin k lo up h).1) 2
    exact mul_le_mul_of_nonneg_right hl hc0.le
  have hupp : ∀ k lo up, (k, lo, up) ∈ hums → ∀ u : ℝ, (up : ℝ) / 1000 + 0.0026 ≤ u → ‖dft 205 k (sampleR (vals Y))‖ ^ 2 ≤ u ^ 2 * |c| ^ 2 := by
    intro k lo up h u hu
    rw [← mul_pow]
    refine pow_le_pow_left₀ (norm_nonneg _) (le_trans (hbin k lo up h).2 ?_) 2
    exact mul_le_mul_of_nonneg_right hu hc0.le
  obtain ⟨v, v1, v2, v3⟩ := group_gap (L := 1.96 ^ 2 * |c| ^ 2) (U := 1.66 ^ 2 * |c| ^ 2) (P := fun f => ‖dft 205 (binOf f) (sampleR (vals Y))‖ ^ 2) dl
    (row := 1) (lo := 770) rfl (by decide) (hlow 20 1968 1975 (by decide) 1.96 (by norm_num) (by norm_num)) (by nlinarith) (by nlinarith) (by
      intro b hb hne
      simp only [stdLowFreq, List.mem_cons, List.not_mem_nil, or_false] at hb
      rcases hb with rfl | rfl | rfl | rfl
      · exact hupp 18 560 600 (by decide) 1.66 (by norm_num)
      · exact absurd rfl hne
      · exact hupp 22 450 500 (by decide) 1.66 (by norm_num)
      · exact hupp 24 1640 1655 (by decide) 1.66 (by norm_num))
  obtain ⟨u, u1, u2, u3⟩ := group_gap (L := 0.475 ^ 2 * |c| ^ 2) (U := 0.312 ^ 2 * |c| ^ 2) (P := fun f => ‖dft 205 (binOf f) (sampleR (vals Y))‖ ^ 2) dh
    (row := 0) (lo := 1209) rfl (by decide) (hlow 31 478 490 (by decide) 0.475 (by norm_num) (by norm_num)) (by nlinarith) (by nlinarith) (by
      intro b hb hne
      simp only [stdHighFreq, List.mem_cons, List.not_mem_nil, or_false] at hb
      rcases hb with rfl | rfl | rfl | rfl
      · exact absurd rfl hne
      · exact hupp 34 300 309 (by decide) 0.312 (by norm_num)
      · exact hupp 38 250 300 (by decide) 0.312 (by norm_num)
      · exact hupp 42 200 300 (by decide) 0.312 (by norm_num))
  rw [v1, u1]
  refine ⟨by rfl, ?_⟩
  simp only
  split
  · exact (zero_lt_val u2).2 u3
  · exact (zero_lt_val v2).2 v3

/-- **C140 does not hold for sound that is not a key**: a constant other than zero, for 14 blocks or more, is printed as the key 4. -/
theorem C140_violated_hum (other : Val → Nat) (cos sin : FVal binary64 → FVal binary64) (η : ℝ) (hη0 : 0 ≤ η) (hη : η ≤ 1 / 2 ^ 50)
    (hT : Trig cos sin 21 η) (d : DTMF (FVal binary64) (FVal binary32)) (hd : NewStandardFp other cos sin 8000 205 d)
    (bs : List (List (BitVec 8))) (hb : ∀ b ∈ bs, b.length = 102) (hn : 14 ≤ bs.length) (c : ℤ) (hc : c ≠ 0)
    (h : ∀ k < 51 * bs.length, level bs.flatten k = (c : ℝ) / 32768)
    (r : EndedFp) (hr : FileFp d (fun _ => 0) (fun _ => 0) Keys.start (bs.map Got.data ++ [.eof]) r) : ∃ k, r = .newline k ∧ k.out = ['4'] := by
  obtain ⟨m', k, rfl, hrun⟩ := file_run d bs [] (fun _ => 0) (fun _ => 0) Keys.start r (fun p => rfl) ⟨rfl, rfl⟩ hr
  rw [List.nil_append] at hrun
  obtain ⟨det, d1, d2, -, d4⟩ := run_det fileTool (by decide) (by decide) d hd _ _ _ _ hrun
  obtain ⟨st, p1, -, -, -, p5⟩ := press_run fileTool (by decide) det d1 bs.length
  rw [d4] at p1
  obtain rfl := Option.some.inj p1
  refine ⟨k, rfl, ?_⟩
  rw [p5]
  have hfile : ∀ j < bs.length, ∀ i < 51, fileSamples conv16 bs j i = (fun k r => stream bs.flatten (k * 51 + r)) j i :=
    fun j hj i hi => C87_full_partial conv16 bs hb j i hj hi
  have hc1 : (1 : ℝ) ≤ |(c : ℝ)| := by exact_mod_cast Int.one_le_abs hc
  have hcb : |(c : ℝ) / 32768| ≤ 1 := by
    have := h 0 (by omega)
    rw [← this]
    have hv := Verif.Ax25.Ear.sample_val (bs.flatten.getD (2 * 0) 0) (bs.flatten.getD (2 * 0 + 1) 0)
    have e2 : Verif.Ax25.Ear.word (bs.flatten.getD (2 * 0) 0) (bs.flatten.getD (2 * 0 + 1) 0) = (bs.flatten.getD (2 * 0 + 1) 0 ++ bs.flatten.getD (2 * 0) 0).toInt := by
      rw [← int16Of_eq]
      rfl
    rw [hv.2.2.2, e2] at hv
    exact hv.2.2.1
  have hring : Rings 9 4 det bs.length 0 [(0, 4, bs.length - 1, bs.length + 4, '4')] := by
    refine ⟨Or.inr ⟨rfl, rfl⟩, fun i _ hi => by omega, by omega, by omega, by omega, by omega, by omega, by omega, fun j j1 j2 => ?_, fun i h1 h2 => by omega⟩
    obtain ⟨mj, h1, h2⟩ := d2 j (by omega)
    refine block_hum hη0 hη hT hd (c := (c : ℝ) / 32768) ?_ (hcb.trans (by norm_num)) (X := recent 205 51 (stream bs.flatten) j) (fun i hi => ?_) (fun i hi => ?_) h2
    · rw [abs_div, abs_of_pos (by norm_num : (0 : ℝ) < 32768), le_div_iff₀ (by norm_num)]
      norm_num
      exact hc1
    · have e1 := h1 i hi
      have eN : fileTool.blockSize = 205 := rfl
      have eW : fileTool.window = 51 := rfl
      rw [eN, eW] at e1
      rw [e1, seen_congr (by norm_num) _ hfile (by omega) hi, C87_seen 205 51 (by norm_num) _ _ _ _ hi (by norm_num),
        show min ((205 - 1 - i) / 51) j = (204 - i) / 51 by omega]
    · unfold recent
      rw [if_pos (by omega), ← h (j * 51 + 51 + i - 205) (by omega)]
      exact conv16_val _ _
  have := rings_printed 9 4 (by norm_num) det bs.length _ 0 hring
  have e9 : fileTool.repeats = 9 := rfl
  rw [e9, this, Nat.zero_min]
  rfl

/-- The hypotheses of `C140_violated_hum`: the smallest sample, for 20 blocks. -/
example (other : Val → Nat) : ∃ (cos sin : FVal binary64 → FVal binary64) (d : DTMF (FVal binary64) (FVal binary32))
    (l : Loop (FVal binary64) (FVal binary32)), NewStandardFp other cos sin 8000 205 d ∧
    fileLoop widen narrow conv16 (fun _ => 0) ⟨d, fun _ => 0, Keys.start⟩ ((pieces (fun _ => 1#16) 20).map Got.data ++ [.eof]) = some (.newline l) ∧
    l.keys.out = ['4'] := by
  choose co c1 c2 c3 using fun x : FVal binary64 => exists_float (Real.cos (val x)) (Real.abs_cos_le_one _)
  choose si s1 _ s3 using fun x : FVal binary64 => exists_float (Real.sin (val x)) (Real.abs_sin_le_one _)
  have hT : Trig co si 21 (1 / 2 ^ 50) := fun x _ _ => ⟨⟨c1 x, c2 x, c3 x⟩, s1 x, s3 x⟩
  obtain ⟨d, hd⟩ := standard_exists other co si 8000 205
  obtain ⟨l, l1, l2⟩ := C140_unfused other co si d hd (pieces (fun _ => 1#16) 20)
  obtain ⟨k, k1, k2⟩ := C140_violated_hum other co si (1 / 2 ^ 50) (by norm_num) le_rfl hT d hd (pieces (fun _ => 1#16) 20) (pieces_full _ _)
    (by rw [pieces_length]; norm_num) 1 (by norm_num) (fun k hk => by
      rw [pieces_length] at hk
      rw [pieces_level _ _ _ hk]
      rfl) _ l2
  refine ⟨co, si, d, l, hd, l1, ?_⟩
  rw [EndedFp.newline.injEq] at k1
  rw [k1, k2]

end Verif.Dtmf
