import Verif.Dtmf.LiveProps
import Verif.Dtmf.DialHum

/-!
# Property C151: a constant is taken for a key
-/

set_option maxRecDepth 20000

namespace Verif.Dtmf.Live
open Complex Verif.Ax25.Ear Verif.Ax25.Ear.Ball Verif.Dft Verif.Dtmf.Dial

/-- What the detectors get of a constant, in thousandths: bounds from below and above. -/
def humRows : List (Nat × Nat × Nat) :=
  [(18, 3000, 3500), (20, 10500, 11500), (22, 2400, 2900), (24, 8500, 9400), (31, 2900, 3300), (34, 1500, 1780), (38, 1300, 1750), (42, 1200, 1600)]

/-- The check of one detector. -/
noncomputable def humSize (c : Nat × Nat × Nat) : Bool :=
  forceB (Live.binBall c.1) fun z => sizeAt z effPacks effSums 34 fun s => Nat.ble (Nat.mul (Nat.mul c.2.1 milli) (Nat.mul c.2.1 milli)) s &&
    Nat.ble s (Nat.mul (Nat.mul c.2.2 milli) (Nat.mul c.2.2 milli))

theorem humRows_ok : humRows.all humSize = true := by decide +kernel

theorem humRow_gain {c : Nat × Nat × Nat} (hc : c ∈ humRows) :
    (c.2.1 : ℝ) / 1000 - 0.065 ≤ Live.gain (Live.binAngle c.1) ∧ Live.gain (Live.binAngle c.1) ≤ (c.2.2 : ℝ) / 1000 + 0.065 := by
  have h := List.all_eq_true.1 humRows_ok c hc
  have hk : c.1 ∈ binList := by
    have : ∀ c ∈ humRows, c.1 ∈ binList := by decide
    exact this c hc
  unfold humSize at h
  rw [forceB_eq] at h
  obtain ⟨s, s1, s2⟩ := sizeAt_gain (θ := Live.binAngle c.1) (Live.has_binBall hk) _ h
  rw [Bool.and_eq_true, Nat.ble_eq, Nat.ble_eq] at s1
  have l1 := le_sqrt_of (a := c.2.1 * milli) s1.1
  have l2 := sqrt_le_of (a := c.2.2 * milli) s1.2
  generalize Real.sqrt s = x at *
  norm_num [scale, milli] at s2 l1 l2
  rw [abs_le] at s2
  constructor <;> linarith

theorem hum_dft (k : Nat) (block : List ℝ) (c : ℝ) :
    |‖dft 1130 k (sampleR block)‖ - |c| * Live.gain (Live.binAngle k)| ≤ ∑ i ∈ Finset.range 1130, |block.getD i 0 - c * Live.effW i| := by
  have h := Live.dial_split k block c 0 0 0 0 0
  have e1 : ‖(c : ℂ) * Live.effBin 0 0 k + ((0 : ℝ) : ℂ) * Live.effBin 0 0 k‖ = |c| * Live.gain (Live.binAngle k) := by
    rw [Complex.ofReal_zero, zero_mul, add_zero, norm_mul, Complex.norm_real, Real.norm_eq_abs, ← Live.gain_neg, Live.gain, Live.effBin]
    congr 2
    refine Finset.sum_congr rfl fun n _ => ?_
    congr 1
    · simp [toneAt]
    · congr 1
      rw [Live.binAngle]
      push_cast
      ring
  have e2 : ∀ i, (c * toneAt 0 44100 0 i + 0 * toneAt 0 44100 0 i) * Live.effW i = c * Live.effW i := by
    intro i
    simp [toneAt]
  simp only [e2] at h
  rw [← e1]
  exact (abs_norm_sub_norm_le _ _).trans h

end Verif.Dtmf.Live

namespace Verif.Dtmf.Live
open Verif.Fp Verif.Conv Verif.Dft Verif.Filt Verif.WinFp Real

/-- What a block in full flow leads to. -/
theorem block_feed {other : Val → Nat} {cos sin : FVal binary64 → FVal binary64} {η : ℝ} (hη0 : 0 ≤ η) (hη : η ≤ 1 / 2 ^ 50)
    (hT : Trig cos sin 21 η) {d : DTMF (FVal binary64) (FVal binary32)} (hd : NewStandardFp other cos sin 44100 1130 d) {M : ℝ} (hM : 1 / 2 ^ 40 ≤ M)
    (hM2 : M ≤ 2 ^ 40) {m X : Nat → FVal binary32} (hm : ∀ i < 1130, m i = aged (fun i => d.w.getD i 0) 282 i (X i) ((1129 - i) / 282))
    (hX : ∀ i < 1130, Fp.Finite (X i) ∧ |val (X i)| ≤ M) {key : Nat} {thresh : FVal binary32} (hfeed : FeedFp d m ⟨0, 1130⟩ key thresh) :
    ∃ Y low high : List (FVal binary32), Y.length = 1130 ∧
      (∀ i (hi : i < Y.length), Fp.Finite Y[i] ∧ Grid binary32 (Val.toRat Y[i]) ∧ |val Y[i] - val (X i) * Live.effW i| ≤ 0.0000016 * M) ∧
      MagnitudesFp (stdLowFreq.map fun f => newGzFp other cos sin f 44100 1130) Y low ∧
      MagnitudesFp (stdHighFreq.map fun f => newGzFp other cos sin f 44100 1130) Y high ∧
      key = (maxOf low).1 * 4 + (maxOf high).1 ∧ thresh = if (maxOf high).2 < (maxOf low).2 then (maxOf high).2 else (maxOf low).2 := by
  obtain ⟨es, w, hw1, hw2, rfl⟩ := hd
  obtain ⟨s', m', low, high, t1, t2, t3, t4, rfl, rfl⟩ := hfeed
  obtain ⟨wl, wi⟩ := window32 hη0 hη (fun x hx hx2 => ⟨(hT x hx hx2).1.1, (hT x hx hx2).1.2.2⟩) (n := 1130) (by omega) (by norm_num) hw1 hw2
  have e1 : s' = ⟨0, 1130⟩ := trim_1130 rfl t1
  subst e1
  simp only at t2 t3 t4 hm
  rw [applyWindow_eq _ _ _ (by simp only; omega)] at t2
  have e2 := Option.some.inj t2
  have e3 : contents m' ⟨0, 1130⟩ = List.zipWith (· * ·) (contents m ⟨0, 1130⟩) w := by
    rw [← e2]
    exact contents_windowed w m 0 1130 (by omega)
  rw [e3] at t3 t4
  have hwD : ∀ i < 1130, Fp.Finite (w.getD i 0) ∧ |val (w.getD i 0) - ham 1130 i| ≤ 1 / 2 ^ 22 := by
    intro i hi
    obtain ⟨v, v1, v2, v3⟩ := wi i hi
    rw [List.getD_eq_getElem?_getD, v1]
    exact ⟨v2, v3⟩
  have hM0 : 0 < M := lt_of_lt_of_le (by norm_num) hM
  refine ⟨_, low, high, ?_, ?_, t3, t4, rfl, rfl⟩
  · rw [List.length_zipWith, contents_length, wl]
    simp
  · intro i hi
    have hin : i < 1130 := by
      rw [List.length_zipWith, wl] at hi
      omega
    obtain ⟨v, v1, v2, v3⟩ := wi i hin
    obtain ⟨x1, x2⟩ := hX i hin
    have ey : (List.zipWith (· * ·) (contents m ⟨0, 1130⟩) w)[i] = m i * w.getD i 0 := by
      have : (List.zipWith (· * ·) (contents m ⟨0, 1130⟩) w)[i]? = some (m i * w.getD i 0) := by
        rw [List.getElem?_zipWith, contents_get _ _ hin, v1, List.getD_eq_getElem?_getD, v1]
        simp
      rw [List.getElem?_eq_getElem hi] at this
      exact Option.some.inj this
    rw [ey, hm i hin]
    obtain ⟨s1, s2, s3⟩ := Live.aged_err (w := fun i => w.getD i 0) hwD hM hM2 x1 x2 ((1129 - i) / 282) (by omega) i (by omega)
    rw [← effW_prod i hin] at s3
    have hqr : ((((1129 - i) / 282 : ℕ)) : ℝ) ≤ 4 := by exact_mod_cast (by omega : (1129 - i) / 282 ≤ 4)
    refine ⟨s1, s2, s3.trans ?_⟩
    nlinarith

/-- A block of a constant: the key 4. -/
theorem block_hum {other : Val → Nat} {cos sin : FVal binary64 → FVal binary64} {η : ℝ} (hη0 : 0 ≤ η) (hη : η ≤ 1 / 2 ^ 50)
    (hT : Trig cos sin 21 η) {d : DTMF (FVal binary64) (FVal binary32)} (hd : NewStandardFp other cos sin 44100 1130 d) {c : ℝ} (hc : 1 / 2 ^ 40 ≤ |c|)
    (hc2 : |c| ≤ 2 ^ 20) {m X : Nat → FVal binary32} (hm : ∀ i < 1130, m i = aged (fun i => d.w.getD i 0) 282 i (X i) ((1129 - i) / 282))
    (hX : ∀ i < 1130, Fp.Finite (X i) ∧ val (X i) = c) {key : Nat} {thresh : FVal binary32} (hfeed : FeedFp d m ⟨0, 1130⟩ key thresh) :
    keypad[key]? = some '4' ∧ thresh > 0 := by
  have hc0 : 0 < |c| := lt_of_lt_of_le (by norm_num) hc
  obtain ⟨Y, low, high, y1, y2, y3, y4, rfl, rfl⟩ := block_feed hη0 hη hT hd (M := |c|) (by norm_num at hc ⊢; linarith) (by norm_num at hc2 ⊢; linarith) hm
    (fun i hi => ⟨(hX i hi).1, by rw [(hX i hi).2]⟩) hfeed
  have hxs : ∀ x ∈ Y, Fp.Finite x ∧ Grid binary32 x.toRat ∧ |val x| ≤ 9.1 * (0.11 * |c|) := by
    intro x hx
    obtain ⟨i, hi, rfl⟩ := List.mem_iff_getElem.1 hx
    obtain ⟨g1, g2, g3⟩ := y2 i hi
    rw [(hX i (by omega)).2] at g3
    refine ⟨g1, g2, ?_⟩
    have e : val Y[i] = (val Y[i] - c * Live.effW i) + c * Live.effW i := by ring
    rw [e]
    refine (abs_add_le _ _).trans ?_
    have : |c * Live.effW i| ≤ |c| := by
      rw [abs_mul, abs_of_nonneg (effW_nonneg i)]
      have := effW_le_one i
      nlinarith
    linarith
  have hsum : ∑ i ∈ Finset.range 1130, |(vals Y).getD i 0 - c * Live.effW i| ≤ 0.002 * |c| := by
    calc _ ≤ ∑ i ∈ Finset.range 1130, 0.0000016 * |c| := by
          refine Finset.sum_le_sum fun i hi => ?_
          rw [Finset.mem_range] at hi
          rw [vals_getD Y i (by omega), ← (hX i hi).2]
          exact ((y2 i (by omega)).2.2).trans (by rw [(hX i hi).2])
      _ ≤ 0.002 * |c| := by
          rw [Finset.sum_const, Finset.card_range, nsmul_eq_mul]
          norm_num
          linarith
  have hbin : ∀ k lo up, (k, lo, up) ∈ humRows → ((lo : ℝ) / 1000 - 0.067) * |c| ≤ ‖dft 1130 k (sampleR (vals Y))‖ ∧
      ‖dft 1130 k (sampleR (vals Y))‖ ≤ ((up : ℝ) / 1000 + 0.067) * |c| := by
    intro k lo up hk
    have h1 := abs_le.1 ((hum_dft k (vals Y) c).trans hsum)
    obtain ⟨g1, g2⟩ := humRow_gain hk
    simp only at g1 g2
    constructor <;> nlinarith
  have hdet : ∀ (freqs : List Nat) (vs : List (FVal binary32)), (∀ x ∈ freqs, x ∈ stdLowFreq ++ stdHighFreq) →
      MagnitudesFp (freqs.map fun f => newGzFp other cos sin f 44100 1130) Y vs →
      List.Forall₂ (fun f (v : FVal binary32) => Fp.Finite v ∧ |val v - ‖dft 1130 (binOf f) (sampleR (vals Y))‖ ^ 2| ≤ 1.6 * |c| ^ 2) freqs vs := by
    intro freqs vs hsub h
    rw [MagnitudesFp, List.forall₂_map_left_iff] at h
    refine (forall₂_mem h).imp ?_
    rintro x v ⟨hx, st, mag, u1, u2, rfl⟩
    obtain ⟨r1, r2⟩ := detector_err hη0 hη hT (fs := 44100) (n := 1130) (by norm_num) (by norm_num) (by norm_num) (hsub x hx) (a := 0.11 * |c|)
      (by norm_num at hc ⊢; linarith) (by norm_num at hc2 ⊢; linarith) y1 hxs u1 u2
    rw [bucket_bin (by norm_num) (by norm_num) (by norm_num) (hsub x hx)] at r2
    refine ⟨r1, r2.trans ?_⟩
    have hup : ‖dft 1130 (binOf x) (sampleR (vals Y))‖ ≤ 12 * |c| := by
      have : ∃ lo up, (binOf x, lo, up) ∈ humRows ∧ up ≤ 11500 := by
        have hx' := hsub x hx
        simp only [stdLowFreq, stdHighFreq, List.cons_append, List.nil_append, List.mem_cons, List.not_mem_nil, or_false] at hx'
        rcases hx' with rfl | rfl | rfl | rfl | rfl | rfl | rfl | rfl
        · exact ⟨3000, 3500, by decide, by norm_num⟩
        · exact ⟨10500, 11500, by decide, by norm_num⟩
        · exact ⟨2400, 2900, by decide, by norm_num⟩
        · exact ⟨8500, 9400, by decide, by norm_num⟩
        · exact ⟨2900, 3300, by decide, by norm_num⟩
        · exact ⟨1500, 1780, by decide, by norm_num⟩
        · exact ⟨1300, 1750, by decide, by norm_num⟩
        · exact ⟨1200, 1600, by decide, by norm_num⟩
      obtain ⟨lo, up, hmem, hle⟩ := this
      have h1 := (hbin _ _ _ hmem).2
      have h2 : (up : ℝ) ≤ 11500 := by exact_mod_cast hle
      nlinarith
    have hup2 : ‖dft 1130 (binOf x) (sampleR (vals Y))‖ ^ 2 ≤ (12 * |c|) ^ 2 := pow_le_pow_left₀ (norm_nonneg _) hup 2
    generalize ‖dft 1130 (binOf x) (sampleR (vals Y))‖ ^ 2 = P at *
    push_cast
    have : 0 < |c| ^ 2 := by positivity
    nlinarith
  have dl := hdet stdLowFreq low (fun x hx => List.mem_append.2 (Or.inl hx)) y3
  have dh := hdet stdHighFreq high (fun x hx => List.mem_append.2 (Or.inr hx)) y4
  have hsq : 0 < |c| ^ 2 := by positivity
  have hlow : ∀ k lo up, (k, lo, up) ∈ humRows → ∀ l : ℝ, 0 ≤ l → l ≤ (lo : ℝ) / 1000 - 0.067 → l ^ 2 * |c| ^ 2 ≤ ‖dft 1130 k (sampleR (vals Y))‖ ^ 2 := by
    intro k lo up h l l0 hl
    rw [← mul_pow]
    refine pow_le_pow_left₀ (by positivity) (le_trans ?_ (hbin k lo up h).1) 2
    exact mul_le_mul_of_nonneg_right hl hc0.le
  have hupp : ∀ k lo up, (k, lo, up) ∈ humRows → ∀ u : ℝ, (up : ℝ) / 1000 + 0.067 ≤ u → ‖dft 1130 k (sampleR (vals Y))‖ ^ 2 ≤ u ^ 2 * |c| ^ 2 := by
    intro k lo up h u hu
    rw [← mul_pow]
    refine pow_le_pow_left₀ (norm_nonneg _) (le_trans (hbin k lo up h).2 ?_) 2
    exact mul_le_mul_of_nonneg_right hu hc0.le
  obtain ⟨v, v1, v2, v3⟩ := Verif.Dtmf.group_gap (L := 10.4 ^ 2 * |c| ^ 2) (U := 9.5 ^ 2 * |c| ^ 2) (P := fun f => ‖dft 1130 (binOf f) (sampleR (vals Y))‖ ^ 2) dl
    (row := 1) (lo := 770) rfl (by decide) (hlow 20 10500 11500 (by decide) 10.4 (by norm_num) (by norm_num)) (by nlinarith) (by nlinarith) (by
      intro b hb hne
      simp only [stdLowFreq, List.mem_cons, List.not_mem_nil, or_false] at hb
      rcases hb with rfl | rfl | rfl | rfl
      · exact hupp 18 3000 3500 (by decide) 9.5 (by norm_num)
      · exact absurd rfl hne
      · exact hupp 22 2400 2900 (by decide) 9.5 (by norm_num)
      · exact hupp 24 8500 9400 (by decide) 9.5 (by norm_num))
  obtain ⟨u, u1, u2, u3⟩ := Verif.Dtmf.group_gap (L := 2.8 ^ 2 * |c| ^ 2) (U := 1.9 ^ 2 * |c| ^ 2) (P := fun f => ‖dft 1130 (binOf f) (sampleR (vals Y))‖ ^ 2) dh
    (row := 0) (lo := 1209) rfl (by decide) (hlow 31 2900 3300 (by decide) 2.8 (by norm_num) (by norm_num)) (by nlinarith) (by nlinarith) (by
      intro b hb hne
      simp only [stdHighFreq, List.mem_cons, List.not_mem_nil, or_false] at hb
      rcases hb with rfl | rfl | rfl | rfl
      · exact absurd rfl hne
      · exact hupp 34 1500 1780 (by decide) 1.9 (by norm_num)
      · exact hupp 38 1300 1750 (by decide) 1.9 (by norm_num)
      · exact hupp 42 1200 1600 (by decide) 1.9 (by norm_num))
  rw [v1, u1]
  refine ⟨by rfl, ?_⟩
  simp only
  split
  · exact (zero_lt_val u2).2 u3
  · exact (zero_lt_val v2).2 v3

/-- **C151 needs silence between the keys to be samples of zero**: a constant other than zero in 15 blocks or more, however small down to `2^-40`, is
printed as the key 4. -/
theorem C151_hum (other : Val → Nat) (cos sin : FVal binary64 → FVal binary64) (η : ℝ) (hη0 : 0 ≤ η) (hη : η ≤ 1 / 2 ^ 50)
    (hT : Trig cos sin 21 η) (d : DTMF (FVal binary64) (FVal binary32)) (hd : NewStandardFp other cos sin 44100 1130 d)
    (evs : List (Heard (FVal binary32))) (hn : 15 ≤ (blocks evs).length) (c : ℝ) (hc : 1 / 2 ^ 40 ≤ |c|) (hc2 : |c| ≤ 2 ^ 20)
    (h : ∀ x ∈ blocks evs, ∀ i < 282, Fp.Finite (x i) ∧ val (x i) = c) (r : LiveEndFp)
    (hr : LiveFp d (fun _ => 0) Keys.start evs r) : Says r (fate evs) ['4'] := by
  obtain ⟨m', k, hend, hrun⟩ := live_run d evs [] (fun _ => 0) Keys.start r ⟨rfl, rfl⟩ hr
  rw [List.nil_append] at hrun
  obtain ⟨det, d1, d2, -, d4⟩ := run_det liveTool (by decide) (by decide) d hd _ _ _ _ hrun
  obtain ⟨st, p1, -, -, -, p5⟩ := press_run liveTool (by decide) det d1 (blocks evs).length
  rw [d4] at p1
  obtain rfl := Option.some.inj p1
  have hout : k.out = ['4'] := by
    rw [p5]
    clear hend hrun hr p5 d4 d1
    generalize blocks evs = xs at *
    have hlive : ∀ j < xs.length, ∀ i < 282, xs.getD j (fun _ => 0) i = (fun k r => micAt xs (k * 282 + r)) j i := by
      intro j hj i hi
      simp only [micAt]
      rw [show (j * 282 + i) / 282 = j by omega, show (j * 282 + i) % 282 = i by omega]
    have hval : ∀ k, k < 282 * xs.length → Fp.Finite (micAt xs k) ∧ val (micAt xs k) = c := by
      intro k hk
      have hk2 : k / 282 < xs.length := by omega
      unfold micAt
      rw [List.getD_eq_getElem?_getD, List.getElem?_eq_getElem hk2, Option.getD_some]
      exact h _ (List.getElem_mem hk2) _ (Nat.mod_lt _ (by norm_num))
    have hring : Rings 10 5 det xs.length 0 [(0, 4, xs.length - 1, xs.length + 4, '4')] := by
      refine ⟨Or.inr ⟨rfl, rfl⟩, fun i _ hi => by omega, by omega, by omega, by omega, by omega, by omega, by omega, fun j j1 j2 => ?_, fun i h1 h2 => by omega⟩
      obtain ⟨mj, h1, h2⟩ := d2 j (by omega)
      refine block_hum hη0 hη hT hd hc hc2 (X := recent 1130 282 (micAt xs) j) (fun i hi => ?_) (fun i hi => ?_) h2
      · have e1 := h1 i hi
        have eN : liveTool.blockSize = 1130 := rfl
        have eW : liveTool.window = 282 := rfl
        rw [eN, eW] at e1
        rw [e1, seen_congr (by norm_num) _ hlive (by omega) hi, C87_seen 1130 282 (by norm_num) _ _ _ _ hi (by norm_num),
          show min ((1130 - 1 - i) / 282) j = (1129 - i) / 282 by omega]
      · unfold recent
        rw [if_pos (by omega)]
        exact hval _ (by omega)
    have := rings_printed 10 5 (by norm_num) det xs.length _ 0 hring
    have e10 : liveTool.repeats = 10 := rfl
    rw [e10, this, Nat.zero_min]
    rfl
  unfold Says
  generalize fate evs = fa at hend ⊢
  rcases fa with _ | _ | _
  · exact ⟨k, hend, hout⟩
  · exact ⟨k, hend, hout⟩
  · exact ⟨m', k, hend, hout⟩

/-- The hypotheses of `C151_hum`: twenty blocks of a constant of a millionth of full scale, then a signal: there is a platform on which the program prints
`4` and a newline. -/
example (other : Val → Nat) : ∃ (cos sin : FVal binary64 → FVal binary64) (d : DTMF (FVal binary64) (FVal binary32))
    (l : Loop (FVal binary64) (FVal binary32)), NewStandardFp other cos sin 44100 1130 d ∧
    liveLoop widen narrow ⟨d, fun _ => 0, Keys.start⟩ (untilSignal (List.replicate 20 fun _ => (Val.fin false (1 / 2 ^ 20) : FVal binary32))) = some (.newline l) ∧
    l.keys.out = ['4'] := by
  choose co c1 c2 c3 using fun x : FVal binary64 => exists_float (Real.cos (val x)) (Real.abs_cos_le_one _)
  choose si s1 _ s3 using fun x : FVal binary64 => exists_float (Real.sin (val x)) (Real.abs_sin_le_one _)
  have hT : Trig co si 21 (1 / 2 ^ 50) := fun x _ _ => ⟨⟨c1 x, c2 x, c3 x⟩, s1 x, s3 x⟩
  obtain ⟨d, hd⟩ := standard_exists other co si 44100 1130
  obtain ⟨z, hz⟩ : ∃ z : FVal binary32, z = (Val.fin false (1 / 2 ^ 20) : FVal binary32) := ⟨_, rfl⟩
  have hz1 : Fp.Finite z ∧ val z = 1 / 2 ^ 20 := by
    rw [hz]
    exact ⟨⟨_, _, rfl, by norm_num⟩, by rw [val_fin]; norm_num⟩
  rw [← hz]
  have hf : fate (untilSignal (List.replicate 20 fun _ : Nat => z)) = .signal := fate_until _ (by simp)
  obtain ⟨l, -, l1, l2⟩ := C151_unfused other co si d hd (untilSignal (List.replicate 20 fun _ : Nat => z))
  have hS := C151_hum other co si (1 / 2 ^ 50) (by norm_num) le_rfl hT d hd (untilSignal (List.replicate 20 fun _ : Nat => z))
    (by rw [blocks_until, List.length_replicate]; norm_num) (1 / 2 ^ 20) (by rw [abs_of_pos (by norm_num)]; norm_num) (by rw [abs_of_pos (by norm_num)]; norm_num)
    (fun x hx i _ => by
      rw [blocks_until] at hx
      rw [List.eq_of_mem_replicate hx]
      exact hz1) _ l2
  rw [hf] at l1 hS
  obtain ⟨k, k1, k2⟩ := hS
  refine ⟨co, si, d, l, hd, l1, ?_⟩
  have : l.keys = k := LiveEndFp.newline.inj k1
  rw [this, k2]

end Verif.Dtmf.Live
