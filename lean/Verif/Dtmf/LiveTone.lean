import Verif.Dtmf.LiveGain
import Verif.Dtmf.DialTone

/-!
# The bins of a block of two tones

Helper for C151: what the detectors of examples/dtmf_live.go get of two tones seen through the effective window.
-/

namespace Verif.Dtmf.Live
open Complex Verif.Dft
open Dial (Col Row group)

/-- Bin `k` of a tone seen through the effective window. -/
noncomputable def effBin (f φ : ℝ) (k : Nat) : ℂ :=
  ∑ i ∈ Finset.range 1130, ((toneAt f 44100 φ i * effW i : ℝ) : ℂ) * exp (-(2 * Real.pi * (k : ℤ) * i / (1130 : Nat) : ℝ) * I)

theorem gain_neg (θ : ℝ) : gain (-θ) = gain θ := by
  have e : ∑ n ∈ Finset.range 1130, (effW n : ℂ) * exp ((-θ * n : ℝ) * I) = (starRingEnd ℂ) (∑ n ∈ Finset.range 1130, (effW n : ℂ) * exp ((θ * n : ℝ) * I)) := by
    rw [map_sum]
    refine Finset.sum_congr rfl fun n _ => ?_
    rw [map_mul, Complex.conj_ofReal, ← Complex.exp_conj, map_mul, Complex.conj_I, Complex.conj_ofReal]
    congr 2
    push_cast
    ring
  rw [gain, e, Complex.norm_conj, gain]

theorem effBin_eq (f φ : ℝ) (k : Nat) :
    effBin f φ k = 1 / 2 * (exp ((φ : ℝ) * I) * (∑ n ∈ Finset.range 1130, (effW n : ℂ) * exp (((toneAngle f - binAngle k) * n : ℝ) * I))
      + exp ((-φ : ℝ) * I) * (∑ n ∈ Finset.range 1130, (effW n : ℂ) * exp ((-(toneAngle f + binAngle k) * n : ℝ) * I))) := by
  rw [effBin, Finset.mul_sum, Finset.mul_sum, ← Finset.sum_add_distrib, Finset.mul_sum]
  refine Finset.sum_congr rfl fun i _ => ?_
  have e0 : (-((2 * Real.pi * (k : ℤ) * i / (1130 : Nat) : ℝ) : ℂ)) = ((-(binAngle k * i) : ℝ) : ℂ) := by rw [binAngle]; push_cast; ring
  have e1 : ((toneAngle f - binAngle k) * i : ℝ) = toneAngle f * i + -(binAngle k * i) := by ring
  have e2 : (-(toneAngle f + binAngle k) * i : ℝ) = -(toneAngle f * i) + -(binAngle k * i) := by ring
  have e3 : toneAt f 44100 φ i = Real.cos (toneAngle f * i + φ) := by rw [toneAt, toneAngle]; congr 1; push_cast; ring
  rw [e0, e1, e2, e3]
  generalize toneAngle f * i = a
  generalize -(binAngle k * i) = b
  have h1 : exp ((a + b : ℝ) * I) = exp (a * I) * exp (b * I) := by
    rw [← Complex.exp_add]; push_cast; ring_nf
  have h2 : exp ((-a + b : ℝ) * I) = exp ((-a : ℝ) * I) * exp (b * I) := by
    rw [← Complex.exp_add]; push_cast; ring_nf
  have hI : I * I = -1 := Complex.I_mul_I
  rw [h1, h2, exp_real a, exp_real (-a), exp_real φ, exp_real (-φ), Real.cos_add, Real.cos_neg, Real.sin_neg, Real.cos_neg, Real.sin_neg]
  generalize exp (b * I) = z
  push_cast
  linear_combination (-(Complex.sin φ * Complex.sin a * (effW i : ℂ) * z)) * hI

theorem effBin_le (f φ : ℝ) (k : Nat) : ‖effBin f φ k‖ ≤ 1 / 2 * (gain (toneAngle f - binAngle k) + gain (toneAngle f + binAngle k)) := by
  rw [← gain_neg (toneAngle f + binAngle k), effBin_eq, norm_mul]
  have : ‖(1 / 2 : ℂ)‖ = 1 / 2 := by norm_num
  rw [this]
  refine mul_le_mul_of_nonneg_left ((norm_add_le _ _).trans ?_) (by norm_num)
  rw [norm_mul, norm_mul, Complex.norm_exp_ofReal_mul_I, Complex.norm_exp_ofReal_mul_I, one_mul, one_mul, gain, gain]

theorem effBin_ge (f φ : ℝ) (k : Nat) : 1 / 2 * (gain (toneAngle f - binAngle k) - gain (toneAngle f + binAngle k)) ≤ ‖effBin f φ k‖ := by
  rw [← gain_neg (toneAngle f + binAngle k), effBin_eq, norm_mul]
  have : ‖(1 / 2 : ℂ)‖ = 1 / 2 := by norm_num
  rw [this]
  refine mul_le_mul_of_nonneg_left (le_trans ?_ (norm_sub_le_norm_add _ _)) (by norm_num)
  rw [norm_mul, norm_mul, Complex.norm_exp_ofReal_mul_I, Complex.norm_exp_ofReal_mul_I, one_mul, one_mul, gain, gain]

theorem dial_split (k : Nat) (block : List ℝ) (A B f g φ ψ : ℝ) :
    ‖dft 1130 k (sampleR block) - (A * effBin f φ k + B * effBin g ψ k)‖ ≤
      ∑ i ∈ Finset.range 1130, |block.getD i 0 - (A * toneAt f 44100 φ i + B * toneAt g 44100 ψ i) * effW i| := by
  rw [dft, effBin, effBin, Finset.mul_sum, Finset.mul_sum, ← Finset.sum_add_distrib, ← Finset.sum_sub_distrib]
  refine (norm_sum_le _ _).trans (Finset.sum_le_sum fun i _ => ?_)
  have e0 : (-((2 * Real.pi * (k : ℤ) * i / (1130 : Nat) : ℝ) : ℂ)) = ((-(2 * Real.pi * k * i / (1130 : Nat)) : ℝ) : ℂ) := by push_cast; rfl
  rw [e0, sampleR]
  have e : ∀ (x a b w : ℝ) (z : ℂ), (x : ℂ) * z - (A * (((a * w : ℝ) : ℂ) * z) + B * (((b * w : ℝ) : ℂ) * z)) = ((x - (A * a + B * b) * w : ℝ) : ℂ) * z := by
    intro x a b w z
    push_cast
    ring
  rw [e, norm_mul, Complex.norm_exp_ofReal_mul_I, mul_one, Complex.norm_real, Real.norm_eq_abs]

/-- The margins of the table: `c` is the detector of the tone of row `r`, `w` another of its group, `c'` and `w'` are the same two detectors in the row of
a tone of the other group. -/
def Margin (c w c' w' : Col) : Prop :=
  3 * (c'.up + c'.mir + w'.up + w'.mir) + 69500 + 2 * (c.mir + w.up + w.mir) ≤ 2 * c.lo ∧ 3 * (c'.up + c'.mir) + 207750 + 2 * c.mir ≤ 2 * c.lo

instance (c w c' w' : Col) : Decidable (Margin c w c' w') := by unfold Margin; infer_instance

theorem margins : ∀ r ∈ rows, ∀ s ∈ rows, group r.f ≠ group s.f → ∀ b ∈ rows, group b.f = group r.f → b.f ≠ r.f →
    ∃ c ∈ r.cols, ∃ w ∈ r.cols, ∃ c' ∈ s.cols, ∃ w' ∈ s.cols, c.k = binOf r.f ∧ w.k = binOf b.f ∧ c'.k = binOf r.f ∧ w'.k = binOf b.f ∧ Margin c w c' w' := by
  decide +kernel

/-- The detector of a tone against another of its group. -/
theorem own_wins {r s b : Row} (hr : r ∈ rows) (hs : s ∈ rows) (hb : b ∈ rows) (hrs : group r.f ≠ group s.f) (hbr : group b.f = group r.f) (hne : b.f ≠ r.f)
    {A B f g φ ψ w : ℝ} (hf : |f - r.f| ≤ r.f / 400) (hg : |g - s.f| ≤ s.f / 400) (hw : 0 < w) (hA : w ≤ A) (hB0 : 0 ≤ B) (hBA : B ≤ 1.5 * A) (block : List ℝ)
    (he : ∑ i ∈ Finset.range 1130, |block.getD i 0 - (A * toneAt f 44100 φ i + B * toneAt g 44100 ψ i) * effW i| ≤ 6.17 * w) :
    ‖dft 1130 (binOf b.f) (sampleR block)‖ + 1 * w ≤ ‖dft 1130 (binOf r.f) (sampleR block)‖ ∧ 40 * w ≤ ‖dft 1130 (binOf r.f) (sampleR block)‖ := by
  obtain ⟨c, hc, d, hd, c', hc', d', hd', k1, k2, k3, k4, m1, m2⟩ := margins r hr s hs hrs b hb hbr hne
  have m1r : 3 * ((c'.up : ℝ) + c'.mir + d'.up + d'.mir) + 69500 + 2 * (c.mir + d.up + d.mir) ≤ 2 * c.lo := by exact_mod_cast m1
  have m2r : 3 * ((c'.up : ℝ) + c'.mir) + 207750 + 2 * c.mir ≤ 2 * c.lo := by exact_mod_cast m2
  obtain ⟨p1, -, p3⟩ := rows_spec hr hf hc
  obtain ⟨-, q2, q3⟩ := rows_spec hr hf hd
  obtain ⟨-, u2, u3⟩ := rows_spec hs hg hc'
  obtain ⟨-, v2, v3⟩ := rows_spec hs hg hd'
  rw [k1] at p1 p3
  rw [k2] at q2 q3
  rw [k3] at u2 u3
  rw [k4] at v2 v3
  have s1 := (dial_split (binOf r.f) block A B f g φ ψ).trans he
  have s2 := (dial_split (binOf b.f) block A B f g φ ψ).trans he
  have a1 := effBin_ge f φ (binOf r.f)
  have a2 := effBin_le g ψ (binOf r.f)
  have a3 := effBin_le f φ (binOf b.f)
  have a4 := effBin_le g ψ (binOf b.f)
  have hA0 : 0 < A := hw.trans_le hA
  have nA : ∀ z : ℂ, ‖(A : ℂ) * z‖ = A * ‖z‖ := fun z => by rw [norm_mul, Complex.norm_real, Real.norm_eq_abs, abs_of_pos hA0]
  have nB : ∀ z : ℂ, ‖(B : ℂ) * z‖ = B * ‖z‖ := fun z => by rw [norm_mul, Complex.norm_real, Real.norm_eq_abs, abs_of_nonneg hB0]
  -- the own detector
  have hown : A * ‖effBin f φ (binOf r.f)‖ - B * ‖effBin g ψ (binOf r.f)‖ - 6.17 * w ≤ ‖dft 1130 (binOf r.f) (sampleR block)‖ := by
    have e : (A : ℂ) * effBin f φ (binOf r.f) = dft 1130 (binOf r.f) (sampleR block)
        - (dft 1130 (binOf r.f) (sampleR block) - (A * effBin f φ (binOf r.f) + B * effBin g ψ (binOf r.f))) - B * effBin g ψ (binOf r.f) := by ring
    have h := congrArg norm e
    rw [nA] at h
    have h2 := norm_sub_le (dft 1130 (binOf r.f) (sampleR block)
        - (dft 1130 (binOf r.f) (sampleR block) - (A * effBin f φ (binOf r.f) + B * effBin g ψ (binOf r.f)))) (B * effBin g ψ (binOf r.f))
    have h3 := norm_sub_le (dft 1130 (binOf r.f) (sampleR block)) (dft 1130 (binOf r.f) (sampleR block) - (A * effBin f φ (binOf r.f) + B * effBin g ψ (binOf r.f)))
    rw [nB] at h2
    linarith
  have hoth : ‖dft 1130 (binOf b.f) (sampleR block)‖ ≤ A * ‖effBin f φ (binOf b.f)‖ + B * ‖effBin g ψ (binOf b.f)‖ + 6.17 * w := by
    have e : dft 1130 (binOf b.f) (sampleR block) = (dft 1130 (binOf b.f) (sampleR block) - (A * effBin f φ (binOf b.f) + B * effBin g ψ (binOf b.f)))
        + (A * effBin f φ (binOf b.f) + B * effBin g ψ (binOf b.f)) := by ring
    have h := congrArg norm e
    have h2 := norm_add_le (dft 1130 (binOf b.f) (sampleR block) - (A * effBin f φ (binOf b.f) + B * effBin g ψ (binOf b.f)))
      (A * effBin f φ (binOf b.f) + B * effBin g ψ (binOf b.f))
    have h3 := norm_add_le ((A : ℂ) * effBin f φ (binOf b.f)) (B * effBin g ψ (binOf b.f))
    rw [nA, nB] at h3
    linarith
  generalize ‖dft 1130 (binOf r.f) (sampleR block)‖ = D at *
  generalize ‖dft 1130 (binOf b.f) (sampleR block)‖ = E at *
  have b1 : ((c.lo : ℝ) / 1000 - c.mir / 1000 - 1.547) / 2 ≤ ‖effBin f φ (binOf r.f)‖ := by linarith
  have b2 : ‖effBin g ψ (binOf r.f)‖ ≤ ((c'.up : ℝ) / 1000 + c'.mir / 1000 + 1.547) / 2 := by linarith
  have b3 : ‖effBin f φ (binOf b.f)‖ ≤ ((d.up : ℝ) / 1000 + d.mir / 1000 + 1.547) / 2 := by linarith
  have b4 : ‖effBin g ψ (binOf b.f)‖ ≤ ((d'.up : ℝ) / 1000 + d'.mir / 1000 + 1.547) / 2 := by linarith
  have t1 := mul_le_mul_of_nonneg_left b1 hA0.le
  have t2 := mul_le_mul_of_nonneg_left b2 hB0
  have t3 := mul_le_mul_of_nonneg_left b3 hA0.le
  have t4 := mul_le_mul_of_nonneg_left b4 hB0
  have z1 : (0 : ℝ) ≤ ((c'.up : ℝ) / 1000 + c'.mir / 1000 + 1.547) / 2 := by positivity
  have z2 : (0 : ℝ) ≤ ((d'.up : ℝ) / 1000 + d'.mir / 1000 + 1.547) / 2 := by positivity
  have w2 := mul_le_mul_of_nonneg_right hBA z1
  have w4 := mul_le_mul_of_nonneg_right hBA z2
  have g1 : A * 27 ≤ A * (((c.lo : ℝ) / 1000 - c.mir / 1000 - 1.547) - (d.up / 1000 + d.mir / 1000 + 1.547) - 1.5 * (c'.up / 1000 + c'.mir / 1000 + 1.547)
      - 1.5 * (d'.up / 1000 + d'.mir / 1000 + 1.547)) := mul_le_mul_of_nonneg_left (by linarith) hA0.le
  have g2 : A * 100 ≤ A * (((c.lo : ℝ) / 1000 - c.mir / 1000 - 1.547) - 1.5 * (c'.up / 1000 + c'.mir / 1000 + 1.547)) :=
    mul_le_mul_of_nonneg_left (by linarith) hA0.le
  constructor
  · linarith
  · linarith

theorem low_row {f : Nat} (h : f ∈ stdLowFreq) : ∃ r ∈ rows, r.f = f ∧ group r.f = true := by
  have : ∀ f ∈ stdLowFreq, ∃ r ∈ rows, r.f = f ∧ group r.f = true := by decide
  exact this f h

theorem high_row {f : Nat} (h : f ∈ stdHighFreq) : ∃ r ∈ rows, r.f = f ∧ group r.f = false := by
  have : ∀ f ∈ stdHighFreq, ∃ r ∈ rows, r.f = f ∧ group r.f = false := by decide
  exact this f h

/-- The bins of a block of two tones. -/
theorem dial_bins {lo hi : Nat} (hlo : lo ∈ stdLowFreq) (hhi : hi ∈ stdHighFreq) {f g A B φ ψ : ℝ} (hf : |f - lo| ≤ lo / 400) (hg : |g - hi| ≤ hi / 400)
    (hA : 0 < A) (hB : 0 < B) (hBA : B ≤ 1.5 * A) (hAB : A ≤ 1.5 * B) (block : List ℝ)
    (he : ∑ i ∈ Finset.range 1130, |block.getD i 0 - (A * toneAt f 44100 φ i + B * toneAt g 44100 ψ i) * effW i| ≤ 6.17 * min A B) :
    (40 * min A B ≤ ‖dft 1130 (binOf lo) (sampleR block)‖ ∧
      ∀ b ∈ stdLowFreq, b ≠ lo → ‖dft 1130 (binOf b) (sampleR block)‖ + 1 * min A B ≤ ‖dft 1130 (binOf lo) (sampleR block)‖) ∧
    (40 * min A B ≤ ‖dft 1130 (binOf hi) (sampleR block)‖ ∧
      ∀ b ∈ stdHighFreq, b ≠ hi → ‖dft 1130 (binOf b) (sampleR block)‖ + 1 * min A B ≤ ‖dft 1130 (binOf hi) (sampleR block)‖) := by
  obtain ⟨r, hr, rfl, hrg⟩ := low_row hlo
  obtain ⟨s, hs, rfl, hsg⟩ := high_row hhi
  have hm : 0 < min A B := lt_min hA hB
  have he' : ∑ i ∈ Finset.range 1130, |block.getD i 0 - (B * toneAt g 44100 ψ i + A * toneAt f 44100 φ i) * effW i| ≤ 6.17 * min A B := by
    simpa only [add_comm] using he
  have lowAll : ∀ b ∈ stdLowFreq, b ≠ r.f → ‖dft 1130 (binOf b) (sampleR block)‖ + 1 * min A B ≤ ‖dft 1130 (binOf r.f) (sampleR block)‖ ∧
      40 * min A B ≤ ‖dft 1130 (binOf r.f) (sampleR block)‖ := by
    intro b hb hne
    obtain ⟨t, ht, rfl, htg⟩ := low_row hb
    exact own_wins hr hs ht (by rw [hrg, hsg]; decide) (by rw [htg, hrg]) hne hf hg hm (min_le_left _ _) hB.le hBA block he
  have highAll : ∀ b ∈ stdHighFreq, b ≠ s.f → ‖dft 1130 (binOf b) (sampleR block)‖ + 1 * min A B ≤ ‖dft 1130 (binOf s.f) (sampleR block)‖ ∧
      40 * min A B ≤ ‖dft 1130 (binOf s.f) (sampleR block)‖ := by
    intro b hb hne
    obtain ⟨t, ht, rfl, htg⟩ := high_row hb
    exact own_wins hs hr ht (by rw [hrg, hsg]; decide) (by rw [htg, hsg]) hne hg hf hm (min_le_right _ _) hA.le hAB block he'
  refine ⟨⟨?_, fun b hb hne => (lowAll b hb hne).1⟩, ?_, fun b hb hne => (highAll b hb hne).1⟩
  · by_cases h : r.f = 697
    · exact (lowAll 770 (by decide) (by omega)).2
    · exact (lowAll 697 (by decide) (Ne.symm h)).2
  · by_cases h : s.f = 1209
    · exact (highAll 1336 (by decide) (by omega)).2
    · exact (highAll 1209 (by decide) (Ne.symm h)).2

end Verif.Dtmf.Live
