import Verif.Dtmf.StandardModel
import Verif.Dtmf.DtmfProps
import Verif.Dtmf.ToneLemmas
import Verif.Window.WindowProps

/-!
# A key that is pressed is recognised

Samples made of two tones near the frequencies of a key, of any phases and of amplitudes that differ by at
most a factor of eight, with a disturbance of a twenty-fifth of the weaker tone.
-/

namespace Verif.Dtmf
open Verif.Conv Verif.Dft Real

/-- A tone of `f` cycles per second sampled `fs` times per second. -/
noncomputable def toneAt (f : ℝ) (fs : Nat) (φ : ℝ) (i : Nat) : ℝ := Real.cos (2 * π * f * i / fs + φ)

/-! ## The bins of one tone -/

/-- Bin `k` of a windowed tone at `ν` bins. -/
noncomputable def toneBin (n : Nat) (ν φ : ℝ) (k : Nat) : ℂ :=
  ∑ i ∈ Finset.range n, ((Real.cos (2 * π * ν * i / n + φ) * ham n i : ℝ) : ℂ) * Complex.exp (-(2 * π * (k : ℤ) * i / n : ℝ) * Complex.I)

theorem toneBin_eq (n : Nat) (ν φ : ℝ) (k : Nat) :
    toneBin n ν φ k = 1 / 2 * (Complex.exp ((φ : ℝ) * Complex.I) * kern n (2 * π * (ν - k) / n)
      + Complex.exp ((-φ : ℝ) * Complex.I) * kern n (2 * π * (-(ν + k)) / n)) := by
  rw [toneBin, kern, kern, Finset.mul_sum, Finset.mul_sum, ← Finset.sum_add_distrib, Finset.mul_sum]
  refine Finset.sum_congr rfl fun i _ => ?_
  have e0 : (-((2 * π * (k : ℤ) * i / n : ℝ) : ℂ)) = ((-(2 * π * k * i / n) : ℝ) : ℂ) := by push_cast; rfl
  have e1 : (2 * π * (ν - k) / n * i : ℝ) = 2 * π * ν * i / n + -(2 * π * k * i / n) := by ring
  have e2 : (2 * π * (-(ν + k)) / n * i : ℝ) = -(2 * π * ν * i / n) + -(2 * π * k * i / n) := by ring
  rw [e0, e1, e2]
  generalize 2 * π * ν * i / n = a
  generalize -(2 * π * k * i / n) = b
  have h1 : Complex.exp ((a + b : ℝ) * Complex.I) = Complex.exp (a * Complex.I) * Complex.exp (b * Complex.I) := by
    rw [← Complex.exp_add]; push_cast; ring_nf
  have h2 : Complex.exp ((-a + b : ℝ) * Complex.I) = Complex.exp ((-a : ℝ) * Complex.I) * Complex.exp (b * Complex.I) := by
    rw [← Complex.exp_add]; push_cast; ring_nf
  have hI : Complex.I * Complex.I = -1 := Complex.I_mul_I
  rw [h1, h2, exp_real a, exp_real (-a), exp_real φ, exp_real (-φ), Real.cos_add, Real.cos_neg, Real.sin_neg, Real.cos_neg, Real.sin_neg]
  generalize Complex.exp (b * Complex.I) = z
  push_cast
  linear_combination (-(Complex.sin φ * Complex.sin a * (ham n i : ℂ) * z)) * hI

theorem toneBin_le (n : Nat) (ν φ : ℝ) (k : Nat) :
    ‖toneBin n ν φ k‖ ≤ 1 / 2 * (‖kern n (2 * π * (ν - k) / n)‖ + ‖kern n (2 * π * (-(ν + k)) / n)‖) := by
  rw [toneBin_eq, norm_mul]
  have : ‖(1 / 2 : ℂ)‖ = 1 / 2 := by norm_num
  rw [this]
  refine mul_le_mul_of_nonneg_left ((norm_add_le _ _).trans ?_) (by norm_num)
  rw [norm_mul, norm_mul, Complex.norm_exp_ofReal_mul_I, Complex.norm_exp_ofReal_mul_I, one_mul, one_mul]

theorem toneBin_ge (n : Nat) (ν φ : ℝ) (k : Nat) :
    1 / 2 * (‖kern n (2 * π * (ν - k) / n)‖ - ‖kern n (2 * π * (-(ν + k)) / n)‖) ≤ ‖toneBin n ν φ k‖ := by
  rw [toneBin_eq, norm_mul]
  have : ‖(1 / 2 : ℂ)‖ = 1 / 2 := by norm_num
  rw [this]
  refine mul_le_mul_of_nonneg_left (le_trans ?_ (norm_sub_le_norm_add _ _)) (by norm_num)
  rw [norm_mul, norm_mul, Complex.norm_exp_ofReal_mul_I, Complex.norm_exp_ofReal_mul_I, one_mul, one_mul]

theorem mirror_le {n : Nat} (hn : 205 ≤ n) {ν : ℝ} {k : Nat} (h1 : 6 ≤ ν + k) (h2 : ν + k ≤ 96) :
    ‖kern n (2 * π * (-(ν + k)) / n)‖ ≤ n / 200 := by
  have hnr : (205 : ℝ) ≤ n := by exact_mod_cast hn
  refine kern_far hn ?_ ?_ <;> rw [abs_neg, abs_of_pos (by linarith)] <;> linarith

theorem tone_main {n : Nat} (hn : 205 ≤ n) {ν : ℝ} {k : Nat} (φ : ℝ) (h : |ν - k| ≤ 1 / 2) (h1 : 6 ≤ ν + k) (h2 : ν + k ≤ 96) :
    n * (1 / 6 - 1 / 400) ≤ ‖toneBin n ν φ k‖ := by
  have := toneBin_ge n ν φ k
  have a := kern_main hn h
  have b := mirror_le hn h1 h2
  linarith

theorem tone_near {n : Nat} (hn : 205 ≤ n) {ν : ℝ} {k : Nat} (φ : ℝ) (h : 3 / 2 ≤ |ν - k|) (hm : |ν - k| ≤ 96) (h1 : 6 ≤ ν + k) (h2 : ν + k ≤ 96) :
    ‖toneBin n ν φ k‖ ≤ n * (1 / 28 + 1 / 400) := by
  have := toneBin_le n ν φ k
  have hnr : (205 : ℝ) ≤ n := by exact_mod_cast hn
  have a := kern_near hn h (by linarith)
  have b := mirror_le hn h1 h2
  linarith

theorem tone_far {n : Nat} (hn : 205 ≤ n) {ν : ℝ} {k : Nat} (φ : ℝ) (h : 6 ≤ |ν - k|) (hm : |ν - k| ≤ 96) (h1 : 6 ≤ ν + k) (h2 : ν + k ≤ 96) :
    ‖toneBin n ν φ k‖ ≤ n * (1 / 200) := by
  have := toneBin_le n ν φ k
  have hnr : (205 : ℝ) ≤ n := by exact_mod_cast hn
  have a := kern_far hn h (by linarith)
  have b := mirror_le hn h1 h2
  linarith

/-! ## The bins of the detector -/

/-- Bins that the detectors of the eight tones use. -/
def binOf : Nat → Nat
  | 697 => 18
  | 770 => 20
  | 852 => 22
  | 941 => 24
  | 1209 => 31
  | 1336 => 34
  | 1477 => 38
  | 1633 => 42
  | _ => 0

theorem rate_bounds {fs n : Nat} (hf : 8000 ≤ fs) (hn : n = 205 * fs / 8000) :
    205 ≤ n ∧ 0.0255 * (fs : ℝ) < n ∧ (n : ℝ) ≤ 0.025625 * fs := by
  have h1 : 8000 * n ≤ 205 * fs := by omega
  have h2 : 205 * fs < 8000 * n + 8000 := by omega
  have h1r : (8000 : ℝ) * n ≤ 205 * fs := by exact_mod_cast h1
  have h2r : (205 : ℝ) * fs < 8000 * n + 8000 := by exact_mod_cast h2
  have hfr : (8000 : ℝ) ≤ fs := by exact_mod_cast hf
  exact ⟨by omega, by linarith, by linarith⟩

theorem bucket_bin {fs n : Nat} (hf : 8000 ≤ fs) (hf2 : fs < 2 ^ 50) (hn : n = 205 * fs / 8000) {f : Nat} (hm : f ∈ stdLowFreq ++ stdHighFreq) :
    bucket f fs n = binOf f := by
  obtain ⟨-, h1, h2⟩ := rate_bounds hf hn
  have hfr : (0 : ℝ) < fs := by
    have : 0 < fs := by omega
    exact_mod_cast this
  have hmod : n * f % 2 ^ 64 = n * f := by
    have : f ≤ 1633 := by
      simp [stdLowFreq, stdHighFreq] at hm
      omega
    apply Nat.mod_eq_of_lt
    calc n * f ≤ n * 1633 := Nat.mul_le_mul_left _ this
      _ < 2 ^ 64 := by omega
  rw [bucket, hmod]
  have key : ∀ k : Nat, (k : ℝ) ≤ 0.5 + 0.0255 * f → 0.5 + 0.025625 * f < (k : ℝ) + 1 → ⌊(0.5 : ℝ) + ((n * f : Nat) : ℝ) / fs⌋₊ = k := by
    intro k a b
    have hf0 : (0 : ℝ) ≤ f := Nat.cast_nonneg f
    have c1 : 0.0255 * (f : ℝ) ≤ ((n * f : Nat) : ℝ) / fs := by
      rw [le_div_iff₀ hfr]
      push_cast
      nlinarith
    have c2 : ((n * f : Nat) : ℝ) / fs ≤ 0.025625 * (f : ℝ) := by
      rw [div_le_iff₀ hfr]
      push_cast
      nlinarith
    rw [Nat.floor_eq_iff (by positivity)]
    constructor <;> linarith
  simp only [stdLowFreq, stdHighFreq, List.cons_append, List.nil_append, List.mem_cons, List.not_mem_nil, or_false] at hm
  rcases hm with rfl | rfl | rfl | rfl | rfl | rfl | rfl | rfl <;> exact key _ (by norm_num [binOf]) (by norm_num [binOf])

/-- A tone within a quarter of a percent of one of the eight, in bins. -/
theorem tone_bins {fs n : Nat} (hf : 8000 ≤ fs) (hn : n = 205 * fs / 8000) {f0 : Nat} {f : ℝ} (hff : |f - f0| ≤ f0 / 400) :
    0.02543625 * (f0 : ℝ) ≤ f * n / fs ∧ f * n / fs ≤ 0.0256890625 * f0 := by
  obtain ⟨-, h1, h2⟩ := rate_bounds hf hn
  have hfr : (0 : ℝ) < fs := by
    have : 0 < fs := by omega
    exact_mod_cast this
  have hf0 : (0 : ℝ) ≤ f0 := Nat.cast_nonneg f0
  rw [abs_le] at hff
  have a : 0.9975 * (f0 : ℝ) ≤ f := by linarith
  have b : f ≤ 1.0025 * (f0 : ℝ) := by linarith
  rw [mul_div_assoc]
  have c1 : 0.0255 ≤ (n : ℝ) / fs := by rw [le_div_iff₀ hfr]; linarith
  have c2 : (n : ℝ) / fs ≤ 0.025625 := by rw [div_le_iff₀ hfr]; linarith
  constructor
  · calc 0.02543625 * (f0 : ℝ) = 0.9975 * f0 * 0.0255 := by ring
      _ ≤ f * (n / fs) := mul_le_mul a c1 (by norm_num) (le_trans (by positivity) a)
  · calc f * (n / fs) ≤ 1.0025 * f0 * 0.025625 := mul_le_mul b c2 (by positivity) (by positivity)
      _ = _ := by ring

/-- Two tones are in the same group. -/
def sameGroup (a b : Nat) : Prop := (a ∈ stdLowFreq ∧ b ∈ stdLowFreq) ∨ (a ∈ stdHighFreq ∧ b ∈ stdHighFreq)

set_option maxHeartbeats 2000000 in
/-- What the detector of tone `b` sees of a tone near `a`. -/
theorem bins_table {a b : Nat} (ha : a ∈ stdLowFreq ++ stdHighFreq) (hb : b ∈ stdLowFreq ++ stdHighFreq) {ν : ℝ}
    (h1 : 0.02543625 * (a : ℝ) ≤ ν) (h2 : ν ≤ 0.0256890625 * a) :
    6 ≤ ν + binOf b ∧ ν + binOf b ≤ 96 ∧ |ν - binOf b| ≤ 96 ∧ (a = b → |ν - binOf b| ≤ 1 / 2) ∧ (a ≠ b → 3 / 2 ≤ |ν - binOf b|) ∧
      (¬ sameGroup a b → 6 ≤ |ν - binOf b|) := by
  simp only [stdLowFreq, stdHighFreq, List.cons_append, List.nil_append, List.mem_cons, List.not_mem_nil, or_false] at ha hb
  have lo : ∀ c d : ℝ, c ≤ ν - d → c ≤ |ν - d| := fun c d h => h.trans (le_abs_self _)
  have hi : ∀ c d : ℝ, c ≤ d - ν → c ≤ |ν - d| := fun c d h => by
    rw [abs_sub_comm]; exact h.trans (le_abs_self _)
  rcases ha with rfl | rfl | rfl | rfl | rfl | rfl | rfl | rfl <;> rcases hb with rfl | rfl | rfl | rfl | rfl | rfl | rfl | rfl <;>
    norm_num [binOf] at h1 h2 ⊢ <;> refine ⟨by linarith, by linarith, by rw [abs_le]; constructor <;> linarith, ?_⟩ <;>
    first
      | (rw [abs_le]; refine ⟨⟨by linarith, by linarith⟩, fun h => absurd ?_ h⟩; simp [sameGroup, stdLowFreq, stdHighFreq])
      | (refine ⟨hi _ _ (by linarith), fun h => absurd ?_ h⟩; simp [sameGroup, stdLowFreq, stdHighFreq]; done)
      | (refine ⟨lo _ _ (by linarith), fun h => absurd ?_ h⟩; simp [sameGroup, stdLowFreq, stdHighFreq]; done)
      | (refine ⟨hi _ _ (by linarith), fun _ => hi _ _ (by linarith)⟩)
      | (refine ⟨lo _ _ (by linarith), fun _ => lo _ _ (by linarith)⟩)

/-! ## The bins of two tones -/

theorem dft_split {n : Nat} (k : Nat) (block : List ℝ) (A B ν μ φ ψ : ℝ) :
    ‖dft n k (sampleR block) - (A * toneBin n ν φ k + B * toneBin n μ ψ k)‖ ≤
      ∑ i ∈ Finset.range n, |block.getD i 0 - (A * Real.cos (2 * π * ν * i / n + φ) + B * Real.cos (2 * π * μ * i / n + ψ)) * ham n i| := by
  rw [dft, toneBin, toneBin, Finset.mul_sum, Finset.mul_sum, ← Finset.sum_add_distrib, ← Finset.sum_sub_distrib]
  refine (norm_sum_le _ _).trans (Finset.sum_le_sum fun i _ => ?_)
  have e0 : (-((2 * π * (k : ℤ) * i / n : ℝ) : ℂ)) = ((-(2 * π * k * i / n) : ℝ) : ℂ) := by push_cast; rfl
  rw [e0, sampleR]
  have e : ∀ (x a b w : ℝ) (z : ℂ), (x : ℂ) * z - (A * (((a * w : ℝ) : ℂ) * z) + B * (((b * w : ℝ) : ℂ) * z)) = ((x - (A * a + B * b) * w : ℝ) : ℂ) * z := by
    intro x a b w z
    push_cast
    ring
  rw [e, norm_mul, Complex.norm_exp_ofReal_mul_I, mul_one, Complex.norm_real, Real.norm_eq_abs]

theorem own_bin {n : Nat} (k : Nat) (block : List ℝ) {A B ν μ : ℝ} (φ ψ : ℝ) (hA : 0 < A) (hB : 0 < B) (hBA : B ≤ 8 * A)
    (he : ∑ i ∈ Finset.range n, |block.getD i 0 - (A * Real.cos (2 * π * ν * i / n + φ) + B * Real.cos (2 * π * μ * i / n + ψ)) * ham n i| ≤ 0.0217 * n * A)
    (h1 : n * (1 / 6 - 1 / 400) ≤ ‖toneBin n ν φ k‖) (h2 : ‖toneBin n μ ψ k‖ ≤ n * (1 / 200)) :
    0.1024 * n * A ≤ ‖dft n k (sampleR block)‖ := by
  have hs := (dft_split k block A B ν μ φ ψ).trans he
  have ha : ‖(A : ℂ) * toneBin n ν φ k‖ = A * ‖toneBin n ν φ k‖ := by rw [norm_mul, Complex.norm_real, Real.norm_of_nonneg hA.le]
  have hb : ‖(B : ℂ) * toneBin n μ ψ k‖ = B * ‖toneBin n μ ψ k‖ := by rw [norm_mul, Complex.norm_real, Real.norm_of_nonneg hB.le]
  have t1 := norm_sub_le_norm_add ((A : ℂ) * toneBin n ν φ k) (B * toneBin n μ ψ k)
  have t2 := norm_sub_norm_le ((A : ℂ) * toneBin n ν φ k + B * toneBin n μ ψ k) (dft n k (sampleR block))
  rw [norm_sub_rev] at t2
  have a1 := mul_le_mul_of_nonneg_left h1 hA.le
  have hn0 : (0 : ℝ) ≤ n := Nat.cast_nonneg n
  have b1 : B * ‖toneBin n μ ψ k‖ ≤ 8 * A * (n * (1 / 200)) := mul_le_mul hBA h2 (norm_nonneg _) (by linarith)
  have : 0 ≤ (n : ℝ) * A := mul_nonneg hn0 hA.le
  nlinarith

theorem other_bin {n : Nat} (k : Nat) (block : List ℝ) {A B ν μ : ℝ} (φ ψ : ℝ) (hA : 0 < A) (hB : 0 < B) (hBA : B ≤ 8 * A)
    (he : ∑ i ∈ Finset.range n, |block.getD i 0 - (A * Real.cos (2 * π * ν * i / n + φ) + B * Real.cos (2 * π * μ * i / n + ψ)) * ham n i| ≤ 0.0217 * n * A)
    (h1 : ‖toneBin n ν φ k‖ ≤ n * (1 / 28 + 1 / 400)) (h2 : ‖toneBin n μ ψ k‖ ≤ n * (1 / 200)) :
    ‖dft n k (sampleR block)‖ ≤ 0.1 * n * A := by
  have hs := (dft_split k block A B ν μ φ ψ).trans he
  have ha : ‖(A : ℂ) * toneBin n ν φ k‖ = A * ‖toneBin n ν φ k‖ := by rw [norm_mul, Complex.norm_real, Real.norm_of_nonneg hA.le]
  have hb : ‖(B : ℂ) * toneBin n μ ψ k‖ = B * ‖toneBin n μ ψ k‖ := by rw [norm_mul, Complex.norm_real, Real.norm_of_nonneg hB.le]
  have t1 := norm_add_le ((A : ℂ) * toneBin n ν φ k) (B * toneBin n μ ψ k)
  have t2 := norm_sub_norm_le (dft n k (sampleR block)) ((A : ℂ) * toneBin n ν φ k + B * toneBin n μ ψ k)
  have a1 := mul_le_mul_of_nonneg_left h1 hA.le
  have hn0 : (0 : ℝ) ≤ n := Nat.cast_nonneg n
  have b1 : B * ‖toneBin n μ ψ k‖ ≤ 8 * A * (n * (1 / 200)) := mul_le_mul hBA h2 (norm_nonneg _) (by linarith)
  have : 0 ≤ (n : ℝ) * A := mul_nonneg hn0 hA.le
  nlinarith

/-- A windowed block that is nearly that of two tones: the bins of their own detectors stand out of their groups. -/
theorem dual_bins {fs n : Nat} (hf : 8000 ≤ fs) (hf2 : fs < 2 ^ 50) (hn : n = 205 * fs / 8000) {lo hi : Nat}
    (hlo : lo ∈ stdLowFreq) (hhi : hi ∈ stdHighFreq) {f g A B φ ψ : ℝ} (hlf : |f - lo| ≤ lo / 400) (hhg : |g - hi| ≤ hi / 400)
    (hA : 0 < A) (hB : 0 < B) (hBA : B ≤ 8 * A) (hAB : A ≤ 8 * B) (block : List ℝ)
    (he : ∑ i ∈ Finset.range n, |block.getD i 0 - (A * toneAt f fs φ i + B * toneAt g fs ψ i) * ham n i| ≤ 0.0217 * n * min A B) :
    (0.1024 * n * A ≤ ‖dft n (bucket lo fs n) (sampleR block)‖ ∧ ∀ b ∈ stdLowFreq, b ≠ lo → ‖dft n (bucket b fs n) (sampleR block)‖ ≤ 0.1 * n * A) ∧
    (0.1024 * n * B ≤ ‖dft n (bucket hi fs n) (sampleR block)‖ ∧ ∀ b ∈ stdHighFreq, b ≠ hi → ‖dft n (bucket b fs n) (sampleR block)‖ ≤ 0.1 * n * B) := by
  obtain ⟨hn205, -, -⟩ := rate_bounds hf hn
  obtain ⟨f1, f2⟩ := tone_bins hf hn hlf
  obtain ⟨g1, g2⟩ := tone_bins hf hn hhg
  have hn0 : (0 : ℝ) < n := by
    have : 0 < n := by omega
    exact_mod_cast this
  have hfs0 : (0 : ℝ) < fs := by
    have : 0 < fs := by omega
    exact_mod_cast this
  have hall : ∀ x, x ∈ stdLowFreq ∨ x ∈ stdHighFreq → x ∈ stdLowFreq ++ stdHighFreq := fun x h => List.mem_append.2 h
  have ht : ∀ (f φ : ℝ) (i : Nat), toneAt f fs φ i = Real.cos (2 * π * (f * n / fs) * i / n + φ) := by
    intro f φ i
    rw [toneAt]
    congr 2
    field_simp
  simp only [ht] at he
  have cross : ∀ a b, (a ∈ stdLowFreq ∧ b ∈ stdHighFreq) ∨ (a ∈ stdHighFreq ∧ b ∈ stdLowFreq) → ¬ sameGroup a b := by
    intro a b h hs
    simp [sameGroup, stdLowFreq, stdHighFreq] at h hs
    omega
  generalize f * n / fs = ν at *
  generalize g * n / fs = μ at *
  have heA := he.trans (mul_le_mul_of_nonneg_left (min_le_left A B) (by positivity))
  have heB := he.trans (mul_le_mul_of_nonneg_left (min_le_right A B) (by positivity))
  have swap : ∀ i : Nat, block.getD i 0 - (A * Real.cos (2 * π * ν * i / n + φ) + B * Real.cos (2 * π * μ * i / n + ψ)) * ham n i =
      block.getD i 0 - (B * Real.cos (2 * π * μ * i / n + ψ) + A * Real.cos (2 * π * ν * i / n + φ)) * ham n i := fun i => by ring
  simp only [swap] at heB
  refine ⟨⟨?_, fun b hb hne => ?_⟩, ?_, fun b hb hne => ?_⟩
  · rw [bucket_bin hf hf2 hn (hall _ (Or.inl hlo))]
    obtain ⟨p1, p2, p3, p4, -, -⟩ := bins_table (hall _ (Or.inl hlo)) (hall _ (Or.inl hlo)) f1 f2
    obtain ⟨q1, q2, q3, -, -, q6⟩ := bins_table (hall _ (Or.inr hhi)) (hall _ (Or.inl hlo)) g1 g2
    exact own_bin _ block φ ψ hA hB hBA heA (tone_main hn205 φ (p4 rfl) p1 p2) (tone_far hn205 ψ (q6 (cross _ _ (Or.inr ⟨hhi, hlo⟩))) q3 q1 q2)
  · rw [bucket_bin hf hf2 hn (hall _ (Or.inl hb))]
    obtain ⟨p1, p2, p3, -, p5, -⟩ := bins_table (hall _ (Or.inl hlo)) (hall _ (Or.inl hb)) f1 f2
    obtain ⟨q1, q2, q3, -, -, q6⟩ := bins_table (hall _ (Or.inr hhi)) (hall _ (Or.inl hb)) g1 g2
    exact other_bin _ block φ ψ hA hB hBA heA (tone_near hn205 φ (p5 (Ne.symm hne)) p3 p1 p2) (tone_far hn205 ψ (q6 (cross _ _ (Or.inr ⟨hhi, hb⟩))) q3 q1 q2)
  · rw [bucket_bin hf hf2 hn (hall _ (Or.inr hhi))]
    obtain ⟨p1, p2, p3, p4, -, -⟩ := bins_table (hall _ (Or.inr hhi)) (hall _ (Or.inr hhi)) g1 g2
    obtain ⟨q1, q2, q3, -, -, q6⟩ := bins_table (hall _ (Or.inl hlo)) (hall _ (Or.inr hhi)) f1 f2
    exact own_bin _ block ψ φ hB hA hAB heB (tone_main hn205 ψ (p4 rfl) p1 p2) (tone_far hn205 φ (q6 (cross _ _ (Or.inl ⟨hlo, hhi⟩))) q3 q1 q2)
  · rw [bucket_bin hf hf2 hn (hall _ (Or.inr hb))]
    obtain ⟨p1, p2, p3, -, p5, -⟩ := bins_table (hall _ (Or.inr hhi)) (hall _ (Or.inr hb)) g1 g2
    obtain ⟨q1, q2, q3, -, -, q6⟩ := bins_table (hall _ (Or.inl hlo)) (hall _ (Or.inr hb)) f1 f2
    exact other_bin _ block ψ φ hB hA hAB heB (tone_near hn205 ψ (p5 (Ne.symm hne)) p3 p1 p2) (tone_far hn205 φ (q6 (cross _ _ (Or.inl ⟨hlo, hb⟩))) q3 q1 q2)

/-! ## The detector -/

theorem newStandard_eq (fs n : Nat) (hn : 2 ≤ n) : newStandard fs n = some (new stdLowFreq stdHighFreq fs n (ham n)) := by
  have hw : Verif.Window.hamming n = some ((List.range n).map fun i => some (ham n i)) := by
    rw [Verif.Window.hamming, Verif.Window.window, if_neg (by simp)]
    congr 1
    refine List.map_congr_left fun i _ => ?_
    rw [Verif.Window.windowAt_eq _ _ _ hn]
    simp [ham, Verif.Window.angle]
    norm_num
  have hm : ∀ l : List ℝ, (l.map some).mapM (id : Option ℝ → Option ℝ) = some l := by
    intro l
    induction l with
    | nil => rfl
    | cons x xs ih => simp [ih]
  have hmm : ((List.range n).map fun i => some (ham n i)) = ((List.range n).map (ham n)).map some := by
    rw [List.map_map]; rfl
  rw [newStandard, hw, hmm, Option.bind_some, hm, Option.map_some]
  congr 1
  rw [new, new]
  congr 1
  refine List.map_congr_left fun i hi => ?_
  rw [List.mem_range] at hi
  simp [hi]

theorem tones_inj {c c' : Char} {p : Nat × Nat} (h : tones c = some p) (h' : tones c' = some p) : c = c' := by
  unfold tones at h h'
  split at h <;> first
    | cases h; done
    | (cases h; split at h' <;> first | rfl | cases h')

theorem tones_mem {c : Char} {lo hi : Nat} (h : tones c = some (lo, hi)) : lo ∈ stdLowFreq ∧ hi ∈ stdHighFreq := by
  unfold tones at h
  split at h <;> first
    | (obtain ⟨rfl, rfl⟩ := Prod.mk.inj (Option.some.inj h); decide)
    | cases h

theorem ham_sum {n : Nat} (hn : 205 ≤ n) : ∑ i ∈ Finset.range n, ham n i ≤ 0.53836 * n := by
  obtain ⟨M, rfl⟩ : ∃ M, n = M + 1 := ⟨n - 1, by omega⟩
  rw [kern_zero (by omega)]
  push_cast
  linarith

/-- C103 in exact arithmetic: the standard detector with a block of `205/8000` of a second (205 samples at 8000 per
second), at any sampling rate of at least 8000 per second, names the key that is pressed: for all phases, frequencies
within a quarter of a percent, amplitudes that differ by at most a factor of eight, and a disturbance of at most a
twenty-fifth of the weaker tone.  The threshold it reports is at least `(n · weaker / 10)²`. -/
theorem C103_key (fs n : Nat) (hf : 8000 ≤ fs) (hf2 : fs < 2 ^ 50) (hn : n = 205 * fs / 8000) (c : Char) (lo hi : Nat) (hc : tones c = some (lo, hi))
    (f g A B φ ψ : ℝ) (hlf : |f - lo| ≤ lo / 400) (hhg : |g - hi| ≤ hi / 400) (hA : 0 < A) (hB : 0 < B) (hBA : B ≤ 8 * A) (hAB : A ≤ 8 * B)
    (m : Nat → ℝ) (s : Slice) (hs : n ≤ s.len)
    (hm : ∀ i < n, |m (s.base + i) - (A * toneAt f fs φ i + B * toneAt g fs ψ i)| ≤ min A B / 25) :
    ∃ d r, newStandard fs n = some d ∧ d.feed id id m s = some r ∧ keypad[r.2.2.1]? = some c ∧ (n * min A B / 10) ^ 2 ≤ r.2.2.2 := by
  obtain ⟨hn205, -, -⟩ := rate_bounds hf hn
  obtain ⟨hlo, hhi⟩ := tones_mem hc
  obtain ⟨r, c', lo', hi', h1, h2, h3, h4, h5⟩ := C59_digit fs n (ham n) (by omega) m s hs
  refine ⟨_, r, newStandard_eq fs n (by omega), h1, ?_⟩
  generalize hbl : ((List.range n).map fun i => m (s.base + i) * ham n i) = block at *
  have hmin : 0 < min A B := lt_min hA hB
  have hn0 : (0 : ℝ) < n := by
    have : 0 < n := by omega
    exact_mod_cast this
  have he : ∑ i ∈ Finset.range n, |block.getD i 0 - (A * toneAt f fs φ i + B * toneAt g fs ψ i) * ham n i| ≤ 0.0217 * n * min A B := by
    calc _ ≤ ∑ i ∈ Finset.range n, min A B / 25 * ham n i := by
          refine Finset.sum_le_sum fun i hi => ?_
          rw [Finset.mem_range] at hi
          have : block.getD i 0 = m (s.base + i) * ham n i := by rw [← hbl]; simp [hi]
          rw [this, ← sub_mul, abs_mul, abs_of_nonneg (ham_nonneg n i)]
          exact mul_le_mul_of_nonneg_right (hm i hi) (ham_nonneg n i)
      _ = min A B / 25 * ∑ i ∈ Finset.range n, ham n i := by rw [Finset.mul_sum]
      _ ≤ min A B / 25 * (0.53836 * n) := mul_le_mul_of_nonneg_left (ham_sum hn205) (by positivity)
      _ ≤ 0.0217 * n * min A B := by nlinarith [mul_pos hn0 hmin]
  obtain ⟨⟨a1, a2⟩, b1, b2⟩ := dual_bins hf hf2 hn hlo hhi hlf hhg hA hB hBA hAB block he
  obtain ⟨hlo', hhi'⟩ := tones_mem h3
  have h4c := h4 c lo hi hc
  have el : lo' = lo := by
    by_contra hne
    have := a2 lo' hlo' hne
    have p := h4c.1
    rw [power, power, sq_le_sq₀ (norm_nonneg _) (norm_nonneg _)] at p
    have : 0 < n * A := mul_pos hn0 hA
    linarith
  have eh : hi' = hi := by
    by_contra hne
    have := b2 hi' hhi' hne
    have p := h4c.2
    rw [power, power, sq_le_sq₀ (norm_nonneg _) (norm_nonneg _)] at p
    have : 0 < n * B := mul_pos hn0 hB
    linarith
  subst el eh
  refine ⟨?_, ?_⟩
  · rw [h2, tones_inj h3 hc]
  · rw [h5]
    have k1 : n * min A B / 10 ≤ ‖dft n (bucket lo' fs n) (sampleR block)‖ := by
      have : n * min A B ≤ n * A := mul_le_mul_of_nonneg_left (min_le_left _ _) hn0.le
      have := mul_pos hn0 hA
      linarith
    have k2 : n * min A B / 10 ≤ ‖dft n (bucket hi' fs n) (sampleR block)‖ := by
      have : n * min A B ≤ n * B := mul_le_mul_of_nonneg_left (min_le_right _ _) hn0.le
      have := mul_pos hn0 hB
      linarith
    exact le_min (pow_le_pow_left₀ (by positivity) k1 2) (pow_le_pow_left₀ (by positivity) k2 2)

/-- The key 5 at 8000 samples per second, the high tone twice as loud, with a constant offset. -/
example (φ ψ : ℝ) : ∃ d r, newStandard 8000 205 = some d ∧
    d.feed id id (fun i => 3 * toneAt 771 8000 φ i + 6 * toneAt 1333 8000 ψ i + 0.1) ⟨0, 205⟩ = some r ∧ keypad[r.2.2.1]? = some '5' ∧
    (205 * 3 / 10) ^ 2 ≤ r.2.2.2 := by
  have h := C103_key 8000 205 (by norm_num) (by norm_num) (by norm_num) '5' 770 1336 rfl 771 1333 3 6 φ ψ (by norm_num [abs_le]) (by norm_num [abs_le])
    (by norm_num) (by norm_num) (by norm_num) (by norm_num) (fun i => 3 * toneAt 771 8000 φ i + 6 * toneAt 1333 8000 ψ i + 0.1) ⟨0, 205⟩ le_rfl
    (fun i _ => by simp; norm_num [abs_le])
  have e : min (3 : ℝ) 6 = 3 := by norm_num
  rw [e] at h
  exact_mod_cast h

end Verif.Dtmf
