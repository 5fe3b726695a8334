import Verif.Ax25.EarModel
import Verif.Ax25.EarBlock
import Verif.Dtmf.ToneFp

/-!
# The number `diff` is the difference of the two bins, up to rounding
-/

namespace Verif.Ax25.Ear

open Verif.Ax25 Verif.Fp Verif.Dft Verif.Dtmf Verif.Filt Verif.Conv

theorem nearest_tone {f : ℕ} {b : ℕ} (hf : f = 1200 ∧ b = 1 ∨ f = 2200 ∧ b = 2) {k : ℕ} (hk : |((36 : ℕ) * f : ℝ) / (44100 : ℕ) - k| ≤ 1 / 2) : k = b := by
  rw [abs_le] at hk
  obtain ⟨h1, h2⟩ := hk
  rcases hf with ⟨rfl, rfl⟩ | ⟨rfl, rfl⟩
  · have q1 : (k : ℝ) < 2 := by push_cast at h1; linarith
    have q2 : (0 : ℝ) < k := by push_cast at h2; linarith
    have q1' : k < 2 := by exact_mod_cast q1
    have q2' : 0 < k := by exact_mod_cast q2
    omega
  · have q1 : (k : ℝ) < 3 := by push_cast at h1; linarith
    have q2 : (1 : ℝ) < k := by push_cast at h2; linarith
    have q1' : k < 3 := by exact_mod_cast q1
    have q2' : 1 < k := by exact_mod_cast q2
    omega

theorem dft_zero_le (k : ℕ) {x : ℕ → ℝ} (h : ∀ i, |x i| ≤ 1) : power k x ≤ 1296 := by
  have : ‖dft 36 k (fun i => (x i : ℂ))‖ ≤ 36 := by
    rw [dft]
    refine (norm_sum_le _ _).trans ((Finset.sum_le_sum fun i _ => ?_ : _ ≤ ∑ _i ∈ Finset.range 36, (1 : ℝ)).trans (by simp))
    have e0 : (-((2 * Real.pi * (k : ℤ) * i / (36 : ℕ) : ℝ) : ℂ)) = ((-(2 * Real.pi * k * i / (36 : ℕ)) : ℝ) : ℂ) := by push_cast; rfl
    rw [e0, norm_mul, Complex.norm_exp_ofReal_mul_I, mul_one, Complex.norm_real, Real.norm_eq_abs]
    exact h i
  unfold power
  calc ‖dft 36 k (fun i => (x i : ℂ))‖ ^ 2 ≤ 36 ^ 2 := pow_le_pow_left₀ (norm_nonneg _) this 2
    _ = 1296 := by norm_num

/-- One detector. -/
theorem tone_err {other : Val → Nat} {cos sin : FVal binary64 → FVal binary64} {η : ℝ} (hη0 : 0 ≤ η) (hη : η ≤ 1 / 2 ^ 50)
    (hT : Trig cos sin 9 η) {f b : ℕ} (hf : f = 1200 ∧ b = 1 ∨ f = 2200 ∧ b = 2) {xs : List (FVal binary32)} (hlen : xs.length = 36)
    (hxs : ∀ x ∈ xs, Fp.Finite x ∧ Grid binary32 x.toRat ∧ |val x| ≤ 1) {st : FVal binary64 × FVal binary64} {mag : FVal binary64}
    (h1 : After (newGzFp other cos sin f 44100 36) (xs.map widen) st) (h2 : ReportsMagnitude (newGzFp other cos sin f 44100 36) st mag) :
    Fp.Finite (narrow mag) ∧ |val (narrow mag) - power b (fun i => (vals xs).getD i 0)| ≤ 0.001 := by
  have hf1 : f ≤ 2200 := by omega
  have hw0 := wR_pos binary64
  have hw := w64
  have hne : newErr η ≤ 29 / 2 ^ 53 := by
    unfold newErr
    rw [u64]
    norm_num at hη hw ⊢
    linarith
  have hne0 : 0 ≤ newErr η := by
    unfold newErr
    rw [u64]
    linarith
  obtain ⟨k, k1, k2, k3, k4⟩ := C99_new other cos sin η hη0 (hne.trans (by norm_num)) hT f 44100 36 (by omega) (by omega) (by omega) (by omega) (by omega)
  rw [nearest_tone hf k1] at k3
  clear k k1 k2 k4
  obtain ⟨v1, v2⟩ := vals_widen xs (X := 1) (by norm_num) hxs
  have hlw : (xs.map widen).length = 36 := by rw [List.length_map, hlen]
  have hbig : (2 : ℝ) ^ 170 ≤ 2 ^ binary64.emax := by
    have : (2 : ℝ) ^ (170 : ℤ) ≤ 2 ^ binary64.emax := zpow_le_zpow_right₀ (by norm_num) (by decide)
    exact_mod_cast this
  obtain ⟨r1, r2⟩ := C98_magnitude_partial binary64_ok (newGzFp other cos sin f 44100 36) (2 * Real.pi * (b : ℕ) / (36 : ℕ)) (newErr η) 1 1332
    k3 hne0 (hne.trans (by norm_num)) (by norm_num) (by norm_num) (le_trans (by norm_num) hbig) (le_trans (by norm_num) hbig)
    (by rw [u64]; norm_num at hne hw ⊢; linarith) (xs.map widen) v2
    (by rw [hlw]; exact Or.inl (by norm_num)) st h1 mag h2
  clear hbig
  rw [hlw, v1, fourier_dft, u64] at r2
  have e0 : ‖dft 36 (b : ℕ) (sampleR (vals xs))‖ ^ 2 = power b (fun i => (vals xs).getD i 0) := rfl
  rw [e0] at r2
  have hP0 := power_nonneg b (fun i => (vals xs).getD i 0)
  have hP : power b (fun i => (vals xs).getD i 0) ≤ 1296 := by
    refine dft_zero_le b fun i => ?_
    rcases lt_or_ge i (vals xs).length with hi | hi
    · rw [List.getD_eq_getElem?_getD, List.getElem?_eq_getElem hi, Option.getD_some]
      exact vals_le (X := 1) (fun x hx => ⟨(hxs x hx).1, (hxs x hx).2.2⟩) _ (List.getElem_mem hi)
    · rw [List.getD_eq_getElem?_getD, List.getElem?_eq_none hi, Option.getD_none, abs_zero]
      norm_num
  generalize power b (fun i => (vals xs).getD i 0) = P at *
  have r3 : |val mag - P| ≤ 0.000001 := by
    refine r2.trans ?_
    norm_num at hne hw ⊢
    linarith
  have hmag : |val mag| ≤ 1297 := by
    have e : val mag = (val mag - P) + P := by ring
    rw [e]
    refine (abs_add_le _ _).trans ?_
    rw [abs_of_nonneg hP0]
    linarith
  obtain ⟨s1, s2⟩ := narrow_val r1 (hmag.trans (by norm_num))
  refine ⟨s1, ?_⟩
  rw [u32, w32] at s2
  have e : val (narrow mag) - P = (val (narrow mag) - val mag) + (val mag - P) := by ring
  rw [e]
  refine (abs_add_le _ _).trans ?_
  norm_num at s2 r3 ⊢
  linarith

/-- The number `diff`. -/
theorem diff_err {other : Val → Nat} {cos sin : FVal binary64 → FVal binary64} {η : ℝ} (hη0 : 0 ≤ η) (hη : η ≤ 1 / 2 ^ 50)
    (hT : Trig cos sin 9 η) {xs : List (FVal binary32)} (hlen : xs.length = 36)
    (hxs : ∀ x ∈ xs, Fp.Finite x ∧ Grid binary32 x.toRat ∧ |val x| ≤ 1) {d : Val} (h : Diff other cos sin xs d) :
    Fp.Finite d ∧ |(d.toRat : ℝ) - (power 1 (fun i => (vals xs).getD i 0) - power 2 (fun i => (vals xs).getD i 0))| ≤ 0.01 := by
  obtain ⟨v0, v1, hm, rfl⟩ := h
  have hb : block = 36 := rfl
  have hr : rate = 44100 := rfl
  simp only [MagnitudesFp, detectors, List.map_cons, List.map_nil, List.forall₂_cons, List.Forall₂.nil, and_true, hb, hr] at hm
  obtain ⟨⟨st0, m0, a1, a2, rfl⟩, st1, m1, b1, b2, rfl⟩ := hm
  obtain ⟨p1, p2⟩ := tone_err hη0 hη hT (Or.inl ⟨rfl, rfl⟩) hlen hxs a1 a2
  obtain ⟨q1, q2⟩ := tone_err hη0 hη hT (Or.inr ⟨rfl, rfl⟩) hlen hxs b1 b2
  have hx : ∀ i, |(vals xs).getD i 0| ≤ 1 := by
    intro i
    rcases lt_or_ge i (vals xs).length with hi | hi
    · rw [List.getD_eq_getElem?_getD, List.getElem?_eq_getElem hi, Option.getD_some]
      exact vals_le (X := 1) (fun x hx => ⟨(hxs x hx).1, (hxs x hx).2.2⟩) _ (List.getElem_mem hi)
    · rw [List.getD_eq_getElem?_getD, List.getElem?_eq_none hi, Option.getD_none, abs_zero]
      norm_num
  have P1 := dft_zero_le 1 hx
  have P2 := dft_zero_le 2 hx
  have N1 := power_nonneg 1 (fun i => (vals xs).getD i 0)
  have N2 := power_nonneg 2 (fun i => (vals xs).getD i 0)
  generalize power 1 (fun i => (vals xs).getD i 0) = x1 at *
  generalize power 2 (fun i => (vals xs).getD i 0) = x2 at *
  rw [abs_le] at p2 q2
  have hv : |val (narrow m0) - val (narrow m1)| ≤ 1300 := by rw [abs_le]; constructor <;> linarith
  have hbig : (1300 : ℝ) ≤ 2 ^ binary32.emax := by
    have : (2 : ℝ) ^ (100 : ℤ) ≤ 2 ^ binary32.emax := zpow_le_zpow_right₀ (by norm_num) (by decide)
    exact le_trans (by norm_num) this
  obtain ⟨s1, s2⟩ := sub_val binary32_ok p1 q1 (hv.trans hbig)
  clear hbig
  refine ⟨s1, ?_⟩
  have s3 : |val (narrow m0 - narrow m1 : FVal binary32) - (val (narrow m0) - val (narrow m1))| ≤ 0.001 := by
    refine s2.trans ?_
    rw [u32, w32]
    norm_num
    linarith
  have e : ((sub binary32 (narrow m0) (narrow m1)).toRat : ℝ) = val (narrow m0 - narrow m1 : FVal binary32) := rfl
  rw [e]
  rw [abs_le] at s3 ⊢
  constructor <;> linarith

/-! ### The samples -/

theorem word_bounds (lo hi : Byte) : -32768 ≤ word lo hi ∧ word lo hi ≤ 32767 := by
  have h1 := BitVec.le_toInt (lo.zeroExtend 16 ||| (hi.zeroExtend 16 <<< 8))
  have h2 := BitVec.toInt_lt (x := lo.zeroExtend 16 ||| (hi.zeroExtend 16 <<< 8))
  have e : word lo hi = (lo.zeroExtend 16 ||| (hi.zeroExtend 16 <<< 8)).toInt := rfl
  rw [← e] at h1 h2
  have e1 : (2 : Int) ^ (16 - 1) = 32768 := by norm_num
  rw [e1] at h1 h2
  omega

theorem is_word {n : ℤ} (h : |n| ≤ 32768) : Is (ofInt binary32 n) n := by
  have hg : Grid binary32 n := grid_small (by decide) n (lt_of_le_of_lt h (by decide))
  have h1 : |(n : ℚ)| ≤ 32768 := by exact_mod_cast h
  have e := rd_grid binary32 (by decide) hg
  have hlt : |(n : ℚ)| < 2 ^ (binary32.emax + 1) := lt_of_le_of_lt h1 (by norm_num [binary32])
  unfold ofInt roundRat
  have e' : rd binary32 |(n : ℚ)| = |(n : ℚ)| := by rw [← abs_rd, e]
  rw [round_rd binary32 _ (abs_nonneg _) (by rw [e']; exact hlt), e']
  refine ⟨⟨_, _, rfl, abs_nonneg _⟩, ?_⟩
  simp only [Val.toRat]
  by_cases hn : (n : ℚ) < 0
  · rw [if_pos (by simpa using hn), abs_of_neg hn, neg_neg]
  · rw [if_neg (by simpa using hn), abs_of_nonneg (not_lt.1 hn)]

theorem sample_is (lo hi : Byte) : Is (sample lo hi) (word lo hi / 32768 : ℚ) ∧ Grid binary32 (word lo hi / 32768 : ℚ) := by
  obtain ⟨h1, h2⟩ := word_bounds lo hi
  have h3 : |word lo hi| ≤ 32768 := abs_le.2 ⟨h1, by omega⟩
  have h4 : |(word lo hi : ℚ)| ≤ 32768 := by exact_mod_cast h3
  have hg : Grid binary32 (word lo hi / 32768 : ℚ) := by
    refine ⟨(word lo hi).natAbs, -15, ?_, by decide, ?_⟩
    · have : binary32.p = 24 := rfl
      rw [this]
      omega
    · have : (((word lo hi).natAbs : ℤ) : ℚ) = |(word lo hi : ℚ)| := by rw [Int.natCast_natAbs]; push_cast; rfl
      rw [abs_div, ← this]
      norm_num
      ring
  refine ⟨?_, hg⟩
  have e := rd_grid binary32 (by decide) hg
  have := div_rd binary32 (is_word h3) (is_word (n := 32768) (by norm_num)) (by norm_num) (by
    push_cast
    rw [e, abs_div]
    refine lt_of_le_of_lt (div_le_of_le_mul₀ (by norm_num) (by norm_num : (0 : ℚ) ≤ 1) (by norm_num; exact h4)) (by norm_num [binary32]))
  push_cast at this
  rw [e] at this
  exact this

theorem sample_val (lo hi : Byte) : Fp.Finite (sample lo hi) ∧ Grid binary32 (sample lo hi).toRat ∧ |val (sample lo hi)| ≤ 1 ∧
    val (sample lo hi) = word lo hi / 32768 := by
  obtain ⟨⟨h1, h2⟩, h3⟩ := sample_is lo hi
  obtain ⟨b1, b2⟩ := word_bounds lo hi
  have e : val (sample lo hi) = (word lo hi : ℝ) / 32768 := by
    show (((sample lo hi).toRat : ℚ) : ℝ) = _
    rw [h2]
    push_cast
    rfl
  refine ⟨h1, by rw [h2]; exact h3, ?_, e⟩
  rw [e, abs_le]
  have c1 : (-32768 : ℝ) ≤ word lo hi := by exact_mod_cast b1
  have c2 : (word lo hi : ℝ) ≤ 32767 := by exact_mod_cast b2
  constructor
  · rw [le_div_iff₀ (by norm_num)]; linarith
  · rw [div_le_iff₀ (by norm_num)]; linarith

end Verif.Ax25.Ear
