import Verif.Filt.DesignModel
import Verif.Filt.StableProps
import Verif.Dft.BucketFp

/-!
# Property C108: the biquads designed with rounding
-/

namespace Verif.Filt
open Verif.Conv Verif.Fp

instance (φ : Format) : Neg (FVal φ) := ⟨fun a => Fp.neg a⟩

/-- The exact functions. -/
noncomputable def realLib : Lib ℝ := ⟨fun n => n, 2 * Real.pi, Real.sin, Real.cos, fun x y => x ^ y, Real.sqrt⟩

/-! ### Over the real numbers these are the designs of `BiquadModel` -/

theorem real_lowPass (fs f q : ℝ) : realLib.lowPass fs f q = newLowPass fs f q := by
  simp [Lib.lowPass, newLowPass, realLib, Lib.w0, Lib.alpha]

theorem real_highPass (fs f q : ℝ) : realLib.highPass fs f q = newHighPass fs f q := by
  simp [Lib.highPass, newHighPass, realLib, Lib.w0, Lib.alpha]

theorem real_bandPassSkirt (fs f q : ℝ) : realLib.bandPassSkirt fs f q = newBandPassSkirt fs f q := by
  simp [Lib.bandPassSkirt, newBandPassSkirt, realLib, Lib.w0, Lib.alpha]

theorem real_bandPassPeak (fs f q : ℝ) : realLib.bandPassPeak fs f q = newBandPassPeak fs f q := by
  simp [Lib.bandPassPeak, newBandPassPeak, realLib, Lib.w0, Lib.alpha]

theorem real_notch (fs f q : ℝ) : realLib.notch fs f q = newNotch fs f q := by
  simp [Lib.notch, newNotch, realLib, Lib.w0, Lib.alpha]

theorem real_allPass (fs f q : ℝ) : realLib.allPass fs f q = newAllPass fs f q := by
  simp [Lib.allPass, newAllPass, realLib, Lib.w0, Lib.alpha]

theorem real_peaking (fs f q dB : ℝ) : realLib.peaking fs f q dB = newPeaking fs f q dB := by
  simp [Lib.peaking, newPeaking, realLib, Lib.w0, Lib.alpha]

theorem real_lowShelf (fs f s dB : ℝ) : realLib.lowShelf fs f s dB = newLowShelf fs f s dB := by
  simp [Lib.lowShelf, newLowShelf, realLib, Lib.w0]

theorem real_highShelf (fs f s dB : ℝ) : realLib.highShelf fs f s dB = newHighShelf fs f s dB := by
  simp [Lib.highShelf, newHighShelf, realLib, Lib.w0]

/-! ### Spacing -/

/-- The rounding error of numbers below `2 ^ (k+1)`. -/
theorem rd_err_below (φ : Format) {x : ℚ} {k : ℤ} (hk : φ.emin ≤ k) (hx : |x| < 2 ^ (k + 1)) :
    |rd φ x - x| ≤ 2 ^ (k - φ.p) := by
  have h2 : (2 : ℚ) ≠ 0 := by norm_num
  have pos : ∀ x : ℚ, 0 < x → x < 2 ^ (k + 1) → |rd φ x - x| ≤ 2 ^ (k - φ.p) := by
    intro x hx hlt
    have hu := ulp_pos φ x
    have h := roundEven_half (x / ulp φ x)
    have e : roundEven (x / ulp φ x) * ulp φ x - x = -((x / ulp φ x - roundEven (x / ulp φ x)) * ulp φ x) := by
      field_simp
      ring
    rw [rd_pos φ hx, e, abs_neg, abs_mul, abs_of_pos hu]
    have hl : Int.log 2 x ≤ k := by
      rw [← Int.lt_add_one_iff, ← Int.lt_zpow_iff_log_lt (by norm_num) hx]
      exact_mod_cast hlt
    calc _ ≤ 1 / 2 * ulp φ x := mul_le_mul_of_nonneg_right h hu.le
      _ = 2 ^ (max (Int.log 2 x) φ.emin - φ.p) := by
          unfold ulp
          rw [show (1 / 2 : ℚ) = 2 ^ (-1 : ℤ) by norm_num, ← zpow_add₀ h2]
          congr 1
          ring
      _ ≤ _ := zpow_le_zpow_right₀ (by norm_num) (by omega)
  rcases lt_trichotomy x 0 with h | h | h
  · have := pos (-x) (neg_pos.2 h) (by rwa [abs_of_neg h] at hx)
    rwa [rd_neg, show -rd φ x - -x = -(rd φ x - x) by ring, abs_neg] at this
  · subst h
    rw [rd_zero, sub_zero, abs_zero]
    positivity
  · exact pos x h (by rwa [abs_of_pos h] at hx)

/-- A number of the format below one is at most `1 - 2^-p`. -/
theorem grid_lt_one {φ : Format} {x : ℚ} (h : Grid φ x) (h1 : x < 1) : x ≤ 1 - 2 ^ (-(φ.p : ℤ)) := by
  have h2 : (2 : ℚ) ≠ 0 := by norm_num
  rcases le_or_gt x 0 with h0 | h0
  · have : (2 : ℚ) ^ (-(φ.p : ℤ)) ≤ 2 ^ (0 : ℤ) := zpow_le_zpow_right₀ (by norm_num) (by omega)
    rw [zpow_zero] at this
    linarith
  obtain ⟨m, e, hm, he, hx⟩ := h
  rw [abs_of_pos h0] at hx
  -- if `e ≥ -p` then `x` is a multiple of `2^-p`, otherwise `x` is too small
  rcases le_or_gt (-(φ.p : ℤ)) e with hp | hp
  · obtain ⟨d, hd⟩ := Int.eq_ofNat_of_zero_le (show 0 ≤ e + φ.p by omega)
    have ed : (2 : ℚ) ^ e = 2 ^ d * 2 ^ (-(φ.p : ℤ)) := by
      rw [← zpow_natCast, ← zpow_add₀ h2]
      congr 1
      omega
    have hone : (1 : ℚ) = 2 ^ φ.p * 2 ^ (-(φ.p : ℤ)) := by
      rw [← zpow_natCast, ← zpow_add₀ h2]; simp
    have hpos : (0 : ℚ) < 2 ^ (-(φ.p : ℤ)) := by positivity
    have : m * 2 ^ d < 2 ^ φ.p := by
      have h3 : ((m * 2 ^ d : ℕ) : ℚ) * 2 ^ (-(φ.p : ℤ)) < 2 ^ φ.p * 2 ^ (-(φ.p : ℤ)) := by
        rw [← hone]
        push_cast
        rw [mul_assoc, ← ed, ← hx]
        exact h1
      have := lt_of_mul_lt_mul_right h3 hpos.le
      exact_mod_cast this
    have h4 : ((m * 2 ^ d : ℕ) : ℚ) + 1 ≤ 2 ^ φ.p := by exact_mod_cast this
    have h5 := mul_le_mul_of_nonneg_right h4 hpos.le
    rw [← hone] at h5
    push_cast at h5
    rw [add_mul, mul_assoc, ← ed, ← hx, one_mul] at h5
    linarith
  · have h3 : (m : ℚ) + 1 ≤ 2 ^ φ.p := by exact_mod_cast hm
    have h4 : (2 : ℚ) ^ e ≤ 2 ^ (-(φ.p : ℤ) - 1) := zpow_le_zpow_right₀ (by norm_num) (by omega)
    have h5 : (2 : ℚ) ^ (-(φ.p : ℤ) - 1) = 2 ^ (-(φ.p : ℤ)) / 2 := by rw [zpow_sub_one₀ h2]; ring
    have hone : (2 : ℚ) ^ φ.p * 2 ^ (-(φ.p : ℤ)) = 1 := by
      rw [← zpow_natCast, ← zpow_add₀ h2]; simp
    have hle : (2 : ℚ) ^ (-(φ.p : ℤ)) ≤ 2 ^ (0 : ℤ) := zpow_le_zpow_right₀ (by norm_num) (by omega)
    rw [zpow_zero] at hle
    have h6 : (m : ℚ) * 2 ^ e ≤ 2 ^ φ.p * (2 ^ (-(φ.p : ℤ)) / 2) := by
      refine mul_le_mul (by linarith) (h4.trans h5.le) (by positivity) (by positivity)
    have h7 : x ≤ 1 / 2 := by rw [hx]; linarith
    rcases Nat.eq_zero_or_pos φ.p with hp0 | hp0
    · rw [hp0] at hm
      have : m = 0 := by omega
      rw [this] at hx
      simp at hx
      linarith
    · have : (2 : ℚ) ^ (-(φ.p : ℤ)) ≤ 2 ^ (-1 : ℤ) := zpow_le_zpow_right₀ (by norm_num) (by omega)
      rw [show (2 : ℚ) ^ (-1 : ℤ) = 1 / 2 by norm_num] at this
      linarith

theorem rd_err_upto (φ : Format) (hp : 1 ≤ φ.p) {x : ℚ} {k : ℤ} (hk : φ.emin ≤ k) (hx : |x| ≤ 2 ^ (k + 1)) :
    |rd φ x - x| ≤ 2 ^ (k - φ.p) := by
  rcases hx.lt_or_eq with h | h
  · exact rd_err_below φ hk h
  · have hg : Grid φ x := by
      obtain ⟨m, e, h1, h2, h3⟩ := grid_pow φ hp (k + 1) (by omega)
      exact ⟨m, e, h1, h2, by rw [h, ← h3, abs_of_pos (by positivity)]⟩
    rw [rd_grid φ hp hg, sub_self, abs_zero]
    positivity

/-! ### Stability -/

/-- The coefficients and the state as real numbers. -/
noncomputable def BQ.vals {φ : Format} (f : BQ (FVal φ)) : BQ ℝ :=
  ⟨val f.B0, val f.B1, val f.B2, val f.A0, val f.A1, val f.A2, val f.prevIn0, val f.prevIn1, val f.prevOut0, val f.prevOut1⟩

/-- The feedback coefficients are finite and the poles they define are inside the unit circle. -/
def Stable {φ : Format} (f : BQ (FVal φ)) : Prop :=
  Finite f.A0 ∧ Finite f.A1 ∧ Finite f.A2 ∧ PolesInside f.vals

theorem stable_of_jury {φ : Format} {f : BQ (FVal φ)} {a0 a1 a2 : ℚ} (h0 : Is f.A0 a0) (h1 : Is f.A1 a1)
    (h2 : Is f.A2 a2) (j1 : |a2| < a0) (j2 : |a1| < a0 + a2) : Stable f := by
  refine ⟨h0.1, h1.1, h2.1, polesInside_of_jury ?_ ?_⟩
  · show |val f.A2| < val f.A0
    unfold val
    rw [h2.2, h0.2]
    exact_mod_cast j1
  · show |val f.A1| < val f.A0 + val f.A2
    unfold val
    rw [h1.2, h0.2, h2.2]
    exact_mod_cast j2

/-- Subtracting more than a quarter of the spacing above one gives less than one. -/
theorem rd_one_sub {φ : Format} (hφ : φ.Ok) (he : φ.emin ≤ -1) {α : ℚ} (hα : 2 ^ (-(φ.p : ℤ) - 1) < α) :
    rd φ (1 - α) < 1 := by
  have hp : 1 ≤ φ.p := by have := hφ.hp; omega
  have h2 : (2 : ℚ) ≠ 0 := by norm_num
  have h5 : (2 : ℚ) ^ (-(φ.p : ℤ) - 1) = 2 ^ (-(φ.p : ℤ)) / 2 := by rw [zpow_sub_one₀ h2]; ring
  have hpos : (0 : ℚ) < 2 ^ (-(φ.p : ℤ)) := by positivity
  have hg : Grid φ (1 - 2 ^ (-(φ.p : ℤ))) := by
    have hone : (2 : ℚ) ^ φ.p * 2 ^ (-(φ.p : ℤ)) = 1 := by
      rw [← zpow_natCast, ← zpow_add₀ h2]; simp
    have h1 : 1 ≤ 2 ^ φ.p := Nat.one_le_two_pow
    refine ⟨2 ^ φ.p - 1, -(φ.p : ℤ), by omega, by omega, ?_⟩
    have hle : (2 : ℚ) ^ (-(φ.p : ℤ)) ≤ 2 ^ (0 : ℤ) := zpow_le_zpow_right₀ (by norm_num) (by omega)
    rw [zpow_zero] at hle
    rw [abs_of_nonneg (by linarith), Nat.cast_sub h1]
    push_cast
    rw [sub_mul, hone, one_mul]
  rcases le_or_gt α (2 ^ (-(φ.p : ℤ))) with h | h
  · have hn := rd_nearest φ hp (1 - α) hg
    by_contra hc
    rw [not_lt] at hc
    rw [abs_of_nonpos (by linarith), show 1 - α - (1 - 2 ^ (-(φ.p : ℤ))) = 2 ^ (-(φ.p : ℤ)) - α by ring,
      abs_of_nonneg (by linarith)] at hn
    linarith
  · have := rd_le φ hp hg (show 1 - α ≤ 1 - 2 ^ (-(φ.p : ℤ)) by linarith)
    linarith

/-- The rounded coefficients `1 + α`, `-2 c`, `1 - α` satisfy the stability conditions. -/
theorem jury_rd {φ : Format} (hφ : φ.Ok) (he : φ.emin ≤ -1) {α c : ℚ} {m : ℕ} (hm : m + 1 ≤ φ.p)
    (hα : 2 ^ (-(φ.p : ℤ) - 1) < α) (hα2 : α ≤ 2 ^ m) (hc : |c| ≤ 1 - 2 ^ (m - φ.p : ℤ)) :
    |rd φ (1 - α)| < rd φ (1 + α) ∧ |-2 * c| < rd φ (1 + α) + rd φ (1 - α) := by
  have hp : 1 ≤ φ.p := by have := hφ.hp; omega
  have h2 : (2 : ℚ) ≠ 0 := by norm_num
  have hα0 : 0 < α := lt_trans (by positivity) hα
  have hm1 : (1 : ℚ) ≤ 2 ^ m := one_le_pow₀ (by norm_num)
  have hmz : (2 : ℚ) ^ ((m : ℤ) - 1 + 1) = 2 ^ m := by rw [sub_add_cancel, zpow_natCast]
  have hmz1 : (2 : ℚ) ^ ((m : ℤ) + 1) = 2 * 2 ^ m := by rw [zpow_add_one₀ h2, zpow_natCast]; ring
  have e0 := rd_err_upto φ hp (x := 1 + α) (k := m) (by omega) (by
    rw [abs_of_pos (by linarith), hmz1]; linarith)
  have e2 := rd_err_upto φ hp (x := 1 - α) (k := m - 1) (by omega) (by
    rw [hmz, abs_le]; constructor <;> linarith)
  have eE : (2 : ℚ) ^ ((m : ℤ) - 1 - φ.p) = 2 ^ (m - φ.p : ℤ) / 2 := by
    rw [show (m : ℤ) - 1 - φ.p = (m - φ.p) - 1 by ring, zpow_sub_one₀ h2]; ring
  rw [eE] at e2
  set E : ℚ := 2 ^ (m - φ.p : ℤ) with hE
  have hE0 : 0 < E := by positivity
  have hE1 : E ≤ 1 / 2 := by
    have : E ≤ 2 ^ (-1 : ℤ) := zpow_le_zpow_right₀ (by norm_num) (by omega)
    norm_num at this ⊢
    exact this
  obtain ⟨a1, a2⟩ := abs_le.1 e0
  obtain ⟨b1, b2⟩ := abs_le.1 e2
  constructor
  · rcases le_or_gt α 1 with h | h
    · have h3 : 0 ≤ rd φ (1 - α) := rd_nonneg φ (by linarith)
      have h4 : 1 ≤ rd φ (1 + α) := by
        have hg : Grid φ 1 := by
          have := grid_pow φ hp 0 (by omega)
          rwa [zpow_zero] at this
        have := rd_mono φ hp (show (1 : ℚ) ≤ 1 + α by linarith)
        rwa [rd_grid φ hp hg] at this
      rw [abs_of_nonneg h3]
      exact (rd_one_sub hφ he hα).trans_le h4
    · rw [abs_lt]
      constructor <;> linarith
  · rw [abs_mul, abs_neg, abs_two]
    linarith

/-! ### The seven designs with a quality factor -/

/-- What is assumed of the constants: integers are exact. -/
def Lib.LitOk {φ : Format} (L : Lib (FVal φ)) : Prop := ∀ n : ℤ, |n| ≤ 40 → Is (L.lit n) n

/-- A filter with the feedback coefficients `1 + α`, `-2 c`, `1 - α` of the designs. -/
theorem stable_alpha {φ : Format} (hφ : φ.Ok) (he : φ.emin ≤ -1) {L : Lib (FVal φ)} (hL : L.LitOk) {f : BQ (FVal φ)}
    {vα vc : FVal φ} {α c : ℚ} (h0 : f.A0 = L.lit 1 + vα) (h1 : f.A1 = L.lit (-2) * vc) (h2 : f.A2 = L.lit 1 - vα)
    (hα : Is vα α) (hc : Is vc c) (hcg : Grid φ c) {m : ℕ} (hm : m + 1 ≤ φ.p) (hme : (m : ℤ) < φ.emax)
    (hα1 : 2 ^ (-(φ.p : ℤ) - 1) < α) (hα2 : α ≤ 2 ^ m) (hc1 : |c| ≤ 1 - 2 ^ (m - φ.p : ℤ)) : Stable f := by
  have hp : 1 ≤ φ.p := by have := hφ.hp; omega
  have hα0 : 0 < α := lt_trans (by positivity) hα1
  have h2z : (2 : ℚ) ≠ 0 := by norm_num
  have i1 : Is (L.lit 1) 1 := by simpa using hL 1 (by norm_num)
  have i2 : Is (L.lit (-2)) (-2) := by simpa using hL (-2) (by norm_num)
  obtain ⟨j1, j2⟩ := jury_rd hφ he hm hα1 hα2 hc1
  have hE0 : (0 : ℚ) < 2 ^ (m - φ.p : ℤ) := by positivity
  have hmz1 : (2 : ℚ) ^ ((m : ℤ) + 1) = 2 * 2 ^ m := by rw [zpow_add_one₀ h2z, zpow_natCast]; ring
  have hm1 : (1 : ℚ) ≤ 2 ^ m := one_le_pow₀ (by norm_num)
  have top : (2 : ℚ) ^ ((m : ℤ) + 1) < 2 ^ (φ.emax + 1) := zpow_lt_zpow_right₀ (by norm_num) (by omega)
  have b0 : |rd φ (1 + α)| ≤ 2 ^ ((m : ℤ) + 1) :=
    abs_rd_le φ hp (grid_pow φ hp _ (by have := hφ.hmin; omega)) (by rw [abs_of_pos (by linarith), hmz1]; linarith)
  have k0 := add_rd φ i1 hα (b0.trans_lt top)
  have b2 : |rd φ (1 - α)| < 2 ^ (φ.emax + 1) := j1.trans ((le_abs_self _).trans_lt (b0.trans_lt top))
  have k2 := sub_rd φ i1 hα b2
  have hg2 : Grid φ (-2 * c) := by
    obtain ⟨n, e, n1, n2, n3⟩ := hcg
    refine ⟨n, e + 1, n1, by omega, ?_⟩
    rw [abs_mul, n3, zpow_add_one₀ h2z, abs_neg, abs_two]
    ring
  have er := rd_grid φ hp hg2
  have two : (2 : ℚ) ≤ 2 ^ (φ.emax + 1) := by
    have : (2 : ℚ) ^ (1 : ℤ) ≤ 2 ^ (φ.emax + 1) := zpow_le_zpow_right₀ (by norm_num) (by have := hφ.hmax; omega)
    simpa using this
  have k1 := mul_rd φ i2 hc (by
    rw [er, abs_mul, abs_neg, abs_two]
    linarith)
  rw [er] at k1
  exact stable_of_jury (by rw [h0]; exact k0) (by rw [h1]; exact k1) (by rw [h2]; exact k2) j1 j2

/-! ### Double precision -/

/-- The constants of the code in `float64`, and library functions. -/
def lib64 (sin cos sqrt : FVal binary64 → FVal binary64) (pow : FVal binary64 → FVal binary64 → FVal binary64) :
    Lib (FVal binary64) :=
  ⟨fun n => ofInt binary64 n, Dft.twoPi64, sin, cos, pow, sqrt⟩

theorem is_ofInt64 {n : ℤ} (h : |n| < 2 ^ 53) : Is (ofInt binary64 n) n := by
  have hg : Grid binary64 (n : ℚ) := grid_small (φ := binary64) (by decide) n (by exact_mod_cast h)
  have e := rd_grid binary64 (by decide) hg
  have hlt : |(n : ℚ)| < 2 ^ (binary64.emax + 1) := by
    have h1 : |(n : ℚ)| < 2 ^ 53 := by exact_mod_cast h
    refine h1.trans_le ?_
    rw [← zpow_natCast]
    exact zpow_le_zpow_right₀ (by norm_num) (by decide)
  unfold ofInt roundRat
  have e' : rd binary64 |(n : ℚ)| = |(n : ℚ)| := by rw [← abs_rd, e]
  rw [round_rd binary64 _ (abs_nonneg _) (by rw [e']; exact hlt), e']
  refine ⟨⟨_, _, rfl, abs_nonneg _⟩, ?_⟩
  simp only [Val.toRat]
  by_cases hn : (n : ℚ) < 0
  · rw [if_pos (by simpa using hn), abs_of_neg hn, neg_neg]
  · rw [if_neg (by simpa using hn), abs_of_nonneg (not_lt.1 hn)]

theorem lib64_lit (sin cos sqrt : FVal binary64 → FVal binary64) (pow) : (lib64 sin cos sqrt pow).LitOk := by
  intro n hn
  exact is_ofInt64 (hn.trans_lt (by norm_num))

/-- Frequencies at least `2^-k` of the sample rate away from zero and from half the sample rate. -/
structure FreqOk64 (k : ℕ) (fs f : FVal binary64) : Prop where
  fin : Finite fs ∧ Finite f
  low : val fs / 2 ^ k ≤ val f
  high : 2 * val f ≤ (1 - 2 / 2 ^ k) * val fs
  size : 1 / 2 ^ 100 ≤ val fs ∧ val fs ≤ 2 ^ 100

/-- The angle computed is near the true one. -/
theorem w0_near {sin cos sqrt pow} {fs f : FVal binary64} {k : ℕ} (h : FreqOk64 k fs f) :
    Finite ((lib64 sin cos sqrt pow).w0 fs f) ∧
      |val ((lib64 sin cos sqrt pow).w0 fs f) - 2 * Real.pi * val f / val fs| ≤ 1 / 2 ^ 48 := by
  obtain ⟨⟨hfs, hf⟩, h1, h2, h3, h4⟩ := h
  obtain ⟨p1, p2, p3⟩ := Dft.twoPi64_val
  set S := val fs with hS
  set F := val f with hF
  have hu : uR binary64 = 1 / 2 ^ 53 := by unfold uR; norm_num [binary64]
  have hw0 := wR_pos binary64
  have hw : wR binary64 ≤ 1 / 2 ^ 200 := by
    unfold wR
    have : (2 : ℝ) ^ (binary64.emin - binary64.p) ≤ 2 ^ (-200 : ℤ) := zpow_le_zpow_right₀ (by norm_num) (by decide)
    refine this.trans (le_of_eq ?_)
    norm_num
  have hS0 : 0 < S := lt_of_lt_of_le (by norm_num) h3
  have hF0 : 0 < F := lt_of_lt_of_le (by positivity) h1
  have hFS : F ≤ S / 2 := by
    have : 0 ≤ 2 / 2 ^ k * S := by positivity
    linarith
  have hbig : (2 : ℝ) ^ 110 ≤ 2 ^ binary64.emax := by
    rw [← zpow_natCast]
    exact zpow_le_zpow_right₀ (by norm_num) (by decide)
  have m1 : |val Dft.twoPi64 * F| ≤ 63 / 10 * F := by
    rw [abs_mul, abs_of_pos hF0]
    exact mul_le_mul_of_nonneg_right p3 hF0.le
  obtain ⟨a1, a2⟩ := mul_val binary64_ok p1 hf (m1.trans (le_trans (by norm_num at h4 ⊢; linarith) hbig))
  set a : FVal binary64 := Dft.twoPi64 * f with ha
  have d1 : |val a - 2 * Real.pi * F| ≤ 11 * (uR binary64 * F) + wR binary64 := by
    have : val a - 2 * Real.pi * F = (val a - val Dft.twoPi64 * val f) + (val Dft.twoPi64 - 2 * Real.pi) * F := by
      rw [← hF]; ring
    rw [this]
    have huk : uR binary64 * |val Dft.twoPi64 * F| ≤ uR binary64 * (63 / 10 * F) :=
      mul_le_mul_of_nonneg_left m1 (uR_pos _).le
    have huF : 0 ≤ uR binary64 * F := mul_nonneg (uR_pos _).le hF0.le
    refine (abs_add_le _ _).trans ((add_le_add a2 (d := 4 * uR binary64 * F) ?_).trans (by linarith))
    rw [abs_mul, abs_of_pos hF0]
    exact mul_le_mul_of_nonneg_right p2 hF0.le
  have c1 : |val a / S - 2 * Real.pi * F / S| ≤ 7 * uR binary64 := by
    rw [← sub_div, abs_div, abs_of_pos hS0, div_le_iff₀ hS0]
    refine d1.trans ?_
    rw [hu]
    norm_num at hw h3 ⊢
    linarith
  have hpi := Real.pi_gt_three
  have hpi4 := Real.pi_le_four
  have hθ : |2 * Real.pi * F / S| ≤ 4 := by
    rw [abs_of_pos (by positivity), div_le_iff₀ hS0]
    nlinarith
  have q1 : |val a / S| ≤ 5 := by
    have : val a / S = (val a / S - 2 * Real.pi * F / S) + 2 * Real.pi * F / S := by ring
    rw [this]
    refine (abs_add_le _ _).trans ((add_le_add c1 hθ).trans ?_)
    rw [hu]
    norm_num
  obtain ⟨b1, b2⟩ := Dft.div_val binary64_ok a1 hfs hS0.ne' (q1.trans (le_trans (by norm_num) hbig))
  refine ⟨b1, ?_⟩
  have t : val (a / fs : FVal binary64) - 2 * Real.pi * F / S
      = (val (a / fs : FVal binary64) - val a / S) + (val a / S - 2 * Real.pi * F / S) := by ring
  change |val (a / fs : FVal binary64) - _| ≤ _
  rw [t]
  have hq := mul_le_mul_of_nonneg_left q1 (uR_pos binary64).le
  refine (abs_add_le _ _).trans ((add_le_add b2 c1).trans ?_)
  rw [hu] at hq ⊢
  norm_num at hw hq ⊢
  linarith

/-- Cosine and sine of angles away from zero and from half a turn. -/
theorem trig_margin {w d : ℝ} (hd : 0 < d) (h1 : d ≤ w) (h2 : w ≤ Real.pi - d) :
    |Real.cos w| ≤ 1 - d ^ 2 / 5 ∧ d / 2 ≤ Real.sin w := by
  have hpi := Real.pi_gt_three
  have hpi4 := Real.pi_lt_d2
  have hsq : Real.pi ^ 2 ≤ 10 := by nlinarith
  have key : ∀ x : ℝ, d ≤ x → x ≤ Real.pi → Real.cos x ≤ 1 - d ^ 2 / 5 := by
    intro x a b
    have hx0 : 0 < x := lt_of_lt_of_le hd a
    have h := Real.cos_le_one_sub_mul_cos_sq (x := x) (by rw [abs_of_pos hx0]; exact b)
    have hx2 : d ^ 2 ≤ x ^ 2 := pow_le_pow_left₀ hd.le a 2
    have h3 : (1 / 5 : ℝ) ≤ 2 / Real.pi ^ 2 := by
      rw [div_le_div_iff₀ (by norm_num) (by positivity)]
      linarith
    have h4 : (1 / 5 : ℝ) * d ^ 2 ≤ 2 / Real.pi ^ 2 * x ^ 2 := mul_le_mul h3 hx2 (by positivity) (by positivity)
    linarith
  have sinp : ∀ x : ℝ, d ≤ x → x ≤ Real.pi / 2 → d / 2 ≤ Real.sin x := by
    intro x a b
    have h := Real.mul_le_sin (x := x) (hd.le.trans a) b
    have h3 : (1 / 2 : ℝ) ≤ 2 / Real.pi := by
      rw [div_le_div_iff₀ (by norm_num) (by positivity)]
      linarith
    have h4 : (1 / 2 : ℝ) * d ≤ 2 / Real.pi * x := mul_le_mul h3 a hd.le (by positivity)
    linarith
  constructor
  · rw [abs_le]
    constructor
    · have := key (Real.pi - w) (by linarith) (by linarith)
      rw [Real.cos_pi_sub] at this
      linarith
    · exact key w h1 (by linarith)
  · rcases le_or_gt w (Real.pi / 2) with h | h
    · exact sinp w h1 h
    · have := sinp (Real.pi - w) (by linarith) (by linarith)
      rwa [Real.sin_pi_sub] at this

/-- What the library returns for the angle of an admissible frequency. -/
theorem lib_margin {sin cos sqrt pow} {η : ℝ} (hη : η ≤ 1 / 2 ^ 50) (hT : Dft.Trig cos sin 4 η) {fs f : FVal binary64}
    {k : ℕ} (hk : k ≤ 20) (h : FreqOk64 k fs f) :
    let w := (lib64 sin cos sqrt pow).w0 fs f
    let W := 2 * Real.pi * val f / val fs
    (Finite (cos w) ∧ Grid binary64 (cos w).toRat ∧ |val (cos w)| ≤ 1 - 1 / 4 ^ k ∧ |val (cos w) - Real.cos W| ≤ 1 / 2 ^ 47) ∧
    (Finite (sin w) ∧ 1 / 2 ^ k ≤ val (sin w) ∧ val (sin w) ≤ 2 ∧ |val (sin w) - Real.sin W| ≤ 1 / 2 ^ 47) := by
  intro w W
  obtain ⟨hw1, hw2⟩ := w0_near (sin := sin) (cos := cos) (sqrt := sqrt) (pow := pow) h
  change Finite w at hw1
  change |val w - W| ≤ _ at hw2
  obtain ⟨⟨hfs, hf⟩, h1, h2, h3, h4⟩ := h
  have hS0 : 0 < val fs := lt_of_lt_of_le (by norm_num) h3
  have hpi := Real.pi_gt_three
  have hpi4 := Real.pi_lt_d2
  obtain ⟨w1, w2⟩ := abs_le.1 hw2
  have hK : (1 : ℝ) / 2 ^ 20 ≤ 1 / 2 ^ k :=
    one_div_le_one_div_of_le (by positivity) (pow_le_pow_right₀ (by norm_num) hk)
  have hK0 : (0 : ℝ) < 1 / 2 ^ k := by positivity
  have hK1 : (1 : ℝ) / 2 ^ k ≤ 1 := by
    rw [div_le_one (by positivity)]
    exact one_le_pow₀ (by norm_num)
  have e4 : (1 : ℝ) / 4 ^ k = (1 / 2 ^ k) ^ 2 := by
    rw [div_pow, one_pow, ← pow_mul, mul_comm k 2, pow_mul]
    norm_num
  have h1' : val fs * (1 / 2 ^ k) ≤ val f := by rw [mul_one_div]; exact h1
  have h2' : 2 * val f ≤ (1 - 2 * (1 / 2 ^ k)) * val fs := by rw [mul_one_div]; exact h2
  rw [e4]
  set K : ℝ := 1 / 2 ^ k with hKd
  have lo : 6 * K ≤ W := by
    show 6 * K ≤ 2 * Real.pi * val f / val fs
    rw [le_div_iff₀ hS0]
    have : 0 < val fs * K := by positivity
    nlinarith
  have hi : W ≤ Real.pi - 6 * K := by
    show 2 * Real.pi * val f / val fs ≤ _
    rw [div_le_iff₀ hS0]
    have h5 := mul_le_mul_of_nonneg_left h2' Real.pi_pos.le
    have h6 : 3 * (2 * K * val fs) ≤ Real.pi * (2 * K * val fs) := mul_le_mul_of_nonneg_right hpi.le (by positivity)
    linarith
  obtain ⟨c1, s1⟩ := trig_margin (w := val w) (d := 4 * K) (by positivity) (by norm_num at hK w1; linarith)
    (by norm_num at hK w2; linarith)
  obtain ⟨⟨t1, t2, t3⟩, t4, t5⟩ := hT w hw1 (by rw [abs_le]; norm_num at w1 w2 hpi4; constructor <;> linarith)
  obtain ⟨t3a, t3b⟩ := abs_le.1 t3
  obtain ⟨t5a, t5b⟩ := abs_le.1 t5
  obtain ⟨c1a, c1b⟩ := abs_le.1 c1
  have hK2 : (1 / 2 ^ 20 : ℝ) ^ 2 ≤ K ^ 2 := pow_le_pow_left₀ (by norm_num) hK 2
  have := Real.sin_le_one (val w)
  have near : ∀ {x y z : ℝ}, |x - y| ≤ η → |y - z| ≤ |val w - W| → |x - z| ≤ 1 / 2 ^ 47 := by
    intro x y z a b
    rw [show x - z = (x - y) + (y - z) by ring]
    refine (abs_add_le _ _).trans ((add_le_add a (b.trans hw2)).trans ?_)
    norm_num at hη ⊢
    linarith
  refine ⟨⟨t1, t2, ?_, near t3 (Real.abs_cos_sub_cos_le _ _)⟩, t4, ?_, ?_, near t5 (Real.abs_sin_sub_sin_le _ _)⟩
  · rw [abs_le]
    norm_num at hη hK2
    constructor <;> linarith
  · norm_num at hη hK
    linarith
  · norm_num at hη ⊢
    linarith

/-! ### The coefficients of the designs with a quality factor -/

/-- Quality factors: a number of the format, not extreme. -/
structure QOk (q : FVal binary64) : Prop where
  fin : Finite q
  grid : Grid binary64 q.toRat
  low : 1 / 2 ^ 10 ≤ val q
  high : val q ≤ 2 ^ 30

theorem wR64 : wR binary64 ≤ 1 / 2 ^ 200 := by
  unfold wR
  have : (2 : ℝ) ^ (binary64.emin - binary64.p) ≤ 2 ^ (-200 : ℤ) := zpow_le_zpow_right₀ (by norm_num) (by decide)
  refine this.trans (le_of_eq ?_)
  norm_num

theorem uR64 : uR binary64 = 1 / 2 ^ 53 := by unfold uR; norm_num [binary64]

theorem big64 : (2 : ℝ) ^ 110 ≤ 2 ^ binary64.emax := by
  rw [← zpow_natCast]
  exact zpow_le_zpow_right₀ (by norm_num) (by decide)

theorem lit64 {sin cos sqrt pow} (n : ℤ) (hn : |n| ≤ 40) :
    Finite ((lib64 sin cos sqrt pow).lit n) ∧ val ((lib64 sin cos sqrt pow).lit n) = n := by
  have := lib64_lit sin cos sqrt pow n hn
  exact ⟨this.1, by unfold val; rw [this.2]; push_cast; rfl⟩

/-- Doubling is exact. -/
theorem double_val {φ : Format} (hφ : φ.Ok) {v w : FVal φ} (hv : Is v 2) (hw : Finite w) (hg : Grid φ w.toRat)
    (ht : |val w| ≤ 2 ^ (φ.emax - 1)) : Finite (v * w : FVal φ) ∧ val (v * w : FVal φ) = 2 * val w := by
  have hp : 1 ≤ φ.p := by have := hφ.hp; omega
  have h2z : (2 : ℚ) ≠ 0 := by norm_num
  have hg2 : Grid φ (2 * w.toRat) := by
    obtain ⟨n, e, n1, n2, n3⟩ := hg
    refine ⟨n, e + 1, n1, by omega, ?_⟩
    rw [abs_mul, n3, zpow_add_one₀ h2z, abs_two]
    ring
  have ht' : |w.toRat| ≤ 2 ^ (φ.emax - 1) := by
    unfold val at ht
    have : ((|w.toRat| : ℚ) : ℝ) ≤ ((2 ^ (φ.emax - 1) : ℚ) : ℝ) := by
      push_cast
      exact ht
    exact Rat.cast_le.1 this
  have k1 := mul_rd φ hv (w := w) ⟨hw, rfl⟩ (by
    rw [rd_grid φ hp hg2, abs_mul, abs_two]
    have : (2 : ℚ) ^ (φ.emax + 1) = 4 * 2 ^ (φ.emax - 1) := by
      rw [show φ.emax + 1 = (φ.emax - 1) + 2 by ring, zpow_add₀ h2z]
      norm_num
      ring
    have h0 : (0 : ℚ) < 2 ^ (φ.emax - 1) := by positivity
    rw [this]
    linarith)
  rw [rd_grid φ hp hg2] at k1
  refine ⟨k1.1, (val_of_is k1).trans ?_⟩
  unfold val
  push_cast
  rfl

/-- The computed `alpha`. -/
theorem alpha_val {sin cos sqrt pow} {η : ℝ} (hη : η ≤ 1 / 2 ^ 50) (hT : Dft.Trig cos sin 4 η) {fs f q : FVal binary64}
    (h : FreqOk64 20 fs f) (hq : QOk q) :
    let α := (lib64 sin cos sqrt pow).alpha fs f q
    Finite α ∧ 1 / 2 ^ 22 / val q ≤ val α ∧ val α ≤ 3 / 2 / val q ∧
      |val α - Real.sin (2 * Real.pi * val f / val fs) / (2 * val q)| ≤ 1 / 2 ^ 47 / val q := by
  intro α
  obtain ⟨-, hs, s1, s2, s3⟩ := lib_margin (sqrt := sqrt) (pow := pow) hη hT (le_refl 20) h
  obtain ⟨q1, q2, q3, q4⟩ := hq
  set s := sin ((lib64 sin cos sqrt pow).w0 fs f) with hsd
  have hq0 : 0 < val q := lt_of_lt_of_le (by norm_num) q3
  have hl := lib64_lit sin cos sqrt pow 2 (by norm_num)
  obtain ⟨d1, d2⟩ := double_val binary64_ok (by simpa using hl) q1 q2 (by
    rw [abs_of_pos hq0]
    refine q4.trans ?_
    rw [← zpow_natCast]
    exact zpow_le_zpow_right₀ (by norm_num) (by decide))
  have hα : α = s / ((lib64 sin cos sqrt pow).lit 2 * q) := rfl
  have hs0 : 0 < val s := lt_of_lt_of_le (by norm_num) s1
  have b1 : |val s / val ((lib64 sin cos sqrt pow).lit 2 * q : FVal binary64)| ≤ 1 / val q := by
    rw [d2, abs_of_pos (by positivity), div_le_div_iff₀ (by positivity) hq0]
    nlinarith
  have hqi : 1 / val q ≤ 2 ^ 10 := by
    rw [div_le_iff₀ hq0]
    norm_num at q3 ⊢
    linarith
  have hqi2 : 1 / 2 ^ 30 ≤ 1 / val q := one_div_le_one_div_of_le hq0 q4
  obtain ⟨a1, a2⟩ := Dft.div_val binary64_ok hs d1 (by rw [d2]; positivity)
    (b1.trans (hqi.trans (le_trans (by norm_num) big64)))
  rw [← hα] at a1 a2
  have hw := wR64
  have b2 := mul_le_mul_of_nonneg_left b1 (uR_pos binary64).le
  rw [uR64] at b2
  rw [uR64, d2] at a2
  rw [d2] at b2
  have a3 : |val α - val s / (2 * val q)| ≤ 1 / 2 ^ 52 * (1 / val q) := by
    refine a2.trans ?_
    norm_num at b2 hw hqi2 ⊢
    linarith
  obtain ⟨a3a, a3b⟩ := abs_le.1 a3
  have e1 : val s / (2 * val q) = val s / 2 * (1 / val q) := by field_simp
  have k1 : 1 / 2 ^ 21 * (1 / val q) ≤ val s / (2 * val q) := by
    rw [e1]
    refine mul_le_mul_of_nonneg_right ?_ (by positivity)
    norm_num at s1 ⊢
    linarith
  have k2 : val s / (2 * val q) ≤ 1 * (1 / val q) := by
    rw [e1]
    exact mul_le_mul_of_nonneg_right (by linarith) (by positivity)
  have k3 : |val s / (2 * val q) - Real.sin (2 * Real.pi * val f / val fs) / (2 * val q)| ≤ 1 / 2 ^ 48 * (1 / val q) := by
    rw [← sub_div, abs_div, abs_of_pos (show 0 < 2 * val q by positivity), div_le_iff₀ (by positivity)]
    refine s3.trans (le_of_eq ?_)
    field_simp
  have hpos : 0 < 1 / val q := by positivity
  rw [div_eq_mul_one_div (1 / 2 ^ 22) (val q), div_eq_mul_one_div (3 / 2) (val q), div_eq_mul_one_div (1 / 2 ^ 47) (val q)]
  generalize 1 / val q = r at *
  refine ⟨a1, ?_, ?_, ?_⟩
  · norm_num at k1 a3a hpos ⊢
    linarith
  · norm_num at k2 a3b hpos ⊢
    linarith
  · rw [show val α - Real.sin (2 * Real.pi * val f / val fs) / (2 * val q) = (val α - val s / (2 * val q))
      + (val s / (2 * val q) - Real.sin (2 * Real.pi * val f / val fs) / (2 * val q)) by ring]
    refine (abs_add_le _ _).trans ((add_le_add a3 k3).trans ?_)
    norm_num at hpos ⊢
    linarith

/-- Coefficients of a design against exact ones. -/
def CoeffsNear (f : BQ (FVal binary64)) (g : BQ ℝ) (ε : ℝ) : Prop :=
  (Finite f.B0 ∧ |val f.B0 - g.B0| ≤ ε) ∧ (Finite f.B1 ∧ |val f.B1 - g.B1| ≤ ε) ∧ (Finite f.B2 ∧ |val f.B2 - g.B2| ≤ ε) ∧
  (Finite f.A0 ∧ |val f.A0 - g.A0| ≤ ε) ∧ (Finite f.A1 ∧ |val f.A1 - g.A1| ≤ ε) ∧ (Finite f.A2 ∧ |val f.A2 - g.A2| ≤ ε)

theorem stable_design {sin cos sqrt pow} {η : ℝ} (hη : η ≤ 1 / 2 ^ 50) (hT : Dft.Trig cos sin 4 η) {fs f q : FVal binary64}
    (h : FreqOk64 20 fs f) (hq : QOk q) {F : BQ (FVal binary64)}
    (h0 : F.A0 = (lib64 sin cos sqrt pow).lit 1 + (lib64 sin cos sqrt pow).alpha fs f q)
    (h1 : F.A1 = (lib64 sin cos sqrt pow).lit (-2) * cos ((lib64 sin cos sqrt pow).w0 fs f))
    (h2 : F.A2 = (lib64 sin cos sqrt pow).lit 1 - (lib64 sin cos sqrt pow).alpha fs f q) : Stable F := by
  obtain ⟨a1, a2, a3, -⟩ := alpha_val (sqrt := sqrt) (pow := pow) hη hT h hq
  obtain ⟨⟨c1, c2, c3, -⟩, -⟩ := lib_margin (sqrt := sqrt) (pow := pow) hη hT (le_refl 20) h
  obtain ⟨q1, q2, q3, q4⟩ := hq
  have hq0 : 0 < val q := lt_of_lt_of_le (by norm_num) q3
  have l1 : 1 / 2 ^ 52 ≤ val ((lib64 sin cos sqrt pow).alpha fs f q) := by
    refine le_trans ?_ a2
    rw [div_div, div_le_div_iff₀ (by positivity) (by positivity)]
    norm_num at q4 ⊢
    linarith
  have l2 : val ((lib64 sin cos sqrt pow).alpha fs f q) ≤ 2 ^ 11 := by
    refine a3.trans ?_
    rw [div_le_iff₀ hq0]
    norm_num at q3 ⊢
    linarith
  refine stable_alpha binary64_ok (by decide) (lib64_lit sin cos sqrt pow) h0 h1 h2 (α := ((lib64 sin cos sqrt pow).alpha fs f q).toRat)
    ⟨a1, rfl⟩ ⟨c1, rfl⟩ c2 (m := 11) (by decide) (by decide) ?_ ?_ ?_
  · have : (1 / 2 ^ 52 : ℚ) ≤ ((lib64 sin cos sqrt pow).alpha fs f q).toRat := by
      refine (Rat.cast_le (K := ℝ)).1 ?_
      push_cast
      exact l1
    refine lt_of_lt_of_le ?_ this
    norm_num [binary64]
  · unfold val at l2
    exact_mod_cast l2
  · have : |(cos ((lib64 sin cos sqrt pow).w0 fs f)).toRat| ≤ 1 - 1 / 4 ^ 20 := by
      refine (Rat.cast_le (K := ℝ)).1 ?_
      push_cast
      exact c3
    refine this.trans ?_
    norm_num [binary64]

/-- C108, low-pass. -/
theorem C108_low_pass {sin cos sqrt pow} {η : ℝ} (hη : η ≤ 1 / 2 ^ 50) (hT : Dft.Trig cos sin 4 η) {fs f q : FVal binary64}
    (h : FreqOk64 20 fs f) (hq : QOk q) : Stable ((lib64 sin cos sqrt pow).lowPass fs f q) :=
  stable_design (sqrt := sqrt) (pow := pow) hη hT h hq rfl rfl rfl

/-- C108, high-pass. -/
theorem C108_high_pass {sin cos sqrt pow} {η : ℝ} (hη : η ≤ 1 / 2 ^ 50) (hT : Dft.Trig cos sin 4 η) {fs f q : FVal binary64}
    (h : FreqOk64 20 fs f) (hq : QOk q) : Stable ((lib64 sin cos sqrt pow).highPass fs f q) :=
  stable_design (sqrt := sqrt) (pow := pow) hη hT h hq rfl rfl rfl

/-- C108, band-pass with constant skirt gain. -/
theorem C108_band_pass_skirt {sin cos sqrt pow} {η : ℝ} (hη : η ≤ 1 / 2 ^ 50) (hT : Dft.Trig cos sin 4 η)
    {fs f q : FVal binary64} (h : FreqOk64 20 fs f) (hq : QOk q) : Stable ((lib64 sin cos sqrt pow).bandPassSkirt fs f q) :=
  stable_design (sqrt := sqrt) (pow := pow) hη hT h hq rfl rfl rfl

/-- C108, band-pass with constant peak gain. -/
theorem C108_band_pass_peak {sin cos sqrt pow} {η : ℝ} (hη : η ≤ 1 / 2 ^ 50) (hT : Dft.Trig cos sin 4 η)
    {fs f q : FVal binary64} (h : FreqOk64 20 fs f) (hq : QOk q) : Stable ((lib64 sin cos sqrt pow).bandPassPeak fs f q) :=
  stable_design (sqrt := sqrt) (pow := pow) hη hT h hq rfl rfl rfl

/-- C108, notch. -/
theorem C108_notch {sin cos sqrt pow} {η : ℝ} (hη : η ≤ 1 / 2 ^ 50) (hT : Dft.Trig cos sin 4 η) {fs f q : FVal binary64}
    (h : FreqOk64 20 fs f) (hq : QOk q) : Stable ((lib64 sin cos sqrt pow).notch fs f q) :=
  stable_design (sqrt := sqrt) (pow := pow) hη hT h hq rfl rfl rfl

/-- C108, all-pass. -/
theorem C108_all_pass {sin cos sqrt pow} {η : ℝ} (hη : η ≤ 1 / 2 ^ 50) (hT : Dft.Trig cos sin 4 η) {fs f q : FVal binary64}
    (h : FreqOk64 20 fs f) (hq : QOk q) : Stable ((lib64 sin cos sqrt pow).allPass fs f q) :=
  stable_design (sqrt := sqrt) (pow := pow) hη hT h hq rfl rfl rfl

/-! ### Accuracy -/

theorem near_add {v w : FVal binary64} {x y e f B : ℝ} (hv : Finite v) (hw : Finite w) (h1 : |val v - x| ≤ e)
    (h2 : |val w - y| ≤ f) (hB : |val v + val w| ≤ B) (hB2 : B ≤ 2 ^ 100) :
    Finite (v + w : FVal binary64) ∧ |val (v + w : FVal binary64) - (x + y)| ≤ e + f + B / 2 ^ 53 + 1 / 2 ^ 200 := by
  obtain ⟨a1, a2⟩ := add_val binary64_ok hv hw (hB.trans (hB2.trans (le_trans (by norm_num) big64)))
  refine ⟨a1, ?_⟩
  have := mul_le_mul_of_nonneg_left hB (uR_pos binary64).le
  rw [uR64] at a2 this
  have hw' := wR64
  rw [show val (v + w : FVal binary64) - (x + y) = (val (v + w : FVal binary64) - (val v + val w))
    + ((val v - x) + (val w - y)) by ring]
  refine (abs_add_le _ _).trans ((add_le_add a2 ((abs_add_le _ _).trans (add_le_add h1 h2))).trans ?_)
  linarith

theorem near_sub {v w : FVal binary64} {x y e f B : ℝ} (hv : Finite v) (hw : Finite w) (h1 : |val v - x| ≤ e)
    (h2 : |val w - y| ≤ f) (hB : |val v - val w| ≤ B) (hB2 : B ≤ 2 ^ 100) :
    Finite (v - w : FVal binary64) ∧ |val (v - w : FVal binary64) - (x - y)| ≤ e + f + B / 2 ^ 53 + 1 / 2 ^ 200 := by
  obtain ⟨a1, a2⟩ := sub_val binary64_ok hv hw (hB.trans (hB2.trans (le_trans (by norm_num) big64)))
  refine ⟨a1, ?_⟩
  have := mul_le_mul_of_nonneg_left hB (uR_pos binary64).le
  rw [uR64] at a2 this
  have hw' := wR64
  rw [show val (v - w : FVal binary64) - (x - y) = (val (v - w : FVal binary64) - (val v - val w))
    + ((val v - x) - (val w - y)) by ring]
  refine (abs_add_le _ _).trans ((add_le_add a2 ((abs_sub _ _).trans (add_le_add h1 h2))).trans ?_)
  linarith

/-- Halving, with rounding (a subnormal loses its last bit). -/
theorem near_half {v w : FVal binary64} {x e B : ℝ} (hv : Finite v) (hw : Finite w) (h2 : val w = 2) (h1 : |val v - x| ≤ e)
    (hB : |val v| ≤ B) (hB2 : B ≤ 2 ^ 100) :
    Finite (v / w : FVal binary64) ∧ |val (v / w : FVal binary64) - x / 2| ≤ e + B / 2 ^ 53 + 1 / 2 ^ 200 := by
  have hB3 : |val v / val w| ≤ B := by
    rw [h2, abs_div, abs_two]
    have := abs_nonneg (val v)
    linarith
  obtain ⟨a1, a2⟩ := Dft.div_val binary64_ok hv hw (by rw [h2]; norm_num) (hB3.trans (hB2.trans (le_trans (by norm_num) big64)))
  refine ⟨a1, ?_⟩
  have := mul_le_mul_of_nonneg_left hB3 (uR_pos binary64).le
  rw [uR64] at a2 this
  have hw' := wR64
  rw [show val (v / w : FVal binary64) - x / 2 = (val (v / w : FVal binary64) - val v / val w) + (val v - x) / 2 by
    rw [h2]; ring]
  have h3 : |(val v - x) / 2| ≤ e := by
    rw [abs_div, abs_two]
    have := abs_nonneg (val v - x)
    linarith
  refine (abs_add_le _ _).trans ((add_le_add a2 h3).trans ?_)
  linarith

theorem near_neg {v : FVal binary64} {x e : ℝ} (hv : Finite v) (h1 : |val v - x| ≤ e) :
    Finite (-v : FVal binary64) ∧ |val (-v : FVal binary64) - -x| ≤ e := by
  obtain ⟨a, b⟩ := Expr.finite_neg hv
  refine ⟨a, ?_⟩
  change |val (neg v) - -x| ≤ e
  rw [b, show -val v - -x = -(val v - x) by ring, abs_neg]
  exact h1

/-- The parts of the designs: `cos`, `sin`, `-2 cos`, `1 ± alpha`. -/
theorem parts_near {sin cos sqrt pow} {η : ℝ} (hη : η ≤ 1 / 2 ^ 50) (hT : Dft.Trig cos sin 4 η) {fs f q : FVal binary64}
    (h : FreqOk64 20 fs f) (hq : QOk q) :
    let L := lib64 sin cos sqrt pow
    let c := cos (L.w0 fs f)
    let α := L.alpha fs f q
    let C := Real.cos (2 * Real.pi * val f / val fs)
    let A := Real.sin (2 * Real.pi * val f / val fs) / (2 * val q)
    let ε := (1 + 1 / val q) / 2 ^ 45
    (Finite (L.lit 1 + α) ∧ |val (L.lit 1 + α) - (1 + A)| ≤ ε) ∧
    (Finite (L.lit (-2) * c) ∧ |val (L.lit (-2) * c) - -2 * C| ≤ ε) ∧
    (Finite (L.lit 1 - α) ∧ |val (L.lit 1 - α) - (1 - A)| ≤ ε) ∧
    (Finite (L.lit 1 - c) ∧ |val (L.lit 1 - c) - (1 - C)| ≤ ε) ∧
    (Finite (L.lit 1 + c) ∧ |val (L.lit 1 + c) - (1 + C)| ≤ ε) ∧
    (Finite ((L.lit 1 - c) / L.lit 2) ∧ |val ((L.lit 1 - c) / L.lit 2) - (1 - C) / 2| ≤ ε) ∧
    (Finite ((L.lit 1 + c) / L.lit 2) ∧ |val ((L.lit 1 + c) / L.lit 2) - (1 + C) / 2| ≤ ε) := by
  intro L c α C A ε
  obtain ⟨a1, a2, a3, a4⟩ := alpha_val (sqrt := sqrt) (pow := pow) hη hT h hq
  obtain ⟨⟨c1, c2, c3, c4⟩, -⟩ := lib_margin (sqrt := sqrt) (pow := pow) hη hT (le_refl 20) h
  obtain ⟨q1, q2, q3, q4⟩ := hq
  have hq0 : 0 < val q := lt_of_lt_of_le (by norm_num) q3
  obtain ⟨l1, l1'⟩ := lit64 (sin := sin) (cos := cos) (sqrt := sqrt) (pow := pow) 1 (by norm_num)
  obtain ⟨l2, l2'⟩ := lit64 (sin := sin) (cos := cos) (sqrt := sqrt) (pow := pow) 2 (by norm_num)
  obtain ⟨l3, l3'⟩ := lit64 (sin := sin) (cos := cos) (sqrt := sqrt) (pow := pow) (-2) (by norm_num)
  change Finite α at a1
  change _ ≤ val α at a2
  change val α ≤ _ at a3
  change |val α - A| ≤ _ at a4
  change Finite c at c1
  change |val c| ≤ _ at c3
  change |val c - C| ≤ _ at c4
  change Finite (L.lit 1) at l1
  change val (L.lit 1) = _ at l1'
  change Finite (L.lit 2) at l2
  change val (L.lit 2) = _ at l2'
  change Finite (L.lit (-2)) at l3
  change val (L.lit (-2)) = _ at l3'
  push_cast at l1' l2' l3'
  have hr : 1 / val q ≤ 2 ^ 10 := by
    rw [div_le_iff₀ hq0]
    norm_num at q3 ⊢
    linarith
  have hr0 : 0 < 1 / val q := by positivity
  have hε : ε = (1 + 1 / val q) / 2 ^ 45 := rfl
  rw [div_eq_mul_one_div (3 / 2) (val q)] at a3
  rw [div_eq_mul_one_div (1 / 2 ^ 47) (val q)] at a4
  rw [div_div, ← one_div_mul_one_div] at a2
  have hc1 : |val c| ≤ 1 := c3.trans (by norm_num)
  obtain ⟨hc1a, hc1b⟩ := abs_le.1 hc1
  generalize 1 / val q = r at *
  have hα0 : 0 < val α := lt_of_lt_of_le (by positivity) a2
  have one : |val (L.lit 1) - 1| ≤ 0 := by rw [l1', sub_self, abs_zero]
  have p1 := near_add l1 a1 one a4 (B := 1 + 3 / 2 * r) (by rw [l1', abs_of_pos (by linarith)]; linarith)
    (by norm_num at hr ⊢; linarith)
  have p2 := near_sub l1 a1 one a4 (B := 1 + 3 / 2 * r) (by rw [l1', abs_le]; constructor <;> linarith)
    (by norm_num at hr ⊢; linarith)
  have p3 := near_sub l1 c1 one c4 (B := 2) (by rw [l1', abs_le]; constructor <;> linarith) (by norm_num)
  have p4 := near_add l1 c1 one c4 (B := 2) (by rw [l1', abs_le]; constructor <;> linarith) (by norm_num)
  have s3 : |val (L.lit 1 - c)| ≤ 4 := by
    obtain ⟨z1, z2⟩ := abs_le.1 p3.2
    obtain ⟨z3, z4⟩ := abs_le.1 c4
    rw [abs_le]
    norm_num at z1 z2 z3 z4
    constructor <;> linarith
  have s4 : |val (L.lit 1 + c)| ≤ 4 := by
    obtain ⟨z1, z2⟩ := abs_le.1 p4.2
    obtain ⟨z3, z4⟩ := abs_le.1 c4
    rw [abs_le]
    norm_num at z1 z2 z3 z4
    constructor <;> linarith
  have p5 := near_half p3.1 l2 l2' p3.2 s3 (by norm_num)
  have p6 := near_half p4.1 l2 l2' p4.2 s4 (by norm_num)
  obtain ⟨m1, m2⟩ := mul_val binary64_ok l3 c1 (by
    rw [l3', abs_mul, abs_neg, abs_two]
    exact le_trans (b := (2 : ℝ)) (by linarith) (le_trans (by norm_num) big64))
  have m3 : |val (L.lit (-2) * c) - -2 * C| ≤ 2 / 2 ^ 47 + 2 / 2 ^ 53 + 1 / 2 ^ 200 := by
    rw [show val (L.lit (-2) * c) - -2 * C = (val (L.lit (-2) * c) - val (L.lit (-2)) * val c) + -2 * (val c - C) by
      rw [l3']; ring]
    refine (abs_add_le _ _).trans (le_trans (add_le_add m2 (le_of_eq (abs_mul _ _))) ?_)
    have hw := wR64
    rw [uR64, l3', abs_mul, abs_neg, abs_two]
    norm_num at c4 hw ⊢
    linarith
  rw [hε]
  refine ⟨⟨p1.1, p1.2.trans ?_⟩, ⟨m1, m3.trans ?_⟩, ⟨p2.1, p2.2.trans ?_⟩, ⟨p3.1, p3.2.trans ?_⟩, ⟨p4.1, p4.2.trans ?_⟩,
    ⟨p5.1, p5.2.trans ?_⟩, ⟨p6.1, p6.2.trans ?_⟩⟩
  all_goals
    norm_num
    linarith

/-- C108, low-pass: every coefficient is near the exact one. -/
theorem C108_near_low_pass {sin cos sqrt pow} {η : ℝ} (hη : η ≤ 1 / 2 ^ 50) (hT : Dft.Trig cos sin 4 η)
    {fs f q : FVal binary64} (h : FreqOk64 20 fs f) (hq : QOk q) :
    CoeffsNear ((lib64 sin cos sqrt pow).lowPass fs f q) (newLowPass (val fs) (val f) (val q)) ((1 + 1 / val q) / 2 ^ 45) := by
  obtain ⟨h1, h2, h3, h4, h5, h6, h7⟩ := parts_near (sqrt := sqrt) (pow := pow) hη hT h hq
  exact ⟨h6, h4, h6, h1, h2, h3⟩

/-- C108, high-pass. -/
theorem C108_near_high_pass {sin cos sqrt pow} {η : ℝ} (hη : η ≤ 1 / 2 ^ 50) (hT : Dft.Trig cos sin 4 η)
    {fs f q : FVal binary64} (h : FreqOk64 20 fs f) (hq : QOk q) :
    CoeffsNear ((lib64 sin cos sqrt pow).highPass fs f q) (newHighPass (val fs) (val f) (val q)) ((1 + 1 / val q) / 2 ^ 45) := by
  obtain ⟨h1, h2, h3, h4, h5, h6, h7⟩ := parts_near (sqrt := sqrt) (pow := pow) hη hT h hq
  exact ⟨h7, near_neg h5.1 h5.2, h7, h1, h2, h3⟩

/-- C108, notch. -/
theorem C108_near_notch {sin cos sqrt pow} {η : ℝ} (hη : η ≤ 1 / 2 ^ 50) (hT : Dft.Trig cos sin 4 η)
    {fs f q : FVal binary64} (h : FreqOk64 20 fs f) (hq : QOk q) :
    CoeffsNear ((lib64 sin cos sqrt pow).notch fs f q) (newNotch (val fs) (val f) (val q)) ((1 + 1 / val q) / 2 ^ 45) := by
  obtain ⟨h1, h2, h3, h4, h5, h6, h7⟩ := parts_near (sqrt := sqrt) (pow := pow) hη hT h hq
  have hq0 : 0 < val q := lt_of_lt_of_le (by norm_num) hq.low
  obtain ⟨l1, l1'⟩ := lit64 (sin := sin) (cos := cos) (sqrt := sqrt) (pow := pow) 1 (by norm_num)
  have e : |val ((lib64 sin cos sqrt pow).lit 1) - 1| ≤ (1 + 1 / val q) / 2 ^ 45 := by
    rw [l1', Int.cast_one, sub_self, abs_zero]
    positivity
  exact ⟨⟨l1, e⟩, h2, ⟨l1, e⟩, h1, h2, h3⟩

/-- C108, all-pass. -/
theorem C108_near_all_pass {sin cos sqrt pow} {η : ℝ} (hη : η ≤ 1 / 2 ^ 50) (hT : Dft.Trig cos sin 4 η)
    {fs f q : FVal binary64} (h : FreqOk64 20 fs f) (hq : QOk q) :
    CoeffsNear ((lib64 sin cos sqrt pow).allPass fs f q) (newAllPass (val fs) (val f) (val q)) ((1 + 1 / val q) / 2 ^ 45) := by
  obtain ⟨h1, h2, h3, h4, h5, h6, h7⟩ := parts_near (sqrt := sqrt) (pow := pow) hη hT h hq
  exact ⟨h3, h2, h1, h1, h2, h3⟩

/-- C108, band-pass with constant peak gain. -/
theorem C108_near_band_pass_peak {sin cos sqrt pow} {η : ℝ} (hη : η ≤ 1 / 2 ^ 50) (hT : Dft.Trig cos sin 4 η)
    {fs f q : FVal binary64} (h : FreqOk64 20 fs f) (hq : QOk q) :
    CoeffsNear ((lib64 sin cos sqrt pow).bandPassPeak fs f q) (newBandPassPeak (val fs) (val f) (val q))
      ((1 + 1 / val q) / 2 ^ 45) := by
  obtain ⟨h1, h2, h3, h4, h5, h6, h7⟩ := parts_near (sqrt := sqrt) (pow := pow) hη hT h hq
  have hq0 : 0 < val q := lt_of_lt_of_le (by norm_num) hq.low
  obtain ⟨a1, -, -, a4⟩ := alpha_val (sqrt := sqrt) (pow := pow) hη hT h hq
  obtain ⟨l1, l1'⟩ := lit64 (sin := sin) (cos := cos) (sqrt := sqrt) (pow := pow) 0 (by norm_num)
  have e : |val ((lib64 sin cos sqrt pow).lit 0) - 0| ≤ (1 + 1 / val q) / 2 ^ 45 := by
    rw [l1', Int.cast_zero, sub_self, abs_zero]
    positivity
  have a5 := a4.trans (show 1 / 2 ^ 47 / val q ≤ (1 + 1 / val q) / 2 ^ 45 by
    rw [div_div, ← one_div_mul_one_div]
    have : 0 < 1 / val q := by positivity
    generalize 1 / val q = r at *
    norm_num
    linarith)
  exact ⟨⟨a1, a5⟩, ⟨l1, e⟩, near_neg a1 a5, h1, h2, h3⟩

/-- C108, band-pass with constant skirt gain. -/
theorem C108_near_band_pass_skirt {sin cos sqrt pow} {η : ℝ} (hη : η ≤ 1 / 2 ^ 50) (hT : Dft.Trig cos sin 4 η)
    {fs f q : FVal binary64} (h : FreqOk64 20 fs f) (hq : QOk q) :
    CoeffsNear ((lib64 sin cos sqrt pow).bandPassSkirt fs f q) (newBandPassSkirt (val fs) (val f) (val q))
      ((1 + 1 / val q) / 2 ^ 45) := by
  obtain ⟨h1, h2, h3, h4, h5, h6, h7⟩ := parts_near (sqrt := sqrt) (pow := pow) hη hT h hq
  have hq0 : 0 < val q := lt_of_lt_of_le (by norm_num) hq.low
  obtain ⟨-, s1, s2, s3, s4⟩ := lib_margin (sqrt := sqrt) (pow := pow) hη hT (le_refl 20) h
  obtain ⟨l1, l1'⟩ := lit64 (sin := sin) (cos := cos) (sqrt := sqrt) (pow := pow) 0 (by norm_num)
  obtain ⟨l2, l2'⟩ := lit64 (sin := sin) (cos := cos) (sqrt := sqrt) (pow := pow) 2 (by norm_num)
  push_cast at l2'
  have e : |val ((lib64 sin cos sqrt pow).lit 0) - 0| ≤ (1 + 1 / val q) / 2 ^ 45 := by
    rw [l1', Int.cast_zero, sub_self, abs_zero]
    positivity
  have hr : 0 < 1 / val q := by positivity
  have p1 := near_half s1 l2 l2' s4 (B := 2) (by rw [abs_of_pos (lt_of_lt_of_le (by norm_num) s2)]; exact s3) (by norm_num)
  have n1 := near_neg s1 s4
  have p2 := near_half n1.1 l2 l2' n1.2 (B := 3) (by
    obtain ⟨z1, z2⟩ := abs_le.1 n1.2
    have := Real.sin_le_one (2 * Real.pi * val f / val fs)
    have := Real.neg_one_le_sin (2 * Real.pi * val f / val fs)
    rw [abs_le]
    norm_num at z1 z2
    constructor <;> linarith) (by norm_num)
  refine ⟨⟨p1.1, p1.2.trans ?_⟩, ⟨l1, e⟩, ⟨p2.1, p2.2.trans ?_⟩, h1, h2, h3⟩ <;>
  · generalize 1 / val q = r at *
    norm_num
    linarith

end Verif.Filt
