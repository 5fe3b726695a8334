import Verif.Interp.InterpLemmas
import Mathlib.Algebra.Order.Archimedean.Real.Basic
import Mathlib.Tactic.Ring
import Mathlib.Tactic.LinearCombination
import Mathlib.Data.List.GetD

/-!
# Property C73 of the higher-order interpolators
-/

set_option linter.unusedSectionVars false

namespace Verif.Interp
open Verif.Angle

/-- The six continued samples around position `n`, as a function of the offset. -/
noncomputable def around (s : List ℝ) (n : Int) : Int → ℝ := fun i => ext s (n + i)

/-- Value of the four-point interpolant from the samples around. -/
noncomputable def poly4 (s : Int → ℝ) (z : ℝ) : ℝ :=
  ((((s 1 + s 0) * e17 4252164479749607 + (s 2 + s (-1)) * e17 (-4289144034653719)) * z
    + ((s 1 - s 0) * e17 (-37917091811631082) + (s 2 - s (-1)) * e17 11952965967158000)) * z
    + ((s 1 + s 0) * e18 (-253674794204558521) + (s 2 + s (-1)) * e17 25371918651882464)) * z * z
    + ((s 1 - s 0) * e17 47236675362442071 + (s 2 - s (-1)) * e17 17686613581136501) * z
    + ((s 1 + s 0) * e17 45645918406487612 + (s 2 + s (-1)) * e17 4354173901996461)

/-- Value of the six-point interpolant from the samples around. -/
noncomputable def poly6 (s : Int → ℝ) (z : ℝ) : ℝ :=
  ((((s 1 - s 0) * e17 4317950185225609 + (s 2 - s (-1)) * e17 (-1802814255926417) + (s 3 - s (-2)) * e17 152170021558204) * z
    + ((s 1 + s 0) * e17 3845798729588149 + (s 2 + s (-1)) * e17 (-5712936104242644) + (s 3 + s (-2)) * e17 1866750929921070)) * z
    + ((s 1 - s 0) * e17 (-16471626190554542) + (s 2 - s (-1)) * e17 (-154547203542499) + (s 3 - s (-2)) * e17 3399271444851909)) * z * z * z
    + ((s 1 + s 0) * e18 (-191337682540351941) + (s 2 + s (-1)) * e17 16187844487943592 + (s 3 + s (-2)) * e17 2946017143111912) * z * z
    + ((s 1 - s 0) * e17 28342806338906690 + (s 2 - s (-1)) * e17 21703277024054901 + (s 3 - s (-2)) * e17 1309294748731515) * z
    + ((s 1 + s 0) * e17 40513396007145713 + (s 2 + s (-1)) * e17 9251794438424393 + (s 3 + s (-2)) * e17 234806603570670)

/-- Value of the Hermite interpolant from the samples around. -/
noncomputable def polyH (s : Int → ℝ) (z : ℝ) : ℝ :=
  let t := z + 1 / 2
  (((1 / 2 * (s 2 - s (-1)) + 3 / 2 * (s 0 - s 1)) * t + (s (-1) - 5 / 2 * s 0 + 2 * s 1 - 1 / 2 * s 2)) * t
    + 1 / 2 * (s 1 - s (-1))) * t + s 0

theorem optimal4_eq (s : List ℝ) (hl : s.length < 4611686018427387904) {x : ℝ} (hx : 0 ≤ x) :
    optimal4 s x = poly4 (around s ⌊x⌋) (Int.fract x - 1 / 2) := by
  unfold optimal4 poly4 around
  simp only [tap_goInt s hl hx (i := -1) (by omega) (by omega), tap_goInt s hl hx (i := 0) (by omega) (by omega),
    tap_goInt s hl hx (i := 1) (by omega) (by omega), tap_goInt s hl hx (i := 2) (by omega) (by omega), Int.self_sub_floor]
  ring

theorem optimal6_eq (s : List ℝ) (hl : s.length < 4611686018427387904) {x : ℝ} (hx : 0 ≤ x) :
    optimal6 s x = poly6 (around s ⌊x⌋) (Int.fract x - 1 / 2) := by
  unfold optimal6 poly6 around
  simp only [tap_goInt s hl hx (i := -1) (by omega) (by omega), tap_goInt s hl hx (i := 0) (by omega) (by omega),
    tap_goInt s hl hx (i := 1) (by omega) (by omega), tap_goInt s hl hx (i := 2) (by omega) (by omega),
    tap_goInt s hl hx (i := -2) (by omega) (by omega), tap_goInt s hl hx (i := 3) (by omega) (by omega), Int.self_sub_floor]
  ring

theorem hermite_eq' (s : List ℝ) (hl : s.length < 4611686018427387904) {x : ℝ} (hx : 0 ≤ x) :
    hermite s x = polyH (around s ⌊x⌋) (Int.fract x - 1 / 2) := by
  unfold hermite polyH around
  simp only [tap_goInt s hl hx (i := -1) (by omega) (by omega), tap_goInt s hl hx (i := 0) (by omega) (by omega),
    tap_goInt s hl hx (i := 1) (by omega) (by omega), tap_goInt s hl hx (i := 2) (by omega) (by omega), Int.self_sub_floor]
  ring

theorem around_const (s : List ℝ) (c : ℝ) (hs : ∀ k, (hk : k < s.length) → s[k] = c) {n i : Int} (h0 : 0 ≤ n + i)
    (h1 : n + i < s.length) : around s n i = c := by
  obtain ⟨k, hk⟩ := Int.eq_ofNat_of_zero_le h0
  have hk2 : k < s.length := by omega
  rw [around, hk, ext_nat]
  simp [hk2, hs k hk2]

theorem fract_half (x : ℝ) : (Int.fract x - 1 / 2) ^ 2 ≤ 1 / 4 := by
  have h0 := Int.fract_nonneg x
  have h1 := Int.fract_lt_one x
  nlinarith

/-- C73: a constant sequence is reproduced to within 23 parts in a million by the four-point
interpolator, wherever the samples around exist. -/
theorem C73_constant4 (s : List ℝ) (hl : s.length < 4611686018427387904) (c : ℝ) (hs : ∀ k, (hk : k < s.length) → s[k] = c)
    (x : ℝ) (h1 : 1 ≤ x) (h2 : x + 2 < s.length) : |optimal4 s x - c| ≤ 0.000023 * |c| := by
  have f1 : 1 ≤ ⌊x⌋ := Int.le_floor.mpr (by exact_mod_cast h1)
  have f2 : ⌊x⌋ + 2 < s.length := by
    have := Int.floor_le x
    have : ((⌊x⌋ + 2 : Int) : ℝ) < s.length := by push_cast; linarith
    exact_mod_cast this
  rw [optimal4_eq s hl (by linarith)]
  have hz := fract_half x
  generalize Int.fract x - 1 / 2 = z at hz ⊢
  have e : poly4 (around s ⌊x⌋) z - c = (2 * (e18 (45645918406487612 * 10 + 4354173901996461 * 10) + e18 (-253674794204558521 + 253719186518824640) * z ^ 2
      + e17 (4252164479749607 - 4289144034653719) * (z ^ 2) ^ 2) - 1) * c := by
    unfold poly4
    rw [around_const s c hs (i := 0) (by omega) (by omega), around_const s c hs (i := 1) (by omega) (by omega),
      around_const s c hs (i := 2) (by omega) (by omega), around_const s c hs (i := -1) (by omega) (by omega)]
    unfold e17 e18
    push_cast
    ring
  rw [e, abs_mul]
  refine mul_le_mul_of_nonneg_right ?_ (abs_nonneg c)
  have h0 : 0 ≤ z ^ 2 := sq_nonneg z
  generalize z ^ 2 = w at *
  unfold e17 e18
  push_cast
  rw [abs_le]
  constructor <;> nlinarith [sq_nonneg (w - 0.12)]

/-- C73: a constant sequence is reproduced to within 8 parts in a hundred million by the six-point
interpolator, wherever the samples around exist. -/
theorem C73_constant6 (s : List ℝ) (hl : s.length < 4611686018427387904) (c : ℝ) (hs : ∀ k, (hk : k < s.length) → s[k] = c)
    (x : ℝ) (h1 : 2 ≤ x) (h2 : x + 3 < s.length) : |optimal6 s x - c| ≤ 0.00000008 * |c| := by
  have f1 : 2 ≤ ⌊x⌋ := Int.le_floor.mpr (by exact_mod_cast h1)
  have f2 : ⌊x⌋ + 3 < s.length := by
    have := Int.floor_le x
    have : ((⌊x⌋ + 3 : Int) : ℝ) < s.length := by push_cast; linarith
    exact_mod_cast this
  rw [optimal6_eq s hl (by linarith)]
  have hz := fract_half x
  generalize Int.fract x - 1 / 2 = z at hz ⊢
  have e : poly6 (around s ⌊x⌋) z - c = (2 * (e17 (40513396007145713 + 9251794438424393 + 234806603570670)
      + e18 (-191337682540351941 + 161878444879435920 + 29460171431119120) * z ^ 2
      + e17 (3845798729588149 - 5712936104242644 + 1866750929921070) * (z ^ 2) ^ 2) - 1) * c := by
    unfold poly6
    rw [around_const s c hs (i := 0) (by omega) (by omega), around_const s c hs (i := 1) (by omega) (by omega),
      around_const s c hs (i := 2) (by omega) (by omega), around_const s c hs (i := -1) (by omega) (by omega),
      around_const s c hs (i := 3) (by omega) (by omega), around_const s c hs (i := -2) (by omega) (by omega)]
    unfold e17 e18
    push_cast
    ring
  rw [e, abs_mul]
  refine mul_le_mul_of_nonneg_right ?_ (abs_nonneg c)
  have h0 : 0 ≤ z ^ 2 := sq_nonneg z
  generalize z ^ 2 = w at *
  unfold e17 e18
  push_cast
  rw [abs_le]
  constructor <;> nlinarith [sq_nonneg (w - 0.12)]

theorem ext_reverse (s : List ℝ) (j : Int) : ext s.reverse j = ext s (s.length - 1 - j) := by
  by_cases h : 0 ≤ j ∧ j < s.length
  · obtain ⟨k, rfl⟩ := Int.eq_ofNat_of_zero_le h.1
    have hk : k < s.length := by omega
    have e : (s.length : Int) - 1 - k = ((s.length - 1 - k : Nat) : Int) := by omega
    rw [e, ext_nat, ext_nat]
    simp [hk, show s.length - 1 - k < s.length by omega]
  · by_cases h0 : j < 0
    · rw [ext_neg _ h0, ext_ge s (by omega)]
    · rw [ext_ge _ (by rw [List.length_reverse]; omega), ext_neg s (by omega)]

theorem around_reverse (s : List ℝ) (n i : Int) : around s.reverse (s.length - 2 - n) i = around s n (1 - i) := by
  unfold around
  rw [ext_reverse]
  congr 1
  ring

theorem floor_reverse {x : ℝ} {l : Nat} (hx : Int.fract x ≠ 0) :
    ⌊(l : ℝ) - 1 - x⌋ = l - 2 - ⌊x⌋ ∧ Int.fract ((l : ℝ) - 1 - x) - 1 / 2 = -(Int.fract x - 1 / 2) := by
  have h0 : 0 < Int.fract x := lt_of_le_of_ne (Int.fract_nonneg x) (Ne.symm hx)
  have h1 := Int.fract_lt_one x
  have e := Int.floor_add_fract x
  have hf : ⌊(l : ℝ) - 1 - x⌋ = l - 2 - ⌊x⌋ := by
    refine Int.floor_eq_iff.mpr ⟨?_, ?_⟩
    · push_cast; linarith
    · push_cast; linarith
  refine ⟨hf, ?_⟩
  rw [Int.fract, hf]
  push_cast
  linarith

/-- C73: reversing the samples and the position gives the same value, for the three interpolators at
every position strictly between samples. -/
theorem C73_reverse (s : List ℝ) (hl : s.length < 4611686018427387904) (x : ℝ) (hx : Int.fract x ≠ 0) (h0 : 0 ≤ x) (h1 : x ≤ s.length - 1) :
    optimal4 s.reverse (s.length - 1 - x) = optimal4 s x ∧ optimal6 s.reverse (s.length - 1 - x) = optimal6 s x ∧
      hermite s.reverse (s.length - 1 - x) = hermite s x := by
  obtain ⟨hf, hr⟩ := floor_reverse (l := s.length) hx
  have hl' : s.reverse.length < 4611686018427387904 := by rw [List.length_reverse]; exact hl
  have h0' : 0 ≤ (s.length : ℝ) - 1 - x := by linarith
  have e0 : (1 : Int) - 0 = 1 := by norm_num
  have e1 : (1 : Int) - 1 = 0 := by norm_num
  have e2 : (1 : Int) - 2 = -1 := by norm_num
  have e3 : (1 : Int) - 3 = -2 := by norm_num
  have e4 : (1 : Int) - (-1) = 2 := by norm_num
  have e5 : (1 : Int) - (-2) = 3 := by norm_num
  refine ⟨?_, ?_, ?_⟩
  · rw [optimal4_eq _ hl' h0', optimal4_eq s hl h0, hf, hr]
    unfold poly4
    simp only [around_reverse, e0, e1, e2, e4]
    ring
  · rw [optimal6_eq _ hl' h0', optimal6_eq s hl h0, hf, hr]
    unfold poly6
    simp only [around_reverse, e0, e1, e2, e3, e4, e5]
    ring
  · rw [hermite_eq' _ hl' h0', hermite_eq' s hl h0, hf, hr]
    unfold polyH
    simp only [around_reverse, e0, e1, e2, e4]
    ring

/-- C73: the interpolators are linear in the samples at every position, also negative ones. -/
theorem C73_linear (s t u : List ℝ) (a b : ℝ) (hs : s.length = u.length) (ht : t.length = u.length)
    (h : ∀ k, (hk : k < u.length) → u[k] = a * s[k] + b * t[k]) (x : ℝ) :
    optimal4 u x = a * optimal4 s x + b * optimal4 t x ∧ optimal6 u x = a * optimal6 s x + b * optimal6 t x ∧
      hermite u x = a * hermite s x + b * hermite t x := by
  have ht' : ∀ n i, tap u n i = a * tap s n i + b * tap t n i := by
    intro n i
    unfold tap
    simp only [hs, ht]
    split
    · rename_i hc
      have hk : (wrap (n + i)).toNat < u.length := by omega
      simp [hk, h _ hk, show (wrap (n + i)).toNat < s.length by omega, show (wrap (n + i)).toNat < t.length by omega]
    · ring
  refine ⟨?_, ?_, ?_⟩
  · unfold optimal4
    simp only [ht']
    ring
  · unfold optimal6
    simp only [ht']
    ring
  · unfold hermite
    simp only [ht']
    ring

/-- C73 does not extend to negative positions: between −1 and 0 the value one sample later is
returned. -/
theorem C73_violated_negative (s : List ℝ) (x : ℝ) (h1 : -1 < x) (h2 : x < 0) :
    optimal4 s x = optimal4 s (x + 1) ∧ optimal6 s x = optimal6 s (x + 1) := by
  have f2 : ⌊x + 1⌋ = 0 := Int.floor_eq_iff.mpr ⟨by push_cast; linarith, by push_cast; linarith⟩
  have g1 : goInt x = 0 := goInt_neg_unit h1 h2
  have g2 : goInt (x + 1) = 0 := by rw [goInt_of_nonneg (by linarith) (by omega), f2]
  have e : x + 1 - (⌊x + 1⌋ : ℝ) - 1 / 2 = x - (⌊x⌋ : ℝ) - 1 / 2 := by
    rw [Int.floor_add_one]
    push_cast
    ring
  constructor
  · unfold optimal4
    simp only [g1, g2, e]
  · unfold optimal6
    simp only [g1, g2, e]

example : |optimal4 ([7, 7, 7, 7] : List ℝ) (3 / 2) - 7| ≤ 0.000023 * |(7 : ℝ)| :=
  C73_constant4 _ (by decide) 7 (by
    intro k hk
    have : k = 0 ∨ k = 1 ∨ k = 2 ∨ k = 3 := by simp at hk; omega
    rcases this with h | h | h | h <;> subst h <;> rfl) _ (by norm_num) (by norm_num)
example : Int.fract (3 / 2 : ℝ) ≠ 0 := by
  have : ⌊(3 / 2 : ℝ)⌋ = 1 := by norm_num
  rw [Int.fract, this]; norm_num

end Verif.Interp
