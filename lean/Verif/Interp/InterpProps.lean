import Verif.Interp.InterpLemmas
import Mathlib.Analysis.Calculus.Deriv.Pow
import Mathlib.Analysis.Calculus.Deriv.Add
import Mathlib.Analysis.Calculus.Deriv.Mul
import Mathlib.Tactic.LinearCombination
import Mathlib.Tactic.FieldSimp
import Mathlib.Data.Rat.Floor

/-!
# Properties C53 and C54 of the interpolators
-/

namespace Verif.Interp
open Verif.Angle

section Linear
variable {K : Type*} [Field K] [LinearOrder K] [IsStrictOrderedRing K] [FloorRing K]

/-- C53: for positions from 0 to the end of `int`, `Linear` is the value at `x` of the line through
the two neighbours, the samples being continued by zeros. -/
theorem C53_line_partial (s : List K) (hl : s.length < 9223372036854775807) (x : K) (h0 : 0 ≤ x) (h : x < 9223372036854775808) :
    linear s x = some ((1 - Int.fract x) * ext s ⌊x⌋ + Int.fract x * ext s (⌊x⌋ + 1)) := by
  have hf0 : 0 ≤ ⌊x⌋ := Int.floor_nonneg.mpr h0
  have hf : ⌊x⌋ < 9223372036854775808 := Int.floor_lt.mpr (by exact_mod_cast h)
  have hc : (0 : K) ≤ ((⌊x⌋ : Int) : K) := by exact_mod_cast hf0
  have hg : goInt ((⌊x⌋ : Int) : K) = ⌊x⌋ := by rw [goInt_of_nonneg hc (by rw [Int.floor_intCast]; exact hf), Int.floor_intCast]
  unfold linear
  simp only [hg]
  split
  · rename_i hlt
    rw [index_lt s hf0 hlt, highValue_eq s hf0 (by omega), Option.bind_eq_bind, Option.bind_some, Option.bind_some]
    refine congrArg some ?_
    rw [Int.self_sub_floor]
    ring
  · rw [ext_ge s (by omega), ext_ge s (by omega)]
    simp

/-- C53: at an integer position the sample there is returned. -/
theorem C53_sample_partial (s : List K) (hl : s.length < 9223372036854775807) (n : Nat) (hn : n < s.length) :
    linear s (n : K) = some s[n] := by
  have h : ((n : Nat) : K) < 9223372036854775808 := by
    have : n < 9223372036854775808 := by omega
    exact_mod_cast this
  rw [C53_line_partial s hl _ (by positivity) h]
  simp [ext_nat, hn]

/-- C53: between two samples the result lies between them. -/
theorem C53_between_partial (s : List K) (hl : s.length < 9223372036854775807) (n : Nat) (hn : n + 1 < s.length) (x : K)
    (h1 : (n : K) ≤ x) (h2 : x ≤ n + 1) :
    ∃ v, linear s x = some v ∧ min s[n] s[n + 1] ≤ v ∧ v ≤ max s[n] s[n + 1] ∧
      v = s[n] + (x - n) * (s[n + 1] - s[n]) := by
  rcases lt_or_eq_of_le h2 with h2 | h2
  · have h0 : 0 ≤ x := le_trans (by positivity) h1
    have h : x < 9223372036854775808 := by
      have : n + 1 < 9223372036854775808 := by omega
      exact lt_of_lt_of_le h2 (by exact_mod_cast le_of_lt this)
    have hf : ⌊x⌋ = (n : Int) := Int.floor_eq_iff.mpr ⟨by exact_mod_cast h1, by exact_mod_cast h2⟩
    refine ⟨_, C53_line_partial s hl x h0 h, ?_⟩
    have ht : Int.fract x = x - n := by rw [Int.fract, hf]; simp
    have a : ext s (n : Int) = s[n] := by rw [ext_nat]; simp [show n < s.length by omega]
    have b : ext s ((n : Int) + 1) = s[n + 1] := by
      rw [show ((n : Int) + 1) = ((n + 1 : Nat) : Int) by push_cast; ring, ext_nat]; simp [hn]
    rw [hf, a, b, ht]
    have t0 : 0 ≤ x - n := by linarith
    have t1 : x - n ≤ 1 := by linarith
    generalize x - n = t at *
    generalize s[n] = p
    generalize s[n + 1] = q
    refine ⟨?_, ?_, by ring⟩
    · have h1 := min_le_left p q
      have h2 := min_le_right p q
      nlinarith
    · have h1 := le_max_left p q
      have h2 := le_max_right p q
      nlinarith
  · have e : x = ((n + 1 : Nat) : K) := by rw [h2]; push_cast; ring
    refine ⟨s[n + 1], ?_, min_le_right _ _, le_max_right _ _, ?_⟩
    · rw [e]; exact C53_sample_partial s hl (n + 1) hn
    · rw [h2]; ring

/-- C53: from the length on the result is zero. -/
theorem C53_beyond_partial (s : List K) (hl : s.length < 9223372036854775807) (x : K) (h : x < 9223372036854775808) (hx : (s.length : K) ≤ x) :
    linear s x = some 0 := by
  have h0 : 0 ≤ x := le_trans (by positivity) hx
  have hf : (s.length : Int) ≤ ⌊x⌋ := Int.le_floor.mpr (by exact_mod_cast hx)
  rw [C53_line_partial s hl x h0 h, ext_ge s hf, ext_ge s (by omega)]
  simp

/-- C53 does not hold: every negative position panics, whatever the samples. -/
theorem C53_violated (s : List K) (x : K) (hx : x < 0) : linear s x = none := by
  have h := goInt_floor_neg hx
  unfold linear
  simp only
  rw [if_pos (by omega), index_neg s (by omega)]
  rfl

/-- C53 does not hold: on amd64 every position from 2^63 on panics, whatever the samples. -/
theorem C53_violated_large (s : List K) (x : K) (hx : 9223372036854775808 ≤ x) : linear s x = none := by
  have hf : 9223372036854775808 ≤ ⌊x⌋ := Int.le_floor.mpr (by exact_mod_cast hx)
  have h : goInt ((⌊x⌋ : Int) : K) = -9223372036854775808 := goInt_of_large (by rw [Int.floor_intCast]; exact hf)
  unfold linear
  simp only
  rw [if_pos (by omega), index_neg s (by omega)]
  rfl

omit [IsStrictOrderedRing K] in
/-- C53: `LinearF32` is `Linear` on the positions its guard lets through, and 0 on the others; so negative
positions are safe. -/
theorem C53_f32 (s : List K) (x : K) :
    linearF32 s x = if 0 ≤ x ∧ x ≤ maxFloat32 then linear s x else some 0 := by
  unfold linearF32 linear
  by_cases h : x < 0 ∨ x > maxFloat32
  · rw [if_pos h, if_neg]
    rintro ⟨a, b⟩
    rcases h with h | h
    · exact absurd a (not_le.mpr h)
    · exact absurd b (not_le.mpr h)
  · rw [if_neg h]
    push Not at h
    rw [if_pos h]

/-- C53 does not hold for `LinearF32` either: its guard lets positions from 2^63 to `MaxFloat32`
through, and they panic on amd64. -/
theorem C53_violated_f32 (s : List K) (x : K) (hx : 9223372036854775808 ≤ x) (hm : x ≤ maxFloat32) : linearF32 s x = none := by
  rw [C53_f32, if_pos ⟨le_trans (by norm_num) hx, hm⟩, C53_violated_large s x hx]

example : linearF32 ([1, 2] : List ℚ) (10 ^ 20) = none := C53_violated_f32 _ _ (by norm_num) (by norm_num [maxFloat32])
example : linear ([1, 5, 3] : List ℚ) (3 / 2) = some 4 := by
  have h : ⌊(3 / 2 : ℚ)⌋ = 1 := by norm_num
  rw [C53_line_partial _ (by decide) _ (by norm_num) (by norm_num), Int.fract, h]
  have h2 : ext ([1, 5, 3] : List ℚ) (1 + 1) = 3 := rfl
  have h1 : ext ([1, 5, 3] : List ℚ) 1 = 5 := rfl
  rw [h1, h2]
  norm_num
example : linear ([1, 5] : List ℚ) (-1 / 10) = none := C53_violated _ _ (by norm_num)

end Linear

/-! ## Hermite interpolation -/

/-- The piece of the interpolant on `[n, n+1]` at `n + t`. -/
noncomputable def herm (s : Int → ℝ) (n : Int) (t : ℝ) : ℝ :=
  (((1 / 2 * (s (n + 2) - s (n - 1)) + 3 / 2 * (s n - s (n + 1))) * t
    + (s (n - 1) - 5 / 2 * s n + 2 * s (n + 1) - 1 / 2 * s (n + 2))) * t + 1 / 2 * (s (n + 1) - s (n - 1))) * t + s n

theorem hermite_eq (s : List ℝ) (hl : s.length < 4611686018427387904) {x : ℝ} (hx : 0 ≤ x) :
    hermite s x = herm (ext s) ⌊x⌋ (Int.fract x) := by
  unfold hermite herm
  simp only [tap_goInt s hl hx (i := -1) (by omega) (by omega), tap_goInt s hl hx (i := 0) (by omega) (by omega),
    tap_goInt s hl hx (i := 1) (by omega) (by omega), tap_goInt s hl hx (i := 2) (by omega) (by omega), Int.add_zero,
    Int.self_sub_floor, ← sub_eq_add_neg]

theorem herm_zero (s : Int → ℝ) (n : Int) : herm s n 0 = s n := by
  unfold herm
  ring

theorem herm_one (s : Int → ℝ) (n : Int) : herm s n 1 = s (n + 1) := by
  unfold herm
  ring

/-- On the closed interval between two positions the interpolant is one cubic. -/
theorem hermite_piece (s : List ℝ) (hl : s.length < 4611686018427387904) (n : Int) (hn : 0 ≤ n) {x : ℝ}
    (h1 : (n : ℝ) ≤ x) (h2 : x ≤ n + 1) : hermite s x = herm (ext s) n (x - n) := by
  have h0 : 0 ≤ x := le_trans (by exact_mod_cast hn) h1
  rw [hermite_eq s hl h0]
  rcases lt_or_eq_of_le h2 with h2 | h2
  · have hf : ⌊x⌋ = n := Int.floor_eq_iff.mpr ⟨h1, h2⟩
    rw [Int.fract, hf]
  · have hf : ⌊x⌋ = n + 1 := Int.floor_eq_iff.mpr ⟨by push_cast; linarith, by push_cast; linarith⟩
    rw [Int.fract, hf]
    have e1 : x - ((n + 1 : Int) : ℝ) = 0 := by push_cast; linarith
    have e2 : x - n = 1 := by linarith
    rw [e1, e2, herm_zero, herm_one]

/-- C54: at an integer position the sample there is returned. -/
theorem C54_sample (s : List ℝ) (hl : s.length < 4611686018427387904) (n : Nat) (hn : n < s.length) :
    hermite s (n : ℝ) = s[n] := by
  rw [hermite_piece s hl n (by omega) (x := n) (by simp) (by simp)]
  simp [herm_zero, ext_nat, hn]

/-- C54: samples of a polynomial of degree at most two are interpolated exactly wherever the two
samples on either side exist. -/
theorem C54_quadratic (s : List ℝ) (hl : s.length < 4611686018427387904) (a b c : ℝ)
    (hs : ∀ k, (hk : k < s.length) → s[k] = a + b * k + c * k ^ 2) (x : ℝ) (h1 : 1 ≤ x) (h2 : x + 2 ≤ s.length) :
    hermite s x = a + b * x + c * x ^ 2 := by
  have h0 : 0 ≤ x := by linarith
  have hf1 : 1 ≤ ⌊x⌋ := Int.le_floor.mpr (by exact_mod_cast h1)
  have es : ∀ j : Int, 0 ≤ j → j < s.length → ext s j = a + b * j + c * (j : ℝ) ^ 2 := by
    intro j hj hj2
    obtain ⟨k, rfl⟩ := Int.eq_ofNat_of_zero_le hj
    have hk : k < s.length := by omega
    rw [ext_nat]
    simp [hk, hs k hk]
  have main : ∀ n : Int, 1 ≤ n → n + 2 < s.length → (n : ℝ) ≤ x → x ≤ n + 1 → hermite s x = a + b * x + c * x ^ 2 := by
    intro n hn hn2 hx1 hx2
    rw [hermite_piece s hl n (by omega) hx1 hx2]
    unfold herm
    rw [es (n + 2) (by omega) (by omega), es (n - 1) (by omega) (by omega), es n (by omega) (by omega), es (n + 1) (by omega) (by omega)]
    push_cast
    ring
  by_cases hlast : ⌊x⌋ + 2 < s.length
  · exact main ⌊x⌋ hf1 hlast (Int.floor_le x) (le_of_lt (Int.lt_floor_add_one x))
  · have hfl : (⌊x⌋ : ℝ) ≤ x := Int.floor_le x
    have hge : (s.length : ℝ) ≤ ⌊x⌋ + 2 := by exact_mod_cast not_lt.mp hlast
    have e : x = ⌊x⌋ := by linarith
    have e2 : (s.length : Int) = ⌊x⌋ + 2 := by
      have : (s.length : ℝ) = ((⌊x⌋ + 2 : Int) : ℝ) := by push_cast; linarith
      exact_mod_cast this
    rw [hermite_piece s hl ⌊x⌋ (by omega) (le_of_eq e.symm) (by linarith)]
    have : x - ⌊x⌋ = 0 := by linarith
    rw [this, herm_zero, es _ (by omega) (by omega), ← e]

/-- Derivative of the piece. -/
noncomputable def dherm (s : Int → ℝ) (n : Int) (t : ℝ) : ℝ :=
  3 * (1 / 2 * (s (n + 2) - s (n - 1)) + 3 / 2 * (s n - s (n + 1))) * t ^ 2
    + 2 * (s (n - 1) - 5 / 2 * s n + 2 * s (n + 1) - 1 / 2 * s (n + 2)) * t + 1 / 2 * (s (n + 1) - s (n - 1))

theorem dherm_zero (s : Int → ℝ) (n : Int) : dherm s n 0 = 1 / 2 * (s (n + 1) - s (n - 1)) := by
  unfold dherm
  ring

theorem dherm_one (s : Int → ℝ) (n : Int) : dherm s n 1 = 1 / 2 * (s (n + 2) - s n) := by
  unfold dherm
  ring

theorem herm_deriv (s : Int → ℝ) (n : Int) (x : ℝ) : HasDerivAt (fun x => herm s n (x - n)) (dherm s n (x - n)) x := by
  have hid : HasDerivAt (fun x : ℝ => x - n) 1 x := (hasDerivAt_id x).sub_const _
  have h := ((((hid.const_mul (1 / 2 * (s (n + 2) - s (n - 1)) + 3 / 2 * (s n - s (n + 1)))).add_const
    (s (n - 1) - 5 / 2 * s n + 2 * s (n + 1) - 1 / 2 * s (n + 2))).mul hid).add_const (1 / 2 * (s (n + 1) - s (n - 1)))).mul hid |>.add_const (s n)
  refine HasDerivAt.congr_deriv h ?_
  unfold dherm
  simp only [Pi.mul_apply]
  ring

theorem hermite_deriv_piece (s : List ℝ) (hl : s.length < 4611686018427387904) (n : Int) (hn : 0 ≤ n) {x : ℝ}
    (h1 : (n : ℝ) ≤ x) (h2 : x ≤ n + 1) :
    HasDerivWithinAt (hermite s) (dherm (ext s) n (x - n)) (Set.Icc (n : ℝ) (n + 1)) x :=
  (herm_deriv (ext s) n x).hasDerivWithinAt.congr (fun _ hy => hermite_piece s hl n hn hy.1 hy.2) (hermite_piece s hl n hn h1 h2)

/-- C54: from position 0 on the interpolant is continuous, also across samples and past the ends, where
the samples continue as zeros. -/
theorem C54_continuous_partial (s : List ℝ) (hl : s.length < 4611686018427387904) : ContinuousOn (hermite s) (Set.Ici 0) := by
  intro x hx
  have hx0 : 0 ≤ x := hx
  have hf0 := Int.floor_nonneg.mpr hx0
  have r := (hermite_deriv_piece s hl ⌊x⌋ hf0 (Int.floor_le x) (le_of_lt (Int.lt_floor_add_one x))).continuousWithinAt
  rcases lt_or_eq_of_le (Int.floor_le x) with h | h
  · exact (r.continuousAt (Icc_mem_nhds h (Int.lt_floor_add_one x))).continuousWithinAt
  · rcases lt_or_eq_of_le hf0 with h0 | h0
    · have l := (hermite_deriv_piece s hl (⌊x⌋ - 1) (by omega) (x := x) (by push_cast; linarith) (by push_cast; linarith)).continuousWithinAt
      have u := l.union r
      refine (u.continuousAt ?_).continuousWithinAt
      refine Filter.mem_of_superset (Icc_mem_nhds (a := x - 1) (b := x + 1) (by linarith) (by linarith)) ?_
      intro y hy
      rcases le_total y x with hyx | hyx
      · left
        constructor
        · push_cast; linarith [hy.1]
        · push_cast; linarith
      · right
        exact ⟨by linarith, by linarith [hy.2]⟩
    · have e : x = 0 := by rw [← h, ← h0]; simp
      refine r.mono_of_mem_nhdsWithin ?_
      rw [← h0, e, mem_nhdsWithin]
      refine ⟨Set.Iio 1, isOpen_Iio, by simp, ?_⟩
      rintro y ⟨hy1, hy2⟩
      refine ⟨by simpa using hy2, ?_⟩
      have : y < 1 := hy1
      push_cast
      linarith

/-- C54: the interpolant has no corners either: at sample `n` its derivative exists and is half the
difference of the neighbouring samples. -/
theorem C54_slope (s : List ℝ) (hl : s.length < 4611686018427387904) (n : Nat) (hn : 1 ≤ n) :
    HasDerivAt (hermite s) ((ext s (n + 1) - ext s (n - 1)) / 2) (n : ℝ) := by
  have l := hermite_deriv_piece s hl ((n : Int) - 1) (by omega) (x := (n : ℝ)) (by push_cast; linarith) (by push_cast; linarith)
  have r := hermite_deriv_piece s hl (n : Int) (by omega) (x := (n : ℝ)) (by push_cast; linarith) (by push_cast; linarith)
  have e1 : ((n : ℝ) - (((n : Int) - 1 : Int) : ℝ)) = 1 := by push_cast; ring
  have e2 : ((n : ℝ) - ((n : Int) : ℝ)) = 0 := by push_cast; ring
  have e3 : ((n : Int) - 1 + 2) = (n : Int) + 1 := by ring
  rw [e1, dherm_one, e3] at l
  rw [e2, dherm_zero] at r
  have u := (l.union r).hasDerivAt (x := (n : ℝ)) (by
    refine Filter.mem_of_superset (Icc_mem_nhds (a := (n : ℝ) - 1) (b := (n : ℝ) + 1) (by linarith) (by linarith)) ?_
    intro y hy
    rcases le_total y n with hyx | hyx
    · left
      constructor
      · push_cast; linarith [hy.1]
      · push_cast; linarith
    · right
      exact ⟨by push_cast; linarith, by push_cast; linarith [hy.2]⟩)
  refine u.congr_deriv ?_
  ring

/-- C54 does not hold for negative positions: between −1 and 0 the value one sample later is
returned. -/
theorem C54_violated_shift (s : List ℝ) (x : ℝ) (h1 : -1 < x) (h2 : x < 0) : hermite s x = hermite s (x + 1) := by
  have f1 : ⌊x⌋ = -1 := Int.floor_eq_iff.mpr ⟨by push_cast; linarith, by push_cast; linarith⟩
  have f2 : ⌊x + 1⌋ = 0 := Int.floor_eq_iff.mpr ⟨by push_cast; linarith, by push_cast; linarith⟩
  have g1 : goInt x = 0 := goInt_neg_unit h1 h2
  have g2 : goInt (x + 1) = 0 := by rw [goInt_of_nonneg (by linarith) (by omega), f2]
  unfold hermite
  rw [g1, g2, f1, f2]
  push_cast
  ring_nf

/-- C54 does not hold: the interpolant jumps at position 0 for all samples whose first two differ. -/
theorem C54_violated (s : List ℝ) (hl : s.length < 4611686018427387904) (hs : ext s 0 ≠ ext s 1) : ¬ ContinuousAt (hermite s) 0 := by
  intro hc
  have h0 : hermite s 0 = ext s 0 := by
    have := hermite_piece s hl 0 (by omega) (x := 0) (by simp) (by simp)
    rw [this]
    simp [herm_zero]
  have t1 : Filter.Tendsto (hermite s) (nhdsWithin 0 (Set.Iio 0)) (nhds (ext s 0)) := by
    rw [← h0]
    exact hc.continuousWithinAt
  have hcont : Continuous fun x : ℝ => herm (ext s) 0 (x + 1) := by
    unfold herm
    fun_prop
  have t2 : Filter.Tendsto (hermite s) (nhdsWithin 0 (Set.Iio 0)) (nhds (ext s 1)) := by
    have h : Filter.Tendsto (fun x : ℝ => herm (ext s) 0 (x + 1)) (nhdsWithin 0 (Set.Iio 0)) (nhds (ext s 1)) := by
      have := (hcont.tendsto 0).mono_left (nhdsWithin_le_nhds (s := Set.Iio (0 : ℝ)))
      rwa [zero_add, herm_one, zero_add] at this
    refine h.congr' ?_
    have hm : Set.Ioo (-1 : ℝ) 0 ∈ nhdsWithin (0 : ℝ) (Set.Iio 0) := Ioo_mem_nhdsLT (by norm_num)
    filter_upwards [hm] with x hx
    rw [C54_violated_shift s x hx.1 hx.2, hermite_piece s hl 0 (by omega) (x := x + 1) (by push_cast; linarith [hx.1]) (by push_cast; linarith [hx.2])]
    simp
  exact hs (tendsto_nhds_unique t1 t2)

example : ext ([0, 1] : List ℝ) 0 ≠ ext ([0, 1] : List ℝ) 1 := by norm_num [ext]
example : hermite ([0, 1, 4, 9] : List ℝ) (3 / 2) = 9 / 4 := by
  rw [C54_quadratic _ (by decide) 0 0 1 _ _ (by norm_num) (by norm_num)]
  · norm_num
  · intro k hk
    have : k = 0 ∨ k = 1 ∨ k = 2 ∨ k = 3 := by simp at hk; omega
    rcases this with h | h | h | h <;> subst h <;> norm_num

end Verif.Interp
