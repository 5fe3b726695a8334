import Verif.Window.WindowModel
import Mathlib.Tactic.Linarith
import Mathlib.Tactic.LinearCombination
import Mathlib.Tactic.FieldSimp
import Mathlib.Tactic.NormNum

/-!
# Properties C55 and C56 of the window functions
-/

namespace Verif.Window
open Real

/-- Specification of a window of `len` numbers: symmetric, between `lo` and 1, equal to `lo` at both
ends and to 1 in the middle of an odd length. -/
structure IsWindow (w : List (Option ℝ)) (len : Nat) (lo : ℝ) : Prop where
  length : w.length = len
  finite : ∀ n < len, ∃ v, w[n]? = some (some v) ∧ lo ≤ v ∧ v ≤ 1
  symmetric : ∀ n < len, w[len - 1 - n]? = w[n]?
  first : w[0]? = some (some lo)
  last : w[len - 1]? = some (some lo)
  middle : ∀ h, len = 2 * h + 1 → w[h]? = some (some 1)

/-- The angle of element `n`. -/
noncomputable def angle (len n : Nat) : ℝ := 2 * π * n / ((len : ℝ) - 1)

theorem len_ne (len : Nat) (h : 2 ≤ len) : (len : ℝ) - 1 ≠ 0 := by
  have : (2 : ℝ) ≤ len := by exact_mod_cast h
  linarith

theorem cos_symm (len n : Nat) (h : 2 ≤ len) (hn : n < len) : cos (angle len (len - 1 - n)) = cos (angle len n) := by
  have hne := len_ne len h
  have e : ((len - 1 - n : Nat) : ℝ) = (len : ℝ) - 1 - n := by
    rw [Nat.cast_sub (by omega), Nat.cast_sub (by omega)]
    simp
  have : angle len (len - 1 - n) = 2 * π - angle len n := by
    unfold angle
    rw [e]
    field_simp
  rw [this, cos_two_pi_sub]

theorem cos_first (len : Nat) : cos (angle len 0) = 1 := by simp [angle]

theorem cos_last (len : Nat) (h : 2 ≤ len) : cos (angle len (len - 1)) = 1 := by
  have := cos_symm len 0 h (by omega)
  rw [Nat.sub_zero] at this
  rw [this, cos_first]

theorem cos_middle (h : Nat) (h1 : 1 ≤ h) : cos (angle (2 * h + 1) h) = -1 := by
  have hh : (h : ℝ) ≠ 0 := by
    have : (1 : ℝ) ≤ h := by exact_mod_cast h1
    linarith
  have : angle (2 * h + 1) h = π := by
    unfold angle
    push_cast
    field_simp
    ring
  rw [this, cos_pi]

/-- A list given as a function of the cosine of the angle is a window. -/
theorem isWindow_of_cos (f : ℝ → ℝ) (lo : ℝ) (w : Nat → Option ℝ) (len : Nat) (h : 2 ≤ len)
    (hw : ∀ n < len, w n = some (f (cos (angle len n)))) (hb : ∀ c, -1 ≤ c → c ≤ 1 → lo ≤ f c ∧ f c ≤ 1) (h1 : f 1 = lo) (hm : f (-1) = 1) :
    IsWindow ((List.range len).map w) len lo := by
  have g : ∀ n < len, ((List.range len).map w)[n]? = some (some (f (cos (angle len n)))) := by
    intro n hn
    rw [List.getElem?_map, List.getElem?_range hn, Option.map_some, hw n hn]
  refine ⟨by simp, ?_, ?_, ?_, ?_, ?_⟩
  · intro n hn
    exact ⟨_, g n hn, hb _ (neg_one_le_cos _) (cos_le_one _)⟩
  · intro n hn
    rw [g n hn, g _ (by omega), cos_symm len n h hn]
  · rw [g 0 (by omega), cos_first, h1]
  · rw [g _ (by omega), cos_last len h, h1]
  · intro k hk
    subst hk
    rw [g k (by omega), cos_middle k (by omega), hm]

theorem fdiv_ok (len : Nat) (h : 2 ≤ len) (x : ℝ) : fdiv x ((len : ℝ) - 1) = some (x / ((len : ℝ) - 1)) := if_neg (len_ne len h)

/-- Element of a cosine-sum window as a function of the cosine of the angle. -/
theorem windowAt_eq (a : List ℝ) (len n : Nat) (h : 2 ≤ len) :
    windowAt a len n = some (a.getD 0 0 - a.getD 1 0 * cos (angle len n) + a.getD 2 0 * (2 * cos (angle len n) ^ 2 - 1)
      - a.getD 3 0 * (4 * cos (angle len n) ^ 3 - 3 * cos (angle len n))) := by
  have t : ∀ (k : Nat) (sg m v : ℝ), windowTerm a k sg m n ((len : ℝ) - 1) (some v) =
      some (v + sg * (a.getD k 0 * cos (m * π * n / ((len : ℝ) - 1)))) := by
    intro k sg m v
    unfold windowTerm
    split
    · rw [Option.bind_some, fdiv_ok len h, Option.map_some]
    · rename_i hk
      have : a.getD k 0 = 0 := by
        rw [List.getD_eq_getElem?_getD, List.getElem?_eq_none (by omega), Option.getD_none]
      rw [this]
      simp
  unfold windowAt
  simp only [t]
  have c2 : 4 * π * n / ((len : ℝ) - 1) = 2 * angle len n := by unfold angle; ring
  have c3 : 6 * π * n / ((len : ℝ) - 1) = 3 * angle len n := by unfold angle; ring
  have c1 : 2 * π * n / ((len : ℝ) - 1) = angle len n := rfl
  rw [c1, c2, c3, cos_two_mul, cos_three_mul]
  refine congrArg some ?_
  ring

theorem window_ok (len : Nat) (a : List ℝ) (h1 : 1 ≤ a.length) (h2 : a.length ≤ 4) :
    window len a = some ((List.range len).map (windowAt a len)) := if_neg (by omega)

/-- C55, Hamming: ends 0.07672. -/
theorem C55_hamming (len : Nat) (h : 2 ≤ len) : ∃ w, hamming len = some w ∧ IsWindow w len 0.07672 := by
  refine ⟨_, window_ok _ _ (by simp) (by simp), isWindow_of_cos (fun c => 0.53836 - 0.46164 * c) _ _ _ h ?_ ?_ (by norm_num) (by norm_num)⟩
  · intro n _
    rw [windowAt_eq _ _ _ h]
    refine congrArg some ?_
    simp only [List.getD_cons_zero, List.getD_cons_succ, List.getD_nil]
    ring
  · intro c h1 h2
    constructor <;> norm_num <;> linarith

/-- C55, Hanning: ends 0. -/
theorem C55_hanning (len : Nat) (h : 2 ≤ len) : IsWindow (hanning len) len 0 := by
  refine isWindow_of_cos (fun c => 0.5 * (1 - c)) _ _ _ h ?_ ?_ (by norm_num) (by norm_num)
  · intro n _
    rw [hanningAt, fdiv_ok len h, Option.map_some]
    rfl
  · intro c h1 h2
    constructor <;> norm_num <;> linarith

/-- C55, Blackman: ends 0. -/
theorem C55_blackman (len : Nat) (h : 2 ≤ len) : ∃ w, blackman len = some w ∧ IsWindow w len 0 := by
  refine ⟨_, window_ok _ _ (by simp) (by simp), isWindow_of_cos (fun c => 0.34 - 0.5 * c + 0.16 * c ^ 2) _ _ _ h ?_ ?_ (by norm_num) (by norm_num)⟩
  · intro n _
    rw [windowAt_eq _ _ _ h]
    refine congrArg some ?_
    simp
    ring
  · intro c h1 h2
    norm_num
    constructor <;> nlinarith

/-- C55, Nuttall: ends 0. -/
theorem C55_nuttall (len : Nat) (h : 2 ≤ len) : ∃ w, nuttall len = some w ∧ IsWindow w len 0 := by
  refine ⟨_, window_ok _ _ (by simp) (by simp), isWindow_of_cos (fun c => 0.211536 - 0.449584 * c + 0.288464 * c ^ 2 - 0.050416 * c ^ 3) _ _ _ h ?_ ?_
    (by norm_num) (by norm_num)⟩
  · intro n _
    rw [windowAt_eq _ _ _ h]
    refine congrArg some ?_
    simp
    ring
  · intro c h1 h2
    norm_num
    constructor <;> nlinarith [mul_nonneg (by linarith : 0 ≤ 1 - c) (by linarith : 0 ≤ 1 + c), sq_nonneg (1 - c), sq_nonneg (1 + c),
      mul_nonneg (sq_nonneg (1 - c)) (by linarith : 0 ≤ 1 - c), mul_nonneg (sq_nonneg (1 + c)) (by linarith : 0 ≤ 1 - c),
      mul_nonneg (sq_nonneg (1 - c)) (by linarith : 0 ≤ 1 + c)]

theorem triangleAt_eq (len n : Nat) : triangleAt len n = some (1 - |((n : ℝ) - ((len : ℝ) - 1) / 2) / (((len : ℝ) + 1) / 2)|) := by
  have : ((len : ℝ) + 1) / 2 ≠ 0 := by positivity
  rw [triangleAt, fdiv, if_neg this, Option.map_some]

/-- C55, triangle: ends 2/(len+1).  It holds for length 1 as well. -/
theorem C55_triangle (len : Nat) (h : 1 ≤ len) : IsWindow (triangle len) len (2 / (len + 1)) := by
  have hp : (0 : ℝ) < (len : ℝ) + 1 := by positivity
  have hl : (1 : ℝ) ≤ len := by exact_mod_cast h
  have g : ∀ n < len, (triangle len)[n]? = some (some (1 - |((n : ℝ) - ((len : ℝ) - 1) / 2) / (((len : ℝ) + 1) / 2)|)) := by
    intro n hn
    rw [triangle, List.getElem?_map, List.getElem?_range hn, Option.map_some, triangleAt_eq]
  have g' : ∀ n < len, (triangle len)[n]? = some (some (1 - |2 * (n : ℝ) - ((len : ℝ) - 1)| / ((len : ℝ) + 1))) := by
    intro n hn
    rw [g n hn]
    have : ((n : ℝ) - ((len : ℝ) - 1) / 2) / (((len : ℝ) + 1) / 2) = (2 * (n : ℝ) - ((len : ℝ) - 1)) / ((len : ℝ) + 1) := by
      field_simp
    rw [this, abs_div, abs_of_pos hp]
  have e : ∀ n < len, ((len - 1 - n : Nat) : ℝ) = (len : ℝ) - 1 - n := by
    intro n hn
    rw [Nat.cast_sub (by omega), Nat.cast_sub (by omega)]
    simp
  have end0 : 1 - |((len : ℝ) - 1)| / ((len : ℝ) + 1) = 2 / (len + 1) := by
    rw [abs_of_nonneg (by linarith)]
    field_simp
    ring
  refine ⟨by simp [triangle], ?_, ?_, ?_, ?_, ?_⟩
  · intro n hn
    refine ⟨_, g' n hn, ?_, ?_⟩
    · have hn' : (n : ℝ) + 1 ≤ len := by exact_mod_cast hn
      have hn0 : (0 : ℝ) ≤ n := by positivity
      have : |2 * (n : ℝ) - ((len : ℝ) - 1)| ≤ len - 1 := abs_le.mpr ⟨by linarith, by linarith⟩
      rw [div_le_iff₀ hp, sub_mul, div_mul_cancel₀ _ (ne_of_gt hp)]
      linarith
    · have := div_nonneg (abs_nonneg (2 * (n : ℝ) - ((len : ℝ) - 1))) (le_of_lt hp)
      linarith
  · intro n hn
    rw [g' n hn, g' _ (by omega), e n hn]
    have : 2 * ((len : ℝ) - 1 - n) - ((len : ℝ) - 1) = -(2 * (n : ℝ) - ((len : ℝ) - 1)) := by ring
    rw [this, abs_neg]
  · rw [g' 0 (by omega)]
    have : 2 * ((0 : Nat) : ℝ) - ((len : ℝ) - 1) = -((len : ℝ) - 1) := by push_cast; ring
    rw [this, abs_neg, end0]
  · rw [g' _ (by omega)]
    have := e 0 (by omega)
    rw [Nat.sub_zero] at this
    rw [this]
    have : 2 * ((len : ℝ) - 1 - ((0 : Nat) : ℝ)) - ((len : ℝ) - 1) = ((len : ℝ) - 1) := by push_cast; ring
    rw [this, end0]
  · intro k hk
    subst hk
    rw [g' k (by omega)]
    push_cast
    ring_nf
    simp

/-- C55: `window` accepts one to four coefficients and panics otherwise. -/
theorem C55_coefficients (len : Nat) (a : List ℝ) : (window len a).isSome ↔ 1 ≤ a.length ∧ a.length ≤ 4 := by
  unfold window
  split
  · simp; omega
  · simp; omega

/-- Every element is a finite number. -/
def Finite (w : List (Option ℝ)) : Prop := ∀ v ∈ w, v ≠ none

theorem IsWindow.isFinite {w : List (Option ℝ)} {len : Nat} {lo : ℝ} (h : IsWindow w len lo) : Finite w := by
  intro v hv hn
  obtain ⟨n, hn2, e⟩ := List.getElem_of_mem hv
  obtain ⟨u, hu, -⟩ := h.finite n (by rw [← h.length]; exact hn2)
  rw [List.getElem?_eq_getElem hn2, e, hn] at hu
  simp at hu

/-- C56 does not hold: a window of length one is not a number, except the triangle. -/
theorem C56_violated : hamming 1 = some [none] ∧ hanning 1 = [none] ∧ blackman 1 = some [none] ∧ nuttall 1 = some [none] := by
  refine ⟨?_, ?_, ?_, ?_⟩
  · simp [hamming, window, windowAt, windowTerm, fdiv]
  · simp [hanning, hanningAt, fdiv]
  · simp [blackman, window, windowAt, windowTerm, fdiv]
  · simp [nuttall, window, windowAt, windowTerm, fdiv]

/-- C56 for every length other than one, and the triangle window for every length. -/
theorem C56_finite_partial (len : Nat) : Finite (triangle len) ∧ (len ≠ 1 → Finite (hanning len) ∧
    (∃ w, hamming len = some w ∧ Finite w) ∧ (∃ w, blackman len = some w ∧ Finite w) ∧ ∃ w, nuttall len = some w ∧ Finite w) := by
  constructor
  · rcases Nat.eq_zero_or_pos len with h | h
    · subst h
      intro v hv
      simp [triangle] at hv
    · exact (C55_triangle len h).isFinite
  · intro h1
    rcases Nat.eq_zero_or_pos len with h | h
    · subst h
      have e : Finite [] := fun v hv => by simp at hv
      refine ⟨?_, ⟨[], ?_, e⟩, ⟨[], ?_, e⟩, ⟨[], ?_, e⟩⟩
      · intro v hv
        simp [hanning] at hv
      · simp [hamming, window]
      · simp [blackman, window]
      · simp [nuttall, window]
    · have h2 : 2 ≤ len := by omega
      refine ⟨(C55_hanning len h2).isFinite, ?_, ?_, ?_⟩
      · obtain ⟨w, hw, hw2⟩ := C55_hamming len h2
        exact ⟨w, hw, hw2.isFinite⟩
      · obtain ⟨w, hw, hw2⟩ := C55_blackman len h2
        exact ⟨w, hw, hw2.isFinite⟩
      · obtain ⟨w, hw, hw2⟩ := C55_nuttall len h2
        exact ⟨w, hw, hw2.isFinite⟩

example : ∃ w, nuttall 5 = some w ∧ w[2]? = some (some 1) := by
  obtain ⟨w, h1, h2⟩ := C55_nuttall 5 (by decide)
  exact ⟨w, h1, h2.middle 2 rfl⟩

end Verif.Window
