import Verif.Interp.InterpModel
import Mathlib.Tactic.Linarith
import Mathlib.Tactic.NormNum
import Mathlib.Tactic.Positivity

/-!
# Specification and lemmas for the interpolators
-/

set_option linter.unusedSectionVars false

namespace Verif.Interp
open Verif.Angle

variable {K : Type*} [Field K] [LinearOrder K] [IsStrictOrderedRing K] [FloorRing K]

/-- Specification: the samples continued by zeros on both sides. -/
def ext (s : List K) (j : Int) : K := if 0 ≤ j then s.getD j.toNat 0 else 0

omit [IsStrictOrderedRing K] in
theorem trunc_of_nonneg {x : K} (h : 0 ≤ x) : trunc x = ⌊x⌋ := if_pos h

omit [IsStrictOrderedRing K] in
theorem trunc_of_neg {x : K} (h : x < 0) : trunc x = ⌈x⌉ := if_neg (not_le.mpr h)

theorem goInt_of_nonneg {x : K} (h : 0 ≤ x) (h2 : ⌊x⌋ < 9223372036854775808) : goInt x = ⌊x⌋ := by
  have := Int.floor_nonneg.mpr h
  rw [goInt, trunc_of_nonneg h, if_pos (by omega)]

theorem goInt_of_large {x : K} (h : 9223372036854775808 ≤ ⌊x⌋) : goInt x = -9223372036854775808 := by
  have h0 : 0 ≤ x := Int.floor_nonneg.mp (by omega)
  rw [goInt, trunc_of_nonneg h0, if_neg (by omega)]

theorem goInt_floor_neg {x : K} (h : x < 0) : goInt ((⌊x⌋ : Int) : K) ≤ -1 := by
  have hf : ⌊x⌋ < 0 := Int.floor_lt.mpr (by simpa using h)
  have hc : ((⌊x⌋ : Int) : K) < 0 := by exact_mod_cast hf
  unfold goInt
  rw [trunc_of_neg hc, Int.ceil_intCast]
  split <;> omega

theorem goInt_neg_unit {x : K} (h1 : -1 < x) (h2 : x < 0) : goInt x = 0 := by
  have : ⌈x⌉ = 0 := Int.ceil_eq_zero_iff.mpr ⟨h1, le_of_lt h2⟩
  rw [goInt, trunc_of_neg h2, this, if_pos (by omega)]

omit [LinearOrder K] [IsStrictOrderedRing K] [FloorRing K] in
theorem index_lt (s : List K) {j : Int} (h0 : 0 ≤ j) (h : j < s.length) : index s j = some (ext s j) := by
  rw [index, if_pos h0, ext, if_pos h0, List.getElem?_eq_getElem (by omega), List.getD_eq_getElem?_getD,
    List.getElem?_eq_getElem (by omega), Option.getD_some]

omit [Field K] [LinearOrder K] [IsStrictOrderedRing K] [FloorRing K] in
theorem index_neg (s : List K) {j : Int} (h0 : j < 0) : index s j = none := if_neg (by omega)

omit [LinearOrder K] [IsStrictOrderedRing K] [FloorRing K] in
theorem ext_ge (s : List K) {j : Int} (h : s.length ≤ j) : ext s j = 0 := by
  rw [ext, if_pos (by omega), List.getD_eq_getElem?_getD, List.getElem?_eq_none (by omega), Option.getD_none]

omit [LinearOrder K] [IsStrictOrderedRing K] [FloorRing K] in
theorem ext_neg (s : List K) {j : Int} (h : j < 0) : ext s j = 0 := if_neg (by omega)

omit [LinearOrder K] [IsStrictOrderedRing K] [FloorRing K] in
theorem ext_nat (s : List K) (j : Nat) : ext s j = s.getD j 0 := by
  rw [ext, if_pos (by omega), Int.toNat_natCast]

theorem wrap_id {x : Int} (h : IsInt x) : wrap x = x := by
  unfold wrap
  unfold IsInt at h
  omega

theorem wrap_isInt (x : Int) : IsInt (wrap x) := by
  unfold wrap IsInt
  omega

omit [LinearOrder K] [IsStrictOrderedRing K] [FloorRing K] in
theorem highValue_eq (s : List K) {j : Int} (h0 : 0 ≤ j) (h : j + 1 < 9223372036854775808) :
    highValue s j = some (ext s (j + 1)) := by
  have e : wrap (j + 1) = j + 1 := wrap_id ⟨by omega, h⟩
  unfold highValue
  simp only [e]
  split
  · rw [ext_ge s (by omega)]
  · rw [index_lt s (by omega) (by omega)]

omit [LinearOrder K] [IsStrictOrderedRing K] [FloorRing K] in
/-- The taps are the continued samples, for every position an `int` can hold. -/
theorem tap_eq (s : List K) (hl : s.length < 4611686018427387904) {n i : Int} (hn : 0 ≤ n) (hn2 : n < 9223372036854775808)
    (hi : -4 ≤ i) (hi2 : i ≤ 4) : tap s n i = ext s (n + i) := by
  unfold tap
  by_cases h : n + i < 9223372036854775808
  · have e : wrap (n + i) = n + i := wrap_id ⟨by omega, h⟩
    simp only [e]
    by_cases hc : n + i ≥ 0 ∧ n + i < s.length
    · rw [if_pos hc, ext, if_pos hc.1]
    · rw [if_neg hc]
      by_cases h0 : n + i < 0
      · rw [ext_neg s h0]
      · rw [ext_ge s (by omega)]
  · have e : wrap (n + i) < 0 := by unfold wrap; omega
    simp only
    rw [if_neg (by omega), ext_ge s (by omega)]

omit [LinearOrder K] [IsStrictOrderedRing K] [FloorRing K] in
theorem tap_min (s : List K) (hl : s.length < 4611686018427387904) {i : Int} (hi : -4 ≤ i) (hi2 : i ≤ 4) :
    tap s (-9223372036854775808) i = 0 := by
  unfold tap
  simp only
  refine if_neg ?_
  unfold wrap
  omega

/-- Taps at any position from 0 on, however large. -/
theorem tap_goInt (s : List K) (hl : s.length < 4611686018427387904) {x : K} (hx : 0 ≤ x) {i : Int}
    (hi : -4 ≤ i) (hi2 : i ≤ 4) : tap s (goInt x) i = ext s (⌊x⌋ + i) := by
  by_cases h : ⌊x⌋ < 9223372036854775808
  · rw [goInt_of_nonneg hx h]
    exact tap_eq s hl (Int.floor_nonneg.mpr hx) h hi hi2
  · rw [goInt_of_large (by omega), tap_min s hl hi hi2, ext_ge s (by omega)]

end Verif.Interp
