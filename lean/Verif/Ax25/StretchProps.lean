import Verif.Ax25.StretchModel
import Verif.Ax25.EarModel
import Mathlib.Algebra.Field.Basic
import Mathlib.Tactic.FieldSimp
import Mathlib.Tactic.Ring

/-!
# C155: the interpolation of `examples/ax25.go`
-/

namespace Verif.Ax25.Stretch

section LawFree

variable {F : Type} [Add F] [Sub F] [Div F] [NatCast F]

/-- Repeated addition. -/
def ramp (d : F) : Nat → F → List F
  | 0, _ => []
  | k + 1, l => (l + d) :: ramp d k (l + d)

/-- The new samples. -/
def points (interp : Nat) : F → List F → List F
  | _, [] => []
  | l, s :: ss => ramp ((s - l) / (interp : F)) (interp - 1) l ++ s :: points interp s ss

theorem ramp_length (d : F) : ∀ (k : Nat) (l : F), (ramp d k l).length = k
  | 0, _ => rfl
  | k + 1, l => by rw [ramp, List.length_cons, ramp_length d k]

theorem store_append (pre old : List F) (y x : F) : store (pre ++ y :: old) pre.length x = some (pre ++ x :: old) := by
  unfold store
  rw [if_pos (by simp)]
  simp

theorem inner_eq (d : F) : ∀ (k : Nat) (pre old : List F) (l : F), k ≤ old.length →
    ∃ l', inner d k ⟨pre ++ old, pre.length, l⟩ = some ⟨pre ++ (ramp d k l ++ old.drop k), pre.length + k, l'⟩
  | 0, pre, old, l, _ => ⟨l, by simp [inner, ramp]⟩
  | k + 1, pre, [], l, h => by simp at h
  | k + 1, pre, y :: old, l, h => by
    obtain ⟨l', e⟩ := inner_eq d k (pre ++ [l + d]) old (l + d) (by simpa using h)
    refine ⟨l', ?_⟩
    rw [inner, store_append, Option.bind_some]
    simp only [List.append_assoc, List.singleton_append, List.length_append, List.length_singleton] at e
    rw [e, ramp, Nat.add_right_comm, Nat.add_assoc]
    simp

theorem turn_eq {interp : Nat} (hi : 1 ≤ interp) (pre old : List F) (l s : F) (h : interp ≤ old.length) :
    turn interp ⟨pre ++ old, pre.length, l⟩ s =
      some ⟨(pre ++ (ramp ((s - l) / (interp : F)) (interp - 1) l ++ [s])) ++ old.drop interp, (pre ++ (ramp ((s - l) / (interp : F)) (interp - 1) l ++ [s])).length,
        if 1 < interp then s else l⟩ := by
  unfold turn
  have hlen : (pre ++ (ramp ((s - l) / (interp : F)) (interp - 1) l ++ [s])).length = pre.length + (interp - 1) + 1 := by
    simp [ramp_length]
    omega
  obtain ⟨l', e⟩ := inner_eq ((s - l) / (interp : F)) (interp - 1) pre old l (by omega)
  have hdrop : ∃ y, old.drop (interp - 1) = y :: old.drop interp := by
    refine ⟨old[interp - 1]'(by omega), ?_⟩
    rw [List.drop_eq_getElem_cons (by omega), Nat.sub_add_cancel hi]
  obtain ⟨y, hy⟩ := hdrop
  have hst := store_append (pre ++ ramp ((s - l) / (interp : F)) (interp - 1) l) (old.drop interp) y s
  rw [List.length_append, ramp_length] at hst
  by_cases h1 : 1 < interp
  · rw [if_pos h1, if_pos h1, e]
    simp only [Option.map_some, Option.bind_some]
    rw [hy, ← List.append_assoc, hst, hlen]
    simp
  · have : interp = 1 := by omega
    subst this
    rw [if_neg h1, if_neg h1, Option.bind_some]
    simp only [Nat.sub_self, ramp, List.append_nil, List.nil_append, Nat.add_zero, List.drop_zero] at hst hy ⊢
    generalize old.drop 1 = tl at hy hst
    subst hy
    rw [hst]
    simp

theorem turns_eq {interp : Nat} (hi : 1 ≤ interp) : ∀ (ss pre old : List F) (l : F), ss.length * interp ≤ old.length →
    turns interp ⟨pre ++ old, pre.length, l⟩ ss =
      some ⟨(pre ++ points interp l ss) ++ old.drop (ss.length * interp), (pre ++ points interp l ss).length, if 1 < interp then ss.getLastD l else l⟩
  | [], pre, old, l, _ => by simp [turns, points]
  | s :: ss, pre, old, l, h => by
    rw [List.length_cons, Nat.succ_mul] at h
    rw [turns, turn_eq hi pre old l s (by omega), Option.bind_some, turns_eq hi ss _ _ _ (by rw [List.length_drop]; omega)]
    have hp : points interp (if 1 < interp then s else l) ss = points interp s ss := by
      by_cases h1 : 1 < interp
      · rw [if_pos h1]
      · have : interp = 1 := by omega
        subst this
        cases ss <;> simp [points, ramp]
    rw [hp, points, List.drop_drop, List.length_cons, Nat.succ_mul, Nat.add_comm interp]
    by_cases h1 : 1 < interp
    · simp [h1, List.append_assoc]
      cases ss <;> simp [List.getLast?_cons]
    · simp [h1, List.append_assoc]

theorem points_length {interp : Nat} (hi : 1 ≤ interp) : ∀ (ss : List F) (l : F), (points interp l ss).length = ss.length * interp
  | [], _ => by simp [points]
  | s :: ss, l => by
    rw [points, List.length_append, ramp_length, List.length_cons, points_length hi ss, List.length_cons, Nat.succ_mul]
    omega

theorem block_eq {interp window : Nat} (hi : 1 ≤ interp) (samples ss : List F) (last : F) (hs : ss.length = window) (h : window * interp ≤ samples.length) :
    block interp window samples last ss =
      some ⟨samples.drop (window * interp) ++ points interp last ss, samples.length, if 1 < interp then ss.getLastD last else last⟩ := by
  unfold block
  rw [if_pos h]
  have hl : (samples.drop (window * interp)).length = samples.length - window * interp := List.length_drop
  rw [← hl, turns_eq hi ss _ _ last (by rw [hs, List.length_drop, hl]; omega)]
  simp only [Option.some.injEq, St.mk.injEq, and_true]
  refine ⟨?_, ?_⟩
  · have : (samples.drop (samples.drop (window * interp)).length).drop (ss.length * interp) = [] :=
      List.drop_eq_nil_of_le (by rw [hs, List.length_drop, hl]; omega)
    rw [this, List.append_nil]
  · rw [List.length_append, hl, points_length hi, hs]
    omega

theorem points_sample {interp : Nat} (hi : 1 ≤ interp) : ∀ (ss : List F) (l : F) (i : Nat), i < ss.length → (points interp l ss)[(i + 1) * interp - 1]? = ss[i]?
  | [], _, _, h => by simp at h
  | s :: ss, l, 0, _ => by
    rw [points, Nat.zero_add, Nat.one_mul, List.getElem?_append_right (by rw [ramp_length]), ramp_length, Nat.sub_self]
    rfl
  | s :: ss, l, i + 1, h => by
    rw [points, List.getElem?_append_right (by rw [ramp_length]; have : interp ≤ (i + 1 + 1) * interp := Nat.le_mul_of_pos_left _ (by omega); omega), ramp_length,
      show (i + 1 + 1) * interp - 1 - (interp - 1) = ((i + 1) * interp - 1) + 1 by
        have : (i + 1 + 1) * interp = (i + 1) * interp + interp := Nat.succ_mul _ _
        have : interp ≤ (i + 1) * interp := Nat.le_mul_of_pos_left _ (by omega)
        omega, List.getElem?_cons_succ, List.getElem?_cons_succ]
    exact points_sample hi ss s i (by simpa using h)

/-- C155, in any arithmetic: for every factor from 1 on, with as many samples as a window has and room for them, a turn does not panic; it moves the samples by
`window * interp` places, fills exactly the places that become free, puts every sample that was read at the end of its group, unchanged, and remembers the last
one for the next turn. -/
theorem C155_places (interp window : Nat) (hi : 1 ≤ interp) (samples ss : List F) (last : F) (hs : ss.length = window) (h : window * interp ≤ samples.length) :
    ∃ new last', block interp window samples last ss = some ⟨samples.drop (window * interp) ++ new, samples.length, last'⟩ ∧ new.length = window * interp ∧
      (∀ i < window, new[(i + 1) * interp - 1]? = ss[i]?) ∧ (1 < interp → last' = ss.getLastD last) :=
  ⟨_, _, block_eq hi samples ss last hs h, by rw [points_length hi, hs], fun i h => points_sample hi ss last i (hs ▸ h), fun h => if_pos h⟩

/-- C155: with the factor 1 of the program the samples that were read are appended, which is the model of C139. -/
theorem C155_one (window : Nat) (samples ss : List F) (last : F) (hs : ss.length = window) (h : window ≤ samples.length) :
    block 1 window samples last ss = some ⟨samples.drop window ++ ss, samples.length, last⟩ := by
  have hp : ∀ (ss : List F) (l : F), points 1 l ss = ss := by
    intro ss
    induction ss with
    | nil => intro l; rfl
    | cons s ss ih => intro l; rw [points, ih]; rfl
  rw [block_eq (Nat.le_refl 1) samples ss last hs (by omega), hp, Nat.mul_one]
  rfl

end LawFree

/-! ## Exact arithmetic -/

variable {K : Type} [Field K]

theorem ramp_get (d : K) : ∀ (k : Nat) (l : K) (j : Nat), j < k → (ramp d k l)[j]? = some (l + ((j + 1 : Nat) : K) * d)
  | 0, _, _, h => by simp at h
  | k + 1, l, 0, _ => by simp [ramp]
  | k + 1, l, j + 1, h => by
    rw [ramp, List.getElem?_cons_succ, ramp_get d k (l + d) j (by omega)]
    push_cast
    congr 1
    ring

variable [CharZero K]

theorem points_line {interp : Nat} (hi : 1 ≤ interp) : ∀ (ss : List K) (l : K) (i j : Nat) (p s : K), (l :: ss)[i]? = some p → ss[i]? = some s → 1 ≤ j → j ≤ interp →
    (points interp l ss)[i * interp + j - 1]? = some (p + (j : K) * ((s - p) / (interp : K)))
  | [], _, i, _, _, _, _, h, _, _ => by simp at h
  | s :: ss, l, 0, j, p, q, hp, hq, h1, h2 => by
    simp only [List.getElem?_cons_zero, Option.some.injEq] at hp hq
    subst hp hq
    rw [points, Nat.zero_mul, Nat.zero_add]
    by_cases hj : j < interp
    · rw [List.getElem?_append_left (by rw [ramp_length]; omega), ramp_get _ _ _ _ (by omega), Nat.sub_add_cancel h1]
    · have : j = interp := by omega
      subst this
      rw [List.getElem?_append_right (by rw [ramp_length]), ramp_length, Nat.sub_self, List.getElem?_cons_zero]
      have : (j : K) ≠ 0 := Nat.cast_ne_zero.2 (by omega)
      congr 1
      field_simp
      ring
  | s :: ss, l, i + 1, j, p, q, hp, hq, h1, h2 => by
    rw [List.getElem?_cons_succ] at hp hq
    have := points_line hi ss s i j p q hp hq h1 h2
    rw [points, List.getElem?_append_right (by rw [ramp_length, Nat.succ_mul]; omega), ramp_length,
      show (i + 1) * interp + j - 1 - (interp - 1) = (i * interp + j - 1) + 1 by rw [Nat.succ_mul]; omega, List.getElem?_cons_succ]
    exact this

/-- C155, in exact arithmetic: the new samples lie on the straight lines between the samples that were read, the first of them starting from the last sample of
the turn before, at equal distances. -/
theorem C155_line (interp window : Nat) (hi : 1 ≤ interp) (samples ss : List K) (last : K) (hs : ss.length = window) (h : window * interp ≤ samples.length) :
    ∃ new last', block interp window samples last ss = some ⟨samples.drop (window * interp) ++ new, samples.length, last'⟩ ∧ new.length = window * interp ∧
      ∀ (i j : Nat) (p s : K), (last :: ss)[i]? = some p → ss[i]? = some s → 1 ≤ j → j ≤ interp →
        new[i * interp + j - 1]? = some (p + (j : K) / (interp : K) * (s - p)) := by
  refine ⟨_, _, block_eq hi samples ss last hs h, by rw [points_length hi, hs], fun i j p s hp hq h1 h2 => ?_⟩
  rw [points_line hi ss last i j p s hp hq h1 h2]
  congr 2
  ring

/-- Non-vacuity of `C155_places` and `C155_line`: a window of two samples, each made three. -/
example : block 3 2 [0, 0, 0, 0, 0, 0, 5, 6] (3 : ℚ) [9, 0] = some ⟨[5, 6, 5, 7, 9, 6, 3, 0], 8, 0⟩ := by
  have h := block_eq (F := ℚ) (interp := 3) (window := 2) (by decide) [0, 0, 0, 0, 0, 0, 5, 6] [9, 0] 3 rfl (by decide)
  rw [h]
  norm_num [points, ramp]

/-- Non-vacuity of `C155_one`: it is the reading of C139. -/
example (f : Ear.Front) (r : List Byte) (last : Fp.FVal Fp.binary32) (hs : f.samples.length = 36)
    (hr : (Ear.samplesOf (f.read r).buf).length = Ear.window) [Add (Fp.FVal Fp.binary32)] [Sub (Fp.FVal Fp.binary32)] [Div (Fp.FVal Fp.binary32)] [NatCast (Fp.FVal Fp.binary32)] :
    (block 1 Ear.window f.samples last (Ear.samplesOf (f.read r).buf)).map St.samples = some (f.read r).samples := by
  rw [C155_one Ear.window f.samples _ last hr (by rw [hs]; decide)]
  rfl

end Verif.Ax25.Stretch
