import Verif.Asm.FuzzModel
import Verif.Asm.FromI16Props
import Verif.Conv.IeeeProps

/-!
# C105: what the fuzz target reports
-/

namespace Verif.Asm
open Verif.Conv Verif.Fp

variable {F D : Type}

/-- C105: a routine of either kind that returns is never reported by a panic, the only report go-fuzz takes notice of; the
result is 1 exactly if the elements of the two outputs agree. -/
theorem C105_result (ne : F → F → Bool) (zero two : F) (impl portable : Routine F) (data : List (BitVec 8)) (out exp : Nat → F)
    (h1 : impl (data.length / 2 * 2) (fun i => (data.take (data.length / 2 * 2)).getD i 0) (data.length / 2) (fun _ => zero) two = some out)
    (h2 : portable (data.length / 2 * 2) (fun i => (data.take (data.length / 2 * 2)).getD i 0) (data.length / 2) (fun _ => zero) two = some exp) :
    (fuzz ne zero two impl portable data = some 0 ∨ fuzz ne zero two impl portable data = some 1) ∧
      (fuzz ne zero two impl portable data = some 1 ↔ ∀ i < data.length / 2, ne (out i) (exp i) = false) := by
  have hl : (data.take (data.length / 2 * 2)).length = data.length / 2 * 2 := by
    rw [List.length_take]; omega
  have hl2 : data.length / 2 * 2 / 2 = data.length / 2 := by omega
  have e : fuzz ne zero two impl portable data =
      some (if (List.range (data.length / 2)).any (fun i => ne (out i) (exp i)) then 0 else 1) := by
    unfold fuzz
    simp only [hl, hl2, h1, h2, Option.bind_eq_bind, Option.bind_some]
  rw [e]
  by_cases h : (List.range (data.length / 2)).any (fun i => ne (out i) (exp i)) = true
  · rw [if_pos h]
    refine ⟨Or.inl rfl, iff_of_false (by simp) ?_⟩
    intro hall
    obtain ⟨i, hi, hn⟩ := List.any_eq_true.1 h
    rw [hall i (List.mem_range.1 hi)] at hn
    cases hn
  · rw [if_neg h]
    refine ⟨Or.inr rfl, iff_of_true rfl ?_⟩
    intro i hi
    rw [List.any_eq_true, not_exists] at h
    have := h i
    simpa [hi] using this

theorem neV_fin (s : Bool) (q : ℚ) : neV (.fin s q) (.fin s q) = false := by simp [neV]

theorem le16_range (a b : BitVec 8) : (le16 a.toNat b.toNat).natAbs ≤ 2 ^ 15 := by
  have h1 := a.isLt
  have h2 := b.isLt
  unfold le16
  split <;> omega

/-- C105: on amd64 the target accepts every input, with and without SSE4: the assembly is indistinguishable from the portable
code, in IEEE arithmetic, to the comparison that `Fuzz` makes. -/
theorem C105_accepts (o16 : Val → BitVec 16) (o8 : Val → BitVec 8) (bits : Val → BitVec 32) (sq : Val → Val) (useSSE4 : Bool)
    (data : List (BitVec 8)) :
    fuzz neV (.fin false 0) (.fin false 2) (amdRoutine (ieee o16 o8 bits sq) useSSE4) (goRoutine (ieee o16 o8 bits sq)) data = some 1 := by
  obtain ⟨t, ht, -, -, hom⟩ := C23_i16bleToF32 (ieee o16 o8 bits sq) useSSE4 (data.length / 2 * 2) (data.length / 2) (.fin false 2)
    (fun i => (data.take (data.length / 2 * 2)).getD i 0) (fun _ => .fin false 0)
  have hgo := (C23_agrees_portable (ieee o16 o8 bits sq) useSSE4 (data.length / 2 * 2) (data.length / 2) (.fin false 2) (.fin false 2)
    (fun i => (data.take (data.length / 2 * 2)).getD i 0) (fun _ => .fin false 0) (fun _ => .fin false 0)).2
  refine ((C105_result neV _ _ _ _ data t.om t.om ?_ ?_).2).2 ?_
  · unfold amdRoutine
    rw [ht]; rfl
  · unfold goRoutine
    rw [← hgo, ht]; rfl
  · intro i hi
    have hm : min (data.length / 2 * 2 / 2) (data.length / 2) = data.length / 2 := by omega
    rw [hom, hm, fill, if_pos ⟨Nat.zero_le _, by omega⟩]
    simp only [ieee]
    have hb := le16_range ((data.take (data.length / 2 * 2)).getD (2 * (i - 0)) 0) ((data.take (data.length / 2 * 2)).getD (2 * (i - 0) + 1) 0)
    generalize le16 _ _ = v at hb ⊢
    rw [ofInt_exact v (by omega)]
    have hr := round_exact binary32 (decide (v < 0)) v.natAbs 1 (lt_of_le_of_lt hb (by decide)) (by decide) (by
      have : (v.natAbs : ℚ) ≤ 2 ^ 15 := by exact_mod_cast hb
      have h2 : (2 : ℚ) ^ 17 ≤ 2 ^ (binary32.emax + 1) := by
        simp only [binary32]; norm_num
      refine lt_of_lt_of_le ?_ h2
      rw [zpow_one]
      linarith)
    rw [zpow_one] at hr
    have e : mul binary32 (.fin (decide (v < 0)) v.natAbs) (.fin false 2) = .fin (decide (v < 0)) (v.natAbs * 2) := by
      simp only [mul, Bool.bne_false]
      exact hr
    rw [e]
    exact neV_fin _ _

/-- Platforms where `I16bleToF32` jumps to the portable code (386, arm, arm64) are accepted likewise, their two routines being
the same. -/
theorem C105_accepts_same (ne : F → F → Bool) (zero two : F) (r : Routine F) (data : List (BitVec 8)) (out : Nat → F)
    (h : r (data.length / 2 * 2) (fun i => (data.take (data.length / 2 * 2)).getD i 0) (data.length / 2) (fun _ => zero) two = some out)
    (hrefl : ∀ i, ne (out i) (out i) = false) : fuzz ne zero two r r data = some 1 :=
  ((C105_result ne zero two r r data out out h h).2).2 fun i _ => hrefl i

example : fuzz (fun a b : Int => a != b) 0 2 (goRoutine intOps) (goRoutine intOps) [1, 2, 3] = some 1 := by decide

/-- C105 does not hold as one would hope: a wrong routine makes `Fuzz` return 0, which go-fuzz does not count as a failure;
no input panics. -/
theorem C105_violated_silent : ∃ impl : Routine Int, ∀ data : List (BitVec 8), 2 ≤ data.length →
    fuzz (fun a b => a != b) 0 2 impl (goRoutine intOps) data = some 0 := by
  refine ⟨fun a im b om c => (goRoutine intOps a im b om c).map fun m i => m i + 1, ?_⟩
  intro data hd
  obtain ⟨m, hm⟩ : ∃ m, goRoutine intOps (data.length / 2 * 2) (fun i => (data.take (data.length / 2 * 2)).getD i 0) (data.length / 2)
      (fun _ => 0) 2 = some m := ⟨_, C19_i16bleToF32 _ _ _ _ _ _⟩
  have h := C105_result (fun a b => a != b) (0 : Int) 2 (fun a im b om c => (goRoutine intOps a im b om c).map fun m i => m i + 1)
    (goRoutine intOps) data (fun i => m i + 1) m (by simp only [hm]; rfl) hm
  rcases h.1 with h0 | h1
  · exact h0
  · have := h.2.1 h1 0 (by omega)
    simp at this

/-- Only the scale 2 is tried: a routine that ignores its argument is accepted on every input. -/
theorem C105_violated_scale : ∃ impl : Routine Int, (∀ data : List (BitVec 8), fuzz (fun a b => a != b) 0 2 impl (goRoutine intOps) data = some 1) ∧
    impl 2 (fun _ => 1) 1 (fun _ => 0) 1 ≠ goRoutine intOps 2 (fun _ => 1) 1 (fun _ => 0) 1 := by
  refine ⟨fun a im b om _ => goRoutine intOps a im b om 2, ?_, ?_⟩
  · intro data
    obtain ⟨m, hm⟩ : ∃ m, goRoutine intOps (data.length / 2 * 2) (fun i => (data.take (data.length / 2 * 2)).getD i 0) (data.length / 2)
        (fun _ => 0) 2 = some m := ⟨_, C19_i16bleToF32 _ _ _ _ _ _⟩
    exact ((C105_result (fun a b => a != b) (0 : Int) 2 (fun a im b om _ => goRoutine intOps a im b om 2) (goRoutine intOps) data m m hm hm).2).2
      fun i _ => by simp
  · intro h
    have := congrArg (Option.map fun m => m 0) h
    revert this
    decide

end Verif.Asm
