import Verif.Dtmf.ToolProps

/-!
# Keys printed for stretches of blocks
-/

namespace Verif.Dtmf

variable {S : Type} [LT S] [DecidableLT S] [Zero S]

theorem printed_succ (r : Nat) (det : Nat → Nat × S) (n : Nat) :
    printed r det (n + 1) = printed r det n ++ (if Prints r det n then (keypad[(det n).1]?).toList else []) := by
  unfold printed
  rw [List.range_succ, List.filter_append, List.filterMap_append]
  congr 1
  by_cases h : Prints r det n
  · rw [if_pos h, List.filter_cons_of_pos (by simpa using h), List.filter_nil, List.filterMap_cons, List.filterMap_nil]
    cases keypad[(det n).1]? <;> rfl
  · rw [if_neg h, List.filter_cons_of_neg (by simpa using h)]
    rfl

theorem printed_quiet (r : Nat) (det : Nat → Nat × S) (x y : Nat) (hxy : x ≤ y) (h : ∀ i, x ≤ i → i < y → ¬ Prints r det i) :
    printed r det y = printed r det x := by
  induction y, hxy using Nat.le_induction with
  | base => rfl
  | succ y hy ih => rw [printed_succ, if_neg (h y hy (by omega)), List.append_nil, ih fun i h1 h2 => h i h1 (by omega)]

theorem printed_one (r : Nat) (det : Nat → Nat × S) (x y p : Nat) (c : Char) (hxp : x ≤ p) (hpy : p < y) (hp : Prints r det p)
    (hc : keypad[(det p).1]? = some c) (h : ∀ i, x ≤ i → i < y → i ≠ p → ¬ Prints r det i) : printed r det y = printed r det x ++ [c] := by
  rw [printed_quiet r det (p + 1) y (by omega) fun i h1 h2 => h i (by omega) h2 (by omega), printed_succ, if_pos hp, hc,
    printed_quiet r det x p hxp fun i h1 h2 => h i h1 (by omega) (by omega)]
  rfl

/-- From block `x` on, the blocks before the `n`-th are those of the presses: `(e, s, b, z, c)` stands for anything in the blocks `e` to
`s - 1`, the key `c` in the blocks `s` to `b`, anything in the blocks `b + 1` to `z - 1`; anything is at most `g` blocks. -/
def Rings (r g : Nat) (det : Nat → Nat × S) (n : Nat) : Nat → List (Nat × Nat × Nat × Nat × Char) → Prop
  | x, [] => ∀ i, x ≤ i → i < n → ¬ (det i).2 > 0
  | x, (e, s, b, z, c) :: rest => (x < e ∨ (x = 0 ∧ e = 0)) ∧ (∀ i, x ≤ i → i < e → ¬ (det i).2 > 0) ∧ e ≤ s ∧ s ≤ e + g ∧ s + r ≤ b ∧ b < n ∧ b < z ∧
      z ≤ b + 1 + g ∧ (∀ i, s ≤ i → i ≤ b → keypad[(det i).1]? = some c ∧ (det i).2 > 0) ∧ Rings r g det n z rest

omit [DecidableLT S] in
theorem not_prints_of_quiet {r : Nat} (hr : 0 < r) {det : Nat → Nat × S} {i : Nat} (h : ¬ (det i).2 > 0) : ¬ Prints r det i :=
  fun hp => h (hp.1 0 hr).2.2

/-- The key numbers of a block are determined by their character. -/
theorem keypad_inj {i j : Nat} {c : Char} (hi : keypad[i]? = some c) (hj : keypad[j]? = some c) : i = j := by
  have hn : keypad.Nodup := by decide
  obtain ⟨h1, h2⟩ := List.getElem?_eq_some_iff.1 hi
  obtain ⟨h3, h4⟩ := List.getElem?_eq_some_iff.1 hj
  exact (List.Nodup.getElem_inj_iff hn).1 (h2.trans h4.symm)

/-- The first block of a run that ends at `a`. -/
theorem run_start (P : Nat → Prop) [DecidablePred P] (a : Nat) (lo : Nat) (hlo : lo ≤ a) (h : ¬ P lo) : ∃ r, lo ≤ r ∧ r ≤ a ∧ ¬ P r ∧ ∀ i, r < i → i ≤ a → P i := by
  induction a, hlo using Nat.le_induction with
  | base => exact ⟨lo, le_rfl, le_rfl, h, fun i h1 h2 => by omega⟩
  | succ a ha ih =>
    obtain ⟨r, r1, r2, r3, r4⟩ := ih
    by_cases hp : P (a + 1)
    · refine ⟨r, r1, by omega, r3, fun i h1 h2 => ?_⟩
      rcases Nat.lt_or_ge a i with h | h
      · rwa [show i = a + 1 by omega]
      · exact r4 i h1 h
    · exact ⟨a + 1, by omega, le_rfl, hp, fun i h1 h2 => by omega⟩

/-- Presses in the blocks are printed, each once. -/
theorem rings_printed (r g : Nat) (hr : g < r) (det : Nat → Nat × S) (n : Nat) (ps : List (Nat × Nat × Nat × Nat × Char)) :
    ∀ x, Rings r g det n x ps → printed r det n = printed r det (min x n) ++ ps.map (fun p => p.2.2.2.2) := by
  induction ps with
  | nil =>
    intro x h
    rw [List.map_nil, List.append_nil]
    exact printed_quiet r det _ _ (by omega) fun i h1 h2 => not_prints_of_quiet (by omega) (h i (by omega) h2)
  | cons p rest ih =>
    intro x h
    obtain ⟨e, a, b, z, c⟩ := p
    obtain ⟨h1, h2, he, ha, h3, h4, hb, hz, h5, h6⟩ := h
    rw [ih _ h6, List.map_cons]
    have hxn : min x n ≤ e := by omega
    have hq : ¬ Confirmed det (e - 1) := by
      rcases h1 with h1 | ⟨-, rfl⟩
      · exact fun hc => h2 (e - 1) (by omega) (by omega) hc.2.2
      · exact fun hc => absurd hc.1 (by omega)
    have hcf : ∀ i, a + 1 ≤ i → i ≤ b → Confirmed det i := fun i i1 i2 =>
      ⟨by omega, keypad_inj (h5 i (by omega) i2).1 (h5 (i - 1) (by omega) (by omega)).1, (h5 i (by omega) i2).2⟩
    obtain ⟨s, s1, s2, s3, s4⟩ := run_start (Confirmed det) a (e - 1) (by omega) hq
    have hrun : ∀ i, s < i → i ≤ b → Confirmed det i := fun i i1 i2 => by
      rcases Nat.lt_or_ge a i with h | h
      · exact hcf i (by omega) i2
      · exact s4 i i1 h
    have hp : Prints r det (s + r) := C87_heard r det s s3 fun j hj => hrun _ (by omega) (by omega)
    have key : printed r det (min z n) = printed r det (min x n) ++ [c] := by
      refine printed_one r det _ _ (s + r) c (by omega) (by omega) hp (h5 _ (by omega) (by omega)).1 fun i i1 i2 i3 hpi => ?_
      rcases Nat.lt_or_ge i e with hie | hie
      · rcases Nat.lt_or_ge i x with hix | hix
        · omega
        · exact not_prints_of_quiet (by omega) (h2 i hix hie) hpi
      rcases Nat.lt_or_ge (s + r) i with hgt | hle
      · exact hpi.2 (hrun _ (by omega) (by omega))
      · rcases Nat.lt_or_ge i s with his | his
        · have := hpi.1 (i - (e - 1)) (by omega)
          rw [show i - (i - (e - 1)) = e - 1 by omega] at this
          exact hq this
        · have := hpi.1 (i - s) (by omega)
          rw [show i - (i - s) = s by omega] at this
          exact s3 this
    rw [key, List.append_assoc]
    rfl

end Verif.Dtmf
