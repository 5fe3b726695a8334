import Verif.Conv.SliceModel
import Verif.Conv.SliceSpec

namespace Verif.Conv
variable {α σ : Type}

theorem forRange_states {n : Nat} {s : σ} {body : Nat → σ → Option σ} (S : Nat → σ) (h0 : S 0 = s)
    (h : ∀ i, i < n → body i (S i) = some (S (i + 1))) : forRange n s body = some (S n) := by
  induction n with
  | zero => simp [forRange, h0]
  | succ n ih =>
    rw [forRange, ih (fun i hi => h i (by omega))]
    simpa using h n (by omega)

/-- Loop rule with an invariant. -/
theorem forRange_inv {n : Nat} {s : σ} {body : Nat → σ → Option σ} (P : Nat → σ → Prop) (h0 : P 0 s)
    (h : ∀ i t, i < n → P i t → ∃ t', body i t = some t' ∧ P (i + 1) t') :
    ∃ t, forRange n s body = some t ∧ P n t := by
  induction n with
  | zero => exact ⟨s, rfl, h0⟩
  | succ n ih =>
    obtain ⟨t, ht, hp⟩ := ih (fun i t hi => h i t (by omega))
    obtain ⟨t', ht', hp'⟩ := h n t (by omega) hp
    exact ⟨t', by simp [forRange, ht, ht'], hp'⟩

theorem fill_zero (m : Nat → α) (b : Nat) (g : Nat → α) : fill m b 0 g = m := by
  funext a; simp only [fill]; rw [if_neg (by omega)]

theorem fill_in {m : Nat → α} {b n : Nat} {g : Nat → α} {i : Nat} (h : i < n) :
    fill m b n g (b + i) = g i := by
  simp only [fill]; rw [if_pos (by omega)]; congr 1; omega

theorem fill_out {m : Nat → α} {b n : Nat} {g : Nat → α} {a : Nat} (h : a < b ∨ b + n ≤ a) :
    fill m b n g a = m a := by
  simp only [fill]; rw [if_neg (by omega)]

theorem update_fill (m : Nat → α) (b i : Nat) (g : Nat → α) (v : α) (hv : v = g i) :
    Function.update (fill m b i g) (b + i) v = fill m b (i + 1) g := by
  subst hv
  funext a
  by_cases h : a = b + i
  · subst h; rw [Function.update_self, fill_in (by omega)]
  · rw [Function.update_of_ne h]
    by_cases h2 : b ≤ a ∧ a < b + i
    · obtain ⟨j, rfl⟩ := Nat.exists_eq_add_of_le h2.1
      rw [fill_in (by omega), fill_in (by omega)]
    · rw [fill_out (by omega), fill_out (by omega)]

theorem fill_congr {m : Nat → α} {b n : Nat} {g g' : Nat → α} (h : ∀ i, i < n → g i = g' i) :
    fill m b n g = fill m b n g' := by
  funext a
  by_cases h2 : b ≤ a ∧ a < b + n
  · obtain ⟨j, rfl⟩ := Nat.exists_eq_add_of_le h2.1
    rw [fill_in (by omega), fill_in (by omega), h j (by omega)]
  · rw [fill_out (by omega), fill_out (by omega)]

theorem read_ok {s : Slice} {m : Nat → α} {i : Nat} (h : i < s.len) :
    s.read m i = some (m (s.base + i)) := by simp [Slice.read, h]

theorem write_ok {s : Slice} {m : Nat → α} {i : Nat} {v : α} (h : i < s.len) :
    s.write m i v = some (Function.update m (s.base + i) v) := by simp [Slice.write, h]

theorem take_ok {s : Slice} {n : Nat} (h : n ≤ s.len) : s.take n = some ⟨s.base, n⟩ := by
  simp [Slice.take, h]

theorem drop_ok {s : Slice} {n : Nat} (h : n ≤ s.len) : s.drop n = some ⟨s.base + n, s.len - n⟩ := by
  simp [Slice.drop, h]

theorem minIf (a b : Nat) : (if b < a then b else a) = min a b := by
  split <;> omega

end Verif.Conv
