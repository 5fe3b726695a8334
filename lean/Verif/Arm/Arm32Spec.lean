import Mathlib.Tactic.Common

/-!
# How far a loop gets that compares addresses as signed numbers
-/

namespace Verif.Arm

/-- Where a loop stops that should take `w` elements of `size` bytes at a time from element `c` to element `e` of
a slice at address `p`: after the first turn if it is then still in the lower half of the address space and the
end is in the upper half. -/
def reached (p size c w e : Nat) : Nat :=
  if p + size * (c + w) < 2 ^ 31 ∧ 2 ^ 31 ≤ p + size * e then c + w else e

/-- The number of elements converted out of `n`, by a loop taking `w` at a time for the first `m` and a loop for
the rest. -/
def converted (p size w m n : Nat) : Nat :=
  let x := if m = 0 then 0 else reached p size 0 w m
  if x = n then n else reached p size x 1 n

/-- The slice lies in one half of the address space. -/
def OneHalf (p size n : Nat) : Prop := p + size * n < 2 ^ 31 ∨ (2 ^ 31 ≤ p ∧ p + size * n < 2 ^ 32)

theorem converted_all (p size w m n : Nat) (h : OneHalf p size n) (hm : m ≤ n) : converted p size w m n = n := by
  have h1 : size * m ≤ size * n := Nat.mul_le_mul_left _ hm
  have e : ∀ c w e, size * e ≤ size * n → reached p size c w e = e := by
    intro c w e he
    unfold reached
    rw [if_neg]
    unfold OneHalf at h
    omega
  unfold converted
  simp only
  generalize (if m = 0 then 0 else reached p size 0 w m) = x
  split
  · rfl
  · exact e _ _ _ (Nat.le_refl _)

/-- When the slice goes on into the upper half and the first block and one more element do not, one block and one
element are converted. -/
theorem converted_short (p size w m n : Nat) (hw : 0 < w) (hm : m ≤ n) (h1 : p + size * (w + 1) < 2 ^ 31)
    (h2 : 2 ^ 31 ≤ p + size * m) : converted p size w m n = w + 1 := by
  have hmn : size * m ≤ size * n := Nat.mul_le_mul_left _ hm
  have hlt : size * w ≤ size * (w + 1) := Nat.mul_le_mul_left _ (by omega)
  have hm0 : m ≠ 0 := by
    rintro rfl
    have : size * 0 ≤ size * (w + 1) := Nat.mul_le_mul_left _ (by omega)
    omega
  have hwn : w ≠ n := by
    rintro rfl
    omega
  have e1 : reached p size 0 w m = w := by
    unfold reached
    rw [if_pos (by rw [Nat.zero_add]; omega), Nat.zero_add]
  unfold converted
  simp only
  rw [if_neg hm0, e1, if_neg hwn, reached, if_pos (by omega)]

/-- Without blocks, one element is converted. -/
theorem converted_one (p size w n : Nat) (h1 : p + size < 2 ^ 31) (h2 : 2 ^ 31 ≤ p + size * n) : converted p size w 0 n = 1 := by
  have hn : 0 ≠ n := by
    rintro rfl
    omega
  unfold converted
  simp only [if_true]
  rw [if_neg hn, reached, if_pos (by rw [Nat.zero_add, Nat.mul_one]; omega)]

theorem converted_le (p size w m n : Nat) (hm : m ≤ n) (hw : w ≤ m ∨ m = 0) (hn : 0 < n) : converted p size w m n ≤ n := by
  unfold converted
  simp only
  have hx : (if m = 0 then 0 else reached p size 0 w m) ≤ n := by
    split
    · omega
    · unfold reached; split <;> omega
  generalize (if m = 0 then 0 else reached p size 0 w m) = x at hx ⊢
  split
  · omega
  · unfold reached; split <;> omega

end Verif.Arm
