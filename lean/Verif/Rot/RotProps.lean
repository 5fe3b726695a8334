import Verif.Rot.RotModel
import Verif.Conv.SliceLemmas
import Mathlib.Data.Complex.Basic
import Mathlib.Tactic.NormNum
import Mathlib.Tactic.Ring

/-!
# Properties C51 and C52 of the quarter-turn filters
-/

namespace Verif.Rot
open Verif.Conv

variable {F : Type} [Neg F]

/-- Specification: sample times `i^n`. -/
def rot (n : Nat) (z : F × F) : F × F :=
  match n % 4 with
  | 0 => z
  | 1 => (-z.2, z.1)
  | 2 => (-z.1, -z.2)
  | _ => (z.2, -z.1)

theorem rot_0 {n : Nat} (h : n % 4 = 0) (z : F × F) : rot n z = z := by simp only [rot, h]
theorem rot_1 {n : Nat} (h : n % 4 = 1) (z : F × F) : rot n z = (-z.2, z.1) := by simp only [rot, h]
theorem rot_2 {n : Nat} (h : n % 4 = 2) (z : F × F) : rot n z = (-z.1, -z.2) := by simp only [rot, h]
theorem rot_3 {n : Nat} (h : n % 4 = 3) (z : F × F) : rot n z = (z.2, -z.1) := by simp only [rot, h]

/-- `rot n` is multiplication by `i^n`. -/
theorem rot_mul (n : Nat) (x y : ℝ) : (⟨(rot n (x, y)).1, (rot n (x, y)).2⟩ : ℂ) = ⟨x, y⟩ * Complex.I ^ n := by
  have e : Complex.I ^ n = Complex.I ^ (n % 4) := by
    conv => lhs; rw [← Nat.div_add_mod n 4, pow_add, pow_mul, Complex.I_pow_four, one_pow, one_mul]
  have h4 : n % 4 < 4 := Nat.mod_lt _ (by norm_num)
  rw [e]
  have : n % 4 = 0 ∨ n % 4 = 1 ∨ n % 4 = 2 ∨ n % 4 = 3 := by omega
  rcases this with h | h | h | h
  · rw [rot_0 h, h]; simp
  · rw [rot_1 h, h]; apply Complex.ext <;> simp
  · rw [rot_2 h, h]; apply Complex.ext <;> simp
  · rw [rot_3 h, h]; apply Complex.ext <;> simp [pow_succ]

/-- Memory with samples `0 … n-1` after `base` turned. -/
def turned (m : Nat → F × F) (base n : Nat) : Nat → F × F :=
  fun a => if base ≤ a ∧ a < base + n then rot (a - base) (m a) else m a

theorem turned_lt (m : Nat → F × F) {base n k : Nat} (h : k < n) : turned m base n (base + k) = rot k (m (base + k)) := by
  rw [turned, if_pos (by omega), Nat.add_sub_cancel_left]

theorem turned_ge (m : Nat → F × F) {base n k : Nat} (h : n ≤ k) : turned m base n (base + k) = m (base + k) := by
  rw [turned, if_neg (by omega)]

theorem rotBody_eq (m : Nat → F × F) (s : Slice) (j : Nat) (h : 4 * j + 4 ≤ s.len) :
    rotBody s j (turned m s.base (4 * j)) = some (turned m s.base (4 * (j + 1))) := by
  unfold rotBody
  simp only [Option.bind_eq_bind]
  rw [read_ok (by omega), Option.bind_some, Option.bind_some, write_ok (by omega), Option.bind_some, read_ok (by omega), Option.bind_some,
    write_ok (by omega), Option.bind_some, read_ok (by omega), Option.bind_some, Option.bind_some, write_ok (by omega)]
  refine congrArg some ?_
  have e1 : s.base + (4 * j + 2) ≠ s.base + (4 * j + 1) := by omega
  have e2 : s.base + (4 * j + 3) ≠ s.base + (4 * j + 1) := by omega
  have e3 : s.base + (4 * j + 3) ≠ s.base + (4 * j + 2) := by omega
  rw [Function.update_of_ne e3, Function.update_of_ne e2, Function.update_of_ne e1, turned_ge m (by omega), turned_ge m (by omega),
    turned_ge m (by omega)]
  funext a
  by_cases h3 : a = s.base + (4 * j + 3)
  · subst h3
    rw [Function.update_self, turned_lt m (by omega), rot_3 (by omega)]
  rw [Function.update_of_ne h3]
  by_cases h2 : a = s.base + (4 * j + 2)
  · subst h2
    rw [Function.update_self, turned_lt m (by omega), rot_2 (by omega)]
  rw [Function.update_of_ne h2]
  by_cases h1 : a = s.base + (4 * j + 1)
  · subst h1
    rw [Function.update_self, turned_lt m (by omega), rot_1 (by omega)]
  rw [Function.update_of_ne h1]
  by_cases h0 : a = s.base + 4 * j
  · subst h0
    rw [turned_ge m (by omega), turned_lt m (by omega), rot_0 (by omega)]
  · unfold turned
    by_cases hc : s.base ≤ a ∧ a < s.base + 4 * j
    · rw [if_pos hc, if_pos (by omega)]
    · rw [if_neg hc, if_neg (by omega)]

theorem turned_zero (m : Nat → F × F) (base : Nat) : turned m base 0 = m := by
  funext a
  rw [turned, if_neg (by omega)]

theorem rot_prefix (m : Nat → F × F) (s : Slice) (k : Nat) (h : 4 * k ≤ s.len) :
    forRange k m (rotBody s) = some (turned m s.base (4 * k)) := by
  refine forRange_states (fun j => turned m s.base (4 * j)) (turned_zero m _) ?_
  intro i hi
  exact rotBody_eq m s i (by omega)

/-- C51: on a slice whose length is a multiple of four, sample `n` is multiplied by `i^n` and nothing
else is touched. -/
theorem C51_value (m : Nat → F × F) (s : Slice) (h : s.len % 4 = 0) :
    ∃ m', rotate90 m s = some m' ∧ (∀ n < s.len, m' (s.base + n) = rot n (m (s.base + n))) ∧
      ∀ a, ¬(s.base ≤ a ∧ a < s.base + s.len) → m' a = m a := by
  refine ⟨turned m s.base s.len, ?_, fun n hn => turned_lt m hn, fun a ha => if_neg ha⟩
  have e : 4 * ((s.len + 3) / 4) = s.len := by omega
  rw [rotate90, rot_prefix m s _ (by omega), e]

/-- C51: on any other length it panics. -/
theorem C51_panics (m : Nat → F × F) (s : Slice) (h : s.len % 4 ≠ 0) : rotate90 m s = none := by
  have e : (s.len + 3) / 4 = s.len / 4 + 1 := by omega
  rw [rotate90, e, forRange, rot_prefix m s _ (by omega), Option.bind_some]
  unfold rotBody
  simp only [Option.bind_eq_bind]
  have : s.len % 4 = 1 ∨ s.len % 4 = 2 ∨ s.len % 4 = 3 := by omega
  rcases this with h | h | h
  · simp only [Slice.read]
    rw [if_neg (by omega)]
    rfl
  · rw [read_ok (by omega), Option.bind_some, Option.bind_some, write_ok (by omega), Option.bind_some]
    simp only [Slice.read]
    rw [if_neg (by omega)]
    rfl
  · rw [read_ok (by omega), Option.bind_some, Option.bind_some, write_ok (by omega), Option.bind_some, read_ok (by omega), Option.bind_some,
      write_ok (by omega), Option.bind_some]
    simp only [Slice.read]
    rw [if_neg (by omega)]
    rfl

theorem rotate90_eq (m : Nat → F × F) (s : Slice) (h : s.len % 4 = 0) : rotate90 m s = some (turned m s.base s.len) := by
  have e : 4 * ((s.len + 3) / 4) = s.len := by omega
  rw [rotate90, rot_prefix m s _ (by omega), e]

/-- C51: consecutive calls on consecutive parts equal one call on the whole. -/
theorem C51_chunks (m : Nat → F × F) (b l1 l2 : Nat) (h1 : l1 % 4 = 0) (h2 : l2 % 4 = 0) :
    (do let m ← rotate90 m ⟨b, l1⟩; rotate90 m ⟨b + l1, l2⟩) = rotate90 m ⟨b, l1 + l2⟩ := by
  rw [rotate90_eq m ⟨b, l1⟩ h1, rotate90_eq m ⟨b, l1 + l2⟩ (by simp only; omega), Option.bind_eq_bind, Option.bind_some,
    rotate90_eq _ ⟨b + l1, l2⟩ h2]
  refine congrArg some ?_
  funext a
  simp only [turned]
  by_cases c1 : b ≤ a ∧ a < b + l1
  · rw [if_neg (by omega), if_pos c1, if_pos (by omega)]
  · by_cases c2 : b + l1 ≤ a ∧ a < b + l1 + l2
    · rw [if_pos c2, if_neg c1, if_pos (by omega)]
      have : (a - (b + l1)) % 4 = (a - b) % 4 := by omega
      rw [rot, rot, this]
    · rw [if_neg c2, if_neg c1, if_neg (by omega)]

/-- C51: four calls restore the slice, for any negation that undoes itself (as that of floating-point
numbers and of `int32` does). -/
theorem C51_four (hn : ∀ x : F, - -x = x) (m : Nat → F × F) (s : Slice) (h : s.len % 4 = 0) :
    (do let m ← rotate90 m s; let m ← rotate90 m s; let m ← rotate90 m s; rotate90 m s) = some m := by
  have e : ∀ m : Nat → F × F, rotate90 m s = some (turned m s.base s.len) := fun m => rotate90_eq m s h
  simp only [e, Option.bind_eq_bind, Option.bind_some]
  refine congrArg some ?_
  funext a
  simp only [turned]
  split
  · have : (a - s.base) % 4 = 0 ∨ (a - s.base) % 4 = 1 ∨ (a - s.base) % 4 = 2 ∨ (a - s.base) % 4 = 3 := by omega
    rcases this with h | h | h | h
    · rw [rot_0 h, rot_0 h, rot_0 h, rot_0 h]
    · rw [rot_1 h, rot_1 h, rot_1 h, rot_1 h, hn, hn]
    · rw [rot_2 h, rot_2 h, rot_2 h, rot_2 h, hn, hn, hn, hn]
    · rw [rot_3 h, rot_3 h, rot_3 h, rot_3 h, hn, hn]
  · rfl

/-! ## Integers -/

/-- Sample `n` of interleaved integers. -/
def pairAt (m : Nat → F) (base n : Nat) : F × F := (m (base + 2 * n), m (base + 2 * n + 1))

/-- Memory with words `0 … n-1` after `base` turned as interleaved samples. -/
def turnedI (m : Nat → F) (base n : Nat) : Nat → F :=
  fun a => if base ≤ a ∧ a < base + n then
    (if (a - base) % 2 = 0 then (rot ((a - base) / 2) (pairAt m base ((a - base) / 2))).1
     else (rot ((a - base) / 2) (pairAt m base ((a - base) / 2))).2) else m a

theorem turnedI_lt (m : Nat → F) {base n k : Nat} (h : k < n) : turnedI m base n (base + k) =
    if k % 2 = 0 then (rot (k / 2) (pairAt m base (k / 2))).1 else (rot (k / 2) (pairAt m base (k / 2))).2 := by
  rw [turnedI, if_pos (by omega), Nat.add_sub_cancel_left]

theorem turnedI_ge (m : Nat → F) {base n k : Nat} (h : n ≤ k) : turnedI m base n (base + k) = m (base + k) := by
  rw [turnedI, if_neg (by omega)]

/-- The eight words of a group. -/
theorem group (m : Nat → F) (b j n : Nat) (h : 8 * j + 8 ≤ n) :
    turnedI m b n (b + (8 * j + 0)) = m (b + (8 * j + 0)) ∧ turnedI m b n (b + (8 * j + 1)) = m (b + (8 * j + 1)) ∧
    turnedI m b n (b + (8 * j + 2)) = -m (b + (8 * j + 3)) ∧ turnedI m b n (b + (8 * j + 3)) = m (b + (8 * j + 2)) ∧
    turnedI m b n (b + (8 * j + 4)) = -m (b + (8 * j + 4)) ∧ turnedI m b n (b + (8 * j + 5)) = -m (b + (8 * j + 5)) ∧
    turnedI m b n (b + (8 * j + 6)) = m (b + (8 * j + 7)) ∧ turnedI m b n (b + (8 * j + 7)) = -m (b + (8 * j + 6)) := by
  have p0 : (8 * j + 0) / 2 = 4 * j := by omega
  have p1 : (8 * j + 1) / 2 = 4 * j := by omega
  have p2 : (8 * j + 2) / 2 = 4 * j + 1 := by omega
  have p3 : (8 * j + 3) / 2 = 4 * j + 1 := by omega
  have p4 : (8 * j + 4) / 2 = 4 * j + 2 := by omega
  have p5 : (8 * j + 5) / 2 = 4 * j + 2 := by omega
  have p6 : (8 * j + 6) / 2 = 4 * j + 3 := by omega
  have p7 : (8 * j + 7) / 2 = 4 * j + 3 := by omega
  refine ⟨?_, ?_, ?_, ?_, ?_, ?_, ?_, ?_⟩ <;> rw [turnedI_lt m (by omega)]
  · rw [if_pos (by omega), p0, rot_0 (by omega), pairAt]; simp only; congr 1; omega
  · rw [if_neg (by omega), p1, rot_0 (by omega), pairAt]; simp only; congr 1; omega
  · rw [if_pos (by omega), p2, rot_1 (by omega), pairAt]; simp only; congr 2; omega
  · rw [if_neg (by omega), p3, rot_1 (by omega), pairAt]; simp only; congr 1; omega
  · rw [if_pos (by omega), p4, rot_2 (by omega), pairAt]; simp only; congr 2; omega
  · rw [if_neg (by omega), p5, rot_2 (by omega), pairAt]; simp only; congr 2; omega
  · rw [if_pos (by omega), p6, rot_3 (by omega), pairAt]; simp only; congr 1; omega
  · rw [if_neg (by omega), p7, rot_3 (by omega), pairAt]; simp only; congr 2; omega

theorem eight_cases (b a j : Nat) : (a = b + (8 * j + 0) ∨ a = b + (8 * j + 1) ∨ a = b + (8 * j + 2) ∨ a = b + (8 * j + 3) ∨
    a = b + (8 * j + 4) ∨ a = b + (8 * j + 5) ∨ a = b + (8 * j + 6) ∨ a = b + (8 * j + 7)) ∨ ¬(b + 8 * j ≤ a ∧ a < b + 8 * j + 8) := by
  omega

theorem i32Body_eq (m : Nat → F) (s : Slice) (j : Nat) (h : 8 * j + 8 ≤ s.len) :
    i32Body s j (turnedI m s.base (8 * j)) = some (turnedI m s.base (8 * (j + 1))) := by
  unfold i32Body
  simp only [Option.bind_eq_bind]
  have rd : ∀ (k : Nat) (m : Nat → F), k < 8 → s.read m (8 * j + k) = some (m (s.base + (8 * j + k))) := fun k m hk => read_ok (by omega)
  have wr : ∀ (k : Nat) (m : Nat → F) (v : F), k < 8 → s.write m (8 * j + k) v = some (Function.update m (s.base + (8 * j + k)) v) :=
    fun k m v hk => write_ok (by omega)
  have nee : ∀ k l : Nat, k ≠ l → s.base + (8 * j + k) ≠ s.base + (8 * j + l) := by omega
  simp only [rd, wr, Option.bind_some, Nat.reduceLT]
  have up : ∀ (k l : Nat) (m : Nat → F) (v : F), k ≠ l → Function.update m (s.base + (8 * j + l)) v (s.base + (8 * j + k)) = m (s.base + (8 * j + k)) :=
    fun k l m v hkl => Function.update_of_ne (nee k l hkl) _ _
  have old : ∀ k, turnedI m s.base (8 * j) (s.base + (8 * j + k)) = m (s.base + (8 * j + k)) := fun k => turnedI_ge m (by omega)
  rw [up 4 3 _ _ (by decide), up 4 2 _ _ (by decide), up 5 4 _ _ (by decide), up 5 3 _ _ (by decide), up 5 2 _ _ (by decide),
    up 7 5 _ _ (by decide), up 7 4 _ _ (by decide), up 7 3 _ _ (by decide), up 7 2 _ _ (by decide),
    up 6 5 _ _ (by decide), up 6 4 _ _ (by decide), up 6 3 _ _ (by decide), up 6 2 _ _ (by decide)]
  simp only [old]
  refine congrArg some ?_
  obtain ⟨g0, g1, g2, g3, g4, g5, g6, g7⟩ := group m s.base j (8 * (j + 1)) (by omega)
  funext a
  rcases eight_cases s.base a j with hc | hc
  · rcases hc with hc | hc | hc | hc | hc | hc | hc | hc <;> subst hc
    · rw [g0, up 0 7 _ _ (by decide), up 0 6 _ _ (by decide), up 0 5 _ _ (by decide), up 0 4 _ _ (by decide), up 0 3 _ _ (by decide), up 0 2 _ _ (by decide), old]
    · rw [g1, up 1 7 _ _ (by decide), up 1 6 _ _ (by decide), up 1 5 _ _ (by decide), up 1 4 _ _ (by decide), up 1 3 _ _ (by decide), up 1 2 _ _ (by decide), old]
    · rw [g2, up 2 7 _ _ (by decide), up 2 6 _ _ (by decide), up 2 5 _ _ (by decide), up 2 4 _ _ (by decide), up 2 3 _ _ (by decide), Function.update_self]
    · rw [g3, up 3 7 _ _ (by decide), up 3 6 _ _ (by decide), up 3 5 _ _ (by decide), up 3 4 _ _ (by decide), Function.update_self]
    · rw [g4, up 4 7 _ _ (by decide), up 4 6 _ _ (by decide), up 4 5 _ _ (by decide), Function.update_self]
    · rw [g5, up 5 7 _ _ (by decide), up 5 6 _ _ (by decide), Function.update_self]
    · rw [g6, up 6 7 _ _ (by decide), Function.update_self]
    · rw [g7, Function.update_self]
  · have : ∀ k < 8, a ≠ s.base + (8 * j + k) := by omega
    rw [Function.update_of_ne (this 7 (by decide)), Function.update_of_ne (this 6 (by decide)), Function.update_of_ne (this 5 (by decide)),
      Function.update_of_ne (this 4 (by decide)), Function.update_of_ne (this 3 (by decide)), Function.update_of_ne (this 2 (by decide))]
    unfold turnedI
    by_cases hd : s.base ≤ a ∧ a < s.base + 8 * j
    · rw [if_pos hd, if_pos (show s.base ≤ a ∧ a < s.base + 8 * (j + 1) by omega)]
    · rw [if_neg hd, if_neg (show ¬(s.base ≤ a ∧ a < s.base + 8 * (j + 1)) by omega)]

theorem turnedI_zero (m : Nat → F) (base : Nat) : turnedI m base 0 = m := by
  funext a
  rw [turnedI, if_neg (by omega)]

theorem i32_prefix (m : Nat → F) (s : Slice) (k : Nat) (h : 8 * k ≤ s.len) :
    forRange k m (i32Body s) = some (turnedI m s.base (8 * k)) := by
  refine forRange_states (fun j => turnedI m s.base (8 * j)) (turnedI_zero m _) ?_
  intro i hi
  exact i32Body_eq m s i (by omega)

theorem i32Rotate90_eq (m : Nat → F) (s : Slice) (h : s.len % 8 = 0) : i32Rotate90 m s = some (turnedI m s.base s.len) := by
  have e : 8 * ((s.len + 7) / 8) = s.len := by omega
  rw [i32Rotate90, i32_prefix m s _ (by omega), e]

/-- C51, integers: on a slice whose length is a multiple of eight (four interleaved samples), sample
`n` is multiplied by `i^n` and nothing else is touched. -/
theorem C51_i32_value (m : Nat → F) (s : Slice) (h : s.len % 8 = 0) :
    ∃ m', i32Rotate90 m s = some m' ∧ (∀ n < s.len / 2, pairAt m' s.base n = rot n (pairAt m s.base n)) ∧
      ∀ a, ¬(s.base ≤ a ∧ a < s.base + s.len) → m' a = m a := by
  refine ⟨_, i32Rotate90_eq m s h, fun n hn => ?_, fun a ha => if_neg ha⟩
  have a1 : 2 * n / 2 = n := by omega
  have a2 : (2 * n + 1) / 2 = n := by omega
  conv => lhs; rw [pairAt]
  rw [turnedI_lt m (by omega), Nat.add_assoc, turnedI_lt m (by omega), if_pos (by omega), if_neg (by omega), a1, a2]

/-- C51, integers: on any other length it panics. -/
theorem C51_i32_panics (m : Nat → F) (s : Slice) (h : s.len % 8 ≠ 0) : i32Rotate90 m s = none := by
  have e : (s.len + 7) / 8 = s.len / 8 + 1 := by omega
  rw [i32Rotate90, e, forRange, i32_prefix m s _ (by omega), Option.bind_some]
  unfold i32Body
  simp only [Option.bind_eq_bind]
  have rd : ∀ (k : Nat) (m : Nat → F), s.len ≤ 8 * (s.len / 8) + k → s.read m (8 * (s.len / 8) + k) = none :=
    fun k m hk => if_neg (by omega)
  have wr : ∀ (k : Nat) (m : Nat → F) (v : F), s.len ≤ 8 * (s.len / 8) + k → s.write m (8 * (s.len / 8) + k) v = none :=
    fun k m v hk => if_neg (by omega)
  have nb : ∀ {α : Type} (o : Option α) {β : Type}, (o.bind fun _ => (none : Option β)) = none := by
    intro α o β; cases o <;> rfl
  simp only [wr 7 _ _ (by omega), nb]

/-- C51, integers: consecutive calls on consecutive parts equal one call on the whole. -/
theorem C51_i32_chunks (m : Nat → F) (b l1 l2 : Nat) (h1 : l1 % 8 = 0) (h2 : l2 % 8 = 0) :
    (do let m ← i32Rotate90 m ⟨b, l1⟩; i32Rotate90 m ⟨b + l1, l2⟩) = i32Rotate90 m ⟨b, l1 + l2⟩ := by
  rw [i32Rotate90_eq m ⟨b, l1⟩ h1, i32Rotate90_eq m ⟨b, l1 + l2⟩ (by simp only; omega), Option.bind_eq_bind, Option.bind_some,
    i32Rotate90_eq _ ⟨b + l1, l2⟩ h2]
  refine congrArg some ?_
  funext a
  simp only
  by_cases c1 : b ≤ a ∧ a < b + l1
  · obtain ⟨k, rfl⟩ := Nat.exists_eq_add_of_le c1.1
    rw [turnedI_lt m (by omega)]
    rw [turnedI, if_neg (by omega), turnedI_lt m (by omega)]
  · by_cases c2 : b + l1 ≤ a ∧ a < b + l1 + l2
    · obtain ⟨k, rfl⟩ := Nat.exists_eq_add_of_le c2.1
      rw [turnedI_lt _ (by omega), Nat.add_assoc b l1 k, turnedI_lt m (by omega)]
      have e1 : (l1 + k) % 2 = k % 2 := by omega
      have e2 : (l1 + k) / 2 = l1 / 2 + k / 2 := by omega
      have e3 : ((l1 / 2 + k / 2) % 4) = (k / 2) % 4 := by omega
      have e4 : pairAt (turnedI m b l1) (b + l1) (k / 2) = pairAt m b (l1 / 2 + k / 2) := by
        unfold pairAt
        have x : b + l1 + 2 * (k / 2) = b + 2 * (l1 / 2 + k / 2) := by omega
        rw [x, turnedI_ge m (by omega), Nat.add_assoc b, turnedI_ge m (by omega)]
      rw [e1, e2, e4]
      have e5 : ∀ z : F × F, rot (l1 / 2 + k / 2) z = rot (k / 2) z := fun z => by rw [rot, rot, e3]
      rw [e5]
    · rw [turnedI, if_neg c2, turnedI, if_neg c1, turnedI, if_neg (by omega)]

/-- A memory of integers for the examples. -/
def ex : Nat → ℤ := fun n => n

example : i32Rotate90 ex ⟨8, 8⟩ = some (turnedI ex 8 8) ∧ turnedI ex 8 8 10 = -11 := ⟨i32Rotate90_eq _ _ (by decide), by decide⟩
example : (i32Rotate90 ex ⟨8, 12⟩).isNone := by rw [C51_i32_panics _ _ (by decide)]; rfl
example : ∃ m', rotate90 (fun n => ((n : ℤ), (5 : ℤ))) ⟨3, 8⟩ = some m' ∧ m' 8 = (-5, 8) := by
  obtain ⟨m', h1, h2, -⟩ := C51_value (fun n => ((n : ℤ), (5 : ℤ))) ⟨3, 8⟩ (by decide)
  exact ⟨m', h1, h2 5 (by decide)⟩

/-! ## ARM -/

abbrev W := BitVec 32

/-- Memory after `t` turns of the ARM loop from `p`. -/
def armTurned (g : (Fin 6 → W) → Fin 6 → W) (m : Nat → W) (p t : Nat) : Nat → W :=
  fun a => if p ≤ a ∧ a < p + 8 * t then
    (if h : 2 ≤ (a - p) % 8 then g (fun i => m (a - (a - p) % 8 + 2 + i)) ⟨(a - p) % 8 - 2, by omega⟩ else m a) else m a

theorem armTurned_in (g : (Fin 6 → W) → Fin 6 → W) (m : Nat → W) (p t j : Nat) (k : Fin 6) (h : j < t) :
    armTurned g m p t (p + (8 * j + (k + 2))) = g (fun i => m (p + 8 * j + 2 + i)) k := by
  have hk := k.isLt
  have e : (p + (8 * j + (k + 2)) - p) % 8 = k + 2 := by omega
  rw [armTurned, if_pos (by omega), dif_pos (by omega)]
  congr 1
  · funext i
    congr 2
    omega
  · apply Fin.ext
    simp only
    omega

theorem armTurned_keep (g : (Fin 6 → W) → Fin 6 → W) (m : Nat → W) (p t a : Nat) (h : p ≤ a ∧ a < p + 8 * t → (a - p) % 8 < 2) :
    armTurned g m p t a = m a := by
  unfold armTurned
  split
  · rename_i hc
    have := h hc
    rw [dif_neg (by omega)]
  · rfl

theorem six_in (g : (Fin 6 → W) → Fin 6 → W) (m : Nat → W) (q : Nat) (k : Fin 6) :
    six g m q (q + k) = g (fun i => m (q + i)) k := by
  have hk := k.isLt
  unfold six
  rw [dif_pos (by omega)]
  congr 1
  apply Fin.ext
  simp

theorem six_out (g : (Fin 6 → W) → Fin 6 → W) (m : Nat → W) (q a : Nat) (h : ¬(q ≤ a ∧ a < q + 6)) :
    six g m q a = m a := dif_neg h

theorem armLoop_eq (g : (Fin 6 → W) → Fin 6 → W) : ∀ (t : Nat) (m : Nat → W) (p e : Nat), p + 8 * t < e → e ≤ p + 8 * (t + 1) →
    armLoop g m p e = armTurned g m p (t + 1) := by
  intro t
  induction t with
  | zero =>
    intro m p e h1 h2
    rw [armLoop, if_neg (by omega)]
    funext a
    by_cases hc : p + 2 ≤ a ∧ a < p + 2 + 6
    · obtain ⟨k, rfl⟩ := Nat.exists_eq_add_of_le hc.1
      have hk : k < 6 := by omega
      rw [six_in g m (p + 2) ⟨k, hk⟩]
      have e : p + 2 + k = p + (8 * 0 + (((⟨k, hk⟩ : Fin 6) : Nat) + 2)) := by simp only; omega
      rw [e, armTurned_in g m p _ 0 ⟨k, hk⟩ (by omega)]
    · rw [six_out g m _ _ hc, armTurned_keep g m]
      omega
  | succ t ih =>
    intro m p e h1 h2
    rw [armLoop, if_pos (by omega)]
    rw [ih _ _ _ (by omega) (by omega)]
    have so : ∀ x, p + 8 ≤ x → six g m (p + 2) x = m x := fun x hx => six_out g m _ _ (by omega)
    funext a
    by_cases hc : p ≤ a ∧ a < p + 8 * (t + 2) ∧ 2 ≤ (a - p) % 8
    · obtain ⟨ha, hb, hd⟩ := hc
      have hk : (a - p) % 8 - 2 < 6 := by omega
      have e1 : a = p + (8 * ((a - p) / 8) + (((⟨(a - p) % 8 - 2, hk⟩ : Fin 6) : Nat) + 2)) := by simp only; omega
      conv => rhs; rw [e1]
      rw [armTurned_in g m p _ _ _ (by omega)]
      by_cases hz : (a - p) / 8 = 0
      · rw [armTurned_keep _ _ _ _ _ (by omega)]
        have e2 : a = p + 2 + (((⟨(a - p) % 8 - 2, hk⟩ : Fin 6) : Nat)) := by simp only; omega
        conv => lhs; rw [e2]
        rw [six_in, hz]
      · have e3 : a = p + 8 + (8 * ((a - p) / 8 - 1) + (((⟨(a - p) % 8 - 2, hk⟩ : Fin 6) : Nat) + 2)) := by simp only; omega
        conv => lhs; rw [e3]
        rw [armTurned_in _ _ _ _ _ _ (by omega)]
        congr 1
        funext i
        rw [so _ (by omega)]
        congr 1
        omega
    · rw [armTurned_keep g m p _ a (by omega), armTurned_keep _ _ _ _ a (by omega)]
      exact six_out g m _ _ (by omega)

theorem not_ne_neg (x : W) : ~~~x ≠ -x := by
  rw [BitVec.neg_eq_not_add]
  intro h
  have : (~~~x) - (~~~x) = 1#32 := by
    conv => lhs; lhs; rw [h]
    rw [BitVec.add_comm, BitVec.add_sub_cancel]
  rw [BitVec.sub_self] at this
  exact absurd this (by decide)

theorem not_eq_neg_sub (x : W) : ~~~x = -x - 1#32 := by
  rw [BitVec.neg_eq_not_add, BitVec.add_sub_cancel]

theorem not_ne_self (x : W) : ~~~x ≠ x := by
  intro h
  have := congrArg (fun v : W => v.getLsbD 0) h
  simp at this

theorem i32Arm_eq (m : Nat → W) (p len : Nat) (h : len - len % 4 ≠ 0) :
    i32Rotate90Arm m p len = armTurned turnI m p ((len - len % 4 + 7) / 8) := by
  rw [i32Rotate90Arm]
  rw [if_neg h]
  have e : (len - len % 4 + 7) / 8 = ((len - len % 4 + 7) / 8 - 1) + 1 := by omega
  rw [e]
  exact armLoop_eq turnI _ m p _ (by omega) (by omega)

/-- C52 does not hold: on every nonempty slice the portable code accepts, whatever its contents, the
ARM code stores a different third word (it complements where it should negate). -/
theorem C52_violated (m : Nat → W) (s : Slice) (h : s.len % 8 = 0) (hpos : 0 < s.len) :
    ∃ m', i32Rotate90 m s = some m' ∧ i32Rotate90Arm m s.base s.len (s.base + 2) ≠ m' (s.base + 2) := by
  refine ⟨_, i32Rotate90_eq m s h, ?_⟩
  rw [i32Arm_eq m _ _ (by omega)]
  have a1 := armTurned_in turnI m s.base ((s.len - s.len % 4 + 7) / 8) 0 0 (by omega)
  obtain ⟨-, -, g2, -⟩ := group m s.base 0 s.len (by omega)
  intro hc
  exact not_ne_neg _ ((a1.symm.trans hc).trans g2)

/-- C52 does not hold: for a length that is four more than a multiple of eight the ARM code
complements the word just after the slice, whatever it is. -/
theorem C52_violated_outside (m : Nat → W) (p len : Nat) (h : len % 8 = 4) :
    i32Rotate90Arm m p len (p + len) ≠ m (p + len) := by
  rw [i32Arm_eq m _ _ (by omega)]
  have a1 := armTurned_in turnI m p ((len - len % 4 + 7) / 8) (len / 8) 2 (by omega)
  have e : p + (8 * (len / 8) + (((2 : Fin 6) : Nat) + 2)) = p + len := by
    have : ((2 : Fin 6) : Nat) = 2 := rfl
    omega
  rw [e] at a1
  rw [a1]
  have e2 : p + 8 * (len / 8) + 2 + 2 = p + len := by omega
  show ~~~ (m (p + 8 * (len / 8) + 2 + 2)) ≠ _
  rw [e2]
  exact not_ne_self _

/-- The part of C52 that holds: for lengths the portable code accepts, the ARM code stays inside the
slice and every word is the portable one, less one exactly where the portable code negates. -/
theorem C52_i32_partial (m : Nat → W) (s : Slice) (h : s.len % 8 = 0) :
    ∃ m', i32Rotate90 m s = some m' ∧
      (∀ k < s.len, i32Rotate90Arm m s.base s.len (s.base + k) =
        m' (s.base + k) - (if k % 8 = 2 ∨ k % 8 = 4 ∨ k % 8 = 5 ∨ k % 8 = 7 then 1#32 else 0#32)) ∧
      ∀ a, ¬(s.base ≤ a ∧ a < s.base + s.len) → i32Rotate90Arm m s.base s.len a = m a := by
  refine ⟨_, i32Rotate90_eq m s h, ?_, ?_⟩
  · intro k hk
    rw [i32Arm_eq m _ _ (by omega)]
    obtain ⟨g0, g1, g2, g3, g4, g5, g6, g7⟩ := group m s.base (k / 8) s.len (by omega)
    have ai := fun r : Fin 6 => armTurned_in turnI m s.base ((s.len - s.len % 4 + 7) / 8) (k / 8) r (by omega)
    have hr : k % 8 = 0 ∨ k % 8 = 1 ∨ k % 8 = 2 ∨ k % 8 = 3 ∨ k % 8 = 4 ∨ k % 8 = 5 ∨ k % 8 = 6 ∨ k % 8 = 7 := by omega
    rcases hr with hr | hr | hr | hr | hr | hr | hr | hr
    · have e : k = 8 * (k / 8) + 0 := by omega
      rw [armTurned_keep _ _ _ _ _ (by omega), if_neg (by omega), BitVec.sub_zero, e, g0]
    · have e : k = 8 * (k / 8) + 1 := by omega
      rw [armTurned_keep _ _ _ _ _ (by omega), if_neg (by omega), BitVec.sub_zero, e, g1]
    · have e : s.base + k = s.base + (8 * (k / 8) + 2) := by omega
      rw [if_pos (by omega), e, g2, ← not_eq_neg_sub]
      exact ai 0
    · have e : s.base + k = s.base + (8 * (k / 8) + 3) := by omega
      rw [if_neg (by omega), e, g3, BitVec.sub_zero]
      exact ai 1
    · have e : s.base + k = s.base + (8 * (k / 8) + 4) := by omega
      rw [if_pos (by omega), e, g4, ← not_eq_neg_sub]
      exact ai 2
    · have e : s.base + k = s.base + (8 * (k / 8) + 5) := by omega
      rw [if_pos (by omega), e, g5, ← not_eq_neg_sub]
      exact ai 3
    · have e : s.base + k = s.base + (8 * (k / 8) + 6) := by omega
      rw [if_neg (by omega), e, g6, BitVec.sub_zero]
      exact ai 4
    · have e : s.base + k = s.base + (8 * (k / 8) + 7) := by omega
      rw [if_pos (by omega), e, g7, ← not_eq_neg_sub]
      exact ai 5
  · intro a ha
    by_cases hz : s.len - s.len % 4 = 0
    · rw [i32Rotate90Arm]
      rw [if_pos hz]
    · rw [i32Arm_eq m _ _ hz]
      exact if_neg (by omega)

/-- Floating-point negation: flip bit 31. -/
@[instance_reducible] def flip : Neg W := ⟨fun x => x ^^^ 0x80000000#32⟩

/-- C52, floating point: the ARM code for `complex64` multiplies sample `n` by `i^n` for each of the
first `len - len % 4` samples, with negation flipping the sign bit, and touches nothing else.  For lengths
that are multiples of four this is the result of the portable code; for others it leaves the rest
alone where the portable code panics. -/
theorem C52_complex64_partial (m : Nat → W) (p len : Nat) :
    (∀ n < len - len % 4, pairAt (rotate90Arm m p len) p n = @rot W flip n (pairAt m p n)) ∧
      ∀ a, ¬(p ≤ a ∧ a < p + 2 * (len - len % 4)) → rotate90Arm m p len a = m a := by
  by_cases hz : len - len % 4 = 0
  · refine ⟨by omega, fun a _ => ?_⟩
    rw [rotate90Arm]
    rw [if_pos hz]
  have key : rotate90Arm m p len = armTurned turnF m p (len / 4) := by
    rw [rotate90Arm]
    rw [if_neg hz]
    have e : len / 4 = (len / 4 - 1) + 1 := by omega
    rw [e]
    exact armLoop_eq turnF _ m p _ (by omega) (by omega)
  rw [key]
  refine ⟨fun n hn => ?_, fun a ha => if_neg (by omega)⟩
  have ai := fun r : Fin 6 => armTurned_in turnF m p (len / 4) (n / 4) r (by omega)
  have hr : n % 4 = 0 ∨ n % 4 = 1 ∨ n % 4 = 2 ∨ n % 4 = 3 := by omega
  unfold pairAt
  rcases hr with hr | hr | hr | hr
  · rw [@rot_0 W flip n hr, armTurned_keep _ _ _ _ _ (by omega), armTurned_keep _ _ _ _ _ (by omega)]
  · rw [@rot_1 W flip n hr]
    have e : p + 2 * n = p + (8 * (n / 4) + 2) := by omega
    rw [e]
    exact congrArg₂ Prod.mk (ai 0) (ai 1)
  · rw [@rot_2 W flip n hr]
    have e : p + 2 * n = p + 8 * (n / 4) + 2 + 2 := by omega
    have e1 : p + 2 * n = p + (8 * (n / 4) + 4) := by omega
    refine congrArg₂ Prod.mk ((congrArg _ e1).trans ((ai 2).trans ?_)) ((congrArg _ (congrArg (· + 1) e1)).trans ((ai 3).trans ?_))
    · rw [e]; rfl
    · rw [e]; rfl
  · rw [@rot_3 W flip n hr]
    have e : p + 2 * n = p + 8 * (n / 4) + 2 + 4 := by omega
    have e1 : p + 2 * n = p + (8 * (n / 4) + 6) := by omega
    refine congrArg₂ Prod.mk ((congrArg _ e1).trans ((ai 4).trans ?_)) ((congrArg _ (congrArg (· + 1) e1)).trans ((ai 5).trans ?_))
    · rw [e]; rfl
    · rw [e]; rfl

example : i32Rotate90Arm (fun n => BitVec.ofNat 32 n) 0 8 2 = 0xfffffffc#32 := by
  rw [i32Arm_eq _ _ _ (by decide)]; decide

end Verif.Rot
