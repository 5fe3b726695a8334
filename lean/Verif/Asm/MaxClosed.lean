import Verif.Asm.MaxProps

/-!
# `VMaxF32` and `VMinF32` on amd64 in closed form

What the loops of dsp/math32_amd64.s:13-117 and 119-223 compute, for any operation on lanes, without fuel or state; equal to the model
`vExtremeAmd`.
-/

namespace Verif.Asm.Closed
open Verif.Asm

variable {F : Type}

/-- The four accumulators of `w` lanes after `j` blocks: register `r`, lane `l`. -/
def acc (mx : F → F → F) (init : F) (im : Nat → F) (w : Nat) : Nat → Nat → Nat → F
  | 0 => fun _ _ => init
  | j + 1 => fun r l => mx (acc mx init im w j r l) (im (4 * w * j + (w * r + l)))

/-- Lane `l` of the four accumulators together. -/
def join (mx : F → F → F) (a : Nat → Nat → F) (l : Nat) : F := mx (mx (mx (a 0 l) (a 1 l)) (a 2 l)) (a 3 l)

/-- The upper half of eight lanes onto the lower. -/
def half (mx : F → F → F) (x : Nat → F) (l : Nat) : F := mx (x l) (x (l + 4))

/-- Four lanes together. -/
def fold4 (mx : F → F → F) (x : Nat → F) : F := mx (mx (x 0) (x 2)) (mx (x 1) (x 3))

/-- `t` single steps from position `k`. -/
def steps (st : F → F → F) (im : Nat → F) (x : F) (k : Nat) : Nat → F
  | 0 => x
  | t + 1 => st (steps st im x k t) (im (k + t))

/-- The result for `n` numbers. -/
def res (mx st : F → F → F) (init : F) (avx sse : Bool) (n : Nat) (im : Nat → F) : F :=
  if avx ∧ 0 < n - n % 32 then steps st im (fold4 mx (half mx (join mx (acc mx init im 8 (n / 32))))) (n - n % 32) (n % 32)
  else if ¬ avx ∧ sse ∧ 0 < n - n % 16 then steps st im (fold4 mx (join mx (acc mx init im 4 (n / 16)))) (n - n % 16) (n % 16)
  else steps st im init 0 n

/-! ### The model in closed form -/

theorem vmScalar_eq (gt : F → F → Bool) (im : Nat → F) (n c : Nat) (x : F) (hc : c ≤ n) :
    vmScalar gt im n x c = some (steps (fun x y => if gt y x then y else x) im x c (n - c)) := by
  unfold vmScalar
  by_cases h : c ≥ n
  · rw [if_pos h, show n - c = 0 by omega]; rfl
  · rw [if_neg h]
    have := doWhile_run (body := vmStep gt im) (cond := fun s => decide (s.2 < n))
      (fun k => (steps (fun x y => if gt y x then y else x) im x c k, c + k)) (n - c) (n + 1)
      (by omega) (by omega) (fun i _ => rfl)
      (fun i _ hi => by
        show decide (c + i < n) = true
        rw [decide_eq_true_eq]; omega)
      (by
        show decide (c + (n - c) < n) = false
        rw [decide_eq_false_iff_not]; omega)
    simp only [Nat.add_zero] at this
    rw [show steps (fun x y => if gt y x then y else x) im x c 0 = x from rfl] at this
    rw [this]; rfl

theorem vmBlocks_eq (gt : F → F → Bool) (init : F) (im : Nat → F) (w q n : Nat) (hw : 0 < w) (hq : 0 < q) (hn : 4 * w * q ≤ n) :
    doWhile (vmBlock gt w im) (fun s => decide (s.dx < 4 * w * q)) (n + 1) ⟨fun _ _ => init, 0⟩
      = some ⟨acc (maxps gt) init im w q, 4 * w * q⟩ := by
  have hqn : q ≤ 4 * w * q := Nat.le_mul_of_pos_left q (by omega)
  exact doWhile_run (body := vmBlock gt w im) (cond := fun s => decide (s.dx < 4 * w * q)) (fun j => ⟨acc (maxps gt) init im w j, 4 * w * j⟩) q (n + 1)
    hq (by omega) (fun i _ => by
      simp only [vmBlock, acc, Nat.mul_succ, Nat.add_assoc])
    (fun i _ hiq => by
      rw [decide_eq_true_eq]
      exact Nat.mul_lt_mul_of_pos_left hiq (by omega))
    (by rw [decide_eq_false_iff_not]; exact Nat.lt_irrefl _)

/-- The model is the closed form. -/
theorem vExtremeAmd_eq (gt : F → F → Bool) (init : F) (a s : Bool) (n : Nat) (im : Nat → F) :
    vExtremeAmd gt init a s n im = some (res (maxps gt) (fun x y => if gt y x then y else x) init a s n im) := by
  unfold vExtremeAmd res
  cases a with
  | true =>
    simp only [if_true, true_and, not_true_eq_false, false_and, if_false]
    by_cases hb : 0 ≥ n - n % 32
    · rw [if_pos hb, if_neg (by omega), vmScalar_eq _ _ _ _ _ (by omega)]; rfl
    · rw [if_neg hb, if_pos (by omega)]
      have := vmBlocks_eq gt init im 8 (n / 32) n (by omega) (by omega) (by omega)
      rw [show 4 * 8 * (n / 32) = n - n % 32 by omega] at this
      rw [this, Option.bind_some, vmScalar_eq gt im n (n - n % 32) _ (by omega), show n - (n - n % 32) = n % 32 by omega]
      rfl
  | false =>
    cases s with
    | true =>
      simp only [Bool.false_eq_true, if_true, if_false, false_and, not_false_eq_true, true_and]
      by_cases hb : 0 ≥ n - n % 16
      · rw [if_pos hb, if_neg (by omega), vmScalar_eq _ _ _ _ _ (by omega)]; rfl
      · rw [if_neg hb, if_pos (by omega)]
        have := vmBlocks_eq gt init im 4 (n / 16) n (by omega) (by omega) (by omega)
        rw [show 4 * 4 * (n / 16) = n - n % 16 by omega] at this
        rw [this, Option.bind_some, vmScalar_eq gt im n (n - n % 16) _ (by omega), show n - (n - n % 16) = n % 16 by omega]
        rfl
    | false =>
      simp only [Bool.false_eq_true, if_false, false_and, and_false]
      rw [vmScalar_eq _ _ _ _ _ (by omega)]; rfl

end Verif.Asm.Closed
