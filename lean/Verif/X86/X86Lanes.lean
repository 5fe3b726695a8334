import Verif.X86.X86Lemmas

/-!
# Lanes of vector registers; loops with the test in front
-/

namespace Verif.X86
open Verif.X86

variable {L : Type} [DecidableEq L]

/-- Induction over the iterations of a loop with the test in front. -/
theorem wloop {e : Env} {p : Prog L} {a b : Nat} (P : Nat → St → Prop) (n d : Nat) (hd : 0 < d)
    (exit : ∀ s, P n s → ∃ s', P n s' ∧ Reach e p a s b s')
    (body : ∀ k s, k + d ≤ n → P k s → ∃ s', P (k + d) s' ∧ Reach e p a s a s') (k : Nat) (s : St) (hk : k % d = 0) (hn : n % d = 0) (hkn : k ≤ n)
    (hp : P k s) : ∃ s', P n s' ∧ Reach e p a s b s' := by
  obtain ⟨t, ht⟩ : ∃ t, t = n - k := ⟨_, rfl⟩
  induction t using Nat.strong_induction_on generalizing k s with
  | _ t ih =>
    rcases hkn.eq_or_lt with rfl | c
    · exact exit s hp
    · have hle : k + d ≤ n := by
        obtain ⟨x, rfl⟩ := Nat.dvd_of_mod_eq_zero hk
        obtain ⟨y, rfl⟩ := Nat.dvd_of_mod_eq_zero hn
        have : x < y := lt_of_mul_lt_mul_left c (Nat.zero_le _)
        calc d * x + d = d * (x + 1) := by ring
          _ ≤ d * y := Nat.mul_le_mul_left _ this
      obtain ⟨s1, p1, r1⟩ := body k s hle hp
      obtain ⟨s', p', r'⟩ := ih (n - (k + d)) (by omega) (k + d) s1 (by rw [Nat.add_mod_right]; exact hk) hle p1 rfl
      exact ⟨s', p', r1.trans r'⟩

theorem sar_ofNat {n k : Nat} (h : n < 2 ^ 63) : (BitVec.ofNat 64 n).sshiftRight k = BitVec.ofNat 64 (n / 2 ^ k) := by
  rw [BitVec.sshiftRight_eq_of_msb_false]
  · exact shr_ofNat (by omega)
  · rw [BitVec.msb_eq_toInt, toInt_ofNat h]
    simp

/-! ### Lanes -/

theorem append_halves (v : BitVec 64) : v.extractLsb' 32 32 ++ v.extractLsb' 0 32 = v := by
  apply BitVec.eq_of_getLsbD_eq
  intro i hi
  rw [BitVec.getLsbD_append]
  split
  · rename_i c
    simp [BitVec.getLsbD_extractLsb', c]
  · simp [BitVec.getLsbD_extractLsb', show i - 32 < 32 by omega, show 32 + (i - 32) = i by omega]

theorem byte_extract (v : BitVec 64) (o i : Nat) (h : i < 4) : byte (v.extractLsb' (8 * o) 32) i = byte v (o + i) := by
  apply BitVec.eq_of_getLsbD_eq
  intro j hj
  simp only [getLsb_byte, BitVec.getLsbD_extractLsb']
  simp [show 8 * i + j < 32 by omega, show 8 * o + (8 * i + j) = 8 * (o + i) + j by omega]

theorem q64_of_bytes (v : BitVec 64) (x : Vec) (k : Nat) (h : ∀ i < 8, x (8 * k + i) = byte v i) : q64 x k = v := by
  unfold q64
  rw [d32_of_bytes (v.extractLsb' 32 32) x (2 * k + 1) (fun i hi => by
      have := byte_extract v 4 i hi
      rw [show 4 * (2 * k + 1) + i = 8 * k + (4 + i) by omega, h (4 + i) (by omega), this]),
    d32_of_bytes (v.extractLsb' 0 32) x (2 * k) (fun i hi => by
      have := byte_extract v 0 i hi
      rw [show 4 * (2 * k) + i = 8 * k + i by omega, h i (by omega), this, Nat.zero_add]), append_halves]

theorem q64_of64 (f : Nat → BitVec 64) (y : Vec) (k : Nat) (h : k < 2) : q64 (low 16 (of64 f) y) k = f k := by
  apply q64_of_bytes
  intro i hi
  rw [low_lt (by omega)]
  unfold of64
  rw [show (8 * k + i) / 8 = k by omega, show (8 * k + i) % 8 = i by omega]

theorem q64_low8 (v : BitVec 64) (y : Vec) : q64 (low 8 (bytes64 v) y) 0 = v := by
  apply q64_of_bytes
  intro i hi
  rw [low_lt (by omega)]
  unfold bytes64
  rw [if_pos (by omega), Nat.mul_zero, Nat.zero_add]

/-- `MOVHLPS`: the upper lanes of 32 bits become the lower. -/
theorem d32_hl (a d y : Vec) (l : Nat) (hl : l < 2) : d32 (low 16 (fun i => if i < 8 then a (8 + i) else d i) y) l = d32 a (l + 2) := by
  unfold d32 low
  simp only [show 4 * l + 3 < 16 by omega, show 4 * l + 2 < 16 by omega, show 4 * l + 1 < 16 by omega, show 4 * l < 16 by omega,
    show 4 * l + 3 < 8 by omega, show 4 * l + 2 < 8 by omega, show 4 * l + 1 < 8 by omega, show 4 * l < 8 by omega, if_true]
  rw [show 8 + (4 * l + 3) = 4 * (l + 2) + 3 by omega, show 8 + (4 * l + 2) = 4 * (l + 2) + 2 by omega,
    show 8 + (4 * l + 1) = 4 * (l + 2) + 1 by omega, show 8 + 4 * l = 4 * (l + 2) by omega]

/-- `MOVHLPS`: the upper lanes of 16 bits become the lower. -/
theorem w16_hl (a d y : Vec) (l : Nat) (hl : l < 4) : w16 (low 16 (fun i => if i < 8 then a (8 + i) else d i) y) l = w16 a (l + 4) := by
  unfold w16 low
  simp only [show 2 * l + 1 < 16 by omega, show 2 * l < 16 by omega, show 2 * l + 1 < 8 by omega, show 2 * l < 8 by omega, if_true]
  rw [show 8 + (2 * l + 1) = 2 * (l + 4) + 1 by omega, show 8 + 2 * l = 2 * (l + 4) by omega]

theorem w16_low {n : Nat} (x y : Vec) (k : Nat) (h : 2 * k + 1 < n) : w16 (low n x y) k = w16 x k := by
  unfold w16 low
  rw [if_pos h, if_pos (by omega)]

/-- `PUNPCKLWL` of a register with itself and a shift by sixteen: the lower lanes of 16 bits with their signs. -/
theorem sar16 (a : BitVec 16) : (a ++ a : BitVec 32).sshiftRight 16 = a.signExtend 32 := by
  apply BitVec.eq_of_getLsbD_eq
  intro i hi
  rw [BitVec.getLsbD_sshiftRight, BitVec.getLsbD_signExtend]
  simp only [BitVec.getLsbD_append]
  by_cases c : i < 16
  · simp [c, show 16 + i < 32 by omega, hi]
  · have m : (a ++ a : BitVec 32).msb = a.msb := by
      rw [BitVec.msb_eq_getLsbD_last, BitVec.msb_eq_getLsbD_last]
      simp only [BitVec.getLsbD_append]
      simp
    rw [m]
    simp [c, show ¬ 16 + i < 32 by omega, show ¬ 32 ≤ i by omega, hi]

theorem unpack_sar (a y : Vec) (l : Nat) (hl : l < 4) :
    (d32 (low 16 (fun i => if i / 2 % 2 = 0 then a (2 * (i / 4) + i % 2) else a (2 * (i / 4) + i % 2)) y) l).sshiftRight 16 = (w16 a l).signExtend 32 := by
  rw [← sar16]
  congr 1
  rw [d32_low _ _ _ (by omega)]
  unfold d32 w16
  simp only [ite_self]
  rw [show (4 * l + 3) / 4 = l by omega, show (4 * l + 3) % 2 = 1 by omega, show (4 * l + 2) / 4 = l by omega, show (4 * l + 2) % 2 = 0 by omega,
    show (4 * l + 1) / 4 = l by omega, show (4 * l + 1) % 2 = 1 by omega, show (4 * l) / 4 = l by omega, show (4 * l) % 2 = 0 by omega, show 2 * l + 0 = 2 * l from rfl]
  apply BitVec.eq_of_getLsbD_eq
  intro i hi
  simp only [BitVec.getLsbD_append]
  by_cases c1 : i < 8
  · simp [c1, show i < 16 by omega]
  · by_cases c2 : i < 16
    · simp [c1, c2, show i - 8 < 8 by omega]
    · by_cases c3 : i < 24
      · simp [c1, c2, show ¬ i - 8 < 8 by omega, show i - 8 - 8 < 8 by omega, show i - 16 < 8 by omega, show i - 8 - 8 = i - 16 by omega]
      · simp [c1, c2, show ¬ i - 8 < 8 by omega, show ¬ i - 8 - 8 < 8 by omega, show ¬ i - 16 < 8 by omega, show i - 8 - 8 - 8 = i - 16 - 8 by omega]

theorem toInt_sx16 (b : BitVec 16) : (b.signExtend 32).toInt = b.toInt := BitVec.toInt_signExtend_of_le (by omega)

end Verif.X86
