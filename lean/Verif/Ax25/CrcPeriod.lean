import Verif.Ax25.CrcLemmas
import Mathlib.Dynamics.PeriodicPts.Lemmas
import Mathlib.NumberTheory.Divisors

/-! # The period of the CRC register: x has order 32767 modulo x^16 + x^12 + x^5 + 1 -/

namespace Verif.Ax25

open Spec

/-- Shift in a zero bit. -/
def z (r : BitVec 16) : BitVec 16 := crcBit r false

/-- `n` zero shifts evaluated on natural numbers (for kernel evaluation). -/
def zn (r : Nat) : Nat := if r % 2 = 1 then (r / 2) ^^^ 0x8408 else r / 2

theorem zn_z (r : BitVec 16) : (z r).toNat = zn r.toNat := by
  unfold z zn crcBit
  have h : r.getLsbD 0 = decide (r.toNat % 2 = 1) := by
    rw [BitVec.getLsbD, Nat.testBit_zero]
  rw [h, Bool.xor_false]
  by_cases hc : r.toNat % 2 = 1
  · simp [hc, Nat.shiftRight_eq_div_pow]
  · simp [hc, Nat.shiftRight_eq_div_pow]

theorem iterate_zn (n : Nat) (r : BitVec 16) : (z^[n] r).toNat = zn^[n] r.toNat := by
  induction n generalizing r with
  | zero => rfl
  | succ n ih => rw [Function.iterate_succ_apply, Function.iterate_succ_apply, ih, zn_z]

theorem it217 : zn^[217] 1 = 10532 := by decide +kernel

/-- Register contents every 1057 shifts, starting from 1. -/
def chk : List Nat := [1, 51992, 52982, 50646, 5027, 14390, 11156, 55482, 15832, 8372, 3791, 5709, 13078, 64993, 62255, 11898, 54170, 60333, 2849, 7533, 58723, 54900, 57485, 56660, 14072, 63169, 9562, 1519, 49208, 6275, 60995, 1]

theorem chk_step : ∀ i < 31, zn^[1057] (chk.getD i 0) = chk.getD (i + 1) 0 := by decide +kernel

theorem it_chk (i : Nat) (h : i ≤ 31) : zn^[1057 * i] 1 = chk.getD i 0 := by
  induction i with
  | zero => rfl
  | succ i ih =>
    rw [Nat.mul_succ, Nat.add_comm, Function.iterate_add_apply, ih (by omega), chk_step i (by omega)]

theorem it1057 : zn^[1057] 1 = 51992 := it_chk 1 (by decide)

theorem it4681 : zn^[4681] 1 = 27065 := by
  have h : (4681 : Nat) = 453 + 1057 * 4 := rfl
  rw [h, Function.iterate_add_apply, it_chk 4 (by decide)]
  decide +kernel

theorem it32767 : zn^[32767] 1 = 1 := it_chk 31 (by decide)

theorem z_ne (n : Nat) (h : zn^[n] 1 ≠ 1) : z^[n] 1#16 ≠ 1#16 := by
  intro he
  apply h
  have := iterate_zn n 1#16
  rw [he] at this
  exact this.symm

theorem z_period : z^[32767] 1#16 = 1#16 := by
  apply BitVec.eq_of_toNat_eq
  rw [iterate_zn]
  exact it32767

/-- The order of the register is exactly 32767 = 7 · 31 · 151. -/
theorem z_minimalPeriod : Function.minimalPeriod z 1#16 = 32767 := by
  have hp : Function.IsPeriodicPt z 32767 1#16 := z_period
  have hd : Function.minimalPeriod z 1#16 ∣ 32767 := hp.minimalPeriod_dvd
  by_contra hne
  have key : ∀ n, zn^[n] 1 ≠ 1 → ¬ Function.minimalPeriod z 1#16 ∣ n := by
    intro n hn hdvd
    exact z_ne n hn ((Function.isPeriodicPt_iff_minimalPeriod_dvd).2 hdvd)
  have h1 := key 217 (by rw [it217]; decide)
  have h2 := key 1057 (by rw [it1057]; decide)
  have h3 := key 4681 (by rw [it4681]; decide)
  have hm : Function.minimalPeriod z 1#16 ∈ Nat.divisors 32767 :=
    Nat.mem_divisors.2 ⟨hd, by decide⟩
  have hdiv : Nat.divisors 32767 = {1, 7, 31, 151, 217, 1057, 4681, 32767} := by decide +kernel
  rw [hdiv] at hm
  simp only [Finset.mem_insert, Finset.mem_singleton] at hm
  rcases hm with h | h | h | h | h | h | h | h
  · exact h1 (by rw [h]; decide)
  · exact h1 (by rw [h]; decide)
  · exact h1 (by rw [h]; decide)
  · exact h2 (by rw [h]; decide)
  · exact h1 (by rw [h])
  · exact h2 (by rw [h])
  · exact h3 (by rw [h])
  · exact hne h

theorem z_iterate_ne_one (d : Nat) (h0 : 0 < d) (h : d < 32767) : z^[d] 1#16 ≠ 1#16 := by
  intro he
  have : Function.IsPeriodicPt z d 1#16 := he
  have hle := Function.IsPeriodicPt.minimalPeriod_le h0 this
  rw [z_minimalPeriod] at hle
  omega

theorem crcBits_zeros_iterate (n : Nat) (r : BitVec 16) :
    crcBits r (List.replicate n false) = z^[n] r := by
  induction n generalizing r with
  | zero => rfl
  | succ n ih =>
    rw [List.replicate_succ, crcBits_cons, ih, Function.iterate_succ_apply]
    rfl

end Verif.Ax25
