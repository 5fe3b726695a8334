import Verif.A32.Ui8Lemmas
import Verif.A32.Ui16Props
import Verif.X86.AvoProps

/-!
# Property C126: the instructions of `Ui8tof32` and `Ui8toc64` on 32-bit ARM

The lines of `dsp/conversion_arm.s` are run one by one, the numbers among them decoded. NEON takes 32 bytes at a time out of the first
`n - n % 64`, VFP four at a time out of the first `n - n % 4`, the rest goes one by one. Both loops compare addresses as signed numbers;
`Arm.reached` says where that stops them (C81).
-/

namespace Verif.A32.Conv
open Verif.A32 Verif.Mach Verif.Fp
open Verif.X86 (byte d32)
open Verif.X86.Avo (ieeeCvt32)

/-- The machine has NEON. -/
def hasNeon (e : Env) : Bool := e.var .HaveNEON != 0

/-- What is written for byte `b`: a conversion, by NEON or not. -/
def conv (e : Env) (neon : Bool) (b : BitVec 8) : BitVec 32 := (if neon then e.o.ncvt else e.o.cvt) ((b.toNat : Int) - 128)

theorem total_le (b : Bool) (p n : Nat) : Ui8.total b p n ≤ n := by
  rcases Nat.eq_zero_or_pos n with rfl | h0
  · unfold Ui8.total Arm.converted; split <;> exact Nat.le_refl 0
  · unfold Ui8.total
    split
    · exact Arm.converted_le _ _ _ _ _ (by omega) (by omega) h0
    · exact Arm.converted_le _ _ _ _ _ (by omega) (by omega) h0

/-- **C126.** Run from any state with the arguments in the frame and an output address that is a multiple of four, for all lengths,
addresses and contents, with and without NEON, whatever the floating-point units make of an integer: the routine returns, `Ui8.total`
float32 of the output are the conversions (the first `Ui8.fast` by NEON), and nothing else in memory and in the frame has changed. -/
theorem C126_Ui8tof32 {e : Env} {s : St} {ib ob : BitVec 32} {nin nout n : Nat} (hn : n = min nin nout) (ha : Args s ib ob nin nout)
    (hr : Area e ib ob n (4 * n)) (hal : ob.toNat % 4 = 0) : ∃ s', Returns (sem e) prog 37 s s' ∧
      Words ob (Ui8.total (hasNeon e) ib.toNat n)
        (fun i => conv e (decide (i < Ui8.fast (hasNeon e) ib.toNat n)) (s.mem (ib + BitVec.ofNat 32 i))) s s' ∧ s'.fp = s.fp := by
  have hw := hr.wsmall
  obtain ⟨s', h1, h2, h3⟩ := Ui8.routine hn rfl ha hr.io hal hr.rend
  have hl := total_le (hasNeon e) ib.toNat n
  refine ⟨s', h1, words_of (by omega) h3 ?_, h2⟩
  intro i hi j hj
  rw [Ui8.want, Ui8.elem, show (4 * i + j) / 4 = i by omega, show (4 * i + j) % 4 = j by omega, conv]
  change _ = byte ((if decide (i < Ui8.fast (e.var .HaveNEON != 0) ib.toNat n) = true then e.o.ncvt else e.o.cvt) _) j
  simp only [Ui8.val]
  split
  · rename_i c; rw [decide_eq_true c, if_pos rfl]
  · rename_i c; rw [decide_eq_false c, if_neg (by decide)]

/-- **C126.** There is no other way for the routine to end. -/
theorem C126_only {e : Env} {s s' : St} {ib ob : BitVec 32} {nin nout n : Nat} (hn : n = min nin nout) (ha : Args s ib ob nin nout)
    (hr : Area e ib ob n (4 * n)) (hal : ob.toNat % 4 = 0) (h : Returns (sem e) prog 37 s s') :
      Words ob (Ui8.total (hasNeon e) ib.toNat n)
        (fun i => conv e (decide (i < Ui8.fast (hasNeon e) ib.toNat n)) (s.mem (ib + BitVec.ofNat 32 i))) s s' ∧ s'.fp = s.fp := by
  obtain ⟨t, h1, h2⟩ := C126_Ui8tof32 hn ha hr hal
  rwa [h.unique h1]

theorem total_half {b : Bool} {p n : Nat} (h : Arm.OneHalf p 1 n) : Ui8.total b p n = n := by
  unfold Ui8.total
  split
  · exact Arm.converted_all _ _ _ _ _ h (by omega)
  · exact Arm.converted_all _ _ _ _ _ h (by omega)

theorem fast_half {p n : Nat} (h : Arm.OneHalf p 1 n) : Ui8.fast true p n = n - n % 64 := by
  unfold Arm.OneHalf at h
  by_cases c : 64 ≤ n
  · rw [Ui8.fast, if_pos ⟨rfl, c⟩, Arm.reached, if_neg (by omega)]
  · rw [Ui8.fast, if_neg (fun h => c h.2)]; omega

/-- **C126, partial.** If the input lies in one half of the address space all bytes are converted; with NEON those of the first `n - n % 64`
by NEON. Missing: input across address 2^31 (`C126_violated`) and an output address that is not a multiple of four, which Go does not use for
float32. -/
theorem C126_all_partial {e : Env} {s : St} {ib ob : BitVec 32} {nin nout n : Nat} (hn : n = min nin nout) (ha : Args s ib ob nin nout)
    (hr : Area e ib ob n (4 * n)) (hal : ob.toNat % 4 = 0) (hh : Arm.OneHalf ib.toNat 1 n) : ∃ s', Returns (sem e) prog 37 s s' ∧
      Words ob n (fun i => conv e (hasNeon e && decide (i < n - n % 64)) (s.mem (ib + BitVec.ofNat 32 i))) s s' ∧ s'.fp = s.fp := by
  obtain ⟨s', h1, h2, h3⟩ := C126_Ui8tof32 hn ha hr hal
  rw [total_half hh] at h2
  refine ⟨s', h1, h2.congr rfl ?_, h3⟩
  intro i hi
  cases hasNeon e
  · rw [show Ui8.fast false ib.toNat n = 0 from if_neg (by simp)]
    rfl
  · rw [fast_half hh, Bool.true_and]

/-- **C126, violated.** If the block loop would get from the lower to the upper half of the address space, only 33 or 5 bytes are
converted, and the rest of the output is left as it was. -/
theorem C126_violated {e : Env} {s s' : St} {ib ob : BitVec 32} {nin nout n : Nat} (hn : n = min nin nout) (ha : Args s ib ob nin nout)
    (hr : Area e ib ob n (4 * n)) (hal : ob.toNat % 4 = 0) (h1 : ib.toNat + (if hasNeon e then 33 else 5) < 2 ^ 31)
    (h2 : 2 ^ 31 ≤ ib.toNat + (if hasNeon e then n - n % 64 else n - n % 4)) (h : Returns (sem e) prog 37 s s') :
    ∀ i, 4 * (if hasNeon e then 33 else 5) ≤ i → i < 4 * n → s'.mem (ob + BitVec.ofNat 32 i) = s.mem (ob + BitVec.ofNat 32 i) := by
  have hw := hr.wsmall
  intro i hi hi2
  refine (C126_only hn ha hr hal h).1.rest _ ?_
  rw [BitVec.add_comm, BitVec.add_sub_cancel, BitVec.toNat_ofNat, Nat.mod_eq_of_lt (by omega)]
  refine Nat.le_trans (Nat.mul_le_mul_left 4 ?_) hi
  clear hi
  revert h1 h2
  generalize hasNeon e = b
  intro h1 h2
  cases b
  · simp only [Bool.false_eq_true, if_false] at h1 h2 ⊢
    rw [Ui8.total_false (by omega)]
    have e1 : Arm.reached ib.toNat 1 0 4 (n - n % 4) = 4 := by rw [Arm.reached, if_pos (by omega)]
    rw [e1, if_neg (by omega), Arm.reached, if_pos (by omega)]
  · simp only [if_true] at h1 h2 ⊢
    rw [Ui8.total_true (by omega)]
    have e1 : Arm.reached ib.toNat 1 0 32 (n - n % 64) = 32 := by rw [Arm.reached, if_pos (by omega)]
    rw [e1, if_neg (by omega), Arm.reached, if_pos (by omega)]

/-- **C126.** `Ui8toc64` with `nin` bytes and an output of `nout` complex numbers does what `Ui8tof32` does with the even part of `nin` and
`2 * nout` float32. The lengths in the frame are overwritten. -/
theorem C126_Ui8toc64 {e : Env} {s : St} {ib ob : BitVec 32} {nin nout n : Nat} (hn : n = min (nin - nin % 2) (2 * nout)) (ha : Args s ib ob nin nout)
    (hno : nout < 2 ^ 30) (hr : Area e ib ob n (4 * n)) (hal : ob.toNat % 4 = 0) : ∃ s', Returns (sem e) prog 161 s s' ∧
      Words ob (Ui8.total (hasNeon e) ib.toNat n)
        (fun i => conv e (decide (i < Ui8.fast (hasNeon e) ib.toNat n)) (s.mem (ib + BitVec.ofNat 32 i))) s s' ∧
      s'.fp = Function.update (Function.update s.fp 4 (BitVec.ofNat 32 (nin - nin % 2))) 16 (BitVec.ofNat 32 (2 * nout)) := by
  have hin := ha.hin
  obtain ⟨s1, g1, e1⟩ : ∃ s', blk (sem e) b161 s = some s' ∧
      (s'.fp = Function.update (Function.update s.fp 4 (BitVec.ofNat 32 (nin - nin % 2))) 16 (BitVec.ofNat 32 (2 * nout)) ∧ s'.mem = s.mem) := by
    ar [ha.f2, ha.f4, andN2, shl32]
    exact ⟨_, rfl, rfl, rfl⟩
  have hj : Reach (sem e) prog 168 s1 37 s1 := reach_jump .Ui8tof32 (by decide +kernel) (by decide +kernel)
  have a1 : Args s1 ib ob (nin - nin % 2) (2 * nout) := by
    refine ⟨by omega, by omega, ?_, ?_, ?_, ?_⟩ <;> rw [e1.1]
    · exact ha.f1
    · rfl
    · exact ha.f3
    · exact Function.update_self ..
  obtain ⟨s', h1, h2, h3⟩ := C126_Ui8tof32 hn a1 hr hal
  refine ⟨s', ((reach_blk b161 h161 g1).trans hj).returns h1, h2.congr e1.2 ?_, by rw [h3, e1.1]⟩
  intro i _
  simp only [e1.2]

/-- **C126 with IEEE-754 arithmetic.** The float32 stored for a byte has exactly the value of the byte less 128, by NEON or not. -/
theorem C126_value {e : Env} (he : e.o.cvt = ieeeCvt32) (hn : e.o.ncvt = ieeeCvt32) {s s' : St} {ib ob : BitVec 32} {n : Nat} {neon : Nat → Bool}
    (h : Words ob n (fun i => conv e (neon i) (s.mem (ib + BitVec.ofNat 32 i))) s s') {i : Nat} (hi : i < n) (b : BitVec 8)
    (hb : s.mem (ib + BitVec.ofNat 32 i) = b) :
    f32at s'.mem (ob + BitVec.ofNat 32 (4 * i)) = .fin (decide (b.toNat < 128)) |(b.toNat : ℚ) - 128| := by
  have hlt := b.isLt
  have hc : conv e (neon i) b = ieeeCvt32 ((b.toNat : Int) - 128) := by
    unfold conv
    rw [he, hn]
    split <;> rfl
  rw [f32at, h.out i hi, hb, hc, ieeeCvt32, Verif.Conv.ofInt_exact _ (by omega), ofBits32_toBits32]
  · congr 1
    · rw [decide_eq_decide]; omega
    · have : (((b.toNat : Int) - 128).natAbs : ℚ) = |(((b.toNat : Int) - 128 : Int) : ℚ)| := by
        rw [← Int.cast_abs, Int.abs_eq_natAbs, Int.cast_natCast]
      rw [this]
      push_cast
      rfl
  · refine ⟨by positivity, ?_, ((b.toNat : Int) - 128).natAbs, 0, ?_, by decide, ?_⟩
    · have : ((b.toNat : Int) - 128).natAbs ≤ 128 := by omega
      calc (((b.toNat : Int) - 128).natAbs : ℚ) ≤ 128 := by exact_mod_cast this
        _ < 2 ^ 128 := by norm_num
    · have : ((b.toNat : Int) - 128).natAbs ≤ 128 := by omega
      exact lt_of_le_of_lt this (by decide)
    · rw [zpow_zero, mul_one, abs_of_nonneg (by positivity)]
/-! ### Examples -/

/-- The machine of C125 with IEEE-754 conversions, with or without NEON. -/
def machineF (neon : Bool) : Env :=
  { machine with o := { noOps with cvt := ieeeCvt32, ncvt := ieeeCvt32 }, var := fun _ => if neon then 1 else 0 }

/-- 133 bytes to at most 140 float32: two or four blocks of NEON or 33 of VFP, then the rest; the last byte is 0x84. -/
example (neon : Bool) : ∃ s', Returns (sem (machineF neon)) prog 37 (call 0x80000000 0x2004 133 140) s' ∧
    f32at s'.mem (0x2004 + BitVec.ofNat 32 (4 * 132)) = .fin false 4 := by
  have h1 : Args (call 0x80000000 0x2004 133 140) 0x80000000 0x2004 133 140 := ⟨by decide, by decide, rfl, rfl, rfl, rfl⟩
  have h2 : Area (machineF neon) 0x80000000 0x2004 133 (4 * 133) := ⟨by decide, by decide, by cases neon <;> decide +kernel,
    by cases neon <;> decide +kernel, by decide +kernel⟩
  obtain ⟨s', h3, h4, -⟩ := C126_all_partial (by decide) h1 h2 (by decide) (by unfold Arm.OneHalf; decide)
  refine ⟨s', h3, ?_⟩
  rw [C126_value rfl rfl h4 (i := 132) (by decide +kernel) 0x84 (by decide +kernel), show (0x84 : BitVec 8).toNat = 132 from rfl]
  norm_num

/-- The same bytes across address 2^31: with NEON the last 100 float32 keep what the output held, without it the last 128. -/
example (neon : Bool) : ∃ s', Returns (sem (machineF neon)) prog 37 (call 0x7fffffd0 0x2004 133 140) s' ∧ s'.mem 0x2088 = 0x88 := by
  have h1 : Args (call 0x7fffffd0 0x2004 133 140) 0x7fffffd0 0x2004 133 140 := ⟨by decide, by decide, rfl, rfl, rfl, rfl⟩
  have h2 : Area (machineF neon) 0x7fffffd0 0x2004 133 (4 * 133) := ⟨by decide, by decide, by cases neon <;> decide +kernel,
    by cases neon <;> decide +kernel, by decide +kernel⟩
  obtain ⟨s', h3, h4, -⟩ := C126_Ui8tof32 (by decide) h1 h2 (by decide)
  refine ⟨s', h3, ?_⟩
  have := C126_violated (by decide) h1 h2 (by decide) (by cases neon <;> decide +kernel) (by cases neon <;> decide +kernel) h3 132
    (by cases neon <;> decide +kernel) (by decide)
  rw [show (0x2004 : BitVec 32) + BitVec.ofNat 32 132 = 0x2088 by decide] at this
  rw [this]
  decide +kernel

/-- `Ui8toc64` with seven bytes and five complex numbers: six float32. -/
example : ∃ s', Returns (sem (machineF false)) prog 161 (call 0x80000000 0x2004 7 5) s' ∧ s'.mem 0x201c = 0x1c ∧
    f32at s'.mem (0x2004 + BitVec.ofNat 32 (4 * 5)) = .fin true 123 := by
  have h1 : Args (call 0x80000000 0x2004 7 5) 0x80000000 0x2004 7 5 := ⟨by decide, by decide, rfl, rfl, rfl, rfl⟩
  have h2 : Area (machineF false) 0x80000000 0x2004 6 (4 * 6) := ⟨by decide, by decide, by decide +kernel, by decide +kernel, by decide +kernel⟩
  obtain ⟨s', h3, h4, -⟩ := C126_Ui8toc64 (by decide) h1 (by decide) h2 (by decide)
  refine ⟨s', h3, ?_, ?_⟩
  · rw [h4.rest 0x201c (by decide +kernel)]
    decide +kernel
  · rw [C126_value rfl rfl h4 (i := 5) (by decide +kernel) 5 (by decide +kernel), show (5 : BitVec 8).toNat = 5 from rfl]
    norm_num

end Verif.A32.Conv
