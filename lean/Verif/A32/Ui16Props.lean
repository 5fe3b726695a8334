import Verif.A32.Ui16Lemmas

/-!
# Property C125: the instructions of `Ui8toi16` and `Ui8toi16b` on 32-bit ARM

The lines of `dsp/conversion_arm.s` are run one by one. The routine compares addresses as signed numbers (C81), so the number of
samples it converts depends on where the input lies.
-/

namespace Verif.A32.Conv
open Verif.A32 Verif.Mach

/-- The number of samples converted out of `n` at address `p`: one if the first byte is followed by a byte of the lower half of the
address space and the end of the slice is in the upper half. -/
def samples (p n : Nat) : Nat := if p + 1 < 2 ^ 31 ∧ 2 ^ 31 ≤ p + n then 1 else n

/-- The memory after the call: sample `i < n` from `ob` has twice the byte `i` of the input less 128, everything else is as before. -/
abbrev Widened (ib ob : BitVec 32) (n : Nat) (s s' : St) : Prop :=
  Stored ob n 2 (fun i _ => s.mem (ib + BitVec.ofNat 32 i) - 0x80#8) s s'

theorem samples_eq (p n : Nat) : Arm.converted p 1 1 0 n = samples p n := by
  simp only [Arm.converted, Arm.reached, samples, if_true]
  by_cases h : 0 = n
  · subst h; simp only [if_true]; rw [if_neg (by omega)]
  · rw [if_neg h]
    simp only [Nat.one_mul, Nat.zero_add]

/-- **C125.** Run from any state with the arguments in the frame, for all addresses, lengths and contents, `Ui8toi16` returns with
`samples` samples of the output written, and nothing else in memory and in the frame has changed. -/
theorem C125_Ui8toi16 {e : Env} {s : St} {ib ob : BitVec 32} {nin nout n : Nat} (hn : n = min nin nout) (ha : Args s ib ob nin nout)
    (hr : Area e ib ob n (2 * n)) : ∃ s', Returns (sem e) prog 3 s s' ∧ Widened ib ob (samples ib.toNat n) s s' ∧ s'.fp = s.fp := by
  have hw := hr.wsmall
  obtain ⟨s', h1, h2, h3⟩ := Ui16.routine hn rfl ha hr.io hr.rend
  have hl : samples ib.toNat n ≤ n := by unfold samples; split <;> omega
  rw [samples_eq] at h3
  refine ⟨s', h1, stored_of (by omega) h3 ?_, h2⟩
  intro i hi j hj
  rw [Ui16.want, show (2 * i + j) / 2 = i by omega]

/-- **C125.** There is no other way for the routine to end. -/
theorem C125_only {e : Env} {s s' : St} {ib ob : BitVec 32} {nin nout n : Nat} (hn : n = min nin nout) (ha : Args s ib ob nin nout)
    (hr : Area e ib ob n (2 * n)) (h : Returns (sem e) prog 3 s s') : Widened ib ob (samples ib.toNat n) s s' ∧ s'.fp = s.fp := by
  obtain ⟨t, h1, h2⟩ := C125_Ui8toi16 hn ha hr
  rwa [h.unique h1]

/-- **C125, partial.** If the input lies in one half of the address space all samples are converted. Missing: input across address
2^31, see `C125_violated`. -/
theorem C125_all_partial {e : Env} {s : St} {ib ob : BitVec 32} {nin nout n : Nat} (hn : n = min nin nout) (ha : Args s ib ob nin nout)
    (hr : Area e ib ob n (2 * n)) (hh : ib.toNat + n < 2 ^ 31 ∨ 2 ^ 31 ≤ ib.toNat + 1) :
    ∃ s', Returns (sem e) prog 3 s s' ∧ Widened ib ob n s s' ∧ s'.fp = s.fp := by
  have := C125_Ui8toi16 hn ha hr
  rwa [samples, if_neg (by omega)] at this

/-- **C125, violated.** If it does not, only the first sample is converted; the output after it is left as it was. -/
theorem C125_violated {e : Env} {s s' : St} {ib ob : BitVec 32} {nin nout n : Nat} (hn : n = min nin nout) (ha : Args s ib ob nin nout)
    (hr : Area e ib ob n (2 * n)) (h1 : ib.toNat + 1 < 2 ^ 31) (h2 : 2 ^ 31 ≤ ib.toNat + n) (h : Returns (sem e) prog 3 s s') :
    ∀ i, 2 ≤ i → i < 2 * n → s'.mem (ob + BitVec.ofNat 32 i) = s.mem (ob + BitVec.ofNat 32 i) := by
  have hw := hr.wsmall
  intro i hi hi2
  refine (C125_only hn ha hr h).1.rest _ ?_
  rw [samples, if_pos ⟨h1, h2⟩, BitVec.add_comm, BitVec.add_sub_cancel, BitVec.toNat_ofNat, Nat.mod_eq_of_lt (by omega)]
  omega

/-- **C125.** `Ui8toi16b`, with an output of `nout` bytes, does what `Ui8toi16` does with `nout / 2` samples; an odd last byte of the
output is not written. The length in the frame is halved. -/
theorem C125_Ui8toi16b {e : Env} {s : St} {ib ob : BitVec 32} {nin nout n : Nat} (hn : n = min nin (nout / 2)) (ha : Args s ib ob nin nout)
    (hr : Area e ib ob n (2 * n)) : ∃ s', Returns (sem e) prog 31 s s' ∧ Widened ib ob (samples ib.toNat n) s s' ∧
      s'.fp = Function.update s.fp 16 (BitVec.ofNat 32 (nout / 2)) := by
  have hout := ha.hout
  obtain ⟨s1, g1, e1⟩ : ∃ s', blk (sem e) b31 s = some s' ∧ (s'.fp = Function.update s.fp 16 (BitVec.ofNat 32 (nout / 2)) ∧ s'.mem = s.mem) := by
    ar [ha.f4, shr32 (show nout < 2 ^ 32 by omega)]
    exact ⟨_, rfl, rfl, rfl⟩
  have hj : Reach (sem e) prog 35 s1 3 s1 := reach_jump .Ui8toi16 (by decide +kernel) (by decide +kernel)
  have a1 : Args s1 ib ob nin (nout / 2) := by
    refine ⟨ha.hin, by omega, ?_, ?_, ?_, ?_⟩ <;> rw [e1.1]
    · exact ha.f1
    · exact ha.f2
    · exact ha.f3
    · exact Function.update_self ..
  obtain ⟨s', h1, h2, h3⟩ := C125_Ui8toi16 hn a1 hr
  refine ⟨s', ((reach_blk b31 h31 g1).trans hj).returns h1, ⟨?_, ?_⟩, by rw [h3, e1.1]⟩
  · intro i hi j hj
    rw [h2.out i hi j hj, e1.2]
  · intro a ha
    rw [h2.rest a ha, e1.2]

/-! ### Examples -/

/-- Arithmetic that does nothing of interest; the routines of this property use none. -/
def noOps : Ops where
  cvt := fun _ => 0
  toInt := fun _ => 0
  add := fun a _ => a
  sub := fun a _ => a
  mul := fun a _ => a
  div := fun a _ => a
  sqrt := fun a => a
  cmp := fun _ _ => .un
  ncvt := fun _ => 0
  nmul := fun a _ => a
  nmax := fun a _ => a

/-- A machine: 0x7fff0000–0x8000ffff can be read, 0x2000–0x2fff written. -/
def machine : Env where
  o := noOps
  rd := fun a => decide (0x7fff0000 ≤ a.toNat ∧ a.toNat < 0x80010000)
  wr := fun a => decide (0x2000 ≤ a.toNat ∧ a.toNat < 0x3000)
  var := fun _ => 0
  strideOf := fun _ => none
  tmp := fun _ => 0

/-- A call with `nin` elements at `ib` and `nout` elements at `ob`. -/
def call (ib ob : BitVec 32) (nin nout : Nat) : St where
  r := fun _ => 0xdead
  v := fun _ => 0x55
  fl := ⟨false, true, false, true⟩
  fpscr := 0
  mem := fun a => a.setWidth 8
  fp := fun k => if k = 0 then ib else if k = 4 then BitVec.ofNat 32 nin else if k = 12 then ob else if k = 16 then BitVec.ofNat 32 nout else 0

/-- Nine bytes in the upper half to at most ten samples: sample 8 is -0x7878. -/
example : ∃ s', Returns (sem machine) prog 3 (call 0x80000000 0x2001 9 10) s' ∧ s'.mem 0x2011 = 0x88 ∧ s'.mem 0x2012 = 0x88 ∧ s'.mem 0x2013 = 0x13 := by
  have h1 : Args (call 0x80000000 0x2001 9 10) 0x80000000 0x2001 9 10 := ⟨by decide, by decide, rfl, rfl, rfl, rfl⟩
  have h2 : Area machine 0x80000000 0x2001 9 18 := ⟨by decide, by decide, by decide +kernel, by decide +kernel, by decide +kernel⟩
  obtain ⟨s', h3, h4, -⟩ := C125_all_partial (by decide) h1 h2 (by decide)
  refine ⟨s', h3, ?_, ?_, ?_⟩
  · have := h4.out 8 (by decide) 0 (by decide)
    rw [show (0x2001 : BitVec 32) + BitVec.ofNat 32 (2 * 8 + 0) = 0x2011 by decide] at this
    rw [this]
    decide +kernel
  · have := h4.out 8 (by decide) 1 (by decide)
    rw [show (0x2001 : BitVec 32) + BitVec.ofNat 32 (2 * 8 + 1) = 0x2012 by decide] at this
    rw [this]
    decide +kernel
  · rw [h4.rest 0x2013 (by decide +kernel)]
    decide +kernel

/-- The same nine bytes across address 2^31: samples 1 to 8 keep what the output held. -/
example : ∃ s', Returns (sem machine) prog 3 (call 0x7ffffffc 0x2001 9 10) s' ∧ s'.mem 0x2001 = 0x7c ∧ s'.mem 0x2003 = 0x03 := by
  have h1 : Args (call 0x7ffffffc 0x2001 9 10) 0x7ffffffc 0x2001 9 10 := ⟨by decide, by decide, rfl, rfl, rfl, rfl⟩
  have h2 : Area machine 0x7ffffffc 0x2001 9 18 := ⟨by decide, by decide, by decide +kernel, by decide +kernel, by decide +kernel⟩
  obtain ⟨s', h3, h4, -⟩ := C125_Ui8toi16 (by decide) h1 h2
  refine ⟨s', h3, ?_, ?_⟩
  · have := h4.out 0 (by decide +kernel) 0 (by decide)
    rw [show (0x2001 : BitVec 32) + BitVec.ofNat 32 (2 * 0 + 0) = 0x2001 by decide] at this
    rw [this]
    decide +kernel
  · have := C125_violated (by decide) h1 h2 (by decide) (by decide) h3 2 (by decide) (by decide)
    rw [show (0x2001 : BitVec 32) + BitVec.ofNat 32 2 = 0x2003 by decide] at this
    rw [this]
    decide +kernel

/-- `Ui8toi16b` with 19 bytes of output: nine samples, byte 18 is not written. -/
example : ∃ s', Returns (sem machine) prog 31 (call 0x80000000 0x2001 20 19) s' ∧ s'.mem 0x2012 = 0x88 ∧ s'.mem 0x2013 = 0x13 := by
  have h1 : Args (call 0x80000000 0x2001 20 19) 0x80000000 0x2001 20 19 := ⟨by decide, by decide, rfl, rfl, rfl, rfl⟩
  have h2 : Area machine 0x80000000 0x2001 9 18 := ⟨by decide, by decide, by decide +kernel, by decide +kernel, by decide +kernel⟩
  obtain ⟨s', h3, h4, -⟩ := C125_Ui8toi16b (by decide) h1 h2
  refine ⟨s', h3, ?_, ?_⟩
  · have := h4.out 8 (by decide +kernel) 1 (by decide)
    rw [show (0x2001 : BitVec 32) + BitVec.ofNat 32 (2 * 8 + 1) = 0x2012 by decide] at this
    rw [this]
    decide +kernel
  · rw [h4.rest 0x2013 (by decide +kernel)]
    decide +kernel

end Verif.A32.Conv
