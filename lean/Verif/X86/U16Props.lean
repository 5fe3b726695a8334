import Verif.X86.X86Spec
import Verif.X86.U16Lemmas

/-!
# Property C113: the instructions of `Ui8toi16` and `Ui8toi16b` on amd64

Lines 4–89 and 91–163 of `dsp/conversion_amd64.s`, one by one.
-/

namespace Verif.X86.Conv
open Verif.X86

/-- Both bytes of sample `i` are input byte `i` less 128 (modulo 256). -/
def u8twice (s : St) (ib : BitVec 64) (i : Nat) (_ : Nat) : BitVec 8 := s.mem (ib + BitVec.ofNat 64 i) - 128

theorem u16_stored {ib ob : BitVec 64} {n : Nat} {f : Nat → BitVec 64} {bp : BitVec 64} (hN : 2 * n < 2 ^ 63) {s s' : St}
    (h : U16.Inv s.mem ib ob n f bp n (2 * n) s') : Stored ob n 2 (u8twice s ib) s s' := by
  refine stored_of hN h.mem fun i _ j hj => ?_
  rw [U16.want, u8twice, show (2 * i + j) / 2 = i by omega]
  rfl

/-- **C113 for `Ui8toi16`.** From any state with the arguments in the frame and the output at an even address: the routine returns, sample `i` of the
output is byte `i` less 128 in both bytes, and the rest of memory, the frame and the frame pointer have not changed. -/
theorem C113_Ui8toi16 {e : Env} {s : St} {ib ob : BitVec 64} {nin nout n : Nat} (hn : n = min nin nout) (hc : Args s ib ob nin nout)
    (h2 : ob.toNat % 2 = 0) (hr : Area e ib ob n (2 * n)) :
    ∃ s', Returns e prog 4 s s' ∧ Stored ob n 2 (u8twice s ib) s s' ∧ s'.fp = s.fp ∧ s'.g.bp = s.g.bp := by
  obtain ⟨s', h1, h3⟩ := U16.routine hc.hin hc.hout hn hr.io h2 hc.f1 hc.f2 hc.f3 hc.f4
  exact ⟨s', h1, u16_stored hr.wsmall h3, h3.fp, h3.bp⟩

/-- **C113 for `Ui8toi16b`.** The output is bytes, at any address, of which `nout / 2` pairs are used; of the frame only the output length, and that only at
an even address, has changed. -/
theorem C113_Ui8toi16b {e : Env} {s : St} {ib ob : BitVec 64} {nin nout n : Nat} (hn : n = min nin (nout / 2)) (hc : Args s ib ob nin nout)
    (hr : Area e ib ob n (2 * n)) :
    ∃ s', Returns e prog 91 s s' ∧ Stored ob n 2 (u8twice s ib) s s' ∧ (∀ k, k ≠ 32 → s'.fp k = s.fp k) ∧
      (ob.toNat % 2 = 1 → s'.fp = s.fp) ∧ s'.g.bp = s.g.bp := by
  obtain ⟨s', h1, h3⟩ := U16.routineb hc.hin hc.hout hn hr.io hc.f1 hc.f2 hc.f3 hc.f4
  refine ⟨s', h1, u16_stored hr.wsmall h3, ?_, ?_, h3.bp⟩
  · intro k hk
    rw [h3.fp]
    split
    · exact Function.update_of_ne hk _ _
    · rfl
  · intro h
    rw [h3.fp, if_neg (by omega)]

/-- **C113, the samples.** As a signed number the sample is 257 times the byte less 128, and 256 more for bytes below 128: 127 becomes
-1, 128 becomes 0, the extremes become -32640 and 32639. -/
theorem C113_value {s s' : St} {ib ob : BitVec 64} {n : Nat} (h : Stored ob n 2 (u8twice s ib) s s') {i : Nat} (hi : i < n) (b : BitVec 8)
    (hb : s.mem (ib + BitVec.ofNat 64 i) = b) :
    (s'.mem (ob + BitVec.ofNat 64 (2 * i + 1)) ++ s'.mem (ob + BitVec.ofNat 64 (2 * i))).toInt =
      257 * ((b.toNat : Int) - 128) + if b.toNat < 128 then 256 else 0 := by
  have h0 := h.out i hi 0 (by omega)
  have h1 := h.out i hi 1 (by omega)
  rw [Nat.add_zero] at h0
  rw [h0, h1, u8twice, u8twice, hb]
  clear h0 h1 hb
  revert b
  decide +kernel

/-! ### Examples -/

/-- All of memory can be read and written. -/
def anyMachine : Env where
  o := ⟨fun _ => 0, fun _ => 0, fun _ => 0, fun a _ => a, fun a _ => a, fun a _ => a, fun a _ => a, fun _ _ => (false, false)⟩
  rd := fun _ => true
  wr := fun _ => true
  sym := fun _ => 0

/-- A call with `nin` elements at 0x1000 and `nout` at `ob`. -/
def callAt (ob : BitVec 64) (nin nout : Nat) : St where
  g := ⟨0, 0, 0, 0, 0, 0, 0x7fff0000⟩
  x := fun _ _ => 0
  fl := ⟨none, none, none, none⟩
  mem := fun a => a.setWidth 8
  fp := fun k => if k = 0 then 0x1000 else if k = 8 then BitVec.ofNat 64 nin else if k = 24 then ob else if k = 32 then BitVec.ofNat 64 nout else 0

/-- 100 bytes to 90 samples at 0x2006: five samples before the boundary, two blocks and 21 samples. -/
example : ∃ s', Returns anyMachine prog 4 (callAt 0x2006 100 90) s' ∧
    (s'.mem (0x2006 + BitVec.ofNat 64 (2 * 89 + 1)) ++ s'.mem (0x2006 + BitVec.ofNat 64 (2 * 89))).toInt = -9767 := by
  have h1 : Args (callAt 0x2006 100 90) 0x1000 0x2006 100 90 := ⟨by decide, by decide, rfl, rfl, rfl, rfl⟩
  have h2 : Area anyMachine 0x1000 0x2006 90 (2 * 90) := ⟨by decide, by decide, fun _ _ => rfl, fun _ _ => rfl, by decide +kernel⟩
  obtain ⟨s', h3, h4, -⟩ := C113_Ui8toi16 (n := 90) (by decide) h1 (by decide) h2
  refine ⟨s', h3, ?_⟩
  rw [C113_value h4 (i := 89) (by decide) 89 (by decide +kernel)]
  decide +kernel

/-- 100 bytes to 181 bytes at the odd address 0x2007. -/
example : ∃ s', Returns anyMachine prog 91 (callAt 0x2007 100 181) s' ∧ s'.fp 32 = 181 ∧ s'.mem (0x2007 + BitVec.ofNat 64 180) = (callAt 0x2007 100 181).mem (0x2007 + BitVec.ofNat 64 180) := by
  have h1 : Args (callAt 0x2007 100 181) 0x1000 0x2007 100 181 := ⟨by decide, by decide, rfl, rfl, rfl, rfl⟩
  have h2 : Area anyMachine 0x1000 0x2007 90 (2 * 90) := ⟨by decide, by decide, fun _ _ => rfl, fun _ _ => rfl, by decide +kernel⟩
  obtain ⟨s', h3, h4, -, h5, -⟩ := C113_Ui8toi16b (n := 90) (by decide) h1 h2
  exact ⟨s', h3, by rw [h5 (by decide)]; rfl, h4.rest _ (by decide +kernel)⟩

end Verif.X86.Conv
