import Verif.A64.Ui8Lemmas
import Verif.X86.AvoProps

/-!
# Property C121: the instructions of `Ui8tof32` on arm64

The lines of `dsp/conversion_arm64.s` are run one by one, the numbers among them decoded. Unlike its amd64 counterpart (C110) the
routine is right for all lengths.
-/

namespace Verif.A64.Conv
open Verif.A64 Verif.Mach Verif.Fp
open Verif.X86 (byte d32 d32_of_bytes)
open Verif.X86.Avo (ieeeCvt32 f32at)

/-- The frame of a call `Ui8tof32(input, output)`: address and length of both slices. -/
structure Call (s : St) (ib ob : BitVec 64) (nin nout : Nat) : Prop where
  hin : nin < 2 ^ 63
  hout : nout < 2 ^ 63
  f1 : s.fp 0 = ib
  f2 : s.fp 8 = BitVec.ofNat 64 nin
  f3 : s.fp 24 = ob
  f4 : s.fp 32 = BitVec.ofNat 64 nout

/-- The machine can read `n` bytes of input and write `n` float32 of output, and they do not overlap. -/
structure Room (e : Env) (ib ob : BitVec 64) (n : Nat) : Prop where
  small : 4 * n < 2 ^ 63
  rd : ∀ i < n, e.rd (ib + BitVec.ofNat 64 i) = true
  wr : ∀ i < 4 * n, e.wr (ob + BitVec.ofNat 64 i) = true
  apart : ∀ i < n, 4 * n ≤ (ib + BitVec.ofNat 64 i - ob).toNat

/-- The memory after the call: float32 number `i < n` from `ob` is the conversion of input byte `i` less 128, everything else is as
before; the frame is kept. -/
structure Converted (e : Env) (ib ob : BitVec 64) (n : Nat) (s s' : St) : Prop where
  out : ∀ i < n, ∀ j < 4, s'.mem (ob + BitVec.ofNat 64 (4 * i + j)) =
    byte (e.o.cvt (((s.mem (ib + BitVec.ofNat 64 i)).toNat : Int) - 128)) j
  rest : ∀ a, 4 * n ≤ (a - ob).toNat → s'.mem a = s.mem a
  frame : s'.fp = s.fp

/-- **C121.** Run from any state with the arguments in the frame, for all lengths, alignments and contents, and whatever the
floating-point unit makes of an integer: the routine returns, the output holds the conversions, and nothing else in memory and in
the frame has changed. -/
theorem C121_converts {e : Env} {s : St} {ib ob : BitVec 64} {nin nout n : Nat} (hn : n = min nin nout) (hc : Call s ib ob nin nout)
    (hr : Room e ib ob n) : ∃ s', Returns (sem e) prog 9 s s' ∧ Converted e ib ob n s s' := by
  have hs := hr.small
  obtain ⟨s', h1, h2⟩ := routine hc.hin hc.hout hn rfl (v := 4 * n) ⟨by omega, by omega, hr.rd, hr.wr, fun i hi => hr.apart i hi⟩ hc.f1 hc.f2 hc.f3 hc.f4
  refine ⟨s', h2, ?_, ?_, h1.fp⟩
  · intro i hi j hj
    rw [h1.mem, fill_in (by omega) (by omega), want, elem, show (4 * i + j) / 4 = i by omega, show (4 * i + j) % 4 = j by omega]
  · intro a ha
    rw [h1.mem, fill_out ha]

/-- **C121.** There is no other way for the routine to end. -/
theorem C121_only {e : Env} {s s' : St} {ib ob : BitVec 64} {nin nout n : Nat} (hn : n = min nin nout) (hc : Call s ib ob nin nout)
    (hr : Room e ib ob n) (h : Returns (sem e) prog 9 s s') : Converted e ib ob n s s' := by
  obtain ⟨t, h1, h2⟩ := C121_converts hn hc hr
  rwa [h.unique h1]

/-- **C121 with IEEE-754 arithmetic.** The float32 stored for a byte has exactly the value of the byte less 128. -/
theorem C121_value {e : Env} (he : e.o.cvt = ieeeCvt32) {s s' : St} {ib ob : BitVec 64} {n : Nat} (h : Converted e ib ob n s s') {i : Nat}
    (hi : i < n) (b : BitVec 8) (hb : s.mem (ib + BitVec.ofNat 64 i) = b) :
    f32at s'.mem (ob + BitVec.ofNat 64 (4 * i)) = .fin (decide (b.toNat < 128)) |(b.toNat : ℚ) - 128| :=
  X86.Avo.C110_value (e := ⟨⟨ieeeCvt32, fun _ => 0, fun _ => 0, fun a _ => a, fun a _ => a, fun a _ => a, fun a _ => a, fun _ _ => (false, false)⟩,
      fun _ => true, fun _ => true, fun _ => 0⟩) rfl
    (s := ⟨⟨0, 0, 0, 0, 0, 0, 0⟩, fun _ _ => 0, ⟨none, none, none, none⟩, s.mem, s.fp⟩)
    (s' := ⟨⟨0, 0, 0, 0, 0, 0, 0⟩, fun _ _ => 0, ⟨none, none, none, none⟩, s'.mem, s'.fp⟩)
    ⟨fun i hi j hj => by rw [← he]; exact h.out i hi j hj, h.rest, h.frame, rfl⟩ hi b hb

/-! ### Examples -/

/-- A machine: bytes 0x1000–0x1fff can be read, 0x2000–0x2fff written. -/
def machine : Env where
  o := ⟨ieeeCvt32, fun a _ => a, fun a _ => a, fun a _ => a⟩
  rd := fun a => decide (0x1000 ≤ a.toNat ∧ a.toNat < 0x2000)
  wr := fun a => decide (0x2000 ≤ a.toNat ∧ a.toNat < 0x3000)

/-- A call with `nin` bytes at `ib` and `nout` float32 at `ob`. -/
def call (ib ob : BitVec 64) (nin nout : Nat) : St where
  x := fun _ => 0xdead
  v := fun _ _ => 0x55
  fl := ⟨false, true, false, true⟩
  mem := fun a => a.setWidth 8
  fp := fun k => if k = 0 then ib else if k = 8 then BitVec.ofNat 64 nin else if k = 24 then ob else if k = 32 then BitVec.ofNat 64 nout else 0

/-- 77 bytes to 80 float32, both unaligned: two blocks of 32 and 13 single elements; the last byte is 0x4d. -/
example : ∃ s', Returns (sem machine) prog 9 (call 0x1001 0x2004 77 80) s' ∧ f32at s'.mem (0x2004 + BitVec.ofNat 64 (4 * 76)) = .fin true 51 := by
  have h1 : Call (call 0x1001 0x2004 77 80) 0x1001 0x2004 77 80 := ⟨by decide, by decide, rfl, rfl, rfl, rfl⟩
  have h2 : Room machine 0x1001 0x2004 77 := ⟨by decide, by decide +kernel, by decide +kernel, by decide +kernel⟩
  obtain ⟨s', h3, h4⟩ := C121_converts (by decide) h1 h2
  refine ⟨s', h3, ?_⟩
  rw [C121_value rfl h4 (i := 76) (by decide +kernel) 0x4d (by decide +kernel), show (0x4d : BitVec 8).toNat = 77 from rfl]
  norm_num

/-- 33 bytes to 33 float32, the case of `X86.Avo.C110_violated_fault`: only the slices can be accessed and the routine returns. -/
example : ∃ s', Returns (sem { machine with rd := fun a => decide (0x1000 ≤ a.toNat ∧ a.toNat < 0x1021) }) prog 9 (call 0x1000 0x2004 33 33) s' := by
  obtain ⟨s', h3, -⟩ := C121_converts (e := { machine with rd := fun a => decide (0x1000 ≤ a.toNat ∧ a.toNat < 0x1021) }) (n := 33) (by decide)
    (s := call 0x1000 0x2004 33 33) ⟨by decide, by decide, rfl, rfl, rfl, rfl⟩ ⟨by decide, by decide +kernel, by decide +kernel, by decide +kernel⟩
  exact ⟨s', h3⟩

end Verif.A64.Conv
