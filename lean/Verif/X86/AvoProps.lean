import Verif.X86.AvoLemmas
import Verif.Conv.IeeeProps
import Verif.Fp.Bits

/-!
# Property C110: the instructions of `Ui8tof32` on amd64

The lines of `dsp/conversion_avo_amd64.s` are run one by one. The routine converts and returns, and keeps everything else, as
long as the number of elements past the last whole sixteen is not less than the number of elements before the first 16-byte
boundary of the output. Otherwise its last block of sixteen goes past both slices.
-/

namespace Verif.X86.Avo
open Verif.X86 Verif.Fp

/-- The frame of a call `Ui8tof32(input, output)`: address and length of both slices; `output` is a slice of float32 and so at a
multiple of four bytes. -/
structure Call (s : St) (ib ob : BitVec 64) (nin nout : Nat) : Prop where
  hin : nin < 2 ^ 63
  hout : nout < 2 ^ 63
  f1 : s.fp 0 = ib
  f2 : s.fp 8 = BitVec.ofNat 64 nin
  f3 : s.fp 24 = ob
  f4 : s.fp 32 = BitVec.ofNat 64 nout
  h4 : ob.toNat % 4 = 0

/-- The machine can read `n` bytes of input and write `n` float32 of output, and they do not overlap. -/
structure Room (e : Env) (ib ob : BitVec 64) (n : Nat) : Prop where
  small : 4 * n < 2 ^ 63
  rd : ∀ i < n, e.rd (ib + BitVec.ofNat 64 i) = true
  wr : ∀ i < 4 * n, e.wr (ob + BitVec.ofNat 64 i) = true
  apart : ∀ i < n, 4 * n ≤ (ib + BitVec.ofNat 64 i - ob).toNat

/-- The memory after the call: float32 number `i < n` from `ob` is the conversion of input byte `i` less 128, everything else is as
before; the frame and the frame pointer are kept. -/
structure Converted (e : Env) (ib ob : BitVec 64) (n : Nat) (s s' : St) : Prop where
  out : ∀ i < n, ∀ j < 4, s'.mem (ob + BitVec.ofNat 64 (4 * i + j)) =
    byte (e.o.cvt32 (((s.mem (ib + BitVec.ofNat 64 i)).toNat : Int) - 128)) j
  rest : ∀ a, 4 * n ≤ (a - ob).toNat → s'.mem a = s.mem a
  frame : s'.fp = s.fp
  bp : s'.g.bp = s.g.bp

/-- The distance of the output from a 16-byte boundary, in elements. -/
def gap (ob : BitVec 64) : Nat := (16 - ob.toNat % 16) % 16 / 4

theorem Room.io {e : Env} {ib ob : BitVec 64} {n : Nat} (h : Room e ib ob n) : Io e ib ob n (4 * n) :=
  ⟨by have := h.small; omega, h.small, h.rd, h.wr, h.apart⟩

theorem lead_gap {ob : BitVec 64} (h4 : ob.toNat % 4 = 0) : lead ob = gap ob := by unfold lead gap; omega

theorem inv_converted {e : Env} {ib ob : BitVec 64} {n N : Nat} (hN : 4 * N < 2 ^ 63) {s s' : St} (h : Inv e s.mem ib ob n s.fp s.g.bp N (4 * N) s') :
    Converted e ib ob N s s' := by
  refine ⟨?_, ?_, h.fp, h.bp⟩
  · intro i hi j hj
    rw [h.mem, fill_in (by omega) (by omega), want, elem, show (4 * i + j) / 4 = i by omega, show (4 * i + j) % 4 = j by omega]
  · intro a ha
    rw [h.mem, fill_out ha]

/-- How many elements the routine converts. -/
theorem total_eq {n : Nat} {ob : BitVec 64} (h4 : ob.toNat % 4 = 0) :
    total n ob = if n ≤ 32 ∨ gap ob ≤ n % 16 then n else n - n % 16 + gap ob := by
  unfold total
  rw [lead_gap h4]
  split <;> split <;> omega

/-- **C110 (partial).** Run from any state with the arguments in the frame, with or without SSE4.1, and whatever the floating-point
unit makes of an integer: the routine returns, the output holds the conversions, and nothing else in memory, the frame and the
frame pointer have changed. Missing: lengths over 32 with fewer elements past the last whole sixteen than there are before the
first 16-byte boundary, see `C110_violated`. -/
theorem C110_converts_partial {e : Env} {s : St} {ib ob : BitVec 64} {nin nout n : Nat} (hn : n = min nin nout) (hc : Call s ib ob nin nout)
    (hr : Room e ib ob n) (h : n ≤ 32 ∨ gap ob ≤ n % 16) : ∃ s', Returns e prog 7 s s' ∧ Converted e ib ob n s s' := by
  have ht : n = total (min nin nout) ob := by rw [total_eq hc.h4, ← hn, if_pos h]
  obtain ⟨s', h1, h2⟩ := routine hc.hin hc.hout ht hr.io hc.h4 hc.f1 hc.f2 hc.f3 hc.f4
  exact ⟨s', h1, inv_converted hr.small h2⟩

/-- **C110, violated.** In the other cases the routine converts `n - n % 16 + gap ob` elements, which is more than `n`: where the
memory behind the slices can be accessed it is read and overwritten. -/
theorem C110_violated {e : Env} {s : St} {ib ob : BitVec 64} {nin nout n : Nat} (hn : n = min nin nout) (hc : Call s ib ob nin nout)
    (h32 : 32 < n) (h : n % 16 < gap ob) (hr : Room e ib ob (n - n % 16 + gap ob)) :
    n < n - n % 16 + gap ob ∧ ∃ s', Returns e prog 7 s s' ∧ Converted e ib ob (n - n % 16 + gap ob) s s' := by
  have ht : n - n % 16 + gap ob = total (min nin nout) ob := by rw [total_eq hc.h4, ← hn, if_neg (by omega)]
  obtain ⟨s', h1, h2⟩ := routine hc.hin hc.hout ht hr.io hc.h4 hc.f1 hc.f2 hc.f3 hc.f4
  exact ⟨by omega, s', h1, inv_converted hr.small h2⟩

/-- **C110, violated.** Where the byte behind the input cannot be read, the routine faults in these cases. -/
theorem C110_violated_fault {e : Env} {s : St} {ib ob : BitVec 64} {nin nout n : Nat} (hn : n = min nin nout) (hc : Call s ib ob nin nout)
    (h32 : 32 < n) (h : n % 16 < gap ob) (hr : Room e ib ob n) (hrd : e.rd (ib + BitVec.ofNat 64 n) = false) : Faults e prog 7 s :=
  routine_fault hc.hin hc.hout hn hr.io hrd h32 (by rw [lead_gap hc.h4]; exact h) hc.h4 hc.f1 hc.f2 hc.f3 hc.f4

/-- **C110.** When just the slices can be accessed the routine returns in exactly the cases of `C110_converts_partial`. -/
theorem C110_returns_iff {e : Env} {s : St} {ib ob : BitVec 64} {nin nout n : Nat} (hn : n = min nin nout) (hc : Call s ib ob nin nout)
    (hr : Room e ib ob n) (hrd : e.rd (ib + BitVec.ofNat 64 n) = false) :
    (∃ s', Returns e prog 7 s s') ↔ n ≤ 32 ∨ gap ob ≤ n % 16 := by
  constructor
  · rintro ⟨s', h1⟩
    by_contra c
    exact (C110_violated_fault hn hc (by omega) (by omega) hr hrd).not_returns s' h1
  · intro h
    obtain ⟨s', h1, -⟩ := C110_converts_partial hn hc hr h
    exact ⟨s', h1⟩

/-! ### With IEEE-754 arithmetic -/

/-- `CVTSQ2SS` and `CVTPL2PS`: the float32 next to an integer. -/
def ieeeCvt32 (i : Int) : BitVec 32 := toBits32 (ofInt binary32 i)

/-- The float32 at an address. -/
def f32at (m : BitVec 64 → BitVec 8) (a : BitVec 64) : Val :=
  ofBits32 (m (a + BitVec.ofNat 64 3) ++ m (a + BitVec.ofNat 64 2) ++ m (a + BitVec.ofNat 64 1) ++ m a)

/-- **C110 with IEEE-754 arithmetic.** The float32 stored for a byte has exactly the value of the byte less 128. -/
theorem C110_value {e : Env} (he : e.o.cvt32 = ieeeCvt32) {s s' : St} {ib ob : BitVec 64} {n : Nat} (h : Converted e ib ob n s s') {i : Nat}
    (hi : i < n) (b : BitVec 8) (hb : s.mem (ib + BitVec.ofNat 64 i) = b) :
    f32at s'.mem (ob + BitVec.ofNat 64 (4 * i)) = .fin (decide (b.toNat < 128)) |(b.toNat : ℚ) - 128| := by
  have hlt := b.isLt
  have h0 := h.out i hi 0 (by omega)
  have h1 := h.out i hi 1 (by omega)
  have h2 := h.out i hi 2 (by omega)
  have h3 := h.out i hi 3 (by omega)
  rw [Nat.add_zero] at h0
  have hd : f32at s'.mem (ob + BitVec.ofNat 64 (4 * i)) = ofBits32 (d32 (byte (ieeeCvt32 ((b.toNat : Int) - 128))) 0) := by
    unfold f32at d32
    rw [adv, adv, adv, h0, h1, h2, h3, he, hb]
  rw [hd, d32_of_bytes (ieeeCvt32 ((b.toNat : Int) - 128)) _ 0 (fun j _ => by rw [Nat.mul_zero, Nat.zero_add]), ieeeCvt32,
    Verif.Conv.ofInt_exact _ (by omega), ofBits32_toBits32]
  · congr 1
    · rw [decide_eq_decide]; omega
    · have : (((b.toNat : Int) - 128).natAbs : ℚ) = |(((b.toNat : Int) - 128 : Int) : ℚ)| := by
        rw [← Int.cast_abs, Int.abs_eq_natAbs, Int.cast_natCast]
      rw [this]
      push_cast
      rfl
  · refine ⟨by positivity, ?_, ((b.toNat : Int) - 128).natAbs, 0, ?_, by decide, ?_⟩
    · have : ((b.toNat : Int) - 128).natAbs ≤ 128 := by omega
      calc (((b.toNat : Int) - 128).natAbs : ℚ) ≤ 128 := by exact_mod_cast this
        _ < 2 ^ 128 := by norm_num
    · have : ((b.toNat : Int) - 128).natAbs ≤ 128 := by omega
      exact lt_of_le_of_lt this (by decide)
    · rw [zpow_zero, mul_one, abs_of_nonneg (by positivity)]

/-! ### Examples -/

/-- A machine: all of memory can be read and written. -/
def machine (sse4 : Bool) : Env where
  o := ⟨ieeeCvt32, fun _ => 0, fun _ => 0, fun a _ => a, fun a _ => a, fun a _ => a, fun a _ => a, fun _ _ => (false, false)⟩
  rd := fun _ => true
  wr := fun _ => true
  sym := fun _ => if sse4 then 1 else 0

/-- A call with `nin` bytes at 0x1000 and `nout` float32 at `ob`. -/
def call (ob : BitVec 64) (nin nout : Nat) : St where
  g := ⟨0, 0, 0, 0, 0, 0, 0x7fff0000⟩
  x := fun _ _ => 0
  fl := ⟨none, none, none, none⟩
  mem := fun a => a.setWidth 8
  fp := fun k => if k = 0 then 0x1000 else if k = 8 then BitVec.ofNat 64 nin else if k = 24 then ob else if k = 32 then BitVec.ofNat 64 nout else 0

/-- 50 bytes to 60 float32 at 0x2008: two elements before the boundary, two past the last whole sixteen. -/
example : Call (call 0x2008 50 60) 0x1000 0x2008 50 60 ∧ Room (machine true) 0x1000 0x2008 50 ∧ gap 0x2008 ≤ 50 % 16 ∧
    ∃ s', Returns (machine true) prog 7 (call 0x2008 50 60) s' ∧ Converted (machine true) 0x1000 0x2008 50 (call 0x2008 50 60) s' := by
  have h1 : Call (call 0x2008 50 60) 0x1000 0x2008 50 60 := ⟨by decide, by decide, rfl, rfl, rfl, rfl, by decide⟩
  have h2 : Room (machine true) 0x1000 0x2008 50 := ⟨by decide, fun _ _ => rfl, fun _ _ => rfl, by decide +kernel⟩
  exact ⟨h1, h2, by decide +kernel, C110_converts_partial (by decide) h1 h2 (Or.inr (by decide +kernel))⟩

/-- 33 bytes to 33 float32 at 0x2004: three elements before the boundary, one past the last whole sixteen. The float32 behind the
output is overwritten. -/
example : ∃ s', Returns (machine false) prog 7 (call 0x2004 33 33) s' ∧
    f32at s'.mem (0x2004 + BitVec.ofNat 64 (4 * 33)) = .fin true 95 := by
  have h1 : Call (call 0x2004 33 33) 0x1000 0x2004 33 33 := ⟨by decide, by decide, rfl, rfl, rfl, rfl, by decide⟩
  have h2 : Room (machine false) 0x1000 0x2004 (33 - 33 % 16 + gap 0x2004) :=
    ⟨by decide +kernel, fun _ _ => rfl, fun _ _ => rfl, by decide +kernel⟩
  obtain ⟨-, s', h3, h4⟩ := C110_violated (by decide) h1 (by decide) (by decide +kernel) h2
  refine ⟨s', h3, ?_⟩
  rw [C110_value rfl h4 (i := 33) (by decide +kernel) 33 (by decide +kernel), show (33 : BitVec 8).toNat = 33 from rfl]
  norm_num

/-- The same with a machine that cannot read behind the input. -/
example : Faults { machine true with rd := fun a => decide (a.toNat < 0x1021) } prog 7 (call 0x2004 33 33) := by
  have h1 : Call (call 0x2004 33 33) 0x1000 0x2004 33 33 := ⟨by decide, by decide, rfl, rfl, rfl, rfl, by decide⟩
  exact C110_violated_fault (n := 33) (by decide) h1 (by decide) (by decide +kernel)
    ⟨by decide +kernel, by decide +kernel, fun _ _ => rfl, by decide +kernel⟩ (by decide +kernel)

end Verif.X86.Avo
