import Verif.X86.X86Spec
import Verif.X86.I8Lemmas
import Verif.X86.AvoProps

/-!
# Property C111: the instructions of `I8tof32` on amd64

Lines 317–461 of `dsp/conversion_amd64.s`, one by one.
-/

namespace Verif.X86.Conv
open Verif.X86 Verif.Fp

/-- The number of elements `I8tof32` handles singly before its blocks: none at a 16-byte boundary, otherwise sixteen (not four) less
the elements past the boundary. -/
def ahead (ob : BitVec 64) : Nat := if ob.toNat % 16 / 4 = 0 then 0 else 16 - ob.toNat % 16 / 4

/-- Byte `j` of the conversion of the signed byte number `i` from `ib`. -/
def i8f (e : Env) (s : St) (ib : BitVec 64) (i j : Nat) : BitVec 8 := byte (e.o.cvt32 (s.mem (ib + BitVec.ofNat 64 i)).toInt) j

theorem lead_ahead (ob : BitVec 64) : I8.lead ob = ahead ob := by unfold I8.lead ahead; split <;> omega

theorem i8_total {n : Nat} {ob : BitVec 64} : I8.total n ob = if n ≤ 32 ∨ ahead ob ≤ n % 16 then n else n - n % 16 + ahead ob := by
  unfold I8.total
  rw [lead_ahead]
  split <;> split <;> omega

theorem i8_stored {e : Env} {ib ob : BitVec 64} {n N : Nat} {bp : BitVec 64} (hN : 4 * N < 2 ^ 63) {s s' : St}
    (h : I8.Inv e s.mem ib ob n s.fp bp N (4 * N) s') : Stored ob N 4 (i8f e s ib) s s' := by
  refine stored_of hN h.mem fun i _ j hj => ?_
  rw [I8.want, I8.elem, i8f, show (4 * i + j) / 4 = i by omega, show (4 * i + j) % 4 = j by omega]

/-- **C111 (partial).** From any state with the arguments in the frame and the output at a multiple of four bytes, with or without
SSE4.1, and whatever the floating-point unit makes of an integer: `I8tof32` returns, the output holds the conversions of the signed
bytes, the rest of memory and the frame have not changed. Missing: lengths over 32 with fewer elements past the last whole sixteen
than are handled singly in front, see `C111_violated`; and the frame pointer, see `C111_violated_bp`. -/
theorem C111_converts_partial {e : Env} {s : St} {ib ob : BitVec 64} {nin nout n : Nat} (hn : n = min nin nout) (hc : Args s ib ob nin nout)
    (h4 : ob.toNat % 4 = 0) (hr : Area e ib ob n (4 * n)) (h : n ≤ 32 ∨ ahead ob ≤ n % 16) :
    ∃ s', Returns e prog 317 s s' ∧ Stored ob n 4 (i8f e s ib) s s' ∧ s'.fp = s.fp := by
  have ht : n = I8.total (min nin nout) ob := by rw [i8_total, ← hn, if_pos h]
  obtain ⟨s', h1, h2⟩ := I8.routine hc.hin hc.hout ht hr.io h4 hc.f1 hc.f2 hc.f3 hc.f4
  exact ⟨s', h1, i8_stored hr.wsmall h2, h2.fp⟩

/-- **C111, violated.** In the other cases the routine converts `n - n % 16 + ahead ob` elements, more than `n`: where the memory
behind the slices can be accessed it is read and overwritten. -/
theorem C111_violated {e : Env} {s : St} {ib ob : BitVec 64} {nin nout n : Nat} (hn : n = min nin nout) (hc : Args s ib ob nin nout)
    (h4 : ob.toNat % 4 = 0) (h32 : 32 < n) (h : n % 16 < ahead ob)
    (hr : Area e ib ob (n - n % 16 + ahead ob) (4 * (n - n % 16 + ahead ob))) :
    n < n - n % 16 + ahead ob ∧ ∃ s', Returns e prog 317 s s' ∧ Stored ob (n - n % 16 + ahead ob) 4 (i8f e s ib) s s' := by
  have ht : n - n % 16 + ahead ob = I8.total (min nin nout) ob := by rw [i8_total, ← hn, if_neg (by omega)]
  obtain ⟨s', h1, h2⟩ := I8.routine hc.hin hc.hout ht hr.io h4 hc.f1 hc.f2 hc.f3 hc.f4
  exact ⟨by omega, s', h1, i8_stored hr.wsmall h2⟩

/-- **C111, violated.** Where the byte behind the input cannot be read, the routine faults in these cases. -/
theorem C111_violated_fault {e : Env} {s : St} {ib ob : BitVec 64} {nin nout n : Nat} (hn : n = min nin nout) (hc : Args s ib ob nin nout)
    (h4 : ob.toNat % 4 = 0) (h32 : 32 < n) (h : n % 16 < ahead ob) (hr : Area e ib ob n (4 * n)) (hrd : e.rd (ib + BitVec.ofNat 64 n) = false) :
    Faults e prog 317 s :=
  I8.routine_fault hc.hin hc.hout hn hr.io hrd h32 (by rw [lead_ahead]; exact h) h4 hc.f1 hc.f2 hc.f3 hc.f4

/-- **C111.** When just the slices can be accessed the routine returns in exactly the cases of `C111_converts_partial`. -/
theorem C111_returns_iff {e : Env} {s : St} {ib ob : BitVec 64} {nin nout n : Nat} (hn : n = min nin nout) (hc : Args s ib ob nin nout)
    (h4 : ob.toNat % 4 = 0) (hr : Area e ib ob n (4 * n)) (hrd : e.rd (ib + BitVec.ofNat 64 n) = false) :
    (∃ s', Returns e prog 317 s s') ↔ n ≤ 32 ∨ ahead ob ≤ n % 16 := by
  constructor
  · rintro ⟨s', h1⟩
    by_contra c
    exact (C111_violated_fault hn hc h4 (by omega) (by omega) hr hrd).not_returns s' h1
  · intro h
    obtain ⟨s', h1, -⟩ := C111_converts_partial hn hc h4 hr h
    exact ⟨s', h1⟩

/-- **C111, violated.** The routine uses the frame pointer for its own ends: whenever it returns after more than 32 elements, `BP` is
zero. Up to 32 elements it is kept. -/
theorem C111_violated_bp {e : Env} {s s' : St} {ib ob : BitVec 64} {nin nout n : Nat} (hn : n = min nin nout) (hc : Args s ib ob nin nout)
    (h4 : ob.toNat % 4 = 0) (h : n ≤ 32 ∨ ahead ob ≤ n % 16) (hr : Area e ib ob n (4 * n)) (hs : Returns e prog 317 s s') :
    s'.g.bp = if n ≤ 32 then s.g.bp else 0 := by
  have ht : n = I8.total (min nin nout) ob := by rw [i8_total, ← hn, if_pos h]
  obtain ⟨s'', h1, h2⟩ := I8.routine hc.hin hc.hout ht hr.io h4 hc.f1 hc.f2 hc.f3 hc.f4
  rw [hs.unique h1, h2.bp, hn]

/-- **C111 with IEEE-754 arithmetic.** The float32 stored for a byte has exactly the value of the signed byte. -/
theorem C111_value {e : Env} (he : e.o.cvt32 = Avo.ieeeCvt32) {s s' : St} {ib ob : BitVec 64} {n : Nat} (h : Stored ob n 4 (i8f e s ib) s s') {i : Nat}
    (hi : i < n) (b : BitVec 8) (hb : s.mem (ib + BitVec.ofNat 64 i) = b) :
    Avo.f32at s'.mem (ob + BitVec.ofNat 64 (4 * i)) = .fin (decide (b.toInt < 0)) |(b.toInt : ℚ)| := by
  have hlt := BitVec.toInt_lt (x := b)
  have hle := BitVec.le_toInt (x := b)
  have h0 := h.out i hi 0 (by omega)
  have h1 := h.out i hi 1 (by omega)
  have h2 := h.out i hi 2 (by omega)
  have h3 := h.out i hi 3 (by omega)
  rw [Nat.add_zero] at h0
  have hd : Avo.f32at s'.mem (ob + BitVec.ofNat 64 (4 * i)) = ofBits32 (d32 (byte (Avo.ieeeCvt32 b.toInt)) 0) := by
    unfold Avo.f32at d32
    rw [adv, adv, adv, h0, h1, h2, h3, i8f, i8f, i8f, i8f, he, hb]
  rw [hd, d32_of_bytes (Avo.ieeeCvt32 b.toInt) _ 0 (fun j _ => by rw [Nat.mul_zero, Nat.zero_add]), Avo.ieeeCvt32,
    Verif.Conv.ofInt_exact _ (by omega), ofBits32_toBits32]
  · congr 1
    have : (b.toInt.natAbs : ℚ) = |((b.toInt : Int) : ℚ)| := by
      rw [← Int.cast_abs, Int.abs_eq_natAbs, Int.cast_natCast]
    rw [this]
  · refine ⟨by positivity, ?_, b.toInt.natAbs, 0, ?_, by decide, ?_⟩
    · have : b.toInt.natAbs ≤ 128 := by omega
      calc (b.toInt.natAbs : ℚ) ≤ 128 := by exact_mod_cast this
        _ < 2 ^ 128 := by norm_num
    · have : b.toInt.natAbs ≤ 128 := by omega
      exact lt_of_le_of_lt this (by decide)
    · rw [zpow_zero, mul_one, abs_of_nonneg (by positivity)]

/-! ### Examples -/

/-- 47 bytes to 60 float32 at 0x2004: fifteen elements in front, fifteen past the last whole sixteen. On return `BP` is zero. -/
example : Args (Avo.call 0x2004 47 60) 0x1000 0x2004 47 60 ∧ Area (Avo.machine true) 0x1000 0x2004 47 (4 * 47) ∧
    ∃ s', Returns (Avo.machine true) prog 317 (Avo.call 0x2004 47 60) s' ∧
      Stored 0x2004 47 4 (i8f (Avo.machine true) (Avo.call 0x2004 47 60) 0x1000) (Avo.call 0x2004 47 60) s' ∧ s'.g.bp = 0 ∧
      (Avo.call 0x2004 47 60).g.bp = 0x7fff0000 := by
  have h1 : Args (Avo.call 0x2004 47 60) 0x1000 0x2004 47 60 := ⟨by decide, by decide, rfl, rfl, rfl, rfl⟩
  have h2 : Area (Avo.machine true) 0x1000 0x2004 47 (4 * 47) := ⟨by decide, by decide, fun _ _ => rfl, fun _ _ => rfl, by decide +kernel⟩
  obtain ⟨s', h3, h4, -⟩ := C111_converts_partial (n := 47) (by decide) h1 (by decide) h2 (Or.inr (by decide +kernel))
  exact ⟨h1, h2, s', h3, h4, C111_violated_bp (n := 47) (by decide) h1 (by decide) (Or.inr (by decide +kernel)) h2 h3, rfl⟩

/-- 33 bytes to 33 float32 at 0x2008: fourteen in front, one past the last whole sixteen. The thirteen float32 behind the output are
overwritten, the first with the signed byte behind the input. -/
example : ∃ s', Returns (Avo.machine false) prog 317 (Avo.call 0x2008 33 33) s' ∧
    Avo.f32at s'.mem (0x2008 + BitVec.ofNat 64 (4 * 33)) = .fin false 33 := by
  have h1 : Args (Avo.call 0x2008 33 33) 0x1000 0x2008 33 33 := ⟨by decide, by decide, rfl, rfl, rfl, rfl⟩
  have h2 : Area (Avo.machine false) 0x1000 0x2008 (33 - 33 % 16 + ahead 0x2008) (4 * (33 - 33 % 16 + ahead 0x2008)) :=
    ⟨by decide +kernel, by decide +kernel, fun _ _ => rfl, fun _ _ => rfl, by decide +kernel⟩
  obtain ⟨-, s', h3, h4⟩ := C111_violated (n := 33) (by decide) h1 (by decide) (by decide) (by decide +kernel) h2
  refine ⟨s', h3, ?_⟩
  rw [C111_value rfl h4 (i := 33) (by decide +kernel) 33 (by decide +kernel), show (33 : BitVec 8).toInt = 33 from rfl]
  norm_num

/-- The same with a machine that cannot read behind the input. -/
example : Faults { Avo.machine true with rd := fun a => decide (a.toNat < 0x1021) } prog 317 (Avo.call 0x2008 33 33) := by
  have h1 : Args (Avo.call 0x2008 33 33) 0x1000 0x2008 33 33 := ⟨by decide, by decide, rfl, rfl, rfl, rfl⟩
  exact C111_violated_fault (n := 33) (by decide) h1 (by decide) (by decide) (by decide +kernel)
    ⟨by decide +kernel, by decide +kernel, by decide +kernel, fun _ _ => rfl, by decide +kernel⟩ (by decide +kernel)

end Verif.X86.Conv
