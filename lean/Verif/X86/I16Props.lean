import Verif.X86.F16Props
import Verif.X86.I64Lemmas
import Verif.X86.I32Lemmas

/-!
# Property C115: the instructions of `I16bleToF64` and `I16bleToF32` on amd64

Lines 543–631 and 633–714 of `dsp/conversion_amd64.s`, one by one.
-/

namespace Verif.X86.Conv
open Verif.X86 Verif.Fp

/-- Byte `j` of the product of sample `i` from `ib` and the scale. -/
def i64f (e : Env) (s : St) (ib : BitVec 64) (sc : BitVec 64) (i j : Nat) : BitVec 8 :=
  byte (e.o.mul64 (e.o.cvt64 (u16at s.mem (ib + BitVec.ofNat 64 (2 * i))).toInt) sc) j

/-- Byte `j` of the product of sample `i` from `ib` and the scale. -/
def i32f (e : Env) (s : St) (ib : BitVec 64) (sc : BitVec 32) (i j : Nat) : BitVec 8 :=
  byte (e.o.mul32 (e.o.cvt32 (u16at s.mem (ib + BitVec.ofNat 64 (2 * i))).toInt) sc) j

/-- **C115 for `I16bleToF64`.** From any state with the arguments in the frame, with or without SSE4.1, at any addresses and whatever
the floating-point unit computes: the routine returns; element `i` is the product of sample `i`, converted, and the scale; the rest
of memory, the frame and the frame pointer have not changed. -/
theorem C115_I16bleToF64 {e : Env} {s : St} {ib ob : BitVec 64} {sc : BitVec 64} {nin nout n : Nat} (hn : n = min (nin / 2) nout)
    (hc : Args s ib ob nin nout) (h5 : s.fp 48 = sc) (hr : Area e ib ob (2 * n) (8 * n)) :
    ∃ s', Returns e prog 543 s s' ∧ Stored ob n 8 (i64f e s ib sc) s s' ∧ s'.fp = s.fp ∧ s'.g.bp = s.g.bp := by
  obtain ⟨s', h1, h2⟩ := I64.routine hc.hin hc.hout hn hr.io hc.f1 hc.f2 hc.f3 hc.f4 h5
  refine ⟨s', h1, stored_of hr.wsmall h2.mem fun i _ j hj => ?_, h2.fp, h2.bp⟩
  rw [I64.want, i64f, show (8 * i + j) / 8 = i by omega, show (8 * i + j) % 8 = j by omega, I64.elem, I64.cv, I64.smp, u16at, adv]

/-- **C115 for `I16bleToF32`.** -/
theorem C115_I16bleToF32 {e : Env} {s : St} {ib ob : BitVec 64} {sc : BitVec 32} {nin nout n : Nat} (hn : n = min (nin / 2) nout)
    (hc : Args s ib ob nin nout) (h5 : Scale s sc) (hr : Area e ib ob (2 * n) (4 * n)) :
    ∃ s', Returns e prog 633 s s' ∧ Stored ob n 4 (i32f e s ib sc) s s' ∧ s'.fp = s.fp ∧ s'.g.bp = s.g.bp := by
  obtain ⟨s', h1, h2⟩ := I32.routine hc.hin hc.hout hn hr.io hc.f1 hc.f2 hc.f3 hc.f4 h5
  refine ⟨s', h1, stored_of hr.wsmall h2.mem fun i _ j hj => ?_, h2.fp, h2.bp⟩
  rw [I32.want, i32f, show (4 * i + j) / 4 = i by omega, show (4 * i + j) % 4 = j by omega, I32.elem, I32.cv, I32.smp, u16at, adv]

/-! ### With IEEE-754 arithmetic -/

theorem bytes32at {v : BitVec 32} {m : BitVec 64 → BitVec 8} {a : BitVec 64} (h : ∀ j < 4, m (a + BitVec.ofNat 64 j) = byte v j) : u32at m a = v := by
  have h0 := h 0 (by omega)
  rw [adv0] at h0
  have := d32_of_bytes v (byte v) 0 (fun j _ => by rw [Nat.mul_zero, Nat.zero_add])
  unfold u32at
  rw [h 3 (by omega), h 2 (by omega), h 1 (by omega), h0]
  exact this

theorem append8 (b7 b6 b5 b4 b3 b2 b1 b0 : BitVec 8) :
    b7 ++ b6 ++ b5 ++ b4 ++ b3 ++ b2 ++ b1 ++ b0 = ((b7 ++ b6 ++ b5 ++ b4 : BitVec 32) ++ (b3 ++ b2 ++ b1 ++ b0 : BitVec 32) : BitVec 64) := by
  apply BitVec.eq_of_toNat_eq
  simp only [BitVec.toNat_append, ← Nat.shiftLeft_or_distrib, ← Nat.shiftLeft_add, Nat.shiftLeft_or_distrib, Nat.or_assoc]

theorem f64at_of {v : BitVec 64} {m : BitVec 64 → BitVec 8} {a : BitVec 64} (h : ∀ j < 8, m (a + BitVec.ofNat 64 j) = byte v j) : f64at m a = ofBits64 v := by
  have h0 := h 0 (by omega)
  rw [adv0] at h0
  have := q64_of_bytes v (byte v) 0 (fun j _ => by rw [Nat.mul_zero, Nat.zero_add])
  unfold f64at
  rw [h 7 (by omega), h 6 (by omega), h 5 (by omega), h 4 (by omega), h 3 (by omega), h 2 (by omega), h 1 (by omega), h0, append8]
  exact congrArg _ this

theorem f32at_of {v : BitVec 32} {m : BitVec 64 → BitVec 8} {a : BitVec 64} (h : ∀ j < 4, m (a + BitVec.ofNat 64 j) = byte v j) :
    Avo.f32at m a = ofBits32 v := congrArg ofBits32 (bytes32at h)

theorem is_ofInt64 (v : BitVec 16) : Is (ofInt binary64 v.toInt) v.toInt := by
  have h1 := BitVec.toInt_lt (x := v)
  have h2 := BitVec.le_toInt (x := v)
  have h3 : v.toInt.natAbs < 2 ^ 53 := by omega
  have hg : Grid binary64 |(v.toInt : ℚ)| := ⟨v.toInt.natAbs, 0, h3, by decide, by
    rw [abs_abs, zpow_zero, mul_one, ← Int.cast_abs, Int.abs_eq_natAbs, Int.cast_natCast]⟩
  have hr := rd_grid binary64 (by decide) hg
  have : ofInt binary64 v.toInt = .fin (decide ((v.toInt : ℚ) < 0)) |(v.toInt : ℚ)| := by
    show Fp.round binary64 _ _ = _
    rw [round_rd binary64 _ (abs_nonneg _), hr]
    rw [hr, ← Int.cast_abs, Int.abs_eq_natAbs, Int.cast_natCast]
    have h4 : (v.toInt.natAbs : ℚ) < 2 ^ 53 := by exact_mod_cast h3
    refine h4.trans_le ?_
    show (2 : ℚ) ^ 53 ≤ 2 ^ ((1024 : ℕ) : ℤ)
    rw [zpow_natCast]
    exact pow_le_pow_right₀ (by norm_num) (by norm_num)
  rw [this]
  refine ⟨⟨_, _, rfl, abs_nonneg _⟩, ?_⟩
  simp only [Val.toRat, decide_eq_true_eq]
  split
  · rename_i c
    rw [abs_of_neg c, neg_neg]
  · rename_i c
    rw [abs_of_nonneg (by linarith)]

theorem is_ofInt32 (v : BitVec 16) : Is (ofInt binary32 v.toInt) v.toInt := by
  have h1 := BitVec.toInt_lt (x := v)
  have h2 := BitVec.le_toInt (x := v)
  rw [Verif.Conv.ofInt_exact _ (by omega)]
  refine ⟨⟨_, _, rfl, by positivity⟩, ?_⟩
  simp only [Val.toRat, decide_eq_true_eq]
  have : (v.toInt.natAbs : ℚ) = |(v.toInt : ℚ)| := by rw [← Int.cast_abs, Int.abs_eq_natAbs, Int.cast_natCast]
  rw [this]
  split
  · rename_i c
    rw [abs_of_neg (by exact_mod_cast c), neg_neg]
  · rename_i c
    rw [abs_of_nonneg (by exact_mod_cast (not_lt.1 c))]

/-- **C115 with IEEE-754 arithmetic, float64.** The element is the product of sample and scale, rounded once. -/
theorem C115_value64 {e : Env} (he : e.o = ieee) {s s' : St} {ib ob : BitVec 64} {sc : BitVec 64} {n : Nat} (h : Stored ob n 8 (i64f e s ib sc) s s')
    {i : Nat} (hi : i < n) (v : BitVec 16) (hv : u16at s.mem (ib + BitVec.ofNat 64 (2 * i)) = v) {y : ℚ} (hy : Is (ofBits64 sc) y)
    (ho : |rd binary64 (v.toInt * y)| < 2 ^ (1024 : ℤ)) :
    Is (f64at s'.mem (ob + BitVec.ofNat 64 (8 * i))) (rd binary64 (v.toInt * y)) := by
  rw [f64at_of (fun j hj => by rw [adv, h.out i hi j hj, i64f]), he, hv]
  show Is (ofBits64 (ieeeMul64 (ieeeCvt64 v.toInt) sc)) _
  rw [ofBits64_mul, ofBits64_cvt]
  exact mul_rd binary64 (is_ofInt64 v) hy ho

/-- **C115 with IEEE-754 arithmetic, float32.** -/
theorem C115_value32 {e : Env} (he : e.o = ieee) {s s' : St} {ib ob : BitVec 64} {sc : BitVec 32} {n : Nat} (h : Stored ob n 4 (i32f e s ib sc) s s')
    {i : Nat} (hi : i < n) (v : BitVec 16) (hv : u16at s.mem (ib + BitVec.ofNat 64 (2 * i)) = v) {y : ℚ} (hy : Is (ofBits32 sc) y)
    (ho : |rd binary32 (v.toInt * y)| < 2 ^ (128 : ℤ)) :
    Is (Avo.f32at s'.mem (ob + BitVec.ofNat 64 (4 * i))) (rd binary32 (v.toInt * y)) := by
  rw [f32at_of (fun j hj => by rw [adv, h.out i hi j hj, i32f]), he, hv]
  show Is (ofBits32 (ieeeMul32 (Avo.ieeeCvt32 v.toInt) sc)) _
  rw [ofBits32_mul, ofBits32_cvt]
  exact mul_rd binary32 (is_ofInt32 v) hy ho

/-! ### Examples -/

/-- 27 bytes to fifteen float64 at 0x2003, scale -2: thirteen elements; the sample 0x0100 becomes -512. -/
example : ∃ s', Returns (ieeeMachine true) prog 543 (callScaled 0x01000100 0x2003 27 15 0xC000000000000000) s' ∧
    ∀ i < 13, Is (f64at s'.mem (0x2003 + BitVec.ofNat 64 (8 * i))) (-512) := by
  have h1 : Args (callScaled 0x01000100 0x2003 27 15 0xC000000000000000) 0x1000 0x2003 27 15 := ⟨by decide, by decide, rfl, rfl, rfl, rfl⟩
  have h2 : Area (ieeeMachine true) 0x1000 0x2003 (2 * 13) (8 * 13) := ⟨by decide, by decide, fun _ _ => rfl, fun _ _ => rfl, by decide +kernel⟩
  obtain ⟨s', h3, h4, -⟩ := C115_I16bleToF64 (n := 13) (sc := 0xC000000000000000) (by decide) h1 rfl h2
  refine ⟨s', h3, fun i hi => ?_⟩
  have b2 : ofBits64 0xC000000000000000 = .fin true 2 := by norm_num [ofBits64, show (0xC000000000000000 : BitVec 64).toNat = 0xC000000000000000 from rfl]
  have hv : ∀ i < 13, u16at (callScaled 0x01000100 0x2003 27 15 0xC000000000000000).mem (0x1000 + BitVec.ofNat 64 (2 * i)) = 0x0100 := by decide +kernel
  have b3 : rd binary64 (((0x0100 : BitVec 16).toInt : ℚ) * -2) = -512 := by
    rw [show ((0x0100 : BitVec 16).toInt : ℚ) * -2 = -512 by norm_num [show (0x0100 : BitVec 16).toInt = 256 from rfl]]
    exact rd_grid _ (by decide) ⟨512, 0, by decide, by decide, by norm_num [abs_of_neg]⟩
  have := C115_value64 (he := rfl) h4 hi 0x0100 (hv i hi) (y := -2) (by rw [b2]; exact ⟨⟨_, _, rfl, by norm_num⟩, rfl⟩) (by
    rw [b3]
    show _ < (2 : ℚ) ^ ((1024 : ℕ) : ℤ)
    rw [zpow_natCast]
    calc |(-512 : ℚ)| < 2 ^ 10 := by norm_num [abs_of_neg]
      _ ≤ 2 ^ 1024 := pow_le_pow_right₀ (by norm_num) (by norm_num))
  rwa [b3] at this

/-- The same to float32 without SSE4.1. -/
example : ∃ s', Returns (ieeeMachine false) prog 633 (callScaled 0x01000100 0x2003 27 15 0xC0000000) s' ∧
    ∀ i < 13, Is (Avo.f32at s'.mem (0x2003 + BitVec.ofNat 64 (4 * i))) (-512) := by
  have h1 : Args (callScaled 0x01000100 0x2003 27 15 0xC0000000) 0x1000 0x2003 27 15 := ⟨by decide, by decide, rfl, rfl, rfl, rfl⟩
  have h2 : Area (ieeeMachine false) 0x1000 0x2003 (2 * 13) (4 * 13) := ⟨by decide, by decide, fun _ _ => rfl, fun _ _ => rfl, by decide +kernel⟩
  obtain ⟨s', h3, h4, -⟩ := C115_I16bleToF32 (n := 13) (sc := 0xC0000000) (by decide) h1 rfl h2
  refine ⟨s', h3, fun i hi => ?_⟩
  have b2 : ofBits32 0xC0000000 = .fin true 2 := by norm_num [ofBits32, show (0xC0000000 : BitVec 32).toNat = 0xC0000000 from rfl]
  have hv : ∀ i < 13, u16at (callScaled 0x01000100 0x2003 27 15 0xC0000000).mem (0x1000 + BitVec.ofNat 64 (2 * i)) = 0x0100 := by decide +kernel
  have b3 : rd binary32 (((0x0100 : BitVec 16).toInt : ℚ) * -2) = -512 := by
    rw [show ((0x0100 : BitVec 16).toInt : ℚ) * -2 = -512 by norm_num [show (0x0100 : BitVec 16).toInt = 256 from rfl]]
    exact rd_grid _ (by decide) ⟨512, 0, by decide, by decide, by norm_num [abs_of_neg]⟩
  have := C115_value32 (he := rfl) h4 hi 0x0100 (hv i hi) (y := -2) (by rw [b2]; exact ⟨⟨_, _, rfl, by norm_num⟩, rfl⟩) (by
    rw [b3]
    norm_num [abs_of_neg])
  rwa [b3] at this

end Verif.X86.Conv
