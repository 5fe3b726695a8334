import Verif.X86.X86Spec
import Verif.X86.X86Ieee
import Verif.X86.F16Lemmas

/-!
# Property C114: the instructions of `F32toi16` and `F32toi16ble` on amd64

Lines 472–532 and 534–538 of `dsp/conversion_amd64.s`, one by one.
-/

namespace Verif.X86.Conv
open Verif.X86 Verif.Fp

/-- The four bytes at an address. -/
def u32at (m : BitVec 64 → BitVec 8) (a : BitVec 64) : BitVec 32 :=
  m (a + BitVec.ofNat 64 3) ++ m (a + BitVec.ofNat 64 2) ++ m (a + BitVec.ofNat 64 1) ++ m a

/-- The two bytes at an address. -/
def u16at (m : BitVec 64 → BitVec 8) (a : BitVec 64) : BitVec 16 := m (a + BitVec.ofNat 64 1) ++ m a

/-- The integer part of the product of number `i` from `ib` and the scale, as the floating-point unit has it. -/
def part (e : Env) (s : St) (ib : BitVec 64) (sc : BitVec 32) (i : Nat) : Int :=
  (e.o.trunc32 (e.o.mul32 (u32at s.mem (ib + BitVec.ofNat 64 (4 * i))) sc)).toInt

/-- The nearest sample. -/
def clamp (t : Int) : Int := max (-32768) (min 32767 t)

/-- Byte `j` of sample `i` of `n`: up to the last whole 32 the nearest sample, after that the integer part modulo 65536. -/
def f16f (e : Env) (s : St) (ib : BitVec 64) (sc : BitVec 32) (n i j : Nat) : BitVec 8 :=
  byte (BitVec.ofInt 16 (if i < n - n % 32 then clamp (part e s ib sc i) else part e s ib sc i)) j

/-- The frame of a call with a float32 behind the slices. -/
def Scale (s : St) (sc : BitVec 32) : Prop := (s.fp 48).setWidth 32 = sc

theorem ofInt_toInt_16 (v : BitVec 32) : BitVec.ofInt 16 v.toInt = v.setWidth 16 := by
  apply BitVec.eq_of_toInt_eq
  rw [BitVec.toInt_ofInt, BitVec.toInt_setWidth, BitVec.toInt_eq_toNat_bmod]
  exact Int.bmod_bmod_of_dvd (by decide)

theorem word_eq (m : BitVec 64 → BitVec 8) (ib : BitVec 64) (i : Nat) : F16.word m ib i = u32at m (ib + BitVec.ofNat 64 (4 * i)) := by
  unfold F16.word u32at
  rw [adv, adv, adv]

theorem prod_toInt (e : Env) (s : St) (ib : BitVec 64) (sc : BitVec 32) (i : Nat) : (F16.prod e s.mem ib sc i).toInt = part e s ib sc i := by
  rw [F16.prod, word_eq]
  rfl

theorem f16_stored {e : Env} {ib ob : BitVec 64} {sc : BitVec 32} {n : Nat} {f : Nat → BitVec 64} {bp : BitVec 64} (hN : 2 * n < 2 ^ 63) {s s' : St}
    (h : F16.Inv e s.mem ib ob sc n f bp n (2 * n) s') : Stored ob n 2 (f16f e s ib sc n) s s' := by
  refine stored_of hN h.mem fun i _ j hj => ?_
  rw [F16.want, f16f, show (2 * i + j) / 2 = i by omega, show (2 * i + j) % 2 = j by omega, F16.res]
  congr 1
  rw [← prod_toInt]
  split
  · rfl
  · rw [ofInt_toInt_16]

theorem bpAt_eq (e : Env) (m : BitVec 64 → BitVec 8) (ib : BitVec 64) (sc : BitVec 32) (n : Nat) (bp : BitVec 64) :
    F16.bpAt e m ib sc n bp n = if n % 32 = 0 then bp else (F16.prod e m ib sc (n - 1)).setWidth 64 := by
  unfold F16.bpAt
  by_cases c : n % 32 = 0
  · rw [if_pos (by omega), if_pos c]
  · rw [if_neg (by omega), if_neg c]

/-- **C114 for `F32toi16`.** From any state with the arguments in the frame and whatever the floating-point unit makes of products
and integer parts: the routine returns, the samples up to the last whole 32 are the integer parts limited to the range of a sample,
the others the integer parts modulo 65536; the rest of memory and the frame have not changed. -/
theorem C114_F32toi16 {e : Env} {s : St} {ib ob : BitVec 64} {sc : BitVec 32} {nin nout n : Nat} (hn : n = min nin nout) (hc : Args s ib ob nin nout)
    (h5 : Scale s sc) (hr : Area e ib ob (4 * n) (2 * n)) :
    ∃ s', Returns e prog 472 s s' ∧ Stored ob n 2 (f16f e s ib sc n) s s' ∧ s'.fp = s.fp := by
  obtain ⟨s', h1, h2⟩ := F16.routine hc.hin hc.hout hn hr.io hc.f1 hc.f2 hc.f3 hc.f4 h5
  exact ⟨s', h1, f16_stored hr.wsmall h2, h2.fp⟩

/-- **C114 for `F32toi16ble`.** The output is `nout` bytes; of the frame only the output length has changed. -/
theorem C114_F32toi16ble {e : Env} {s : St} {ib ob : BitVec 64} {sc : BitVec 32} {nin nout n : Nat} (hn : n = min nin (nout / 2))
    (hc : Args s ib ob nin nout) (h5 : Scale s sc) (hr : Area e ib ob (4 * n) (2 * n)) :
    ∃ s', Returns e prog 534 s s' ∧ Stored ob n 2 (f16f e s ib sc n) s s' ∧ s'.fp 32 = BitVec.ofNat 64 (nout / 2) ∧ ∀ k, k ≠ 32 → s'.fp k = s.fp k := by
  obtain ⟨s', h1, h2⟩ := F16.routineb hc.hin hc.hout hn hr.io hc.f1 hc.f2 hc.f3 hc.f4 h5
  refine ⟨s', h1, f16_stored hr.wsmall h2, ?_, fun k hk => ?_⟩
  · rw [h2.fp, Function.update_self]
  · rw [h2.fp, Function.update_of_ne hk]

/-- **C114, violated.** Whenever the routine returns after a number of elements that is not a multiple of 32, the frame pointer is
the last integer part; otherwise it is kept. -/
theorem C114_violated_bp {e : Env} {s s' : St} {ib ob : BitVec 64} {sc : BitVec 32} {nin nout n : Nat} (hn : n = min nin nout) (hc : Args s ib ob nin nout)
    (h5 : Scale s sc) (hr : Area e ib ob (4 * n) (2 * n)) (hs : Returns e prog 472 s s') :
    (n % 32 = 0 → s'.g.bp = s.g.bp) ∧ (n % 32 ≠ 0 → s'.g.bp.toNat < 2 ^ 32 ∧ (s'.g.bp.setWidth 32).toInt = part e s ib sc (n - 1)) := by
  obtain ⟨s'', h1, h2⟩ := F16.routine hc.hin hc.hout hn hr.io hc.f1 hc.f2 hc.f3 hc.f4 h5
  rw [hs.unique h1, h2.bp, bpAt_eq]
  refine ⟨fun h => if_pos h, fun h => ?_⟩
  rw [if_neg h, ← prod_toInt]
  refine ⟨?_, ?_⟩
  · rw [BitVec.toNat_setWidth]
    exact lt_of_le_of_lt (Nat.mod_le _ _) (BitVec.isLt _)
  · rw [BitVec.setWidth_setWidth_of_le _ (by decide), BitVec.setWidth_eq]

theorem bytes16 {v : BitVec 16} {m : BitVec 64 → BitVec 8} {a : BitVec 64} (h0 : m a = byte v 0) (h1 : m (a + BitVec.ofNat 64 1) = byte v 1) :
    u16at m a = v := by
  unfold u16at
  rw [h0, h1]
  apply BitVec.eq_of_getLsbD_eq
  intro i hi
  rw [BitVec.getLsbD_append]
  simp only [getLsb_byte]
  split
  · rename_i c
    simp [c]
  · rename_i c
    simp [show i - 8 < 8 by omega, show 8 + (i - 8) = i by omega]

/-- **C114, the samples.** -/
theorem C114_sample {e : Env} {s s' : St} {ib ob : BitVec 64} {sc : BitVec 32} {n : Nat} (h : Stored ob n 2 (f16f e s ib sc n) s s') {i : Nat} (hi : i < n) :
    (u16at s'.mem (ob + BitVec.ofNat 64 (2 * i))).toInt =
      if i < n - n % 32 then clamp (part e s ib sc i) else (part e s ib sc i).bmod 65536 := by
  have h0 := h.out i hi 0 (by omega)
  have h1 := h.out i hi 1 (by omega)
  rw [Nat.add_zero] at h0
  rw [← adv] at h1
  rw [bytes16 h0 h1, BitVec.toInt_ofInt]
  split
  · unfold clamp
    rw [Int.bmod_eq_of_le] <;> omega
  · rfl

/-- **C114 within the range of a sample.** There the place in the input does not matter: the sample is the integer part. -/
theorem C114_in_range {e : Env} {s s' : St} {ib ob : BitVec 64} {sc : BitVec 32} {n : Nat} (h : Stored ob n 2 (f16f e s ib sc n) s s') {i : Nat} (hi : i < n)
    (h1 : -32768 ≤ part e s ib sc i) (h2 : part e s ib sc i ≤ 32767) :
    (u16at s'.mem (ob + BitVec.ofNat 64 (2 * i))).toInt = part e s ib sc i := by
  rw [C114_sample h hi]
  split
  · unfold clamp
    omega
  · rw [Int.bmod_eq_of_le] <;> omega

/-- **C114, violated.** Outside of the range the place does matter: of two equal inputs, one in front of the last whole 32 and one
behind, the samples are the same only when the integer part happens to be 32767 or -32768 modulo 65536. -/
theorem C114_violated_place {e : Env} {s s' : St} {ib ob : BitVec 64} {sc : BitVec 32} {n : Nat} (h : Stored ob n 2 (f16f e s ib sc n) s s') {i j : Nat}
    (hi : i < n - n % 32) (hj : n - n % 32 ≤ j) (hjn : j < n)
    (hw : u32at s.mem (ib + BitVec.ofNat 64 (4 * i)) = u32at s.mem (ib + BitVec.ofNat 64 (4 * j))) (t : Int) (ht : part e s ib sc i = t) :
    u16at s'.mem (ob + BitVec.ofNat 64 (2 * i)) = u16at s'.mem (ob + BitVec.ofNat 64 (2 * j)) ↔
      (-32768 ≤ t ∧ t ≤ 32767) ∨ (32767 < t ∧ t % 65536 = 32767) ∨ (t < -32768 ∧ t % 65536 = 32768) := by
  have ht' : part e s ib sc j = t := by rw [← ht, part, part, hw]
  rw [← BitVec.toInt_inj, C114_sample h (by omega), C114_sample h hjn, if_pos hi, if_neg (by omega), ht, ht', clamp, Int.bmod]
  split <;> omega

/-! ### With IEEE-754 arithmetic -/

/-- The integer part of a rational. -/
def towardsZero (x : ℚ) : Int := if x < 0 then -⌊-x⌋ else ⌊x⌋

theorem towards_of {v : Val} {x : ℚ} {o : Val → BitVec 32} (hv : Is v x) (h1 : -2147483649 < x) (h2 : x < 2147483648) :
    (toSigned 32 o v).toInt = towardsZero x := by
  obtain ⟨⟨s, q, rfl, hq⟩, hx⟩ := hv
  have hz : (if s = true then -⌊q⌋ else ⌊q⌋) = towardsZero x := by
    cases s
    · have : x = q := by simpa [Val.toRat] using hx.symm
      subst this
      show ⌊x⌋ = _
      rw [towardsZero, if_neg (by simpa using hq)]
    · have : x = -q := by simpa [Val.toRat] using hx.symm
      subst this
      by_cases c : q = 0
      · subst c
        simp [towardsZero]
      · have : 0 < q := lt_of_le_of_ne hq (Ne.symm c)
        show -⌊q⌋ = _
        rw [towardsZero, if_pos (by linarith), neg_neg]
  have hr : -2147483648 ≤ towardsZero x ∧ towardsZero x < 2147483648 := by
    unfold towardsZero
    split
    · have a1 := Int.floor_le (-x)
      have a2 : ⌊-x⌋ ≤ 2147483648 := by
        have : ⌊-x⌋ < 2147483649 := Int.floor_lt.2 (by push_cast; linarith)
        omega
      have a3 : 0 ≤ ⌊-x⌋ := Int.floor_nonneg.2 (by linarith)
      omega
    · have a2 : ⌊x⌋ < 2147483648 := Int.floor_lt.2 (by push_cast; linarith)
      have a3 : 0 ≤ ⌊x⌋ := Int.floor_nonneg.2 (by linarith)
      omega
  simp only [toSigned]
  rw [hz, if_pos (by constructor <;> norm_num <;> omega), BitVec.toInt_ofInt, Int.bmod_eq_of_le] <;> omega

/-- **C114 with IEEE-754 arithmetic.** When the product, rounded to float32, lies strictly between -32769 and 32768 the sample is its
integer part, wherever in the input it is. -/
theorem C114_value {e : Env} (he : e.o = ieee) {s s' : St} {ib ob : BitVec 64} {sc : BitVec 32} {n : Nat} (h : Stored ob n 2 (f16f e s ib sc n) s s')
    {i : Nat} (hi : i < n) {x y : ℚ} (hx : Is (ofBits32 (u32at s.mem (ib + BitVec.ofNat 64 (4 * i)))) x) (hy : Is (ofBits32 sc) y)
    (h1 : -32769 < rd binary32 (x * y)) (h2 : rd binary32 (x * y) < 32768) :
    (u16at s'.mem (ob + BitVec.ofNat 64 (2 * i))).toInt = towardsZero (rd binary32 (x * y)) := by
  have hm : Is (mul binary32 _ _) _ := mul_rd binary32 hx hy (by
    rw [abs_lt]
    have : (32769 : ℚ) < 2 ^ (binary32.emax + 1) := by
      show (32769 : ℚ) < 2 ^ ((128 : ℕ) : ℤ)
      rw [zpow_natCast]
      norm_num
    constructor <;> linarith)
  have ht : part e s ib sc i = towardsZero (rd binary32 (x * y)) := by
    rw [part, he]
    show (toSigned 32 _ (ofBits32 (ieeeMul32 _ _))).toInt = _
    rw [ofBits32_mul]
    exact towards_of hm (by linarith) (by linarith)
  rw [C114_in_range h hi, ht] <;> rw [ht] <;> unfold towardsZero <;> split
  · have : ⌊-rd binary32 (x * y)⌋ < 32769 := Int.floor_lt.2 (by push_cast; linarith)
    omega
  · have a3 : 0 ≤ ⌊rd binary32 (x * y)⌋ := Int.floor_nonneg.2 (by linarith)
    omega
  · have a3 : 0 ≤ ⌊-rd binary32 (x * y)⌋ := Int.floor_nonneg.2 (by linarith)
    omega
  · have a2 : ⌊rd binary32 (x * y)⌋ < 32768 := Int.floor_lt.2 (by push_cast; linarith)
    omega

/-- **C114, violated.** With IEEE-754 arithmetic, everything from 2147483648 on, infinities and not-a-numbers become -32768 up to
the last whole 32 and 0 afterwards. -/
theorem C114_violated_overflow {e : Env} (he : e.o = ieee) {s s' : St} {ib ob : BitVec 64} {sc : BitVec 32} {n : Nat}
    (h : Stored ob n 2 (f16f e s ib sc n) s s') {i : Nat} (hi : i < n)
    (ho : ∀ x, Is (mul binary32 (ofBits32 (u32at s.mem (ib + BitVec.ofNat 64 (4 * i)))) (ofBits32 sc)) x → 2147483648 ≤ x) :
    (u16at s'.mem (ob + BitVec.ofNat 64 (2 * i))).toInt = if i < n - n % 32 then -32768 else 0 := by
  have ht : part e s ib sc i = -2147483648 := by
    rw [part, he]
    show (toSigned 32 (fun _ => 0x80000000) (ofBits32 (ieeeMul32 _ _))).toInt = _
    rw [ofBits32_mul]
    have hR := repr32_mul (repr32_ofBits (u32at s.mem (ib + BitVec.ofNat 64 (4 * i)))) (repr32_ofBits sc)
    generalize mul binary32 (ofBits32 (u32at s.mem (ib + BitVec.ofNat 64 (4 * i)))) (ofBits32 sc) = v at ho hR
    rcases v with _ | t | ⟨t, q⟩
    · rfl
    · rfl
    · have := ho (Val.toRat (.fin t q)) ⟨⟨t, q, rfl, hR.1⟩, rfl⟩
      have hR0 : 0 ≤ q := hR.1
      cases t
      · have hq : (2147483648 : ℚ) ≤ q := by simpa [Val.toRat] using this
        have hf : 2147483648 ≤ ⌊q⌋ := Int.le_floor.2 (by push_cast; exact hq)
        simp only [toSigned]
        rw [if_neg (by norm_num; omega)]
        rfl
      · simp only [Val.toRat, if_true] at this
        linarith
  rw [C114_sample h hi, ht]
  split <;> rfl

/-! ### Examples -/

/-- A machine with IEEE-754 arithmetic; all of memory can be read and written. -/
noncomputable def ieeeMachine (sse4 : Bool) : Env where
  o := ieee
  rd := fun _ => true
  wr := fun _ => true
  sym := fun _ => if sse4 then 1 else 0

/-- A call with `nin` elements at 0x1000, all of memory repeating the four bytes of `w`, and a scale. -/
def callScaled (w : BitVec 32) (ob : BitVec 64) (nin nout : Nat) (sc : BitVec 64) : St where
  g := ⟨0, 0, 0, 0, 0, 0, 0x7fff0000⟩
  x := fun _ _ => 0
  fl := ⟨none, none, none, none⟩
  mem := fun a => byte w (a.toNat % 4)
  fp := fun k => if k = 0 then 0x1000 else if k = 8 then BitVec.ofNat 64 nin else if k = 24 then ob else if k = 32 then BitVec.ofNat 64 nout else
    if k = 48 then sc else 0

theorem scaled_word (w : BitVec 32) (ob : BitVec 64) (nin nout : Nat) (sc : BitVec 64) (i : Nat) :
    u32at (callScaled w ob nin nout sc).mem (0x1000 + BitVec.ofNat 64 (4 * i)) = w := by
  have a : ∀ j < 4, (0x1000 + BitVec.ofNat 64 (4 * i) + BitVec.ofNat 64 j : BitVec 64).toNat % 4 = j := by
    intro j hj
    rw [adv, BitVec.toNat_add, BitVec.toNat_ofNat, show (0x1000 : BitVec 64).toNat = 4096 from rfl]
    omega
  have a0 := a 0 (by omega)
  rw [adv0] at a0
  unfold u32at callScaled
  simp only
  rw [a 3 (by omega), a 2 (by omega), a 1 (by omega), a0]
  have := d32_of_bytes w (byte w) 0 (fun j _ => by rw [Nat.mul_zero, Nat.zero_add])
  exact this

/-- 33 times the number 40000 with scale 1: the first sample is 32767, the last is -25536. -/
example : ∃ s', Returns (ieeeMachine true) prog 472 (callScaled 0x471C4000 0x2002 33 40 0x3F800000) s' ∧
    (u16at s'.mem 0x2002).toInt = 32767 ∧ (u16at s'.mem (0x2002 + BitVec.ofNat 64 (2 * 32))).toInt = -25536 := by
  have h1 : Args (callScaled 0x471C4000 0x2002 33 40 0x3F800000) 0x1000 0x2002 33 40 := ⟨by decide, by decide, rfl, rfl, rfl, rfl⟩
  have h2 : Area (ieeeMachine true) 0x1000 0x2002 (4 * 33) (2 * 33) := ⟨by decide, by decide, fun _ _ => rfl, fun _ _ => rfl, by decide +kernel⟩
  obtain ⟨s', h3, h4, -⟩ := C114_F32toi16 (n := 33) (sc := 0x3F800000) (by decide) h1 rfl h2
  have hp : ∀ i, part (ieeeMachine true) (callScaled 0x471C4000 0x2002 33 40 0x3F800000) 0x1000 0x3F800000 i = 40000 := by
    intro i
    rw [part, scaled_word]
    show (toSigned 32 (fun _ => 0x80000000) (ofBits32 (ieeeMul32 _ _))).toInt = _
    have b1 : ofBits32 0x471C4000 = .fin false 40000 := by norm_num [ofBits32, show (0x471C4000 : BitVec 32).toNat = 0x471C4000 from rfl]
    have b2 : ofBits32 0x3F800000 = .fin false 1 := by norm_num [ofBits32, show (0x3F800000 : BitVec 32).toNat = 0x3F800000 from rfl]
    have b3 : mul binary32 (.fin false 40000) (.fin false 1) = .fin false 40000 := by
      have := Fp.round_exact Fp.binary32 false 40000 0 (by decide) (by decide) (by
        simp only [Fp.binary32]; norm_num)
      simpa [Fp.mul] using this
    rw [ofBits32_mul, b1, b2, b3, towards_of ⟨⟨false, 40000, rfl, by norm_num⟩, rfl⟩ (by norm_num [Val.toRat]) (by norm_num [Val.toRat])]
    norm_num [Val.toRat, towardsZero]
  refine ⟨s', h3, ?_, ?_⟩
  · have := C114_sample h4 (i := 0) (by decide)
    rw [hp] at this
    simpa [clamp] using this
  · rw [C114_sample h4 (i := 32) (by decide), hp]
    rfl

/-- Fifty times the number 0.5 with scale -3 to 81 bytes: 40 samples -1. -/
example : ∃ s', Returns (ieeeMachine true) prog 534 (callScaled 0x3F000000 0x2001 50 81 0xC0400000) s' ∧ s'.fp 32 = 40 ∧
    ∀ i < 40, (u16at s'.mem (0x2001 + BitVec.ofNat 64 (2 * i))).toInt = -1 := by
  have h1 : Args (callScaled 0x3F000000 0x2001 50 81 0xC0400000) 0x1000 0x2001 50 81 := ⟨by decide, by decide, rfl, rfl, rfl, rfl⟩
  have h2 : Area (ieeeMachine true) 0x1000 0x2001 (4 * 40) (2 * 40) := ⟨by decide, by decide, fun _ _ => rfl, fun _ _ => rfl, by decide +kernel⟩
  obtain ⟨s', h3, h4, h5, -⟩ := C114_F32toi16ble (n := 40) (sc := 0xC0400000) (by decide) h1 rfl h2
  refine ⟨s', h3, h5, fun i hi => ?_⟩
  have b1 : ofBits32 0x3F000000 = .fin false (1 / 2) := by norm_num [ofBits32, show (0x3F000000 : BitVec 32).toNat = 0x3F000000 from rfl]
  have b2 : ofBits32 0xC0400000 = .fin true 3 := by norm_num [ofBits32, show (0xC0400000 : BitVec 32).toNat = 0xC0400000 from rfl]
  have b3 : rd binary32 (1 / 2 * -3) = -3 / 2 := by
    rw [show (1 / 2 * -3 : ℚ) = -3 / 2 by norm_num]
    exact rd_grid _ (by decide) ⟨3, -1, by decide, by decide, by norm_num [abs_of_neg]⟩
  have := C114_value (he := rfl) h4 hi (x := 1 / 2) (y := -3) (by rw [scaled_word, b1]; exact ⟨⟨_, _, rfl, by norm_num⟩, rfl⟩)
    (by rw [b2]; exact ⟨⟨_, _, rfl, by norm_num⟩, rfl⟩) (by rw [b3]; norm_num) (by rw [b3]; norm_num)
  rw [this, b3]
  norm_num [towardsZero]

end Verif.X86.Conv
