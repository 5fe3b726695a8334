import Verif.A32.F16Lemmas
import Verif.A32.Ui16Props
import Verif.X86.F16Props

/-!
# Property C127: the instructions of `F32toi16` and `F32toi16ble` on 32-bit ARM

Lines 170–302 of `dsp/conversion_arm.s`, one by one, with the numbers decoded. With `UseVector` set the routine multiplies eight numbers at a
time in short vectors (LEN = 7 and STRIDE = 0 in FPSCR), otherwise it takes four at a time.
-/

namespace Verif.A32.Conv
open Verif.A32 Verif.Mach Verif.Fp
open Verif.X86 (byte d32 ieeeMul32 ofBits32_mul)
open Verif.X86.Conv (towardsZero towards_of)

/-- The variable `UseVector` is set. -/
def vectors (e : Env) : Bool := e.var .UseVector != 0

/-- The integer part of the product of number `i` from `ib` and the scale, as the floating-point unit has it. -/
def part (e : Env) (s : St) (ib : BitVec 32) (i : Nat) : BitVec 32 := e.o.toInt (e.o.mul (u32at s.mem (ib + BitVec.ofNat 32 (4 * i))) (s.fp 24))

/-- The two bytes at an address. -/
def u16at (m : BitVec 32 → BitVec 8) (a : BitVec 32) : BitVec 16 := m (a + BitVec.ofNat 32 1) ++ m a

/-- The bits of FPSCR other than LEN and STRIDE. -/
def control (x : BitVec 32) : BitVec 32 := x &&& ~~~0x370000#32

/-- FPSCR is as before, but LEN and STRIDE may have been cleared. -/
def Cleared (s s' : St) : Prop := s'.fpscr = s.fpscr ∨ s'.fpscr = control s.fpscr

theorem f16_total_le (b : Bool) (p n : Nat) : F16.total b p n ≤ n := by
  rcases Nat.eq_zero_or_pos n with rfl | h0
  · unfold F16.total Arm.converted; split <;> exact Nat.le_refl 0
  · unfold F16.total
    split
    · exact Arm.converted_le _ _ _ _ _ (by omega) (by omega) h0
    · exact Arm.converted_le _ _ _ _ _ (by omega) (by omega) h0

/-- **C127.** Run from any state with the arguments in the frame and an input address that is a multiple of four, for all lengths, addresses and
contents, with and without vectors, whatever the floating-point unit makes of products and integer parts: the routine returns, `F16.total` samples of
the output are the low 16 bits of the integer parts, nothing else in memory and in the frame has changed, and of FPSCR at most LEN and STRIDE, which
are then zero. -/
theorem C127_F32toi16 {e : Env} {s : St} {ib ob : BitVec 32} {nin nout n : Nat} (hn : n = min nin nout) (ha : Args s ib ob nin nout)
    (hr : Area e ib ob (4 * n) (2 * n)) (hal : ib.toNat % 4 = 0) (hS : e.strideOf 0 = some 1) : ∃ s', Returns (sem e) prog 170 s s' ∧
      Stored ob (F16.total (vectors e) ib.toNat n) 2 (fun i => byte (part e s ib i)) s s' ∧ s'.fp = s.fp ∧ Cleared s s' := by
  have hw := hr.wsmall
  obtain ⟨s', h1, h2, h3, h4⟩ := F16.routine hn rfl ha hr.io hal hr.rend hS
  have hl := f16_total_le (vectors e) ib.toNat n
  refine ⟨s', h1, stored_of (by omega) h4 ?_, h2, ?_⟩
  · intro i hi j hj
    rw [F16.want, show (2 * i + j) / 2 = i by omega, show (2 * i + j) % 2 = j by omega]
    rfl
  · rw [Cleared, h3, F16.after]
    split
    · exact Or.inr rfl
    · exact Or.inl rfl

/-- **C127.** There is no other way for the routine to end. -/
theorem C127_only {e : Env} {s s' : St} {ib ob : BitVec 32} {nin nout n : Nat} (hn : n = min nin nout) (ha : Args s ib ob nin nout)
    (hr : Area e ib ob (4 * n) (2 * n)) (hal : ib.toNat % 4 = 0) (hS : e.strideOf 0 = some 1) (h : Returns (sem e) prog 170 s s') :
      Stored ob (F16.total (vectors e) ib.toNat n) 2 (fun i => byte (part e s ib i)) s s' ∧ s'.fp = s.fp ∧ Cleared s s' := by
  obtain ⟨t, h1, h2⟩ := C127_F32toi16 hn ha hr hal hS
  rwa [h.unique h1]

/-- **C127, FPSCR.** When LEN and STRIDE are zero before, as Go and C code need them, FPSCR is the same afterwards. -/
theorem C127_fpscr {s s' : St} (h : Cleared s s') (h0 : s.fpscr &&& 0x370000#32 = 0) : s'.fpscr = s.fpscr := by
  rcases h with h | h
  · exact h
  · rw [h, control]
    apply BitVec.eq_of_getLsbD_eq
    intro i hi
    have := congrArg (fun z => z.getLsbD i) h0
    have z : (0 : BitVec 32).getLsbD i = false := BitVec.getLsbD_zero
    simp only [BitVec.getLsbD_and, z] at this
    simp only [BitVec.getLsbD_and, BitVec.getLsbD_not, hi, decide_true, Bool.true_and]
    revert this
    cases s.fpscr.getLsbD i <;> cases (0x370000#32).getLsbD i <;> decide

/-- **C127, partial.** If the input lies in one half of the address space all numbers are converted. Missing: input across address 2^31
(`C127_violated`) and an input address that is not a multiple of four, which Go does not use for float32. -/
theorem C127_all_partial {e : Env} {s : St} {ib ob : BitVec 32} {nin nout n : Nat} (hn : n = min nin nout) (ha : Args s ib ob nin nout)
    (hr : Area e ib ob (4 * n) (2 * n)) (hal : ib.toNat % 4 = 0) (hS : e.strideOf 0 = some 1) (hh : Arm.OneHalf ib.toNat 4 n) :
    ∃ s', Returns (sem e) prog 170 s s' ∧ Stored ob n 2 (fun i => byte (part e s ib i)) s s' ∧ s'.fp = s.fp ∧ Cleared s s' := by
  have ht : F16.total (vectors e) ib.toNat n = n := by
    unfold F16.total
    split
    · exact Arm.converted_all _ _ _ _ _ hh (by omega)
    · exact Arm.converted_all _ _ _ _ _ hh (by omega)
  obtain ⟨s', h1, h2, h3⟩ := C127_F32toi16 hn ha hr hal hS
  rw [ht] at h2
  exact ⟨s', h1, h2, h3⟩

/-- **C127, violated.** If the block loop would get from the lower to the upper half of the address space, only nine or five numbers are converted,
and the rest of the output is left as it was. -/
theorem C127_violated {e : Env} {s s' : St} {ib ob : BitVec 32} {nin nout n : Nat} (hn : n = min nin nout) (ha : Args s ib ob nin nout)
    (hr : Area e ib ob (4 * n) (2 * n)) (hal : ib.toNat % 4 = 0) (hS : e.strideOf 0 = some 1)
    (h1 : ib.toNat + 4 * (if vectors e then 9 else 5) < 2 ^ 31) (h2 : 2 ^ 31 ≤ ib.toNat + 4 * (if vectors e then n - n % 8 else n - n % 4))
    (h : Returns (sem e) prog 170 s s') :
    ∀ i, 2 * (if vectors e then 9 else 5) ≤ i → i < 2 * n → s'.mem (ob + BitVec.ofNat 32 i) = s.mem (ob + BitVec.ofNat 32 i) := by
  have hw := hr.wsmall
  intro i hi hi2
  refine (C127_only hn ha hr hal hS h).1.rest _ ?_
  rw [BitVec.add_comm, BitVec.add_sub_cancel, BitVec.toNat_ofNat, Nat.mod_eq_of_lt (by omega)]
  refine Nat.le_trans (Nat.mul_le_mul_left 2 ?_) hi
  clear hi
  revert h1 h2
  generalize vectors e = b
  intro h1 h2
  cases b
  · simp only [Bool.false_eq_true, if_false] at h1 h2 ⊢
    rw [F16.total, if_neg (by decide), Arm.converted_short _ _ _ _ _ (by decide) (by omega) (by omega) h2]
  · simp only [if_true] at h1 h2 ⊢
    rw [F16.total, if_pos rfl, Arm.converted_short _ _ _ _ _ (by decide) (by omega) (by omega) h2]

/-- **C127 for `F32toi16ble`.** The output is `nout` bytes; of the frame only the output length has changed. -/
theorem C127_F32toi16ble {e : Env} {s : St} {ib ob : BitVec 32} {nin nout n : Nat} (hn : n = min nin (nout / 2)) (ha : Args s ib ob nin nout)
    (hr : Area e ib ob (4 * n) (2 * n)) (hal : ib.toNat % 4 = 0) (hS : e.strideOf 0 = some 1) : ∃ s', Returns (sem e) prog 298 s s' ∧
      Stored ob (F16.total (vectors e) ib.toNat n) 2 (fun i => byte (part e s ib i)) s s' ∧
      s'.fp = Function.update s.fp 16 (BitVec.ofNat 32 (nout / 2)) ∧ Cleared s s' := by
  have hout := ha.hout
  obtain ⟨s1, g1, e1⟩ : ∃ s', blk (sem e) b298 s = some s' ∧
      (s'.fp = Function.update s.fp 16 (BitVec.ofNat 32 (nout / 2)) ∧ s'.mem = s.mem ∧ s'.fpscr = s.fpscr) := by
    ar [ha.f4, shr32 (show nout < 2 ^ 32 by omega)]
    exact ⟨_, rfl, rfl, rfl, rfl⟩
  have hj : Reach (sem e) prog 302 s1 170 s1 := reach_jump .F32toi16 (by decide +kernel) (by decide +kernel)
  have a1 : Args s1 ib ob nin (nout / 2) := by
    refine ⟨ha.hin, by omega, ?_, ?_, ?_, ?_⟩ <;> rw [e1.1]
    · exact ha.f1
    · exact ha.f2
    · exact ha.f3
    · exact Function.update_self ..
  obtain ⟨s', h1, h2, h3, h4⟩ := C127_F32toi16 hn a1 hr hal hS
  refine ⟨s', ((reach_blk b298 h298 g1).trans hj).returns h1, ⟨?_, ?_⟩, by rw [h3, e1.1], ?_⟩
  · intro i hi j hj
    rw [h2.out i hi j hj, part, part, e1.1, e1.2.1]
    rfl
  · intro a ha'
    rw [h2.rest a ha', e1.2.1]
  · rw [Cleared, ← e1.2.2]
    exact h4

/-! ### The samples -/

theorem u16at_bytes {v : BitVec 32} {m : BitVec 32 → BitVec 8} {a : BitVec 32} (h0 : m a = byte v 0) (h1 : m (a + BitVec.ofNat 32 1) = byte v 1) :
    u16at m a = v.setWidth 16 := by
  unfold u16at
  rw [h0, h1]
  apply BitVec.eq_of_getLsbD_eq
  intro i hi
  rw [BitVec.getLsbD_append]
  simp only [X86.getLsb_byte, BitVec.getLsbD_setWidth, hi, decide_true, Bool.true_and]
  split
  · rename_i c
    simp [c]
  · rename_i c
    simp [show i - 8 < 8 by omega, show 8 + (i - 8) = i by omega]

/-- **C127, the samples.** Integer parts modulo 65536. -/
theorem C127_sample {e : Env} {s s' : St} {ib ob : BitVec 32} {n : Nat} (h : Stored ob n 2 (fun i => byte (part e s ib i)) s s') {i : Nat} (hi : i < n) :
    (u16at s'.mem (ob + BitVec.ofNat 32 (2 * i))).toInt = (part e s ib i).toInt.bmod 65536 := by
  have h0 := h.out i hi 0 (by omega)
  have h1 := h.out i hi 1 (by omega)
  rw [Nat.add_zero] at h0
  rw [← adv] at h1
  rw [u16at_bytes h0 h1, ← X86.Conv.ofInt_toInt_16, BitVec.toInt_ofInt]

/-- What the conversion to an integer gives outside its range: the nearest integer, zero for a not-a-number. -/
def nearest : Val → BitVec 32
  | .nan => 0
  | .inf s => if s then 0x80000000 else 0x7fffffff
  | .fin s _ => if s then 0x80000000 else 0x7fffffff

/-- The conversion to an integer. -/
def ieeeToInt (a : BitVec 32) : BitVec 32 := toSigned 32 nearest (ofBits32 a)

/-- **C127 with IEEE-754 arithmetic.** When the product, rounded to float32, lies strictly between -32769 and 32768 the sample is its
integer part. -/
theorem C127_value {e : Env} (hm : e.o.mul = ieeeMul32) (ht : e.o.toInt = ieeeToInt) {s s' : St} {ib ob : BitVec 32} {n : Nat}
    (h : Stored ob n 2 (fun i => byte (part e s ib i)) s s') {i : Nat} (hi : i < n) {x y : ℚ}
    (hx : Is (f32at s.mem (ib + BitVec.ofNat 32 (4 * i))) x) (hy : Is (ofBits32 (s.fp 24)) y)
    (h1 : -32769 < rd binary32 (x * y)) (h2 : rd binary32 (x * y) < 32768) :
    (u16at s'.mem (ob + BitVec.ofNat 32 (2 * i))).toInt = towardsZero (rd binary32 (x * y)) := by
  have hp : Is (mul binary32 _ _) _ := mul_rd binary32 hx hy (by
    rw [abs_lt]
    have : (32769 : ℚ) < 2 ^ (binary32.emax + 1) := by
      show (32769 : ℚ) < 2 ^ ((128 : ℕ) : ℤ)
      rw [zpow_natCast]
      norm_num
    constructor <;> linarith)
  have ht : (part e s ib i).toInt = towardsZero (rd binary32 (x * y)) := by
    rw [part, hm, ht]
    show (toSigned 32 _ (ofBits32 (ieeeMul32 _ _))).toInt = _
    rw [ofBits32_mul]
    exact towards_of hp (by linarith) (by linarith)
  rw [C127_sample h hi, ht, Int.bmod_eq_of_le] <;> unfold towardsZero <;> split
  · have a1 : ⌊-rd binary32 (x * y)⌋ < 32769 := Int.floor_lt.2 (by push_cast; linarith)
    omega
  · have a3 : 0 ≤ ⌊rd binary32 (x * y)⌋ := Int.floor_nonneg.2 (by linarith)
    omega
  · have a3 : 0 ≤ ⌊-rd binary32 (x * y)⌋ := Int.floor_nonneg.2 (by linarith)
    omega
  · have a2 : ⌊rd binary32 (x * y)⌋ < 32768 := Int.floor_lt.2 (by push_cast; linarith)
    omega

/-- **C127, violated.** With IEEE-754 arithmetic a product of 2147483648 or more (or infinite) becomes the sample -1; one of -2147483649 or less and a
not-a-number become 0. On amd64 they become -32768 or 0 (C114). -/
theorem C127_violated_overflow {e : Env} (hm : e.o.mul = ieeeMul32) (ht : e.o.toInt = ieeeToInt) {s s' : St} {ib ob : BitVec 32} {n : Nat}
    (h : Stored ob n 2 (fun i => byte (part e s ib i)) s s') {i : Nat} (hi : i < n) (v : Val)
    (hv : mul binary32 (f32at s.mem (ib + BitVec.ofNat 32 (4 * i))) (ofBits32 (s.fp 24)) = v) :
    (v = .nan → (u16at s'.mem (ob + BitVec.ofNat 32 (2 * i))).toInt = 0) ∧
      ((v = .inf false ∨ ∃ q, v = .fin false q ∧ 2147483648 ≤ q) → (u16at s'.mem (ob + BitVec.ofNat 32 (2 * i))).toInt = -1) ∧
      ((v = .inf true ∨ ∃ q, v = .fin true q ∧ 2147483649 ≤ q) → (u16at s'.mem (ob + BitVec.ofNat 32 (2 * i))).toInt = 0) := by
  have hp : part e s ib i = toSigned 32 nearest v := by
    rw [part, hm, ht, ← hv]
    show toSigned 32 _ (ofBits32 (ieeeMul32 _ _)) = _
    rw [ofBits32_mul]
    rfl
  rw [C127_sample h hi, hp]
  refine ⟨?_, ?_, ?_⟩
  · rintro rfl; rfl
  · rintro (rfl | ⟨q, rfl, hq⟩)
    · show ((0x7fffffff : BitVec 32).toInt).bmod 65536 = -1
      decide +kernel
    · have hf : 2147483648 ≤ ⌊q⌋ := Int.le_floor.2 (by push_cast; exact hq)
      simp only [toSigned]
      rw [if_neg (by norm_num; omega)]
      show ((0x7fffffff : BitVec 32).toInt).bmod 65536 = -1
      decide +kernel
  · rintro (rfl | ⟨q, rfl, hq⟩)
    · show ((0x80000000 : BitVec 32).toInt).bmod 65536 = 0
      decide +kernel
    · have hf : 2147483649 ≤ ⌊q⌋ := Int.le_floor.2 (by push_cast; exact hq)
      simp only [toSigned]
      rw [if_neg (by norm_num; omega)]
      show ((0x80000000 : BitVec 32).toInt).bmod 65536 = 0
      decide +kernel

/-! ### Examples -/

/-- The machine of C125 with IEEE-754 products and integer parts, with or without vectors. -/
def machineI (vec : Bool) : Env :=
  { machine with
    o := { noOps with mul := ieeeMul32, toInt := ieeeToInt }
    var := fun _ => if vec then 1 else 0
    strideOf := fun b => if b = 0 then some 1 else if b = 3 then some 2 else none }

/-- A call with numbers `w` everywhere and a scale. -/
def callI (w : BitVec 32) (ib ob : BitVec 32) (nin nout : Nat) (sc : BitVec 32) : St :=
  { call ib ob nin nout with mem := fun a => byte w (a.toNat % 4), fp := Function.update (call ib ob nin nout).fp 24 sc, fpscr := 0x03000000 }

theorem callI_word (w ob : BitVec 32) (nin nout : Nat) (sc : BitVec 32) (i : Nat) :
    u32at (callI w 0x80000000 ob nin nout sc).mem (0x80000000 + BitVec.ofNat 32 (4 * i)) = w := by
  have a : ∀ j < 4, (0x80000000 + BitVec.ofNat 32 (4 * i) + BitVec.ofNat 32 j : BitVec 32).toNat % 4 = j := by
    intro j hj
    rw [adv, BitVec.toNat_add, BitVec.toNat_ofNat, show (0x80000000 : BitVec 32).toNat = 2147483648 from rfl]
    omega
  have a0 := a 0 (by omega)
  rw [adv0] at a0
  unfold u32at callI
  simp only
  rw [a 3 (by omega), a 2 (by omega), a 1 (by omega), a0]
  exact X86.d32_of_bytes w (byte w) 0 (fun j _ => by rw [Nat.mul_zero, Nat.zero_add])

/-- 21 times the number 0.5 with scale -3 to at most 30 samples, with and without vectors: 21 samples -1; FPSCR (0x03000000) is kept. -/
example (vec : Bool) : ∃ s', Returns (sem (machineI vec)) prog 170 (callI 0x3F000000 0x80000000 0x2001 21 30 0xC0400000) s' ∧
    s'.fpscr = 0x03000000 ∧ ∀ i < 21, (u16at s'.mem (0x2001 + BitVec.ofNat 32 (2 * i))).toInt = -1 := by
  have h1 : Args (callI 0x3F000000 0x80000000 0x2001 21 30 0xC0400000) 0x80000000 0x2001 21 30 := ⟨by decide, by decide, rfl, rfl, rfl, rfl⟩
  have h2 : Area (machineI vec) 0x80000000 0x2001 (4 * 21) (2 * 21) := ⟨by decide, by decide, by cases vec <;> decide +kernel,
    by cases vec <;> decide +kernel, by decide +kernel⟩
  obtain ⟨s', h3, h4, -, h5⟩ := C127_all_partial (n := 21) (by decide) h1 h2 (by decide) rfl (by unfold Arm.OneHalf; decide)
  refine ⟨s', h3, C127_fpscr h5 (by decide), fun i hi => ?_⟩
  have b1 : ofBits32 0x3F000000 = .fin false (1 / 2) := by norm_num [ofBits32, show (0x3F000000 : BitVec 32).toNat = 0x3F000000 from rfl]
  have b2 : ofBits32 0xC0400000 = .fin true 3 := by norm_num [ofBits32, show (0xC0400000 : BitVec 32).toNat = 0xC0400000 from rfl]
  have b3 : rd binary32 (1 / 2 * -3) = -3 / 2 := by
    rw [show (1 / 2 * -3 : ℚ) = -3 / 2 by norm_num]
    exact rd_grid _ (by decide) ⟨3, -1, by decide, by decide, by norm_num [abs_of_neg]⟩
  have := C127_value rfl rfl h4 hi (x := 1 / 2) (y := -3) (by rw [f32at, callI_word, b1]; exact ⟨⟨_, _, rfl, by norm_num⟩, rfl⟩)
    (by
      show Is (ofBits32 0xC0400000) _
      rw [b2]; exact ⟨⟨_, _, rfl, by norm_num⟩, rfl⟩) (by rw [b3]; norm_num) (by rw [b3]; norm_num)
  rw [this, b3]
  norm_num [towardsZero]

/-- The input may go across address 2^31. -/
example : ∃ s', Returns (sem (machineI true)) prog 298 (callI 0x3F000000 0x7fffffc0 0x2001 21 61 0xC0400000) s' ∧ s'.mem 0x2013 = 0x3F := by
  have h1 : Args (callI 0x3F000000 0x7fffffc0 0x2001 21 61 0xC0400000) 0x7fffffc0 0x2001 21 61 := ⟨by decide, by decide, rfl, rfl, rfl, rfl⟩
  have h2 : Area (machineI true) 0x7fffffc0 0x2001 (4 * 21) (2 * 21) := ⟨by decide, by decide, by decide +kernel,
    by decide +kernel, by decide +kernel⟩
  obtain ⟨s', h3, h4, -, -⟩ := C127_F32toi16ble (n := 21) (by decide) h1 h2 (by decide) rfl
  refine ⟨s', h3, ?_⟩
  rw [h4.rest 0x2013 (by decide +kernel)]
  rfl

/-- `C127_violated` on the same input. -/
example : ∃ s', Returns (sem (machineI true)) prog 170 (callI 0x3F000000 0x7fffffc0 0x2001 21 61 0xC0400000) s' ∧
    s'.mem (0x2001 + BitVec.ofNat 32 18) = 0x3F := by
  have h1 : Args (callI 0x3F000000 0x7fffffc0 0x2001 21 61 0xC0400000) 0x7fffffc0 0x2001 21 61 := ⟨by decide, by decide, rfl, rfl, rfl, rfl⟩
  have h2 : Area (machineI true) 0x7fffffc0 0x2001 (4 * 21) (2 * 21) := ⟨by decide, by decide, by decide +kernel,
    by decide +kernel, by decide +kernel⟩
  obtain ⟨s', h3, -⟩ := C127_F32toi16 (n := 21) (by decide) h1 h2 (by decide) rfl
  refine ⟨s', h3, ?_⟩
  rw [C127_violated (n := 21) (by decide) h1 h2 (by decide) rfl (by decide) (by decide) h3 18 (by decide) (by decide)]
  rfl

end Verif.A32.Conv
