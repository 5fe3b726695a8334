import Verif.A32.VScaleLemmas
import Verif.A32.Ui16Props
import Verif.Arm.Math32Props
import Verif.X86.X86Ieee

/-!
# Property C128: the instructions of `VScaleF32` on 32-bit ARM

Lines 142–191 of `dsp/math32_arm.s`, one by one, with the numbers decoded. With NEON 16 numbers at a time are multiplied by the NEON unit, which
takes denormal numbers for zero, and the others by the floating-point unit.
-/

namespace Verif.A32.Math
open Verif.A32 Verif.Mach Verif.Fp
open Verif.X86 (byte ieeeMul32 ofBits32_mul)
open Verif.Arm (neonMul NoSubnormal NoUnderflow)

/-- The variable `HaveNEON` is set. -/
def neon (e : Env) : Bool := e.var .HaveNEON != 0

/-- The machine can read and write `n` words from `ib` and `ob`; no byte of the input is overwritten before its turn: the output may
be the input, begin before it or not overlap it. -/
structure Along (e : Env) (ib ob : BitVec 32) (n : Nat) : Prop where
  small : 4 * n < 2 ^ 32
  rd : ∀ i < 4 * n, e.rd (ib + BitVec.ofNat 32 i) = true
  wr : ∀ i < 4 * n, e.wr (ob + BitVec.ofNat 32 i) = true
  apart : ∀ i < 4 * n, i ≤ (ib + BitVec.ofNat 32 i - ob).toNat
  ialign : ib.toNat % 4 = 0
  oalign : ob.toNat % 4 = 0

/-- The product of number `i` from `ib` and the scale: by the NEON unit in the whole blocks of 16 if there is one. -/
def product (e : Env) (s : St) (ib : BitVec 32) (n i : Nat) : BitVec 32 :=
  if neon e = true ∧ i < 16 * (n / 16) then e.o.nmul (u32at s.mem (ib + BitVec.ofNat 32 (4 * i))) (s.fp 24)
  else e.o.mul (u32at s.mem (ib + BitVec.ofNat 32 (4 * i))) (s.fp 24)

/-- **C128.** From any state with the arguments in the frame, for all lengths, addresses that are multiples of four and contents, also in place, with
and without NEON and whatever the units compute: the routine returns, all products are stored, and the rest of memory and the frame have not
changed. -/
theorem C128_VScaleF32 {e : Env} {s : St} {ib ob : BitVec 32} {nin nout n : Nat} (hn : n = min nin nout) (ha : Args s ib ob nin nout)
    (hr : Along e ib ob n) : ∃ s', Returns (sem e) prog 142 s s' ∧ Words ob n (product e s ib n) s s' ∧ s'.fp = s.fp := by
  have hs := hr.small
  obtain ⟨s', h1, h2, h3⟩ := VScale.routine ha hn ⟨hs, hs, hr.rd, hr.wr, hr.apart⟩ hr.ialign hr.oalign (neon e) (by
    unfold neon
    cases h : e.var .HaveNEON == 0 <;> simp_all)
  refine ⟨s', h1, words_of (by omega) h3 fun i hi j hj => ?_, h2⟩
  rw [VScale.want, show (4 * i + j) / 4 = i by omega, show (4 * i + j) % 4 = j by omega]
  congr 1
  unfold VScale.prod VScale.block product
  by_cases c : neon e = true
  · by_cases d : 16 ≤ n
    · rw [if_pos (show neon e = true ∧ 16 ≤ n from ⟨c, d⟩)]
      by_cases f : i < n - n % 16
      · rw [if_pos f, if_pos ⟨c, by omega⟩]
      · rw [if_neg f, if_neg (by rintro ⟨-, g⟩; omega)]
    · rw [if_neg (show ¬ (neon e = true ∧ 16 ≤ n) from fun g => d g.2), if_neg (by omega), if_neg (by rintro ⟨-, g⟩; omega)]
  · rw [if_neg (show ¬ (neon e = true ∧ 16 ≤ n) from fun g => c g.1), if_neg (by omega), if_neg (fun g => c g.1)]

/-- **C128.** There is no other way for the routine to end. -/
theorem C128_only {e : Env} {s s' : St} {ib ob : BitVec 32} {nin nout n : Nat} (hn : n = min nin nout) (ha : Args s ib ob nin nout)
    (hr : Along e ib ob n) (h : Returns (sem e) prog 142 s s') : Words ob n (product e s ib n) s s' ∧ s'.fp = s.fp := by
  obtain ⟨t, h1, h2⟩ := C128_VScaleF32 hn ha hr
  rwa [h.unique h1]

/-- NEON multiplication of bit patterns. -/
def ieeeNmul (a b : BitVec 32) : BitVec 32 := toBits32 (neonMul (ofBits32 a) (ofBits32 b))

theorem repr32_zero (s : Bool) : Repr32 (.fin s 0) := by
  have := X86.repr32_ofBits (if s then 0x80000000 else 0)
  cases s
  · rwa [if_neg (by decide), show ofBits32 0 = .fin false 0 by norm_num [ofBits32, show (0 : BitVec 32).toNat = 0 from rfl]] at this
  · rwa [if_pos rfl, show ofBits32 0x80000000 = .fin true 0 by norm_num [ofBits32, show (0x80000000 : BitVec 32).toNat = 0x80000000 from rfl]] at this

theorem repr32_flush {v : Val} (hv : Repr32 v) : Repr32 (Arm.flush v) := by
  rcases v with _ | s | ⟨s, q⟩
  · exact hv
  · exact hv
  · rw [Arm.flush_fin]
    split
    · exact repr32_zero s
    · exact hv

theorem repr32_nmul {v w : Val} (hv : Repr32 v) (hw : Repr32 w) : Repr32 (neonMul v w) := by
  have h1 := repr32_flush hv
  have h2 := repr32_flush hw
  unfold neonMul
  have hm := X86.repr32_mul h1 h2
  revert h1 h2 hm
  generalize Arm.flush v = x
  generalize Arm.flush w = y
  intro h1 h2 hm
  rcases x with _ | s | ⟨s, q⟩ <;> rcases y with _ | t | ⟨t, r⟩ <;> try exact hm
  simp only
  split
  · exact repr32_zero _
  · exact hm

theorem ofBits32_nmul (a b : BitVec 32) : ofBits32 (ieeeNmul a b) = neonMul (ofBits32 a) (ofBits32 b) :=
  ofBits32_toBits32 _ (repr32_nmul (X86.repr32_ofBits a) (X86.repr32_ofBits b))

/-- **C128 with IEEE-754 arithmetic, partial.** Without NEON, or without denormal numbers and products in the whole blocks, every number is the
IEEE-754 product, as in the portable code. Missing: denormal numbers and products with NEON, where this is false (`C128_violated`). -/
theorem C128_value_partial {e : Env} (hm : e.o.mul = ieeeMul32) (hq : e.o.nmul = ieeeNmul) {s s' : St} {ib ob : BitVec 32} {n : Nat}
    (h : Words ob n (product e s ib n) s s') {i : Nat} (hi : i < n)
    (hd : neon e = true → i < 16 * (n / 16) → NoSubnormal (ofBits32 (s.fp 24)) ∧ NoSubnormal (f32at s.mem (ib + BitVec.ofNat 32 (4 * i))) ∧
      NoUnderflow (f32at s.mem (ib + BitVec.ofNat 32 (4 * i))) (ofBits32 (s.fp 24))) :
    f32at s'.mem (ob + BitVec.ofNat 32 (4 * i)) = mul binary32 (f32at s.mem (ib + BitVec.ofNat 32 (4 * i))) (ofBits32 (s.fp 24)) := by
  rw [f32at, h.out i hi, product]
  by_cases c : neon e = true ∧ i < 16 * (n / 16)
  · obtain ⟨h1, h2, h3⟩ := hd c.1 c.2
    rw [if_pos c, hq, ofBits32_nmul]
    exact Arm.neonMul_eq _ _ h2 h1 h3
  · rw [if_neg c, hm, ofBits32_mul]
    rfl

/-- **C128, rounding.** So a product that does not overflow is rounded once. -/
theorem C128_rounded {s s' : St} {ib ob : BitVec 32} {i : Nat}
    (h : f32at s'.mem (ob + BitVec.ofNat 32 (4 * i)) = mul binary32 (f32at s.mem (ib + BitVec.ofNat 32 (4 * i))) (ofBits32 (s.fp 24))) {x y : ℚ}
    (hx : Is (f32at s.mem (ib + BitVec.ofNat 32 (4 * i))) x) (hy : Is (ofBits32 (s.fp 24)) y) (ho : |rd binary32 (x * y)| < 2 ^ (128 : ℤ)) :
    Is (f32at s'.mem (ob + BitVec.ofNat 32 (4 * i))) (rd binary32 (x * y)) := by
  rw [h]
  exact mul_rd binary32 hx hy ho

/-- **C128, violated.** With NEON a denormal number in a whole block becomes zero, whatever the finite scale. -/
theorem C128_violated {e : Env} (hq : e.o.nmul = ieeeNmul) (hN : neon e = true) {s s' : St} {ib ob : BitVec 32} {n : Nat}
    (h : Words ob n (product e s ib n) s s') {i : Nat} (hi : i < 16 * (n / 16)) {b c : Bool} {x y : ℚ}
    (hx : f32at s.mem (ib + BitVec.ofNat 32 (4 * i)) = .fin b x) (hy : ofBits32 (s.fp 24) = .fin c y) (hd : x < 2 ^ (-126 : ℤ)) :
    f32at s'.mem (ob + BitVec.ofNat 32 (4 * i)) = .fin (b != c) 0 := by
  rw [f32at, h.out i (by omega), product, if_pos ⟨hN, hi⟩, hq, ofBits32_nmul]
  rw [f32at] at hx
  unfold neonMul
  rw [hx, hy, Arm.flush_fin, if_pos hd, Arm.flush_fin]
  split_ifs
  · simp only [zero_mul]
    rw [if_pos (by positivity)]
  · simp only [zero_mul]
    rw [if_pos (by positivity)]

/-! ### Examples -/

/-- A machine with IEEE-754 products, with or without NEON, that can read and write 0x2000–0x2fff. -/
def machineV (neon : Bool) : Env where
  o := { Conv.noOps with mul := ieeeMul32, nmul := ieeeNmul }
  rd := fun a => decide (0x2000 ≤ a.toNat ∧ a.toNat < 0x3000)
  wr := fun a => decide (0x2000 ≤ a.toNat ∧ a.toNat < 0x3000)
  var := fun _ => if neon then 1 else 0
  strideOf := fun b => if b = 0 then some 1 else if b = 3 then some 2 else none
  tmp := fun _ => 0

/-- A call with numbers `w` everywhere and a scale. -/
def callV (w : BitVec 32) (ib ob : BitVec 32) (nin nout : Nat) (sc : BitVec 32) : St :=
  { Conv.call ib ob nin nout with mem := fun a => byte w (a.toNat % 4), fp := Function.update (Conv.call ib ob nin nout).fp 24 sc }

theorem callV_word (w ib ob : BitVec 32) (nin nout : Nat) (sc : BitVec 32) {a : BitVec 32} (ha : a.toNat % 4 = 0) :
    u32at (callV w ib ob nin nout sc).mem a = w := by
  have k : ∀ j < 4, (a + BitVec.ofNat 32 j : BitVec 32).toNat % 4 = j := by
    intro j hj
    rw [BitVec.toNat_add, BitVec.toNat_ofNat]
    omega
  unfold u32at callV
  simp only
  rw [k 3 (by omega), k 2 (by omega), k 1 (by omega), ha]
  exact X86.d32_of_bytes w (byte w) 0 (fun j _ => by rw [Nat.mul_zero, Nat.zero_add])

/-- 35 times 1.5 with scale -2, in place, with and without NEON: all become -3. -/
example (b : Bool) : ∃ s', Returns (sem (machineV b)) prog 142 (callV 0x3FC00000 0x2010 0x2010 35 70 0xC0000000) s' ∧
    ∀ i < 35, Is (f32at s'.mem (0x2010 + BitVec.ofNat 32 (4 * i))) (-3) := by
  have h1 : Args (callV 0x3FC00000 0x2010 0x2010 35 70 0xC0000000) 0x2010 0x2010 35 70 := ⟨by decide, by decide, rfl, rfl, rfl, rfl⟩
  have h2 : Along (machineV b) 0x2010 0x2010 35 := ⟨by decide, by cases b <;> decide +kernel, by cases b <;> decide +kernel, by decide +kernel, by decide, by decide⟩
  obtain ⟨s', h3, h4, -⟩ := C128_VScaleF32 (n := 35) (by decide) h1 h2
  refine ⟨s', h3, fun i hi => ?_⟩
  have b1 : ofBits32 0x3FC00000 = .fin false (3 / 2) := by norm_num [ofBits32, show (0x3FC00000 : BitVec 32).toNat = 0x3FC00000 from rfl]
  have b2 : ofBits32 0xC0000000 = .fin true 2 := by norm_num [ofBits32, show (0xC0000000 : BitVec 32).toNat = 0xC0000000 from rfl]
  have b3 : rd binary32 (3 / 2 * -2) = -3 := by
    rw [show (3 / 2 * -2 : ℚ) = -3 by norm_num]
    exact rd_grid _ (by decide) ⟨3, 0, by decide, by decide, by norm_num [abs_of_neg]⟩
  have w : f32at (callV 0x3FC00000 0x2010 0x2010 35 70 0xC0000000).mem (0x2010 + BitVec.ofNat 32 (4 * i)) = .fin false (3 / 2) := by
    rw [f32at, callV_word _ _ _ _ _ _ (aligned (by decide) (by omega)), b1]
  have sc : ofBits32 ((callV 0x3FC00000 0x2010 0x2010 35 70 0xC0000000).fp 24) = .fin true 2 := b2
  have big : (2 : ℚ) ^ (-126 : ℤ) ≤ 1 := by
    rw [zpow_neg]
    exact inv_le_one_of_one_le₀ (by norm_num)
  have := C128_value_partial (e := machineV b) rfl rfl h4 hi (fun _ _ => by
    rw [sc, w]
    refine ⟨?_, ?_, ?_⟩
    · intro s q hq
      obtain ⟨-, rfl⟩ := Val.fin.inj hq
      exact Or.inr (big.trans (by norm_num))
    · intro s q hq
      obtain ⟨-, rfl⟩ := Val.fin.inj hq
      exact Or.inr (big.trans (by norm_num))
    · intro s q t r hq hr
      obtain ⟨-, rfl⟩ := Val.fin.inj hq
      obtain ⟨-, rfl⟩ := Val.fin.inj hr
      exact Or.inr (big.trans (by norm_num)))
  have := C128_rounded this (x := 3 / 2) (y := -2) (by rw [w]; exact ⟨⟨_, _, rfl, by norm_num⟩, rfl⟩) (by rw [sc]; exact ⟨⟨_, _, rfl, by norm_num⟩, rfl⟩)
    (by rw [b3]; norm_num [abs_of_neg])
  rwa [b3] at this

/-- The least positive number times 2^127 with NEON: the first 32 of 35 become zero. -/
example : ∃ s', Returns (sem (machineV true)) prog 142 (callV 1 0x2010 0x2004 35 70 0x7F000000) s' ∧
    ∀ i < 32, f32at s'.mem (0x2004 + BitVec.ofNat 32 (4 * i)) = .fin false 0 := by
  have h1 : Args (callV 1 0x2010 0x2004 35 70 0x7F000000) 0x2010 0x2004 35 70 := ⟨by decide, by decide, rfl, rfl, rfl, rfl⟩
  have h2 : Along (machineV true) 0x2010 0x2004 35 := ⟨by decide, by decide +kernel, by decide +kernel, by decide +kernel, by decide, by decide⟩
  obtain ⟨s', h3, h4, -⟩ := C128_VScaleF32 (n := 35) (by decide) h1 h2
  refine ⟨s', h3, fun i hi => ?_⟩
  have b1 : ofBits32 1 = .fin false (2 ^ (-149 : ℤ)) := by norm_num [ofBits32, show (1 : BitVec 32).toNat = 1 from rfl]
  have b2 : ofBits32 0x7F000000 = .fin false (2 ^ (127 : ℤ)) := by norm_num [ofBits32, show (0x7F000000 : BitVec 32).toNat = 0x7F000000 from rfl]
  exact C128_violated (e := machineV true) rfl rfl h4 (i := i) (b := false) (c := false) (x := 2 ^ (-149 : ℤ)) (y := 2 ^ (127 : ℤ)) (by omega)
    (by rw [f32at, callV_word _ _ _ _ _ _ (aligned (by decide) (by omega)), b1]) b2 (zpow_lt_zpow_right₀ (by norm_num) (by norm_num))

end Verif.A32.Math
