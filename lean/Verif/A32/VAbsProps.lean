import Verif.A32.VAbsLemmas
import Verif.A32.F16Props
import Verif.A32.VScaleProps
import Verif.Conv.AbsProps

/-!
# Property C130: the instructions of `VAbsC64` on 32-bit ARM

Lines 197–269 of `dsp/math32_arm.s`, one by one, with the numbers decoded. With `UseVector` set and at least four numbers the routine sets LEN = 3 and
STRIDE = 01 in FPSCR, which is meant to take every other register but is a reserved setting (STRIDE = 11 is the one for a distance of two).
-/

namespace Verif.A32.Math
open Verif.A32 Verif.Mach Verif.Fp
open Verif.A32.Conv (vectors control Cleared)
open Verif.X86 (byte ieeeMul32 ofBits32_mul)
open Verif.Conv (sqrtGo)

/-- The machine can read `n` complex64 from `ib` and write `n` float32 from `ob`; no byte of the input is overwritten before its turn: the output may
begin where the input begins, or before it, or not overlap it. -/
structure Halves (e : Env) (ib ob : BitVec 32) (n : Nat) : Prop where
  small : 8 * n < 2 ^ 32
  rd : ∀ i < 8 * n, e.rd (ib + BitVec.ofNat 32 i) = true
  wr : ∀ i < 4 * n, e.wr (ob + BitVec.ofNat 32 i) = true
  apart : ∀ i < 8 * n, 4 * (i / 8) ≤ (ib + BitVec.ofNat 32 i - ob).toNat
  ialign : ib.toNat % 4 = 0
  oalign : ob.toNat % 4 = 0

/-- The real and the imaginary part of number `i`, as bits. -/
def partBits (s : St) (ib : BitVec 32) (i : Nat) : BitVec 32 × BitVec 32 :=
  (u32at s.mem (ib + BitVec.ofNat 32 (8 * i)), u32at s.mem (ib + BitVec.ofNat 32 (8 * i + 4)))

/-- The root of the sum of the squares, as the floating-point unit has it. -/
def modulus (e : Env) (s : St) (ib : BitVec 32) (i : Nat) : BitVec 32 :=
  e.o.sqrt (e.o.add (e.o.mul (partBits s ib i).1 (partBits s ib i).1) (e.o.mul (partBits s ib i).2 (partBits s ib i).2))

/-- **C130, partial.** From any state with the arguments in the frame, for all lengths, addresses that are multiples of four and contents, also in place,
with and without vectors, whatever the floating-point unit computes: if the unit takes STRIDE = 01 for a distance of two, or the vectors are not used, the
routine returns, all absolute values are stored, nothing else in memory and in the frame has changed, and of FPSCR at most LEN and STRIDE,
which are then zero. Missing: units with vectors on which STRIDE = 01 has no meaning, where the routine faults (`C130_violated`). -/
theorem C130_VAbsC64_partial {e : Env} {s : St} {ib ob : BitVec 32} {nin nout n : Nat} (hn : n = min nin nout) (ha : Args s ib ob nin nout)
    (hr : Halves e ib ob n) (hS : vectors e = true → 4 ≤ n → e.strideOf 1 = some 2) : ∃ s', Returns (sem e) prog 197 s s' ∧
      Words ob n (modulus e s ib) s s' ∧ s'.fp = s.fp ∧ Cleared s s' := by
  have hs := hr.small
  obtain ⟨s', h1, h2, h3, h4⟩ := VAbs.routine ha hn (e := e) ⟨hs, by omega, hr.rd, hr.wr, hr.apart⟩ hr.ialign hr.oalign
    (fun h => hS (by unfold vectors; simpa using h))
  refine ⟨s', h1, words_of (by omega) h4 fun i hi j hj => ?_, h2, ?_⟩
  · rw [VAbs.want, show (4 * i + j) / 4 = i by omega, show (4 * i + j) % 4 = j by omega, VAbs.abs, show 4 * (2 * i) = 8 * i by omega,
      show 4 * (2 * i + 1) = 8 * i + 4 by omega]
    rfl
  · rw [Cleared, h3, VAbs.after]
    split
    · exact Or.inr rfl
    · exact Or.inl rfl

/-- **C130.** There is no other way for the routine to end. -/
theorem C130_only_partial {e : Env} {s s' : St} {ib ob : BitVec 32} {nin nout n : Nat} (hn : n = min nin nout) (ha : Args s ib ob nin nout)
    (hr : Halves e ib ob n) (hS : vectors e = true → 4 ≤ n → e.strideOf 1 = some 2) (h : Returns (sem e) prog 197 s s') :
      Words ob n (modulus e s ib) s s' ∧ s'.fp = s.fp ∧ Cleared s s' := by
  obtain ⟨t, h1, h2⟩ := C130_VAbsC64_partial hn ha hr hS
  rwa [h.unique h1]

/-- **C130, violated.** On a unit for which STRIDE = 01 has no meaning the routine never returns when vectors are used for four numbers or more: it faults
at its first vector multiplication. -/
theorem C130_violated {e : Env} {s : St} {ib ob : BitVec 32} {nin nout n : Nat} (hn : n = min nin nout) (ha : Args s ib ob nin nout)
    (hr : Halves e ib ob n) (hV : vectors e = true) (h4 : 4 ≤ n) (hS : e.strideOf 1 = none) :
    Faults (sem e) prog 197 s ∧ ∀ s', ¬ Returns (sem e) prog 197 s s' := by
  have hs := hr.small
  have h := VAbs.routine_fault ha hn (e := e) ⟨hs, by omega, hr.rd, hr.wr, hr.apart⟩ hr.ialign (by unfold vectors at hV; simpa using hV) h4 hS
  exact ⟨h, h.not_returns⟩

/-! ### Values -/

/-- Addition of bit patterns. -/
def ieeeAdd (a b : BitVec 32) : BitVec 32 := toBits32 (add binary32 (ofBits32 a) (ofBits32 b))

/-- Square roots of bit patterns. -/
def ieeeSqrt (a : BitVec 32) : BitVec 32 := toBits32 (sqrt binary32 (ofBits32 a))

theorem ofBits32_addA (a b : BitVec 32) : ofBits32 (ieeeAdd a b) = add binary32 (ofBits32 a) (ofBits32 b) :=
  ofBits32_toBits32 _ (Verif.Conv.repr32_add _ _)

theorem ofBits32_sqrtA (a : BitVec 32) : ofBits32 (ieeeSqrt a) = sqrt binary32 (ofBits32 a) :=
  ofBits32_toBits32 _ (repr32_sqrt (X86.repr32_ofBits a))

/-- **C130 with IEEE-754 arithmetic.** Each output is what the portable Go code (dsp/math32.go:88) computes for the two parts. -/
theorem C130_value {e : Env} (hm : e.o.mul = ieeeMul32) (hp : e.o.add = ieeeAdd) (hq : e.o.sqrt = ieeeSqrt) {s s' : St} {ib ob : BitVec 32} {n : Nat}
    (h : Words ob n (modulus e s ib) s s') {i : Nat} (hi : i < n) {v w : Val} (hv : f32at s.mem (ib + BitVec.ofNat 32 (8 * i)) = v)
    (hw : f32at s.mem (ib + BitVec.ofNat 32 (8 * i + 4)) = w) :
    f32at s'.mem (ob + BitVec.ofNat 32 (4 * i)) = sqrtGo (add binary32 (mul binary32 v v) (mul binary32 w w)) := by
  rw [f32at, h.out i hi, modulus, hm, hp, hq, ofBits32_sqrtA, ofBits32_addA, ofBits32_mul, ofBits32_mul, Verif.Conv.C131_sqrt (Verif.Conv.repr32_add _ _),
    ← hv, ← hw]
  rfl

/-- **C130, accuracy, partial.** So for finite parts with a sum of squares up to 1.7e38 the error is at most 1.21e-7 of the absolute value plus
7e-23. Missing: as in C131. -/
theorem C130_accuracy_partial {e : Env} (hm : e.o.mul = ieeeMul32) (hp : e.o.add = ieeeAdd) (hq : e.o.sqrt = ieeeSqrt) {s s' : St} {ib ob : BitVec 32} {n : Nat}
    (h : Words ob n (modulus e s ib) s s') {i : Nat} (hi : i < n) {v w : Val} (hv : f32at s.mem (ib + BitVec.ofNat 32 (8 * i)) = v)
    (hw : f32at s.mem (ib + BitVec.ofNat 32 (8 * i + 4)) = w) (fv : Finite v) (fw : Finite w) (hS : val v ^ 2 + val w ^ 2 ≤ 1.7e38) :
    Finite (f32at s'.mem (ob + BitVec.ofNat 32 (4 * i))) ∧
      |val (f32at s'.mem (ob + BitVec.ofNat 32 (4 * i))) - √(val v ^ 2 + val w ^ 2)| ≤ 1.21e-7 * √(val v ^ 2 + val w ^ 2) + 7e-23 := by
  rw [C130_value hm hp hq h hi hv hw]
  exact Verif.Conv.C131_abs_partial (Expr.eval_unfused (Verif.Conv.powE v w)) fv fw hS

/-! ### Examples -/

/-- A machine with IEEE-754 arithmetic, with or without vectors, that can read and write 0x2000–0x2fff, and on which STRIDE = 01 means `st`. -/
def machineC (vec : Bool) (st : Option Nat) : Env where
  o := { Conv.noOps with mul := ieeeMul32, add := ieeeAdd, sqrt := ieeeSqrt }
  rd := fun a => decide (0x2000 ≤ a.toNat ∧ a.toNat < 0x3000)
  wr := fun a => decide (0x2000 ≤ a.toNat ∧ a.toNat < 0x3000)
  var := fun _ => if vec then 1 else 0
  strideOf := fun b => if b = 0 then some 1 else if b = 3 then some 2 else if b = 1 then st else none
  tmp := fun _ => 0

/-- 11 times 1.5 + 1.5i in place, without vectors, or with a unit that takes STRIDE = 01 for two: all become nearly 1.5√2. -/
example (b : Bool) : ∃ s', Returns (sem (machineC b (some 2))) prog 197 (callV 0x3FC00000 0x2010 0x2010 11 70 0) s' ∧
    ∀ i < 11, |val (f32at s'.mem (0x2010 + BitVec.ofNat 32 (4 * i))) - √(9 / 2)| ≤ 1e-6 := by
  have h1 : Args (callV 0x3FC00000 0x2010 0x2010 11 70 0) 0x2010 0x2010 11 70 := ⟨by decide, by decide, rfl, rfl, rfl, rfl⟩
  have h2 : Halves (machineC b (some 2)) 0x2010 0x2010 11 := ⟨by decide, by cases b <;> decide +kernel, by cases b <;> decide +kernel,
    by decide +kernel, by decide, by decide⟩
  obtain ⟨s', h3, h4, -⟩ := C130_VAbsC64_partial (n := 11) (by decide) h1 h2 (fun _ _ => rfl)
  refine ⟨s', h3, fun i hi => ?_⟩
  have b1 : ofBits32 0x3FC00000 = .fin false (3 / 2) := by norm_num [ofBits32, show (0x3FC00000 : BitVec 32).toNat = 0x3FC00000 from rfl]
  have f : Finite (.fin false (3 / 2)) := ⟨_, _, rfl, by norm_num⟩
  have e : val (.fin false (3 / 2)) ^ 2 + val (.fin false (3 / 2)) ^ 2 = 9 / 2 := by rw [val_fin]; norm_num
  have w : ∀ k, k % 4 = 0 → f32at (callV 0x3FC00000 0x2010 0x2010 11 70 0).mem (0x2010 + BitVec.ofNat 32 k) = .fin false (3 / 2) := by
    intro k hk
    rw [f32at, callV_word _ _ _ _ _ _ (aligned (by decide) hk), b1]
  have := (C130_accuracy_partial (e := machineC b (some 2)) rfl rfl rfl h4 hi (w (8 * i) (by omega)) (w (8 * i + 4) (by omega)) f f
    (by rw [e]; norm_num)).2
  rw [e] at this
  refine le_trans this ?_
  have : √(9 / 2 : ℝ) ≤ 3 := Real.sqrt_le_iff.2 ⟨by norm_num, by norm_num⟩
  norm_num at this ⊢
  linarith

/-- The same call with vectors on a unit for which STRIDE = 01 is reserved. -/
example : ∀ s', ¬ Returns (sem (machineC true none)) prog 197 (callV 0x3FC00000 0x2010 0x2010 11 70 0) s' :=
  (C130_violated (n := 11) (e := machineC true none) (by decide) (ib := 0x2010) (ob := 0x2010) (nin := 11) (nout := 70)
    ⟨by decide, by decide, rfl, rfl, rfl, rfl⟩
    ⟨by decide, by decide +kernel, by decide +kernel, by decide +kernel, by decide, by decide⟩ rfl (by decide) rfl).2

end Verif.A32.Math
