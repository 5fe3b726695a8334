import Verif.X86.I16Props
import Verif.X86.VScaleLemmas

/-!
# Property C116: the instructions of `VScaleF32` on amd64

Lines 228–321 of `dsp/math32_amd64.s`, one by one.
-/

namespace Verif.X86.Math
open Verif.X86 Verif.Fp Verif.X86.Conv

/-- The machine can read and write `r` bytes from `ib` and `ob`; no byte of the input is overwritten before its turn: the output may be
the input, begin before it or not overlap it. -/
structure Along (e : Env) (ib ob : BitVec 64) (r : Nat) : Prop where
  small : r < 2 ^ 63
  rd : ∀ i < r, e.rd (ib + BitVec.ofNat 64 i) = true
  wr : ∀ i < r, e.wr (ob + BitVec.ofNat 64 i) = true
  apart : ∀ i < r, i ≤ (ib + BitVec.ofNat 64 i - ob).toNat

/-- The number of products stored for `n` numbers: with AVX2 and a count that is not a multiple of 64, or SSE2 and 32, only one more than
the last multiple. -/
def products (e : Env) (n : Nat) : Nat :=
  if e.sym .useAVX2 = 1 then (if n % 64 = 0 then n else n - n % 64 + 1)
  else if e.sym .useSSE2 = 1 then (if n % 32 = 0 then n else n - n % 32 + 1)
  else n

/-- Byte `j` of the product of number `i` from `ib` and the scale. -/
def vscf (e : Env) (s : St) (ib : BitVec 64) (sc : BitVec 32) (i j : Nat) : BitVec 8 :=
  byte (e.o.mul32 (u32at s.mem (ib + BitVec.ofNat 64 (4 * i))) sc) j

theorem cnt_eq (e : Env) (n : Nat) : VS.cnt e n = products e n := by
  unfold VS.cnt VS.lim products
  split
  · split <;> split <;> omega
  · split
    · split <;> split <;> omega
    · simp

/-- **C116 for `VScaleF32`.** From any state with the arguments in the frame, with any setting of the package variables, at any addresses,
also in place, and whatever the floating-point unit computes: the routine returns; it reads and writes the first `products` numbers only
and stores their products with the scale; the rest of memory, the frame and the frame pointer have not changed. -/
theorem C116_VScaleF32 {e : Env} {s : St} {ib ob : BitVec 64} {sc : BitVec 32} {nin nout n : Nat} (hn : n = min nin nout) (hc : Args s ib ob nin nout)
    (h5 : Scale s sc) (hr : Along e ib ob (4 * products e n)) :
    ∃ s', Returns e prog 228 s s' ∧ Stored ob (products e n) 4 (vscf e s ib sc) s s' ∧ s'.fp = s.fp ∧ s'.g.bp = s.g.bp := by
  obtain ⟨s', h1, h2⟩ := VS.routine (e := e) hc.hin hc.hout hn (by rw [cnt_eq]; exact ⟨hr.small, hr.small, hr.rd, hr.wr, hr.apart⟩) hc.f1 hc.f2 hc.f3 hc.f4 h5
  refine ⟨s', h1, stored_of hr.small (by rw [← cnt_eq]; exact h2.mem) fun i _ j hj => ?_, h2.fp, h2.bp⟩
  rw [VS.want, vscf, show (4 * i + j) / 4 = i by omega, show (4 * i + j) % 4 = j by omega, VS.prod, word_eq]

/-- **C116, when all numbers are scaled.** -/
theorem C116_all_iff (e : Env) (n : Nat) : products e n = n ↔
    (e.sym .useAVX2 = 1 → n % 64 ≤ 1) ∧ (e.sym .useAVX2 ≠ 1 → e.sym .useSSE2 = 1 → n % 32 ≤ 1) := by
  unfold products
  by_cases a : e.sym .useAVX2 = 1
  · simp only [a, if_true, ne_eq, not_true_eq_false, false_implies, and_true, true_implies]
    split <;> omega
  · by_cases b : e.sym .useSSE2 = 1
    · simp only [a, b, if_true, if_false, false_implies, true_and, ne_eq, not_false_eq_true, true_implies]
      split <;> omega
    · rw [if_neg a, if_neg b]
      exact ⟨fun _ => ⟨fun h => (a h).elim, fun _ h => (b h).elim⟩, fun _ => rfl⟩

/-- **C116, violated.** Otherwise the other numbers of the output have after the call the bytes from before. -/
theorem C116_violated {e : Env} {s s' : St} {ib ob : BitVec 64} {sc : BitVec 32} {nin nout n : Nat} (hn : n = min nin nout) (hc : Args s ib ob nin nout)
    (h5 : Scale s sc) (hr : Along e ib ob (4 * products e n)) (hs : Returns e prog 228 s s') (hN : 4 * n < 2 ^ 63) {i : Nat} (hi : products e n ≤ i)
    (hin : i < n) : u32at s'.mem (ob + BitVec.ofNat 64 (4 * i)) = u32at s.mem (ob + BitVec.ofNat 64 (4 * i)) := by
  obtain ⟨s'', h1, h2, -⟩ := C116_VScaleF32 hn hc h5 hr
  rw [hs.unique h1]
  have a : ∀ j < 4, s''.mem (ob + BitVec.ofNat 64 (4 * i) + BitVec.ofNat 64 j) = s.mem (ob + BitVec.ofNat 64 (4 * i) + BitVec.ofNat 64 j) := by
    intro j hj
    refine h2.rest _ ?_
    rw [adv, BitVec.add_comm, BitVec.add_sub_cancel, toNat_ofNat (by omega)]
    omega
  have a0 := a 0 (by omega)
  rw [adv0] at a0
  unfold u32at
  rw [a 3 (by omega), a 2 (by omega), a 1 (by omega), a0]

/-- **C116 with IEEE-754 arithmetic.** A product that does not overflow is rounded once. -/
theorem C116_value {e : Env} (he : e.o = ieee) {s s' : St} {ib ob : BitVec 64} {sc : BitVec 32} {m : Nat} (h : Stored ob m 4 (vscf e s ib sc) s s')
    {i : Nat} (hi : i < m) {x y : ℚ} (hx : Is (Avo.f32at s.mem (ib + BitVec.ofNat 64 (4 * i))) x) (hy : Is (ofBits32 sc) y)
    (ho : |rd binary32 (x * y)| < 2 ^ (128 : ℤ)) : Is (Avo.f32at s'.mem (ob + BitVec.ofNat 64 (4 * i))) (rd binary32 (x * y)) := by
  rw [f32at_of (fun j hj => by rw [adv, h.out i hi j hj, vscf]), he]
  show Is (ofBits32 (ieeeMul32 _ _)) _
  rw [ofBits32_mul]
  exact mul_rd binary32 hx hy ho

/-! ### Examples -/

/-- A machine with a choice of package variables. -/
noncomputable def vecMachine (avx2 sse2 : Bool) : Env where
  o := ieee
  rd := fun _ => true
  wr := fun _ => true
  sym := fun v => if v = .useAVX2 then (if avx2 then 1 else 0) else if v = .useSSE2 then (if sse2 then 1 else 0) else 1

/-- 66 times 1.5 with scale -2 in place, with AVX2: 65 elements become -3, the last remains 1.5. -/
example : ∃ s', Returns (vecMachine true true) prog 228 (callScaled 0x3FC00000 0x1000 66 70 0xC0000000) s' ∧
    (∀ i < 65, Is (Avo.f32at s'.mem (0x1000 + BitVec.ofNat 64 (4 * i))) (-3)) ∧
    u32at s'.mem (0x1000 + BitVec.ofNat 64 (4 * 65)) = 0x3FC00000 := by
  have h1 : Args (callScaled 0x3FC00000 0x1000 66 70 0xC0000000) 0x1000 0x1000 66 70 := ⟨by decide, by decide, rfl, rfl, rfl, rfl⟩
  have hp : products (vecMachine true true) 66 = 65 := rfl
  have h2 : Along (vecMachine true true) 0x1000 0x1000 (4 * products (vecMachine true true) 66) := by
    rw [hp]
    exact ⟨by decide, fun _ _ => rfl, fun _ _ => rfl, by decide +kernel⟩
  obtain ⟨s', h3, h4, -⟩ := C116_VScaleF32 (n := 66) (sc := 0xC0000000) (by decide) h1 rfl h2
  have h5 := C116_violated (n := 66) (i := 65) (sc := 0xC0000000) (by decide) h1 rfl h2 h3 (by decide) (le_of_eq hp) (by decide)
  refine ⟨s', h3, fun i hi => ?_, ?_⟩
  · have b1 : ofBits32 0x3FC00000 = .fin false (3 / 2) := by norm_num [ofBits32, show (0x3FC00000 : BitVec 32).toNat = 0x3FC00000 from rfl]
    have b2 : ofBits32 0xC0000000 = .fin true 2 := by norm_num [ofBits32, show (0xC0000000 : BitVec 32).toNat = 0xC0000000 from rfl]
    have b3 : rd binary32 (3 / 2 * -2) = -3 := by
      rw [show (3 / 2 * -2 : ℚ) = -3 by norm_num]
      exact rd_grid _ (by decide) ⟨3, 0, by decide, by decide, by norm_num [abs_of_neg]⟩
    have := C116_value rfl h4 (i := i) (by rw [hp]; exact hi) (x := 3 / 2) (y := -2)
      (by
        show Is (ofBits32 (u32at _ _)) _
        rw [scaled_word, b1]
        exact ⟨⟨_, _, rfl, by norm_num⟩, rfl⟩)
      (by rw [b2]; exact ⟨⟨_, _, rfl, by norm_num⟩, rfl⟩) (by rw [b3]; norm_num [abs_of_neg])
    rwa [b3] at this
  · rw [h5, scaled_word]

/-- Without AVX2 and SSE2 all 66 are scaled. -/
example : products (vecMachine false false) 66 = 66 := rfl

end Verif.X86.Math
