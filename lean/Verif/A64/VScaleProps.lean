import Verif.A64.VScaleLemmas
import Verif.X86.VScaleProps

/-!
# Property C122: the instructions of `VScaleF32` on arm64

Lines 12–76 of `dsp/math32_arm64.s`, one by one, the numbers among them decoded. Unlike its amd64 counterpart (C116) the routine
scales all numbers.
-/

namespace Verif.A64.Math
open Verif.A64 Verif.Mach Verif.Fp
open Verif.X86 (byte)
open Verif.X86 (ieeeMul32 ofBits32_mul)
open Verif.X86.Conv (u32at f32at_of)
open Verif.X86.Avo (f32at)

/-- The frame of a call `VScaleF32(input, output, scale)`: address and length of both slices and the bits of the scale. -/
structure Call (s : St) (ib ob : BitVec 64) (nin nout : Nat) (sc : BitVec 32) : Prop where
  hin : nin < 2 ^ 63
  hout : nout < 2 ^ 63
  f1 : s.fp 0 = ib
  f2 : s.fp 8 = BitVec.ofNat 64 nin
  f3 : s.fp 24 = ob
  f4 : s.fp 32 = BitVec.ofNat 64 nout
  f5 : (s.fp 48).setWidth 32 = sc

/-- The machine can read and write `n` float32 from `ib` and `ob`; no byte of the input is overwritten before its turn: the output may
be the input, begin before it or not overlap it. -/
structure Along (e : Env) (ib ob : BitVec 64) (n : Nat) : Prop where
  small : 4 * n < 2 ^ 63
  rd : ∀ i < 4 * n, e.rd (ib + BitVec.ofNat 64 i) = true
  wr : ∀ i < 4 * n, e.wr (ob + BitVec.ofNat 64 i) = true
  apart : ∀ i < 4 * n, i ≤ (ib + BitVec.ofNat 64 i - ob).toNat

/-- The state after the call: float32 number `i < n` from `ob` is the product of number `i` from `ib` before the call and the scale, in
this order; everything else in memory and the frame are as before. -/
structure Scaled (e : Env) (ib ob : BitVec 64) (sc : BitVec 32) (n : Nat) (s s' : St) : Prop where
  out : ∀ i < n, ∀ j < 4, s'.mem (ob + BitVec.ofNat 64 (4 * i + j)) = byte (e.o.mul (u32at s.mem (ib + BitVec.ofNat 64 (4 * i))) sc) j
  rest : ∀ a, 4 * n ≤ (a - ob).toNat → s'.mem a = s.mem a
  frame : s'.fp = s.fp

/-- **C122.** From any state with the arguments in the frame, for all lengths, addresses and contents, also in place, and whatever the
floating-point unit computes: the routine returns, all products are stored, and the rest of memory and the frame have not changed. -/
theorem C122_scales {e : Env} {s : St} {ib ob : BitVec 64} {sc : BitVec 32} {nin nout n : Nat} (hn : n = min nin nout) (hc : Call s ib ob nin nout sc)
    (hr : Along e ib ob n) : ∃ s', Returns (sem e) prog 12 s s' ∧ Scaled e ib ob sc n s s' := by
  have hs := hr.small
  obtain ⟨s', h1, h2⟩ := VS.routine hc.hin hc.hout hn ⟨by omega, by omega, hr.rd, hr.wr, hr.apart⟩ hc.f1 hc.f2 hc.f3 hc.f4 hc.f5
  refine ⟨s', h2, ?_, ?_, h1.fp⟩
  · intro i hi j hj
    rw [h1.mem, fill_in (by omega) (by omega), VS.want, VS.prod, show (4 * i + j) / 4 = i by omega, show (4 * i + j) % 4 = j by omega]
  · intro a ha
    rw [h1.mem, fill_out ha]

/-- **C122.** There is no other way for the routine to end. -/
theorem C122_only {e : Env} {s s' : St} {ib ob : BitVec 64} {sc : BitVec 32} {nin nout n : Nat} (hn : n = min nin nout)
    (hc : Call s ib ob nin nout sc) (hr : Along e ib ob n) (h : Returns (sem e) prog 12 s s') : Scaled e ib ob sc n s s' := by
  obtain ⟨t, h1, h2⟩ := C122_scales hn hc hr
  rwa [h.unique h1]

/-- **C122 with IEEE-754 arithmetic.** A product that does not overflow is rounded once. -/
theorem C122_value {e : Env} (he : e.o.mul = ieeeMul32) {s s' : St} {ib ob : BitVec 64} {sc : BitVec 32} {n : Nat} (h : Scaled e ib ob sc n s s')
    {i : Nat} (hi : i < n) {x y : ℚ} (hx : Is (f32at s.mem (ib + BitVec.ofNat 64 (4 * i))) x) (hy : Is (ofBits32 sc) y)
    (ho : |rd binary32 (x * y)| < 2 ^ (128 : ℤ)) : Is (f32at s'.mem (ob + BitVec.ofNat 64 (4 * i))) (rd binary32 (x * y)) := by
  rw [f32at_of (fun j hj => by rw [adv, h.out i hi j hj]), he, ofBits32_mul]
  exact mul_rd binary32 hx hy ho

/-- **C122, both machines.** Where the routine of amd64 scales all numbers (`C116_all_iff`) both leave the same output, given the same
memory, arguments and multiplication. -/
theorem C122_same {e : Env} {e' : X86.Env} (he : e.o.mul = e'.o.mul32) {s s' : St} {t t' : X86.St} (hm : s.mem = t.mem) {ib ob : BitVec 64}
    {sc : BitVec 32} {nin nout n : Nat} (hn : n = min nin nout) (hc : Call s ib ob nin nout sc) (hd : X86.Args t ib ob nin nout)
    (h5 : X86.Conv.Scale t sc) (ha : X86.Math.products e' n = n) (hr : Along e ib ob n) (hr' : X86.Math.Along e' ib ob (4 * n))
    (hs : Returns (sem e) prog 12 s s') (ht : X86.Returns e' X86.Math.prog 228 t t') : s'.mem = t'.mem := by
  have h1 := C122_only hn hc hr hs
  obtain ⟨t'', h2, h3, -⟩ := X86.Math.C116_VScaleF32 hn hd h5 (by rw [ha]; exact hr')
  rw [ha] at h3
  rw [ht.unique h2]
  funext a
  by_cases c : 4 * n ≤ (a - ob).toNat
  · rw [h1.rest a c, h3.rest a (by omega), hm]
  · obtain ⟨i, j, hj, e1⟩ : ∃ i j, j < 4 ∧ (a - ob).toNat = 4 * i + j := ⟨(a - ob).toNat / 4, (a - ob).toNat % 4, by omega, by omega⟩
    have e2 : a = ob + BitVec.ofNat 64 (4 * i + j) := by
      rw [← e1, BitVec.ofNat_toNat, BitVec.setWidth_eq, BitVec.add_comm, BitVec.sub_add_cancel]
    rw [e2, h1.out i (by omega) j hj, h3.out i (by omega) j hj, he, hm]
    rfl

/-! ### Examples -/

/-- A machine with IEEE-754 multiplication. -/
noncomputable def machine : Env where
  o := ⟨X86.Avo.ieeeCvt32, ieeeMul32, fun a _ => a, fun a _ => a⟩
  rd := fun _ => true
  wr := fun _ => true

/-- A call with the frame and memory of another one. -/
def callOf (t : X86.St) : St where
  x := fun _ => 0xdead
  v := fun _ _ => 0x55
  fl := ⟨false, true, false, true⟩
  mem := t.mem
  fp := t.fp

/-- 66 times 1.5 with scale -2 in place: all become -3. With AVX2 the routine of amd64 leaves the last one as it is. -/
example : ∃ s', Returns (sem machine) prog 12 (callOf (X86.Conv.callScaled 0x3FC00000 0x1000 66 70 0xC0000000)) s' ∧
    ∀ i < 66, Is (f32at s'.mem (0x1000 + BitVec.ofNat 64 (4 * i))) (-3) := by
  have h1 : Call (callOf (X86.Conv.callScaled 0x3FC00000 0x1000 66 70 0xC0000000)) 0x1000 0x1000 66 70 0xC0000000 :=
    ⟨by decide, by decide, rfl, rfl, rfl, rfl, rfl⟩
  have h2 : Along machine 0x1000 0x1000 66 := ⟨by decide, fun _ _ => rfl, fun _ _ => rfl, by decide +kernel⟩
  obtain ⟨s', h3, h4⟩ := C122_scales (by decide) h1 h2
  refine ⟨s', h3, fun i hi => ?_⟩
  have b1 : ofBits32 0x3FC00000 = .fin false (3 / 2) := by norm_num [ofBits32, show (0x3FC00000 : BitVec 32).toNat = 0x3FC00000 from rfl]
  have b2 : ofBits32 0xC0000000 = .fin true 2 := by norm_num [ofBits32, show (0xC0000000 : BitVec 32).toNat = 0xC0000000 from rfl]
  have b3 : rd binary32 (3 / 2 * -2) = -3 := by
    rw [show (3 / 2 * -2 : ℚ) = -3 by norm_num]
    exact rd_grid _ (by decide) ⟨3, 0, by decide, by decide, by norm_num [abs_of_neg]⟩
  have := C122_value rfl h4 hi (x := 3 / 2) (y := -2)
    (by
      show Is (ofBits32 (u32at _ _)) _
      rw [show u32at (callOf (X86.Conv.callScaled 0x3FC00000 0x1000 66 70 0xC0000000)).mem (0x1000 + BitVec.ofNat 64 (4 * i)) = 0x3FC00000 from
        X86.Conv.scaled_word 0x3FC00000 0x1000 66 70 0xC0000000 i, b1]
      exact ⟨⟨_, _, rfl, by norm_num⟩, rfl⟩)
    (by rw [b2]; exact ⟨⟨_, _, rfl, by norm_num⟩, rfl⟩) (by rw [b3]; norm_num [abs_of_neg])
  rwa [b3] at this

/-- 130 numbers, in place, on amd64 with SSE2 only (130 = 4 · 32 + 2 would leave one, 129 none). -/
example : X86.Math.products (X86.Math.vecMachine false true) 129 = 129 ∧
    Call (callOf (X86.Conv.callScaled 0x3FC00000 0x1000 129 129 0xC0000000)) 0x1000 0x1000 129 129 0xC0000000 ∧
    X86.Args (X86.Conv.callScaled 0x3FC00000 0x1000 129 129 0xC0000000) 0x1000 0x1000 129 129 ∧
    X86.Conv.Scale (X86.Conv.callScaled 0x3FC00000 0x1000 129 129 0xC0000000) 0xC0000000 :=
  ⟨rfl, ⟨by decide, by decide, rfl, rfl, rfl, rfl, rfl⟩, ⟨by decide, by decide, rfl, rfl, rfl, rfl⟩, rfl⟩

end Verif.A64.Math
