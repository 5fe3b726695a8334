import Verif.A32.DemodLemmas
import Verif.A32.AtanProps
import Verif.Demod.DemodFp

/-!
# Property C133: the instructions of `fmDemodulateAsm` on 32-bit ARM

Lines 3–93 of `dsp/demod_arm.s`, one by one, with the numbers decoded.
-/

namespace Verif.A32.Demod
open Verif.A32 Verif.Mach Verif.Fp
open Verif.A32.Math (Ieee)
open Verif.Arm (AOps Const ieeeOps fastAtan2Arm fastAtan2Go IsZero)
open Verif.Angle (go32)
open Verif.X86 (byte bytes32 d32)

/-! ### What a call needs and leaves behind -/

/-- The frame of a call `fmDemodulateAsm(fi, input, output)`: `nin` complex numbers at `ib`, `nout` numbers at `ob`. -/
structure Call (s : St) (fi ib ob : BitVec 32) (nin nout : Nat) : Prop where
  hin : nin < 2 ^ 31
  hout : nout < 2 ^ 31
  a0 : s.fp 0 = fi
  a1 : s.fp 4 = ib
  a2 : s.fp 8 = BitVec.ofNat 32 nin
  a3 : s.fp 16 = ob
  a4 : s.fp 20 = BitVec.ofNat 32 nout

/-- The `n` samples and the filter can be read, the `n` first places of the output and the filter can be written, they are aligned, and the output
overlaps neither the samples nor the filter. -/
structure Places (e : Env) (fi ib ob : BitVec 32) (n nout : Nat) : Prop where
  i4 : ib.toNat % 4 = 0
  o4 : ob.toNat % 4 = 0
  f4 : fi.toNat % 4 = 0
  rsmall : 8 * n < 2 ^ 32
  wsmall : 4 * nout < 2 ^ 32
  le : n ≤ nout
  rd : ∀ i < 8 * n, e.rd (ib + BitVec.ofNat 32 i) = true
  wr : ∀ i < 4 * n, e.wr (ob + BitVec.ofNat 32 i) = true
  frd : ∀ i < 8, e.rd (fi + BitVec.ofNat 32 i) = true
  fwr : ∀ i < 8, e.wr (fi + BitVec.ofNat 32 i) = true
  apart : ∀ i < 8 * n, 4 * n ≤ (ib + BitVec.ofNat 32 i - ob).toNat
  fapart : ∀ i < 8, 4 * nout ≤ (fi + BitVec.ofNat 32 i - ob).toNat

/-- The complex number at an address, as bits. -/
def pairAt (m : BitVec 32 → BitVec 8) (a : BitVec 32) : BitVec 32 × BitVec 32 := (u32at m a, u32at m (a + BitVec.ofNat 32 4))

/-- The sample before sample `i`: for the first one that of the filter. -/
def before (m : BitVec 32 → BitVec 8) (fi ib : BitVec 32) (i : Nat) : BitVec 32 × BitVec 32 :=
  if i = 0 then pairAt m fi else pairAt m (ib + BitVec.ofNat 32 (8 * (i - 1)))

/-- Output `i`, for any arithmetic: the arctangent (structured model of C85) of the product of sample `i` with the conjugate of the one before. -/
def out (o : Ops) (m : BitVec 32 → BitVec 8) (fi ib : BitVec 32) (i : Nat) : BitVec 32 :=
  let a := pairAt m (ib + BitVec.ofNat 32 (8 * i))
  let b := before m fi ib i
  fastAtan2Arm (Math.Atan.ops o) (o.sub (o.mul b.1 a.2) (o.mul b.2 a.1)) (o.add (o.mul b.1 a.1) (o.mul b.2 a.2))

/-- After a call: `n` outputs, the last sample in the filter, and the result `r`; nothing else has changed in memory and in the frame, and of FPSCR
nothing but the flags. -/
structure Demodulated (o : Ops) (fi ib ob : BitVec 32) (n r : Nat) (s s' : St) : Prop where
  out : ∀ i < n, u32at s'.mem (ob + BitVec.ofNat 32 (4 * i)) = out o s.mem fi ib i
  pre : pairAt s'.mem fi = before s.mem fi ib n
  rest : ∀ a, 4 * n ≤ (a - ob).toNat → 8 ≤ (a - fi).toNat → s'.mem a = s.mem a
  ret : s'.fp 28 = BitVec.ofNat 32 r
  frame : ∀ i, i ≠ 28 → s'.fp i = s.fp i
  scr : ∀ k, k < 28 → s'.fpscr.getLsbD k = s.fpscr.getLsbD k

/-! ### Lemmas -/

theorem sample_eq (m : BitVec 32 → BitVec 8) (ib : BitVec 32) (i : Nat) : sample m ib i = pairAt m (ib + BitVec.ofNat 32 (8 * i)) := by
  unfold sample pairAt
  rw [adv]

theorem prev_eq (m : BitVec 32 → BitVec 8) (fi ib : BitVec 32) (i : Nat) : prev m fi ib i = before m fi ib i := by
  cases i with
  | zero => rfl
  | succ i => rw [before, if_neg (by omega), Nat.add_sub_cancel]; exact sample_eq m ib i

theorem angle_eq (e : Env) (m : BitVec 32 → BitVec 8) (fi ib : BitVec 32) (i : Nat) : angle e m fi ib i = out e.o m fi ib i := by
  unfold angle out prodY prodX
  rw [sample_eq, prev_eq]

theorem u32at_congr {m m' : BitVec 32 → BitVec 8} {a : BitVec 32} (h : ∀ j < 4, m (a + BitVec.ofNat 32 j) = m' (a + BitVec.ofNat 32 j)) :
    u32at m a = u32at m' a := by
  unfold u32at
  have := h 0 (by omega)
  rw [adv0] at this
  rw [h 3 (by omega), h 2 (by omega), h 1 (by omega), this]

theorem u32at_of {m : BitVec 32 → BitVec 8} {a w : BitVec 32} (h : ∀ j < 4, m (a + BitVec.ofNat 32 j) = byte w j) : u32at m a = w := by
  have e := u32at_d32 m a 0
  rw [Nat.mul_zero, adv0] at e
  rw [e]
  exact X86.d32_of_bytes _ _ _ (fun j hj => by simpa using h j hj)

/-- An address is in a region of `k` bytes, or not. -/
theorem near (a b : BitVec 32) : a = b + BitVec.ofNat 32 (a - b).toNat := by
  rw [BitVec.ofNat_toNat, BitVec.setWidth_eq, BitVec.add_comm, BitVec.sub_add_cancel]

theorem off (b : BitVec 32) {k : Nat} (hk : k < 2 ^ 32) : (b + BitVec.ofNat 32 k - b).toNat = k := by
  rw [BitVec.add_comm, BitVec.add_sub_cancel, BitVec.toNat_ofNat, Nat.mod_eq_of_lt hk]

theorem put_out {m : BitVec 32 → BitVec 8} {a b : BitVec 32} {x : BitVec 32 × BitVec 32} (h : 8 ≤ (a - b).toNat) : put m b x a = m a := by
  unfold put
  have e : (a - (b + BitVec.ofNat 32 4)).toNat = (a - b).toNat - 4 := by
    rw [← BitVec.sub_sub, BitVec.toNat_sub_of_le]
    · rfl
    · rw [BitVec.le_def]
      exact le_trans (show (BitVec.ofNat 32 4).toNat ≤ 8 by decide) h
  rw [fill_out (by omega), fill_out (by omega)]

theorem put_pair (m : BitVec 32 → BitVec 8) (a : BitVec 32) (x : BitVec 32 × BitVec 32) : pairAt (put m a x) a = x := by
  have h1 : u32at (put m a x) a = x.1 := by
    refine u32at_of fun j hj => ?_
    unfold put
    rw [fill_out, fill_in hj (by decide)]
    · unfold bytes32
      rw [if_pos hj]
    · rw [← BitVec.sub_sub, BitVec.add_comm, BitVec.add_sub_cancel]
      obtain rfl | rfl | rfl | rfl : j = 0 ∨ j = 1 ∨ j = 2 ∨ j = 3 := by omega
      all_goals decide
  have h2 : u32at (put m a x) (a + BitVec.ofNat 32 4) = x.2 := by
    refine u32at_of fun j hj => ?_
    unfold put
    rw [fill_in hj (by decide)]
    unfold bytes32
    rw [if_pos hj]
  exact Prod.ext h1 h2

theorem Places.io {e : Env} {fi ib ob : BitVec 32} {n nout : Nat} (h : Places e fi ib ob n nout) : Io e.rd e.wr ib ob (8 * n) (4 * n) (lim (4 * n)) :=
  ⟨h.rsmall, by have := h.wsmall; have := h.le; omega, h.rd, h.wr, h.apart⟩

theorem Places.clear {e : Env} {fi ib ob : BitVec 32} {n nout : Nat} (h : Places e fi ib ob n nout) {k : Nat} (hk : k < 4 * nout) :
    8 ≤ (ob + BitVec.ofNat 32 k - fi).toNat := by
  by_contra c
  have := h.fapart _ (not_le.1 c)
  rw [← near, off ob (by have := h.wsmall; omega)] at this
  omega

/-! ### The property -/

/-- **C133.** From any state with LEN = 0, whatever the floating-point unit computes, the routine returns after `n = min(len(input), len(output))` samples;
the outputs are the arctangents of the products of each sample with the conjugate of the one before, and the last sample is kept in the filter. The
result is the length of the input. -/
theorem C133_demodulate {e : Env} {s : St} {fi ib ob : BitVec 32} {n nin nout : Nat} (hn : n = min nin nout) (ha : Call s fi ib ob nin nout)
    (h : Places e fi ib ob n nout) (hL : s.fpscr.extractLsb' 16 3 = 0) :
    ∃ s', Returns (sem e) prog 3 s s' ∧ Demodulated e.o fi ib ob n nin s s' := by
  obtain ⟨s', h1, h2, h3, h4⟩ := routine (e := e) ha.hin ha.hout ha.a0 ha.a1 ha.a2 ha.a3 ha.a4 hn hL h.io h.i4 h.o4 h.f4 h.frd h.fwr
  have hw := h.wsmall
  have hl := h.le
  refine ⟨s', h1, ⟨?_, ?_, ?_, by rw [h2, Function.update_self], fun i hi => by rw [h2, Function.update_of_ne hi], ?_⟩⟩
  · intro i hi
    rw [if_neg (by omega)] at h4
    refine u32at_of fun j hj => ?_
    rw [adv, h4, put_out (h.clear (by omega)), fill_in (by omega) (by omega), want, ← angle_eq, show (4 * i + j) / 4 = i by omega,
      show (4 * i + j) % 4 = j by omega]
  · by_cases c : n = 0
    · rw [h4, if_pos c, before, if_pos c]
    · rw [if_neg c] at h4
      rw [h4, put_pair, prev_eq]
  · intro a h5 h6
    by_cases c : n = 0
    · rw [h4, if_pos c]
    · rw [h4, if_neg c, put_out h6, fill_out h5]
  · intro k hk
    have := congrArg (fun b => b.getLsbD k) (h3 0 28 (by decide))
    simpa [BitVec.getLsbD_extractLsb', hk] using this

/-- **C133.** There is no other way for it to end. -/
theorem C133_only {e : Env} {s s' : St} {fi ib ob : BitVec 32} {n nin nout : Nat} (hn : n = min nin nout) (ha : Call s fi ib ob nin nout)
    (h : Places e fi ib ob n nout) (hL : s.fpscr.extractLsb' 16 3 = 0) (hr : Returns (sem e) prog 3 s s') : Demodulated e.o fi ib ob n nin s s' := by
  obtain ⟨t, h1, h2⟩ := C133_demodulate hn ha h hL
  rwa [hr.unique h1]

/-! ### Values -/

/-- The complex number at an address. -/
def c64at (m : BitVec 32 → BitVec 8) (a : BitVec 32) : Val × Val := (f32at m a, f32at m (a + BitVec.ofNat 32 4))

/-- The samples in memory. -/
def samples (m : BitVec 32 → BitVec 8) (ib : BitVec 32) (n : Nat) : List (Val × Val) := (List.range n).map fun i => c64at m (ib + BitVec.ofNat 32 (8 * i))

/-- The outputs in memory. -/
def outputs (m : BitVec 32 → BitVec 8) (ob : BitVec 32) (n : Nat) : List Val := (List.range n).map fun i => f32at m (ob + BitVec.ofNat 32 (4 * i))

/-- The sample before sample `i`. -/
def c64before (m : BitVec 32 → BitVec 8) (fi ib : BitVec 32) (i : Nat) : Val × Val :=
  if i = 0 then c64at m fi else c64at m (ib + BitVec.ofNat 32 (8 * (i - 1)))

/-- The product of a sample and the conjugate of the one before, in binary32: imaginary and real part. -/
def imag (a b : Val × Val) : Val := Fp.sub binary32 (Fp.mul binary32 a.2 b.1) (Fp.mul binary32 a.1 b.2)
def real (a b : Val × Val) : Val := Fp.add binary32 (Fp.mul binary32 a.1 b.1) (Fp.mul binary32 a.2 b.2)

/-- With these products the arctangent of the assembly is not that of the Go code (C132): the real part is not a number, or it is a zero and the
imaginary part is not a number or the negative zero. -/
def Special (a b : Val × Val) : Prop := real a b = .nan ∨ IsZero (real a b) ∧ (imag a b = .nan ∨ imag a b = .fin true 0)

theorem out_value {o : Ops} (ho : Ieee o) (m : BitVec 32 → BitVec 8) (fi ib : BitVec 32) (i : Nat) :
    ofBits32 (out o m fi ib i) = fastAtan2Arm (ieeeOps Const.asm) (imag (c64at m (ib + BitVec.ofNat 32 (8 * i))) (c64before m fi ib i))
      (real (c64at m (ib + BitVec.ofNat 32 (8 * i))) (c64before m fi ib i)) := by
  have hb : c64before m fi ib i = (ofBits32 (before m fi ib i).1, ofBits32 (before m fi ib i).2) := by
    unfold c64before before
    split <;> rfl
  unfold out imag real
  dsimp only
  rw [(Math.ieee_hom ho _ _).1, hb, ho.add, ho.sub, ho.mul, Math.ofBits32_addA, Math.ofBits32_subA, X86.ofBits32_mul, X86.ofBits32_mul, X86.ofBits32_mul,
    X86.ofBits32_mul]
  simp only [Arm.mul_comm32 (ofBits32 (before m fi ib i).1), Arm.mul_comm32 (ofBits32 (before m fi ib i).2)]
  rfl

theorem proper_imag (a b : Val × Val) : Arm.Proper (imag a b) := by
  intro t q h
  have := Verif.Conv.repr32_add (Fp.mul binary32 a.2 b.1) (Fp.neg (Fp.mul binary32 a.1 b.2))
  rw [show Fp.add binary32 (Fp.mul binary32 a.2 b.1) (Fp.neg (Fp.mul binary32 a.1 b.2)) = .fin t q from h] at this
  exact this.1

theorem u32_outputs {m m' : BitVec 32 → BitVec 8} {a : BitVec 32} (h : ∀ j < 4, m (a + BitVec.ofNat 32 j) = m' (a + BitVec.ofNat 32 j)) :
    f32at m a = f32at m' a := by
  unfold f32at
  rw [u32at_congr h]

theorem c64_pair (m : BitVec 32 → BitVec 8) (a : BitVec 32) : c64at m a = (ofBits32 (pairAt m a).1, ofBits32 (pairAt m a).2) := rfl

open scoped Verif.Demod in
/-- **C133 with IEEE-754 arithmetic, partial.** If the output is not shorter than the input and no product is special, then memory and result after
the call are what the portable `fmDemodulate` (C57) makes of the samples, the filter and the output before it. Missing: special products (C132) and short
outputs (`C133_violated`). -/
theorem C133_portable_partial {e : Env} (ho : Ieee e.o) {s s' : St} {fi ib ob : BitVec 32} {nin nout : Nat} (ha : Call s fi ib ob nin nout)
    (h : Places e fi ib ob nin nout) (hL : s.fpscr.extractLsb' 16 3 = 0) (hr : Returns (sem e) prog 3 s s')
    (hs : ∀ i < nin, ¬ Special (c64at s.mem (ib + BitVec.ofNat 32 (8 * i))) (c64before s.mem fi ib i)) :
    Verif.Demod.fmDemodulate (fastAtan2Go go32) (c64at s.mem fi) (samples s.mem ib nin) (outputs s.mem ob nout) =
      some (c64at s'.mem fi, outputs s'.mem ob nout, (s'.fp 28).toNat) := by
  have hd := C133_only (by have := h.le; omega) ha h hL hr
  have hle := h.le
  have hw := h.wsmall
  have l1 : (samples s.mem ib nin).length = nin := by simp [samples]
  have l2 : (outputs s.mem ob nout).length = nout := by simp [outputs]
  have cb : ∀ i, (c64at s.mem fi :: samples s.mem ib nin)[i]? = if i ≤ nin then some (c64before s.mem fi ib i) else none := by
    intro i
    cases i with
    | zero => simp [c64before]
    | succ i =>
      rw [List.getElem?_cons_succ, samples, List.getElem?_map]
      by_cases c : i < nin
      · rw [List.getElem?_range c, if_pos (by omega), c64before, if_neg (by omega)]
        rfl
      · rw [List.getElem?_eq_none (by simp; omega), if_neg (by omega)]
        rfl
  rw [Verif.Demod.C57_value _ _ _ _ (by omega)]
  congr 2
  · have e1 := hd.pre
    rw [c64_pair s'.mem, e1]
    have e2 := cb nin
    rw [if_pos (le_refl _)] at e2
    have e3 : (c64at s.mem fi :: samples s.mem ib nin).getLast (by simp) = c64before s.mem fi ib nin := by
      rw [List.getLast_eq_getElem]
      apply Option.some.inj
      rw [← e2, ← List.getElem?_eq_getElem]
      congr 1
    rw [e3]
    unfold c64before before
    split <;> rfl
  · congr 1
    · apply List.ext_getElem?
      intro i
      rw [l1]
      by_cases c : i < nin
      · rw [List.getElem?_append_left (by rw [Verif.Demod.increments_length, l1]; exact c)]
        have e1 : (outputs s'.mem ob nout)[i]? = some (f32at s'.mem (ob + BitVec.ofNat 32 (4 * i))) := by
          rw [outputs, List.getElem?_map, List.getElem?_range (by omega)]
          rfl
        have e2 : (samples s.mem ib nin)[i]? = some (c64at s.mem (ib + BitVec.ofNat 32 (8 * i))) := by
          rw [samples, List.getElem?_map, List.getElem?_range c]
          rfl
        rw [e1, Verif.Demod.increments, List.getElem?_zipWith, e2, cb i, if_pos (by omega)]
        simp only [Option.some.injEq]
        rw [f32at, hd.out i c, out_value ho]
        exact ((Arm.C85_fast_partial _ _ (proper_imag _ _)).2 (hs i c)).symm
      · rw [List.getElem?_append_right (by rw [Verif.Demod.increments_length, l1]; omega), Verif.Demod.increments_length, l1, List.getElem?_drop,
          Nat.add_sub_cancel' (by omega)]
        unfold outputs
        rw [List.getElem?_map, List.getElem?_map]
        by_cases c2 : i < nout
        · rw [List.getElem?_range c2]
          simp only [Option.map_some, Option.some.injEq]
          refine (u32_outputs fun j hj => ?_).symm
          rw [adv]
          refine hd.rest _ ?_ (h.clear (by omega))
          rw [off ob (by omega)]
          omega
        · rw [List.getElem?_eq_none (by simp; omega), Option.map_none, Option.map_none]
    · rw [l1, hd.ret, BitVec.toNat_ofNat, Nat.mod_eq_of_lt (by have := ha.hin; omega)]

/-- **C133, violated for short outputs.** The portable code panics; the assembly fills the output, keeps the last sample it has used, and returns the
length of the input, which is more than it has used. -/
theorem C133_violated {e : Env} {s s' : St} {fi ib ob : BitVec 32} {nin nout : Nat} (ha : Call s fi ib ob nin nout) (hlt : nout < nin)
    (h : Places e fi ib ob nout nout) (hL : s.fpscr.extractLsb' 16 3 = 0) (hr : Returns (sem e) prog 3 s s') :
    Demodulated e.o fi ib ob nout nin s s' ∧ nout < (s'.fp 28).toNat ∧
    ∀ {F : Type} [Mul F] [Sub F] [Add F] (atan2 : F → F → F) (pre : F × F) (input : List (F × F)) (output : List F), input.length = nin → output.length = nout →
      Verif.Demod.fmDemodulate atan2 pre input output = none := by
  have hd := C133_only (n := nout) (by omega) ha h hL hr
  refine ⟨hd, ?_, fun atan2 pre input output h1 h2 => Verif.Demod.C57_panics atan2 pre input output (by omega)⟩
  rw [hd.ret, BitVec.toNat_ofNat, Nat.mod_eq_of_lt (by have := ha.hin; omega)]
  exact hlt

open scoped Verif.Demod in
open Verif.Demod (FinC cval) in
/-- **C133, accuracy, partial.** Output `i` for finite samples, when the product of the magnitudes of sample `i` and the one before lies between 3e-15 and
1e38: it is finite and within 0.01021 radians of the phase step; it may be off by a whole turn, and only if the step is within a millionth of half a turn.
Missing: as in C90. -/
theorem C133_accuracy_partial {e : Env} (ho : Ieee e.o) {s s' : St} {fi ib ob : BitVec 32} {n nin : Nat} (hd : Demodulated e.o fi ib ob n nin s s') {i : Nat}
    (hi : i < n) {a b : Val × Val} (ha : a = c64at s.mem (ib + BitVec.ofNat 32 (8 * i))) (hb : b = c64before s.mem fi ib i) (fa : FinC a) (fb : FinC b)
    (hlow : 3e-15 ≤ ‖cval a‖ * ‖cval b‖) (hhigh : ‖cval a‖ * ‖cval b‖ ≤ 1e38) :
    Finite (f32at s'.mem (ob + BitVec.ofNat 32 (4 * i))) ∧
      ∃ k : ℤ, |val (f32at s'.mem (ob + BitVec.ofNat 32 (4 * i))) - ((cval a * (starRingEnd ℂ) (cval b)).arg + 2 * Real.pi * k)| ≤ 0.01021 ∧
        (|(cval a * (starRingEnd ℂ) (cval b)).arg| ≤ Real.pi - 1e-6 → k = 0) := by
  have key := Verif.Demod.disc_near a b fa fb hlow hhigh
  rw [show Verif.Demod.disc (fastAtan2Go go32) a b = fastAtan2Go go32 (imag a b) (real a b) from rfl] at key
  have fr : Finite (real a b) := by
    have n1 := Verif.Demod.cs (val a.1) (val a.2) (val b.1) (val b.2)
    rw [← Verif.Demod.norm_cval, ← Verif.Demod.norm_cval] at n1
    exact (Verif.Demod.dot_near fa.1 fb.1 fa.2 fb.2 (by norm_num at *; linarith)).1.1
  have fy : Finite (imag a b) := by
    have n2 := Verif.Demod.cs (val a.2) (val a.1) (val b.1) (val b.2)
    rw [add_comm (val a.2 ^ 2), ← Verif.Demod.norm_cval, ← Verif.Demod.norm_cval] at n2
    exact (Verif.Demod.dot_near fa.2 fb.1 fa.1 fb.2 (by norm_num at *; linarith)).2.1
  rw [f32at, hd.out i hi, out_value ho, ← ha, ← hb]
  have fin_ne : ∀ {v : Val}, Finite v → v ≠ .nan := by
    rintro v ⟨_, _, rfl, -⟩
    simp
  by_cases c : Special a b
  · obtain c | ⟨⟨t, c1⟩, c2⟩ := c
    · exact absurd c (fin_ne fr)
    · replace c2 := c2.resolve_left (fin_ne fy)
      rw [c1, c2] at key ⊢
      have g1 : fastAtan2Go go32 (.fin true 0) (.fin t 0) = .fin false 0 := by cases t <;> decide +kernel
      have g2 : fastAtan2Arm (ieeeOps Const.asm) (.fin true 0) (.fin t 0) = .fin true 0 := by cases t <;> decide +kernel
      have g3 : val (.fin true 0) = val (.fin false 0) := by rw [val_fin, val_fin]; simp
      rw [g1] at key
      rw [g2, g3]
      exact ⟨⟨_, _, rfl, le_rfl⟩, key.2⟩
  · rw [(Arm.C85_fast_partial _ _ (proper_imag a b)).2 c]
    exact key

/-! ### Examples -/

/-- A machine with IEEE-754 arithmetic and one page of memory. -/
def machineD : Env := { Math.machineA with rd := fun a => decide (0x2000 ≤ a.toNat ∧ a.toNat < 0x3000), wr := fun a => decide (0x2000 ≤ a.toNat ∧ a.toNat < 0x3000) }

/-- A call: the filter at 0x2000 holds 1, `nin` samples at 0x2100 are all `i`, `nout` outputs at 0x2200. -/
def callD (nin nout : Nat) : St where
  r := fun _ => 7
  v := fun i => BitVec.ofNat 32 i
  fl := ⟨false, false, false, false⟩
  fpscr := 0
  mem := fun a => byte (if decide (a.toNat < 0x2100) = decide (a.toNat % 8 < 4) then 0x3F800000 else (0 : BitVec 32)) (a.toNat % 4)
  fp := fun i => if i = 0 then 0x2000 else if i = 4 then 0x2100 else if i = 8 then BitVec.ofNat 32 nin else if i = 16 then 0x2200 else
    if i = 20 then BitVec.ofNat 32 nout else 99

theorem callD_call {nin nout : Nat} (h1 : nin < 2 ^ 31) (h2 : nout < 2 ^ 31) : Call (callD nin nout) 0x2000 0x2100 0x2200 nin nout :=
  ⟨h1, h2, rfl, rfl, rfl, rfl, rfl⟩

theorem callD_places : Places machineD 0x2000 0x2100 0x2200 5 5 := by
  refine ⟨by decide, by decide, by decide, by decide, by decide, by decide, by decide +kernel, by decide +kernel, by decide +kernel, by decide +kernel,
    by decide +kernel, by decide +kernel⟩

theorem val_one32 : ofBits32 0x3F800000 = .fin false 1 := by norm_num [ofBits32, show (0x3F800000 : BitVec 32).toNat = 0x3F800000 from rfl]
theorem val_zero32 : ofBits32 0 = .fin false 0 := by norm_num [ofBits32, show (0 : BitVec 32).toNat = 0 from rfl]

/-- Five samples: the first output is near a quarter turn, and memory and result are as the portable code makes them. -/
example : ∃ s', Returns (sem machineD) prog 3 (callD 5 5) s' ∧ |val (f32at s'.mem 0x2200) - Real.pi / 2| ≤ 0.01021 ∧ s'.fp 28 = 5 ∧
    c64at s'.mem 0x2000 = (.fin false 0, .fin false 1) := by
  obtain ⟨s', h1, h2⟩ := C133_demodulate (e := machineD) (n := 5) (by decide) (callD_call (nin := 5) (nout := 5) (by decide) (by decide)) callD_places (by decide)
  have e1 : u32at (callD 5 5).mem 0x2000 = 0x3F800000 := by decide +kernel
  have e2 : u32at (callD 5 5).mem 0x2004 = 0 := by decide +kernel
  have e3 : u32at (callD 5 5).mem 0x2100 = 0 := by decide +kernel
  have e4 : u32at (callD 5 5).mem 0x2104 = 0x3F800000 := by decide +kernel
  have e5 : u32at (callD 5 5).mem 0x2120 = 0 := by decide +kernel
  have e6 : u32at (callD 5 5).mem 0x2124 = 0x3F800000 := by decide +kernel
  have v0 : val (.fin false 0) = 0 := by rw [val_fin]; norm_num
  have v1 : val (.fin false 1) = 1 := by rw [val_fin]; norm_num
  have ca : ((.fin false 0, .fin false 1) : Val × Val) = c64at (callD 5 5).mem (0x2100 + BitVec.ofNat 32 (8 * 0)) := by
    show _ = (ofBits32 (u32at (callD 5 5).mem 0x2100), ofBits32 (u32at (callD 5 5).mem 0x2104))
    rw [e3, e4, val_zero32, val_one32]
  have cb : ((.fin false 1, .fin false 0) : Val × Val) = c64before (callD 5 5).mem 0x2000 0x2100 0 := by
    show _ = (ofBits32 (u32at (callD 5 5).mem 0x2000), ofBits32 (u32at (callD 5 5).mem 0x2004))
    rw [e1, e2, val_zero32, val_one32]
  have ci : Verif.Demod.cval (.fin false 0, .fin false 1) = Complex.I := by
    unfold Verif.Demod.cval
    simp only [v0, v1]
    rfl
  have c1 : Verif.Demod.cval (.fin false 1, .fin false 0) = 1 := by
    unfold Verif.Demod.cval
    simp only [v0, v1]
    rfl
  have f0 : Finite (.fin false 0) := ⟨_, _, rfl, le_rfl⟩
  have f1 : Finite (.fin false 1) := ⟨_, _, rfl, by norm_num⟩
  have a := (C133_accuracy_partial Math.machineA_ieee (e := machineD) (i := 0) h2 (by decide) ca cb ⟨f0, f1⟩ ⟨f1, f0⟩
    (by rw [ci, c1]; norm_num) (by rw [ci, c1]; norm_num)).2
  rw [ci, c1, map_one, mul_one, Complex.arg_I] at a
  obtain ⟨k, a1, a2⟩ := a
  rw [a2 (by rw [abs_of_pos (by have := Real.pi_pos; linarith)]; have := Real.pi_gt_three; norm_num; linarith)] at a1
  refine ⟨s', h1, ?_, h2.ret, ?_⟩
  · simpa using a1
  · rw [c64_pair, h2.pre]
    show (ofBits32 (u32at (callD 5 5).mem 0x2120), ofBits32 (u32at (callD 5 5).mem 0x2124)) = _
    rw [e5, e6, val_zero32, val_one32]

/-- Seven samples and room for five: five are used, and the result is seven. -/
example : ∃ s', Returns (sem machineD) prog 3 (callD 7 5) s' ∧ 5 < (s'.fp 28).toNat ∧ s'.fp 28 = 7 := by
  have hc := callD_call (nin := 7) (nout := 5) (by decide) (by decide)
  obtain ⟨s', h1, h2⟩ := C133_demodulate (e := machineD) (n := 5) (by decide) hc callD_places (by decide)
  exact ⟨s', h1, (C133_violated hc (by decide) callD_places (by decide) h1).2.1, h2.ret⟩

end Verif.A32.Demod
