import Verif.A32.RotLemmas
import Verif.A32.DemodProps
import Verif.Rot.RotProps

/-!
# Property C134: the instructions of the quarter-turn filters on 32-bit ARM

The lines of dsp/util_arm.s are run one by one. Addresses are compared as signed numbers (C86), so the number of groups that are turned depends on where
the slice lies.
-/

namespace Verif.A32.Util
open Verif.A32 Verif.Mach Verif.Fp

/-- The two words of a complex sample. -/
def pairAt (m : BitVec 32 → BitVec 8) (a : BitVec 32) : BitVec 32 × BitVec 32 := (u32at m a, u32at m (a + BitVec.ofNat 32 4))

/-- A sample times `i^n`, with the given change of sign. -/
def quarter (neg : BitVec 32 → BitVec 32) (n : Nat) (z : BitVec 32 × BitVec 32) : BitVec 32 × BitVec 32 :=
  match n % 4 with
  | 0 => z
  | 1 => (neg z.2, z.1)
  | 2 => (neg z.1, neg z.2)
  | _ => (z.2, neg z.1)

/-- After the call: the first `4 * g` samples from `ib` are turned, the rest of the memory is as before, and the slice is returned. -/
structure Turned (neg : BitVec 32 → BitVec 32) (ib : BitVec 32) (g : Nat) (s s' : St) : Prop where
  out : ∀ n < 4 * g, pairAt s'.mem (ib + BitVec.ofNat 32 (8 * n)) = quarter neg n (pairAt s.mem (ib + BitVec.ofNat 32 (8 * n)))
  rest : ∀ a, 32 * g ≤ (a - ib).toNat → s'.mem a = s.mem a
  ptr : s'.fp 16 = s.fp 4
  len : s'.fp 20 = s.fp 8
  cap : s'.fp 24 = s.fp 12
  frame : ∀ k, k ≠ 16 → k ≠ 20 → k ≠ 24 → s'.fp k = s.fp k

/-! ### Lemmas -/

theorem turned_of {neg : BitVec 32 → BitVec 32} {ib : BitVec 32} {g : Nat} {s s' : St} (hg : 32 * g < 2 ^ 32) (h1 : s'.fp = ret s.fp)
    (h2 : s'.mem = fill s.mem ib (32 * g) (want neg s.mem ib)) : Turned neg ib g s s' := by
  have hw := words_of (ob := ib) (n := 8 * g) (f := turn neg (wordAt s.mem ib)) (g := want neg s.mem ib) (s := s) (s' := s') (by omega)
    (by rw [h2, show 4 * (8 * g) = 32 * g by omega]) (fun i hi j hj => by
      unfold want
      rw [show (4 * i + j) / 4 = i by omega, show (4 * i + j) % 4 = j by omega])
  have w : ∀ j, wordAt s.mem ib j = u32at s.mem (ib + BitVec.ofNat 32 (4 * j)) := fun j => (u32at_d32 ..).symm
  refine ⟨?_, fun a ha => hw.rest a (by omega), ?_, ?_, ?_, ?_⟩
  · intro n hn
    have o1 := hw.out (2 * n) (by omega)
    have o2 := hw.out (2 * n + 1) (by omega)
    unfold pairAt
    rw [adv, show 8 * n = 4 * (2 * n) by omega, show 4 * (2 * n) + 4 = 4 * (2 * n + 1) by omega, o1, o2, ← w, ← w]
    unfold turn quarter
    have : n % 4 = 0 ∨ n % 4 = 1 ∨ n % 4 = 2 ∨ n % 4 = 3 := by omega
    obtain h | h | h | h := this <;> rw [h]
    · rw [if_neg (by omega), if_neg (by omega), if_neg (by omega), if_neg (by omega), if_neg (by omega), if_neg (by omega), if_neg (by omega),
        if_neg (by omega), if_neg (by omega), if_neg (by omega)]
      rfl
    · have e1 : 2 * n % 8 = 2 := by omega
      have e2 : (2 * n + 1) % 8 = 3 := by omega
      rw [e1, e2]
      simp only [Nat.reduceEqDiff, ↓reduceIte, Nat.add_sub_cancel]
    · have e1 : 2 * n % 8 = 4 := by omega
      have e2 : (2 * n + 1) % 8 = 5 := by omega
      rw [e1, e2]
      simp only [Nat.reduceEqDiff, ↓reduceIte, or_true, true_or]
    · have e1 : 2 * n % 8 = 6 := by omega
      have e2 : (2 * n + 1) % 8 = 7 := by omega
      rw [e1, e2]
      simp only [Nat.reduceEqDiff, ↓reduceIte, or_self, Nat.add_sub_cancel]
  · rw [h1]; rfl
  · rw [h1]; rfl
  · rw [h1]; rfl
  · intro k a b c
    rw [h1, ret, Function.update_of_ne c, Function.update_of_ne b, Function.update_of_ne a]

/-! ### complex64 -/

/-- **C134.** Run from any state with the arguments in the frame, for all addresses, lengths and contents, `rotate90FilterAsm` returns with `turns` groups
of four samples turned by changes of the sign bit, and nothing else in memory has changed. -/
theorem C134_rotate90 {e : Env} {s : St} {ib : BitVec 32} {len : Nat} (ha : Call s ib len) (h : Place e ib (8 * (len - len % 4)))
    (hp : ib.toNat + 8 * (len - len % 4) < 2 ^ 32) :
    ∃ s', Returns (sem e) prog 3 s s' ∧ Turned fneg ib (turns ib.toNat (8 * (len - len % 4))) s s' := by
  have hl : 32 * turns ib.toNat (8 * (len - len % 4)) ≤ 8 * (len - len % 4) := by
    unfold turns
    split
    · omega
    · split <;> omega
  obtain ⟨s', h1, h2, h3⟩ := routineF ha ⟨by have := h.small; omega, h.al, fun i hi => h.rd i (by omega), fun i hi => h.wr i (by omega)⟩ (by omega) hp
  exact ⟨s', h1, turned_of (by omega) h2 h3⟩

/-- **C134.** There is no other way for the routine to end. -/
theorem C134_only {e : Env} {s s' : St} {ib : BitVec 32} {len : Nat} (ha : Call s ib len) (h : Place e ib (8 * (len - len % 4)))
    (hp : ib.toNat + 8 * (len - len % 4) < 2 ^ 32) (hr : Returns (sem e) prog 3 s s') :
    Turned fneg ib (turns ib.toNat (8 * (len - len % 4))) s s' := by
  obtain ⟨t, h1, h2⟩ := C134_rotate90 ha h hp
  rwa [hr.unique h1]

theorem turns_all {p L : Nat} (h : p + L < 2 ^ 31 ∨ 2 ^ 31 ≤ p + 32) : turns p L = (L + 31) / 32 := by
  unfold turns
  split
  · omega
  · rw [if_neg (by omega)]

/-- **C134, partial.** All groups are turned unless the slice goes from the lower half of the address space into the upper half after its first group.
Missing: that case, see `C134_violated`. -/
theorem C134_all_partial {e : Env} {s s' : St} {ib : BitVec 32} {len : Nat} (ha : Call s ib len) (h : Place e ib (8 * (len - len % 4)))
    (hp : ib.toNat + 8 * (len - len % 4) < 2 ^ 32) (hh : ib.toNat + 8 * (len - len % 4) < 2 ^ 31 ∨ 2 ^ 31 ≤ ib.toNat + 32)
    (hr : Returns (sem e) prog 3 s s') : Turned fneg ib (len / 4) s s' := by
  have := C134_only ha h hp hr
  rwa [turns_all hh, show (8 * (len - len % 4) + 31) / 32 = len / 4 by omega] at this

/-- **C134, violated.** In that case every sample from the fifth on is left as it was; sample 6, for one, is then wrong whatever it is. -/
theorem C134_violated {e : Env} {s s' : St} {ib : BitVec 32} {len : Nat} (ha : Call s ib len) (h : Place e ib (8 * (len - len % 4)))
    (hp : ib.toNat + 8 * (len - len % 4) < 2 ^ 32) (h1 : ib.toNat + 32 < 2 ^ 31) (h2 : 2 ^ 31 ≤ ib.toNat + 8 * (len - len % 4))
    (hr : Returns (sem e) prog 3 s s') : (∀ a, 32 ≤ (a - ib).toNat → s'.mem a = s.mem a) ∧ 6 < len ∧
      pairAt s'.mem (ib + BitVec.ofNat 32 48) ≠ quarter fneg 6 (pairAt s.mem (ib + BitVec.ofNat 32 48)) := by
  have ht := C134_only ha h hp hr
  rw [turns, if_neg (by omega), if_pos ⟨h1, h2⟩] at ht
  have hu : ∀ k, 32 ≤ k → k < 2 ^ 32 → s'.mem (ib + BitVec.ofNat 32 k) = s.mem (ib + BitVec.ofNat 32 k) := by
    intro k hk hk2
    refine ht.rest _ ?_
    rw [BitVec.add_comm, BitVec.add_sub_cancel, toNat32 hk2]
    omega
  refine ⟨fun a ha => ht.rest a (by omega), by omega, ?_⟩
  have e1 : u32at s'.mem (ib + BitVec.ofNat 32 48) = u32at s.mem (ib + BitVec.ofNat 32 48) := by
    unfold u32at
    simp only [adv, Nat.reduceAdd]
    rw [hu 48 (by decide) (by decide), hu 49 (by decide) (by decide), hu 50 (by decide) (by decide), hu 51 (by decide) (by decide)]
  intro hc
  have hc := congrArg Prod.fst hc
  have hc : u32at s'.mem (ib + BitVec.ofNat 32 48) = fneg (u32at s.mem (ib + BitVec.ofNat 32 48)) := hc
  rw [e1] at hc
  have := congrArg (fun v : BitVec 32 => v.getLsbD 31) hc
  simp [fneg] at this

open Verif.Demod (cval) in
open A32.Demod (c64at) in
/-- **C134, as numbers.** The samples that are turned are multiplied by `i^n`. -/
theorem C134_times {ib : BitVec 32} {g : Nat} {s s' : St} (h : Turned fneg ib g s s') {n : Nat} (hn : n < 4 * g) :
    cval (c64at s'.mem (ib + BitVec.ofNat 32 (8 * n))) = cval (c64at s.mem (ib + BitVec.ofNat 32 (8 * n))) * Complex.I ^ n := by
  have hv : ∀ w, val (ofBits32 (fneg w)) = - val (ofBits32 w) := by
    intro w
    rw [Math.ofBits32_fneg]
    cases ofBits32 w with
    | nan => simp [Fp.neg, val, Val.toRat]
    | inf _ => simp [Fp.neg, val, Val.toRat]
    | fin t q => cases t <;> simp [Fp.neg, val, Val.toRat]
  have e := h.out n hn
  have e1 : ∀ m, c64at m (ib + BitVec.ofNat 32 (8 * n)) = (ofBits32 (pairAt m (ib + BitVec.ofNat 32 (8 * n))).1, ofBits32 (pairAt m (ib + BitVec.ofNat 32 (8 * n))).2) :=
    fun _ => rfl
  rw [e1, e1, e]
  generalize pairAt s.mem (ib + BitVec.ofNat 32 (8 * n)) = z
  have key := Rot.rot_mul n (val (ofBits32 z.1)) (val (ofBits32 z.2))
  show (⟨_, _⟩ : ℂ) = ⟨_, _⟩ * _
  rw [← key]
  unfold quarter Rot.rot
  have : n % 4 = 0 ∨ n % 4 = 1 ∨ n % 4 = 2 ∨ n % 4 = 3 := by omega
  obtain h | h | h | h := this <;> rw [h] <;> simp only [hv]

/-- Change of sign of a float32. -/
@[instance_reducible] def negVal : Neg Val := ⟨Fp.neg⟩

open A32.Demod (c64at) in
/-- **C134 and the portable code, partial.** For lengths that are multiples of four the samples afterwards are those of `rotate90Filter` (C51). Missing:
slices across address 2^31 (`C134_violated`); for other lengths the portable code panics and the assembly does not (`C134_violated_length`). -/
theorem C134_portable_partial {e : Env} {s s' : St} {ib : BitVec 32} {len : Nat} (ha : Call s ib len) (h : Place e ib (8 * len)) (h4 : len % 4 = 0)
    (hp : ib.toNat + 8 * len < 2 ^ 32) (hh : ib.toNat + 8 * len < 2 ^ 31 ∨ 2 ^ 31 ≤ ib.toNat + 32) (hr : Returns (sem e) prog 3 s s') :
    ∃ m', @Rot.rotate90 Val negVal (fun i => c64at s.mem (ib + BitVec.ofNat 32 (8 * i))) ⟨0, len⟩ = some m' ∧
      ∀ n < len, c64at s'.mem (ib + BitVec.ofNat 32 (8 * n)) = m' n := by
  have el : len - len % 4 = len := by omega
  have ht := C134_all_partial ha (by rwa [el]) (by rwa [el]) (by rwa [el]) hr
  obtain ⟨m', g1, g2, -⟩ := @Rot.C51_value Val negVal (fun i => c64at s.mem (ib + BitVec.ofNat 32 (8 * i))) ⟨0, len⟩ h4
  refine ⟨m', g1, fun n hn => ?_⟩
  have g2 := g2 n hn
  have o := ht.out n (by omega)
  simp only [Nat.zero_add] at g2
  rw [g2]
  have e1 : ∀ m, c64at m (ib + BitVec.ofNat 32 (8 * n)) = (ofBits32 (pairAt m (ib + BitVec.ofNat 32 (8 * n))).1, ofBits32 (pairAt m (ib + BitVec.ofNat 32 (8 * n))).2) :=
    fun _ => rfl
  rw [e1, e1, o]
  generalize pairAt s.mem (ib + BitVec.ofNat 32 (8 * n)) = z
  unfold quarter Rot.rot
  have : n % 4 = 0 ∨ n % 4 = 1 ∨ n % 4 = 2 ∨ n % 4 = 3 := by omega
  obtain h | h | h | h := this <;> rw [h] <;> simp only [Math.ofBits32_fneg] <;> rfl

/-- **C134, violated for lengths that are not multiples of four.** The portable code panics, the assembly returns. -/
theorem C134_violated_length {e : Env} {s : St} {ib : BitVec 32} {len : Nat} (ha : Call s ib len) (h : Place e ib (8 * (len - len % 4)))
    (hp : ib.toNat + 8 * (len - len % 4) < 2 ^ 32) (h4 : len % 4 ≠ 0) (m : Nat → Val × Val) :
    @Rot.rotate90 Val negVal m ⟨0, len⟩ = none ∧ ∃ s', Returns (sem e) prog 3 s s' := by
  obtain ⟨s', h1, -⟩ := C134_rotate90 ha h hp
  exact ⟨@Rot.C51_panics Val negVal m ⟨0, len⟩ h4, s', h1⟩

/-! ### int32 -/

/-- **C134.** `i32Rotate90FilterAsm` on interleaved samples, if the end of its last group and the end of the slice are in the same half of the address
space: it returns with `turns` groups turned, where the change of sign is a bitwise complement, and nothing else in memory has changed. -/
theorem C134_i32 {e : Env} {s : St} {ib : BitVec 32} {len : Nat} (ha : Call s ib len) (h : Place e ib (32 * turns ib.toNat (4 * (len - len % 4))))
    (hp : ib.toNat + 4 * len + 16 < 2 ^ 32)
    (hs : len % 8 < 4 ∨ ib.toNat + 4 * (len - len % 4) + 16 < 2 ^ 31 ∨ 2 ^ 31 ≤ ib.toNat + 4 * (len - len % 4)) :
    ∃ s', Returns (sem e) prog 46 s s' ∧ Turned (fun x => ~~~x) ib (turns ib.toNat (4 * (len - len % 4))) s s' := by
  have hl : 32 * turns ib.toNat (4 * (len - len % 4)) ≤ 4 * len + 16 := by
    unfold turns
    split
    · omega
    · split <;> omega
  obtain ⟨s', h1, h2, h3⟩ := routineI ha h (by omega) (by omega) (by omega)
  exact ⟨s', h1, turned_of (by omega) h2 h3⟩

theorem i32_only {e : Env} {s s' : St} {ib : BitVec 32} {len : Nat} (ha : Call s ib len) (h : Place e ib (32 * turns ib.toNat (4 * (len - len % 4))))
    (hp : ib.toNat + 4 * len + 16 < 2 ^ 32)
    (hs : len % 8 < 4 ∨ ib.toNat + 4 * (len - len % 4) + 16 < 2 ^ 31 ∨ 2 ^ 31 ≤ ib.toNat + 4 * (len - len % 4)) (hr : Returns (sem e) prog 46 s s') :
    Turned (fun x => ~~~x) ib (turns ib.toNat (4 * (len - len % 4))) s s' := by
  obtain ⟨t, h1, h2⟩ := C134_i32 ha h hp hs
  rwa [hr.unique h1]

/-- Words `2n` and `2n + 1` of turned memory. -/
theorem turned_words {neg : BitVec 32 → BitVec 32} {ib : BitVec 32} {g : Nat} {s s' : St} (h : Turned neg ib g s s') {k : Nat} (hk : k < 8 * g) :
    u32at s'.mem (ib + BitVec.ofNat 32 (4 * k)) =
      if k % 2 = 0 then (quarter neg (k / 2) (u32at s.mem (ib + BitVec.ofNat 32 (4 * (2 * (k / 2)))), u32at s.mem (ib + BitVec.ofNat 32 (4 * (2 * (k / 2) + 1))))).1
      else (quarter neg (k / 2) (u32at s.mem (ib + BitVec.ofNat 32 (4 * (2 * (k / 2)))), u32at s.mem (ib + BitVec.ofNat 32 (4 * (2 * (k / 2) + 1))))).2 := by
  have e := h.out (k / 2) (by omega)
  unfold pairAt at e
  rw [adv, show 8 * (k / 2) = 4 * (2 * (k / 2)) by omega, show 4 * (2 * (k / 2)) + 4 = 4 * (2 * (k / 2) + 1) by omega] at e
  split
  · rw [← e, show 2 * (k / 2) = k by omega]
  · rw [← e, show 2 * (k / 2) + 1 = k by omega]

/-- **C134 and the portable code, `int32`, partial.** For lengths that are multiples of eight every word afterwards is that of `i32Rotate90Filter` (C51),
less one exactly where that negates. Missing: equality, which does not hold (`C134_violated_i32`). -/
theorem C134_i32_partial {e : Env} {s s' : St} {ib : BitVec 32} {len : Nat} (ha : Call s ib len) (h : Place e ib (4 * len)) (h8 : len % 8 = 0)
    (hp : ib.toNat + 4 * len + 16 < 2 ^ 32) (hh : ib.toNat + 4 * len < 2 ^ 31 ∨ 2 ^ 31 ≤ ib.toNat + 32) (hr : Returns (sem e) prog 46 s s') :
    ∃ m', Rot.i32Rotate90 (fun i => u32at s.mem (ib + BitVec.ofNat 32 (4 * i))) ⟨0, len⟩ = some m' ∧ ∀ k < len,
      u32at s'.mem (ib + BitVec.ofNat 32 (4 * k)) = m' k - (if k % 8 = 2 ∨ k % 8 = 4 ∨ k % 8 = 5 ∨ k % 8 = 7 then 1 else 0) := by
  have el : len - len % 4 = len := by omega
  have et : turns ib.toNat (4 * (len - len % 4)) = len / 8 := by
    rw [el, turns_all hh]
    omega
  have ht := i32_only ha (by rw [et, show 32 * (len / 8) = 4 * len by omega]; exact h) hp (by omega) hr
  rw [et] at ht
  refine ⟨_, Rot.i32Rotate90_eq _ ⟨0, len⟩ h8, fun k hk => ?_⟩
  have e2 := Rot.turnedI_lt (fun i => u32at s.mem (ib + BitVec.ofNat 32 (4 * i))) (base := 0) hk
  rw [Nat.zero_add] at e2
  rw [e2, turned_words ht (by omega)]
  unfold Rot.pairAt
  simp only [Nat.zero_add]
  generalize u32at s.mem (ib + BitVec.ofNat 32 (4 * (2 * (k / 2)))) = x
  generalize u32at s.mem (ib + BitVec.ofNat 32 (4 * (2 * (k / 2) + 1))) = y
  have nn : ∀ z : BitVec 32, ~~~z = -z - 1 := by
    intro z
    rw [BitVec.neg_eq_not_add]
    exact (BitVec.add_sub_cancel ..).symm
  have zz : ∀ z : BitVec 32, z = z - 0 := fun z => (BitVec.sub_zero z).symm
  unfold quarter Rot.rot
  have : k % 8 = 0 ∨ k % 8 = 1 ∨ k % 8 = 2 ∨ k % 8 = 3 ∨ k % 8 = 4 ∨ k % 8 = 5 ∨ k % 8 = 6 ∨ k % 8 = 7 := by omega
  obtain h | h | h | h | h | h | h | h := this
  · rw [h, show k / 2 % 4 = 0 by omega, if_pos (by omega), if_pos (by omega), if_neg (by decide)]; exact zz _
  · rw [h, show k / 2 % 4 = 0 by omega, if_neg (by omega), if_neg (by omega), if_neg (by decide)]; exact zz _
  · rw [h, show k / 2 % 4 = 1 by omega, if_pos (by omega), if_pos (by omega), if_pos (by decide)]; exact nn _
  · rw [h, show k / 2 % 4 = 1 by omega, if_neg (by omega), if_neg (by omega), if_neg (by decide)]; exact zz _
  · rw [h, show k / 2 % 4 = 2 by omega, if_pos (by omega), if_pos (by omega), if_pos (by decide)]; exact nn _
  · rw [h, show k / 2 % 4 = 2 by omega, if_neg (by omega), if_neg (by omega), if_pos (by decide)]; exact nn _
  · rw [h, show k / 2 % 4 = 3 by omega, if_pos (by omega), if_pos (by omega), if_neg (by decide)]; exact zz _
  · rw [h, show k / 2 % 4 = 3 by omega, if_neg (by omega), if_neg (by omega), if_pos (by decide)]; exact nn _

/-- **C134, violated for `int32`.** On every slice the portable code accepts, wherever it lies and whatever it holds, the third word is not that of the
portable code. -/
theorem C134_violated_i32 {e : Env} {s s' : St} {ib : BitVec 32} {len : Nat} (ha : Call s ib len) (h : Place e ib (4 * len)) (h8 : len % 8 = 0)
    (h0 : 0 < len) (hp : ib.toNat + 4 * len + 16 < 2 ^ 32) (hr : Returns (sem e) prog 46 s s') :
    ∃ m', Rot.i32Rotate90 (fun i => u32at s.mem (ib + BitVec.ofNat 32 (4 * i))) ⟨0, len⟩ = some m' ∧ u32at s'.mem (ib + BitVec.ofNat 32 8) ≠ m' 2 := by
  have hl : 32 * turns ib.toNat (4 * (len - len % 4)) ≤ 4 * len ∧ 0 < turns ib.toNat (4 * (len - len % 4)) := by
    unfold turns
    split
    · omega
    · split <;> omega
  have ht := i32_only ha ⟨by omega, h.al, fun i hi => h.rd i (by omega), fun i hi => h.wr i (by omega)⟩ hp (by omega) hr
  refine ⟨_, Rot.i32Rotate90_eq _ ⟨0, len⟩ h8, ?_⟩
  obtain ⟨-, -, g2, -⟩ := Rot.group (fun i => u32at s.mem (ib + BitVec.ofNat 32 (4 * i))) 0 0 len (by omega)
  have e2 := turned_words ht (k := 2) (by omega)
  intro hc
  have e2 : u32at s'.mem (ib + BitVec.ofNat 32 8) = ~~~(u32at s.mem (ib + BitVec.ofNat 32 12)) := e2
  rw [e2] at hc
  exact Rot.not_ne_neg _ (hc.trans g2)

/-- **C134, violated outside the slice.** For a length four more than a multiple of eight `i32Rotate90FilterAsm` changes the word just after the slice. -/
theorem C134_violated_outside {e : Env} {s s' : St} {ib : BitVec 32} {len : Nat} (ha : Call s ib len) (h : Place e ib (4 * len + 16)) (h8 : len % 8 = 4)
    (hp : ib.toNat + 4 * len + 16 < 2 ^ 32) (hh : ib.toNat + 4 * len + 16 < 2 ^ 31 ∨ 2 ^ 31 ≤ ib.toNat + 32 ∧ 2 ^ 31 ≤ ib.toNat + 4 * len)
    (hr : Returns (sem e) prog 46 s s') :
    u32at s'.mem (ib + BitVec.ofNat 32 (4 * len)) = ~~~(u32at s.mem (ib + BitVec.ofNat 32 (4 * len))) := by
  have el : len - len % 4 = len := by omega
  have et : turns ib.toNat (4 * (len - len % 4)) = len / 8 + 1 := by
    rw [el, turns_all (by omega)]
    omega
  have ht := i32_only ha (by rw [et, show 32 * (len / 8 + 1) = 4 * len + 16 by omega]; exact h) hp (by omega) hr
  rw [et] at ht
  have e2 := turned_words ht (k := len) (by omega)
  rw [e2, if_pos (by omega), show 2 * (len / 2) = len by omega]
  unfold quarter
  rw [show len / 2 % 4 = 2 by omega]
  rfl

/-! ### Examples -/

/-- A machine: 0x7fff0000–0x8000ffff can be read and written. -/
def machineT : Env := { Math.machineA with rd := fun a => decide (0x7fff0000 ≤ a.toNat ∧ a.toNat < 0x80010000), wr := fun a => decide (0x7fff0000 ≤ a.toNat ∧ a.toNat < 0x80010000) }

/-- A call with a slice of `len` elements at `ib`; every word of memory is its address over four. -/
def callT (ib : BitVec 32) (len : Nat) : St where
  r := fun _ => 7
  v := fun i => BitVec.ofNat 32 i
  fl := ⟨false, false, false, false⟩
  fpscr := 0
  mem := fun a => X86.byte (a >>> 2) (a.toNat % 4)
  fp := fun i => if i = 4 then ib else if i = 8 then BitVec.ofNat 32 len else if i = 12 then 100 else 99

theorem callT_call (ib : BitVec 32) {len : Nat} (h : len < 2 ^ 31) : Call (callT ib len) ib len := ⟨h, rfl, rfl⟩

/-- Nine samples in the upper half: sample 5 is turned by a quarter, sample 8 is not touched, the slice is returned. -/
example : ∃ s', Returns (sem machineT) prog 3 (callT 0x80000000 9) s' ∧ pairAt s'.mem 0x80000028 = (0xa000000b, 0x2000000a) ∧
    pairAt s'.mem 0x80000040 = (0x20000010, 0x20000011) ∧ s'.fp 16 = 0x80000000 ∧ s'.fp 20 = 9 ∧ s'.fp 24 = 100 := by
  have hp : Place machineT 0x80000000 (8 * (9 - 9 % 4)) := ⟨by decide, by decide, by decide +kernel, by decide +kernel⟩
  obtain ⟨s', h1, -⟩ := C134_rotate90 (callT_call 0x80000000 (len := 9) (by decide)) hp (by decide)
  have h2 := C134_all_partial (callT_call 0x80000000 (len := 9) (by decide)) hp (by decide) (by decide) h1
  refine ⟨s', h1, ?_, ?_, h2.ptr, h2.len, h2.cap⟩
  · rw [show (0x80000028 : BitVec 32) = 0x80000000 + BitVec.ofNat 32 (8 * 5) by decide, h2.out 5 (by decide)]
    decide +kernel
  · have : ∀ k, k < 8 → s'.mem (0x80000040 + BitVec.ofNat 32 k) = (callT 0x80000000 9).mem (0x80000040 + BitVec.ofNat 32 k) := by
      intro k hk
      refine h2.rest _ ?_
      revert k
      decide +kernel
    unfold pairAt u32at
    simp only [adv, Nat.reduceAdd]
    rw [this 1 (by decide), this 2 (by decide), this 3 (by decide), this 4 (by decide), this 5 (by decide), this 6 (by decide), this 7 (by decide),
      show s'.mem 0x80000040 = _ from this 0 (by decide)]
    decide +kernel

/-- Sixteen samples across address 2^31: only the first four are turned. -/
example : ∃ s', Returns (sem machineT) prog 3 (callT 0x7fffffc0 16) s' ∧
    pairAt s'.mem 0x7ffffff0 ≠ quarter fneg 6 (pairAt (callT 0x7fffffc0 16).mem 0x7ffffff0) := by
  have hp : Place machineT 0x7fffffc0 (8 * (16 - 16 % 4)) := ⟨by decide, by decide, by decide +kernel, by decide +kernel⟩
  obtain ⟨s', h1, -⟩ := C134_rotate90 (callT_call 0x7fffffc0 (len := 16) (by decide)) hp (by decide)
  exact ⟨s', h1, (C134_violated (callT_call 0x7fffffc0 (len := 16) (by decide)) hp (by decide) (by decide) (by decide) h1).2.2⟩

/-- Eight samples as numbers, and as the portable code turns them. -/
example : ∃ s', Returns (sem machineT) prog 3 (callT 0x80000000 8) s' ∧
    Verif.Demod.cval (A32.Demod.c64at s'.mem 0x80000018) = Verif.Demod.cval (A32.Demod.c64at (callT 0x80000000 8).mem 0x80000018) * Complex.I ^ 3 ∧
    ∃ m', @Rot.rotate90 Val negVal (fun i => A32.Demod.c64at (callT 0x80000000 8).mem (0x80000000 + BitVec.ofNat 32 (8 * i))) ⟨0, 8⟩ = some m' := by
  have hp : Place machineT 0x80000000 (8 * 8) := ⟨by decide, by decide, by decide +kernel, by decide +kernel⟩
  obtain ⟨s', h1, -⟩ := C134_rotate90 (callT_call 0x80000000 (len := 8) (by decide)) hp (by decide)
  obtain ⟨m', h3, -⟩ := C134_portable_partial (callT_call 0x80000000 (len := 8) (by decide)) hp (by decide) (by decide) (by decide) h1
  exact ⟨s', h1, C134_times (C134_all_partial (callT_call 0x80000000 (len := 8) (by decide)) hp (by decide) (by decide) h1) (n := 3) (by decide), m', h3⟩

example (m : Nat → Val × Val) : @Rot.rotate90 Val negVal m ⟨0, 9⟩ = none ∧ ∃ s', Returns (sem machineT) prog 3 (callT 0x80000000 9) s' :=
  C134_violated_length (callT_call 0x80000000 (len := 9) (by decide)) ⟨by decide, by decide, by decide +kernel, by decide +kernel⟩ (by decide) (by decide) m

/-- Twelve integers: the thirteenth word of memory, after the slice, is complemented. -/
example : ∃ s', Returns (sem machineT) prog 46 (callT 0x80000000 12) s' ∧ u32at s'.mem 0x80000030 = 0xdffffff3 := by
  have hp : Place machineT 0x80000000 (4 * 12 + 16) := ⟨by decide, by decide, by decide +kernel, by decide +kernel⟩
  obtain ⟨s', h1, -⟩ := C134_i32 (callT_call 0x80000000 (len := 12) (by decide)) (e := machineT)
    (show Place machineT 0x80000000 64 from hp) (by decide) (by decide)
  refine ⟨s', h1, ?_⟩
  have := C134_violated_outside (callT_call 0x80000000 (len := 12) (by decide)) hp (by decide) (by decide) (by decide) h1
  rw [show (0x80000030 : BitVec 32) = 0x80000000 + BitVec.ofNat 32 (4 * 12) by decide, this]
  decide +kernel

/-- Eight integers: word 3 is the portable one, word 2 is one less. -/
example : ∃ s', Returns (sem machineT) prog 46 (callT 0x80000000 8) s' ∧ u32at s'.mem 0x8000000c = 0x20000002 ∧ u32at s'.mem 0x80000008 = 0xdffffffc ∧
    ∃ m', Rot.i32Rotate90 (fun i => u32at (callT 0x80000000 8).mem (0x80000000 + BitVec.ofNat 32 (4 * i))) ⟨0, 8⟩ = some m' ∧ u32at s'.mem 0x80000008 ≠ m' 2 := by
  have hp : Place machineT 0x80000000 (4 * 8) := ⟨by decide, by decide, by decide +kernel, by decide +kernel⟩
  obtain ⟨s', h1, h2⟩ := C134_i32 (callT_call 0x80000000 (len := 8) (by decide)) (e := machineT)
    (show Place machineT 0x80000000 32 from hp) (by decide) (by decide)
  have h3 := C134_i32_partial (callT_call 0x80000000 (len := 8) (by decide)) hp (by decide) (by decide) (by decide) h1
  have e := h2.out 1 (by decide)
  rw [show quarter (fun x => ~~~x) 1 (pairAt (callT 0x80000000 8).mem (0x80000000 + BitVec.ofNat 32 (8 * 1))) = (0xdffffffc, 0x20000002) by decide +kernel] at e
  refine ⟨s', h1, congrArg Prod.snd e, congrArg Prod.fst e, ?_⟩
  exact C134_violated_i32 (callT_call 0x80000000 (len := 8) (by decide)) hp (by decide) (by decide) (by decide) h1

end Verif.A32.Util
