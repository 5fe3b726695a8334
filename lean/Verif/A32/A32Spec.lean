import Verif.A32.A32Lemmas
import Verif.Fp.Bits

/-!
# What a call of a routine on 32-bit ARM needs and leaves behind
-/

namespace Verif.A32
open Verif.Mach

/-- The frame of a call with two slices: `nin` elements at `ib`, `nout` elements at `ob`. -/
structure Args (s : St) (ib ob : BitVec 32) (nin nout : Nat) : Prop where
  hin : nin < 2 ^ 31
  hout : nout < 2 ^ 31
  f1 : s.fp 0 = ib
  f2 : s.fp 4 = BitVec.ofNat 32 nin
  f3 : s.fp 12 = ob
  f4 : s.fp 16 = BitVec.ofNat 32 nout

/-- The machine can read `r` bytes from `ib` and write `w` bytes from `ob`; they do not overlap, and the bytes read end before the last address. -/
structure Area (e : Env) (ib ob : BitVec 32) (r w : Nat) : Prop where
  rend : ib.toNat + r < 2 ^ 32
  wsmall : w < 2 ^ 32
  rd : ∀ i < r, e.rd (ib + BitVec.ofNat 32 i) = true
  wr : ∀ i < w, e.wr (ob + BitVec.ofNat 32 i) = true
  apart : ∀ i < r, w ≤ (ib + BitVec.ofNat 32 i - ob).toNat

/-- The memory after a call: `n` elements of `w` bytes from `ob`, byte `j` of element `i` is `f i j`; the other bytes are as before. -/
structure Stored (ob : BitVec 32) (n w : Nat) (f : Nat → Nat → BitVec 8) (s s' : St) : Prop where
  out : ∀ i < n, ∀ j < w, s'.mem (ob + BitVec.ofNat 32 (w * i + j)) = f i j
  rest : ∀ a, w * n ≤ (a - ob).toNat → s'.mem a = s.mem a

/-- The 32-bit word at an address. -/
def u32at (m : BitVec 32 → BitVec 8) (a : BitVec 32) : BitVec 32 :=
  m (a + BitVec.ofNat 32 3) ++ m (a + BitVec.ofNat 32 2) ++ m (a + BitVec.ofNat 32 1) ++ m a

/-- The float32 at an address. -/
def f32at (m : BitVec 32 → BitVec 8) (a : BitVec 32) : Fp.Val := Fp.ofBits32 (u32at m a)

/-- The memory after a call: `n` words from `ob`, word `i` is `f i`; the other bytes are as before. -/
structure Words (ob : BitVec 32) (n : Nat) (f : Nat → BitVec 32) (s s' : St) : Prop where
  out : ∀ i < n, u32at s'.mem (ob + BitVec.ofNat 32 (4 * i)) = f i
  rest : ∀ a, 4 * n ≤ (a - ob).toNat → s'.mem a = s.mem a

/-! ### Lemmas -/

theorem u32at_d32 (m : BitVec 32 → BitVec 8) (a : BitVec 32) (k : Nat) :
    u32at m (a + BitVec.ofNat 32 (4 * k)) = X86.d32 (fun i => m (a + BitVec.ofNat 32 i)) k := by
  unfold u32at X86.d32
  rw [adv, adv, adv]

theorem words_of {ob : BitVec 32} {n : Nat} {f : Nat → BitVec 32} {g : Nat → BitVec 8} {s s' : St} (hw : 4 * n ≤ 2 ^ 32)
    (h : s'.mem = fill s.mem ob (4 * n) g) (hg : ∀ i < n, ∀ j < 4, g (4 * i + j) = X86.byte (f i) j) : Words ob n f s s' := by
  refine ⟨?_, ?_⟩
  · intro i hi
    rw [u32at_d32, h]
    refine X86.d32_of_bytes _ _ _ ?_
    intro j hj
    rw [fill_in (by omega) hw, hg i hi j hj]
  · intro a ha
    rw [h, fill_out ha]

theorem Words.congr {ob : BitVec 32} {n : Nat} {f g : Nat → BitVec 32} {s s1 s' : St} (h : Words ob n f s1 s') (hm : s1.mem = s.mem)
    (hf : ∀ i < n, f i = g i) : Words ob n g s s' :=
  ⟨fun i hi => by rw [h.out i hi, hf i hi], fun a ha => by rw [h.rest a ha, hm]⟩

theorem Area.io {e : Env} {ib ob : BitVec 32} {r w : Nat} (h : Area e ib ob r w) : Io e.rd e.wr ib ob r w (fun _ => w) :=
  ⟨by have := h.rend; omega, h.wsmall, h.rd, h.wr, h.apart⟩

theorem stored_of {ob : BitVec 32} {n w : Nat} {f : Nat → Nat → BitVec 8} {g : Nat → BitVec 8} {s s' : St} (hw : w * n ≤ 2 ^ 32)
    (h : s'.mem = fill s.mem ob (w * n) g) (hg : ∀ i < n, ∀ j < w, g (w * i + j) = f i j) : Stored ob n w f s s' := by
  refine ⟨?_, ?_⟩
  · intro i hi j hj
    have : w * i + j < w * n := by
      have : w * (i + 1) ≤ w * n := Nat.mul_le_mul_left w hi
      rw [Nat.mul_add, Nat.mul_one] at this
      omega
    rw [h, fill_in this (by omega), hg i hi j hj]
  · intro a ha
    rw [h, fill_out ha]

end Verif.A32
