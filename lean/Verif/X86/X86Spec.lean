import Verif.X86.X86Lemmas

/-!
# What a call of a vector routine needs and leaves behind

Used in the statements about the routines of dsp/conversion_amd64.s and dsp/math32_amd64.s.
-/

namespace Verif.X86

/-- The frame of a call with two slices: `nin` elements at `ib`, `nout` elements at `ob`. -/
structure Args (s : St) (ib ob : BitVec 64) (nin nout : Nat) : Prop where
  hin : nin < 2 ^ 63
  hout : nout < 2 ^ 63
  f1 : s.fp 0 = ib
  f2 : s.fp 8 = BitVec.ofNat 64 nin
  f3 : s.fp 24 = ob
  f4 : s.fp 32 = BitVec.ofNat 64 nout

/-- The machine can read `r` bytes from `ib` and write `w` bytes from `ob`, and they do not overlap. -/
structure Area (e : Env) (ib ob : BitVec 64) (r w : Nat) : Prop where
  rsmall : r < 2 ^ 63
  wsmall : w < 2 ^ 63
  rd : ∀ i < r, e.rd (ib + BitVec.ofNat 64 i) = true
  wr : ∀ i < w, e.wr (ob + BitVec.ofNat 64 i) = true
  apart : ∀ i < r, w ≤ (ib + BitVec.ofNat 64 i - ob).toNat

/-- The memory after a call: `n` elements of `w` bytes from `ob`, byte `j` of element `i` is `f i j`; the other bytes are as before. -/
structure Stored (ob : BitVec 64) (n w : Nat) (f : Nat → Nat → BitVec 8) (s s' : St) : Prop where
  out : ∀ i < n, ∀ j < w, s'.mem (ob + BitVec.ofNat 64 (w * i + j)) = f i j
  rest : ∀ a, w * n ≤ (a - ob).toNat → s'.mem a = s.mem a

/-- The jump to a routine `l` outside of the program. -/
def Tails {L : Type} [DecidableEq L] (e : Env) (p : Prog L) (pc : Nat) (s : St) (l : L) (s' : St) : Prop := ∃ n, run e p n pc s = .tail l s'

/-! ### Lemmas -/

theorem Area.io {e : Env} {ib ob : BitVec 64} {r w : Nat} (h : Area e ib ob r w) : Io e ib ob r w := ⟨h.rsmall, h.wsmall, h.rd, h.wr, h.apart⟩

theorem stored_of {ob : BitVec 64} {n w : Nat} {f : Nat → Nat → BitVec 8} {g : Nat → BitVec 8} {s s' : St} (hw : w * n < 2 ^ 63)
    (h : s'.mem = fill s.mem ob (w * n) g) (hg : ∀ i < n, ∀ j < w, g (w * i + j) = f i j) : Stored ob n w f s s' := by
  refine ⟨?_, ?_⟩
  · intro i hi j hj
    have : w * i + j < w * n := by
      have : w * (i + 1) ≤ w * n := Nat.mul_le_mul_left w hi
      rw [Nat.mul_add, Nat.mul_one] at this
      omega
    rw [h, fill_in this (by omega), hg i hi j hj]
  · intro a ha
    rw [h, fill_out ha]

variable {L : Type} [DecidableEq L]

theorem Reach.tails {e : Env} {p : Prog L} {a b : Nat} {s t u : St} {l : L} (h : Reach e p a s b t) (h' : Tails e p b t l u) :
    Tails e p a s l u := by
  obtain ⟨n, h⟩ := h
  obtain ⟨k, h'⟩ := h'
  exact ⟨n + k, (h k).trans h'⟩

theorem tails_jmp {e : Env} {p : Prog L} {pc : Nat} {s : St} {l : L} (h : p[pc]? = some (.j .JMP l)) (hl : p.line l = none) :
    Tails e p pc s l s := by
  refine ⟨1, ?_⟩
  simp only [run, step, h, Flags.taken, hl]

end Verif.X86
