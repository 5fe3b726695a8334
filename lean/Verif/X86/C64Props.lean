import Verif.X86.X86Spec
import Verif.X86.ConvModel
import Verif.X86.AvoProps

/-!
# Property C112: the instructions of `Ui8toc64` on amd64

Lines 463–470 of `dsp/conversion_amd64.s` change two lengths in the argument frame and jump to `Ui8tof32`, whose lines are in
`dsp/conversion_avo_amd64.s`.
-/

namespace Verif.X86.Conv
open Verif.X86 Verif.Fp

/-- dsp/conversion_amd64.s:463-469. -/
abbrev b463 : List (Line Lbl Reg Nat) :=
  [.label .Ui8toc64,
    .ins .MOVQ [.fp 8, .r .AX],
    .ins .ANDQ [.i (-2), .r .AX],
    .ins .MOVQ [.r .AX, .fp 8],
    .ins .MOVQ [.fp 32, .r .CX],
    .ins .SHLQ [.i 1, .r .CX],
    .ins .MOVQ [.r .CX, .fp 32]]

theorem h463 : (prog.drop 463).take b463.length = b463 := by decide +kernel

theorem mask2 (n : Nat) : BitVec.ofNat 64 n &&& imm32 (-2) = BitVec.ofNat 64 (n - n % 2) := and_mask 1 (by decide +kernel)

theorem shl1 (n : Nat) : BitVec.ofNat 64 n <<< 1 = BitVec.ofNat 64 (2 * n) := by
  apply BitVec.eq_of_toNat_eq
  rw [BitVec.toNat_shiftLeft, BitVec.toNat_ofNat, BitVec.toNat_ofNat, Nat.shiftLeft_eq]
  omega

/-- The frame at the jump: the input length made even, the output length doubled. -/
def c64frame (f : Nat → BitVec 64) (nin nout : Nat) : Nat → BitVec 64 :=
  Function.update (Function.update f 8 (BitVec.ofNat 64 (nin - nin % 2))) 32 (BitVec.ofNat 64 (2 * nout))

theorem c64_jump {e : Env} {s : St} {ib ob : BitVec 64} {nin nout : Nat} (hc : Args s ib ob nin nout) :
    ∃ s1, Tails e prog 463 s .Ui8tof32 s1 ∧ s1.fp = c64frame s.fp nin nout ∧ s1.mem = s.mem ∧ s1.g.bp = s.g.bp := by
  have b1 : ∃ s1, blk e b463 s = some s1 ∧ s1.fp = c64frame s.fp nin nout ∧ s1.mem = s.mem ∧ s1.g.bp = s.g.bp := by
    have u : ∀ v : BitVec 64, Function.update s.fp 8 v 32 = s.fp 32 := fun v => Function.update_of_ne (by decide) _ _
    xs [hc.f2, mask2, u, hc.f4, Int.reduceToNat, shl1]
    exact ⟨_, rfl, rfl, rfl, rfl⟩
  obtain ⟨s1, g1, h1⟩ := b1
  have r1 : Reach e prog 463 s 470 s1 := reach_blk b463 h463 g1
  exact ⟨s1, r1.tails (tails_jmp (by decide +kernel) (by decide +kernel)), h1⟩

/-- Byte `j` of the complex number `i`, from input bytes `2 i` (real part, `j < 4`) and `2 i + 1` (imaginary part). -/
def c64f (e : Env) (s : St) (ib : BitVec 64) (i j : Nat) : BitVec 8 :=
  byte (e.o.cvt32 (((s.mem (ib + BitVec.ofNat 64 (2 * i + j / 4))).toNat : Int) - 128)) (j % 4)

/-- The call of `Ui8tof32` at the jump. -/
theorem c64_call {s s1 : St} {ib ob : BitVec 64} {nin nout : Nat} (hc : Args s ib ob nin nout) (hout : 2 * nout < 2 ^ 63) (h4 : ob.toNat % 4 = 0)
    (h1 : s1.fp = c64frame s.fp nin nout) : Avo.Call s1 ib ob (nin - nin % 2) (2 * nout) := by
  refine ⟨by have := hc.hin; omega, hout, ?_, ?_, ?_, ?_, h4⟩
  · rw [h1, c64frame, Function.update_of_ne (by decide), Function.update_of_ne (by decide), hc.f1]
  · rw [h1, c64frame, Function.update_of_ne (by decide), Function.update_self]
  · rw [h1, c64frame, Function.update_of_ne (by decide), Function.update_of_ne (by decide), hc.f3]
  · rw [h1, c64frame, Function.update_self]

theorem c64_stored {e : Env} {s s1 s' : St} {ib ob : BitVec 64} {n : Nat} (hm : s1.mem = s.mem) (h : Avo.Converted e ib ob (2 * n) s1 s') :
    Stored ob n 8 (c64f e s ib) s s' := by
  refine ⟨fun i hi j hj => ?_, fun a ha => ?_⟩
  · have h1 := h.out (2 * i + j / 4) (by omega) (j % 4) (by omega)
    rw [show 4 * (2 * i + j / 4) + j % 4 = 8 * i + j by omega, hm] at h1
    exact h1
  · rw [h.rest a (by omega), hm]

/-- **C112 (partial).** From any state with `nin` bytes and `nout` complex numbers as arguments: the routine jumps to `Ui8tof32`, which
returns; complex number `i` of the output is made of bytes `2 i` and `2 i + 1`, a last odd byte is left out, the rest of memory and
the frame pointer have not changed. Missing: the lengths for which `Ui8tof32` overruns, see `C112_violated`. -/
theorem C112_converts_partial {e : Env} {s : St} {ib ob : BitVec 64} {nin nout n : Nat} (hn : n = min (nin / 2) nout) (hc : Args s ib ob nin nout)
    (hout : 2 * nout < 2 ^ 63) (h4 : ob.toNat % 4 = 0) (hr : Area e ib ob (2 * n) (8 * n)) (h : n ≤ 16 ∨ Avo.gap ob ≤ 2 * n % 16) :
    ∃ s1 s', Tails e prog 463 s .Ui8tof32 s1 ∧ Returns e Avo.prog 7 s1 s' ∧ Stored ob n 8 (c64f e s ib) s s' ∧ s'.g.bp = s.g.bp := by
  obtain ⟨s1, t1, f1, m1, p1⟩ := c64_jump (e := e) hc
  have hr' : Avo.Room e ib ob (2 * n) := by
    have e1 : 4 * (2 * n) = 8 * n := by omega
    exact ⟨by rw [e1]; exact hr.wsmall, hr.rd, by rw [e1]; exact hr.wr, by rw [e1]; exact hr.apart⟩
  obtain ⟨s', h1, h2⟩ := Avo.C110_converts_partial (n := 2 * n) (by omega) (c64_call hc hout h4 f1) hr' (by omega)
  exact ⟨s1, s', t1, h1, c64_stored m1 h2, h2.bp.trans p1⟩

/-- **C112, violated.** With an output that does not start at a 16-byte boundary and more than 16 complex numbers, fewer bytes past the
last whole sixteen than float32 before the boundary: float32 behind the output are written. -/
theorem C112_violated {e : Env} {s : St} {ib ob : BitVec 64} {nin nout n : Nat} (hn : n = min (nin / 2) nout) (hc : Args s ib ob nin nout)
    (hout : 2 * nout < 2 ^ 63) (h4 : ob.toNat % 4 = 0) (h16 : 16 < n) (h : 2 * n % 16 < Avo.gap ob)
    (hr : Avo.Room e ib ob (2 * n - 2 * n % 16 + Avo.gap ob)) :
    2 * n < 2 * n - 2 * n % 16 + Avo.gap ob ∧ ∃ s1 s', Tails e prog 463 s .Ui8tof32 s1 ∧ Returns e Avo.prog 7 s1 s' ∧
      ∀ i < 2 * n - 2 * n % 16 + Avo.gap ob, ∀ j < 4, s'.mem (ob + BitVec.ofNat 64 (4 * i + j)) =
        byte (e.o.cvt32 (((s.mem (ib + BitVec.ofNat 64 i)).toNat : Int) - 128)) j := by
  obtain ⟨s1, t1, f1, m1, -⟩ := c64_jump (e := e) hc
  obtain ⟨g, s', h1, h2⟩ := Avo.C110_violated (n := 2 * n) (by omega) (c64_call hc hout h4 f1) (by omega) h hr
  exact ⟨g, s1, s', t1, h1, m1 ▸ h2.out⟩

/-- **C112 with IEEE-754 arithmetic.** Real and imaginary part are exactly the two bytes less 128. -/
theorem C112_value {e : Env} (he : e.o.cvt32 = Avo.ieeeCvt32) {s s' : St} {ib ob : BitVec 64} {n : Nat} (h : Stored ob n 8 (c64f e s ib) s s') {i : Nat}
    (hi : i < n) (re im : BitVec 8) (hre : s.mem (ib + BitVec.ofNat 64 (2 * i)) = re) (him : s.mem (ib + BitVec.ofNat 64 (2 * i + 1)) = im) :
    Avo.f32at s'.mem (ob + BitVec.ofNat 64 (8 * i)) = .fin (decide (re.toNat < 128)) |(re.toNat : ℚ) - 128| ∧
      Avo.f32at s'.mem (ob + BitVec.ofNat 64 (8 * i + 4)) = .fin (decide (im.toNat < 128)) |(im.toNat : ℚ) - 128| := by
  have hconv : Avo.Converted e ib ob (2 * n) s { s' with fp := s.fp, g := { s'.g with bp := s.g.bp } } := by
    refine ⟨fun k hk j hj => ?_, fun a ha => h.rest a (by omega), rfl, rfl⟩
    have h1 := h.out (k / 2) (by omega) (4 * (k % 2) + j) (by omega)
    rw [c64f, show 8 * (k / 2) + (4 * (k % 2) + j) = 4 * k + j by omega, show 2 * (k / 2) + (4 * (k % 2) + j) / 4 = k by omega,
      show (4 * (k % 2) + j) % 4 = j by omega] at h1
    exact h1
  have h1 := Avo.C110_value he hconv (i := 2 * i) (by omega) re hre
  have h2 := Avo.C110_value he hconv (i := 2 * i + 1) (by omega) im him
  rw [show 4 * (2 * i) = 8 * i by omega] at h1
  rw [show 4 * (2 * i + 1) = 8 * i + 4 by omega] at h2
  exact ⟨h1, h2⟩

/-! ### Examples -/

/-- 51 bytes to 30 complex numbers at 0x2008: 25 numbers, two float32 before the boundary and two past the last whole sixteen. -/
example : Args (Avo.call 0x2008 51 30) 0x1000 0x2008 51 30 ∧ Area (Avo.machine true) 0x1000 0x2008 (2 * 25) (8 * 25) ∧
    ∃ s1 s', Tails (Avo.machine true) prog 463 (Avo.call 0x2008 51 30) .Ui8tof32 s1 ∧ Returns (Avo.machine true) Avo.prog 7 s1 s' ∧
      Avo.f32at s'.mem (0x2008 + BitVec.ofNat 64 (8 * 24)) = .fin true 80 := by
  have h1 : Args (Avo.call 0x2008 51 30) 0x1000 0x2008 51 30 := ⟨by decide, by decide, rfl, rfl, rfl, rfl⟩
  have h2 : Area (Avo.machine true) 0x1000 0x2008 (2 * 25) (8 * 25) := ⟨by decide, by decide, fun _ _ => rfl, fun _ _ => rfl, by decide +kernel⟩
  obtain ⟨s1, s', h3, h4, h5, -⟩ := C112_converts_partial (n := 25) (by decide) h1 (by decide) (by decide) h2 (Or.inr (by decide +kernel))
  refine ⟨h1, h2, s1, s', h3, h4, ?_⟩
  rw [(C112_value rfl h5 (i := 24) (by decide) 48 49 (by decide +kernel) (by decide +kernel)).1, show (48 : BitVec 8).toNat = 48 from rfl]
  norm_num

/-- 48 bytes to 24 complex numbers at 0x2008: none past the last whole sixteen, so two float32 behind the output are written. -/
example : ∃ s1 s', Tails (Avo.machine false) prog 463 (Avo.call 0x2008 48 24) .Ui8tof32 s1 ∧ Returns (Avo.machine false) Avo.prog 7 s1 s' ∧
    s'.mem (0x2008 + BitVec.ofNat 64 (4 * 48 + 3)) ≠ (Avo.call 0x2008 48 24).mem (0x2008 + BitVec.ofNat 64 (4 * 48 + 3)) := by
  have h1 : Args (Avo.call 0x2008 48 24) 0x1000 0x2008 48 24 := ⟨by decide, by decide, rfl, rfl, rfl, rfl⟩
  have h2 : Avo.Room (Avo.machine false) 0x1000 0x2008 (2 * 24 - 2 * 24 % 16 + Avo.gap 0x2008) :=
    ⟨by decide +kernel, fun _ _ => rfl, fun _ _ => rfl, by decide +kernel⟩
  obtain ⟨-, s1, s', h3, h4, h5⟩ := C112_violated (n := 24) (by decide) h1 (by decide) (by decide) (by decide) (by decide +kernel) h2
  refine ⟨s1, s', h3, h4, ?_⟩
  rw [h5 48 (by decide +kernel) 3 (by decide)]
  decide +kernel

end Verif.X86.Conv
