import Verif.A64.A64Model
import Verif.Mach.MachLemmas
import Verif.X86.X86Lanes

/-!
# Reasoning about the arm64 machine
-/

namespace Verif.A64
open Verif.Mach
open Verif.X86 (Vec byte d32 w16 of32 of16 bytes32 low)

/-! ### The instruction words of the sources -/

theorem w4e010c60 : decode formats 0x4e010c60 = some (.dupB, [0, 3]) := by decide +kernel
theorem wad400801 : decode formats 0xad400801 = some (.ldpQ, [1, 0, 2, 0]) := by decide +kernel
theorem w6e208421 : decode formats 0x6e208421 = some (.subB, [1, 1, 0]) := by decide +kernel
theorem w6e208442 : decode formats 0x6e208442 = some (.subB, [2, 2, 0]) := by decide +kernel
theorem wf9804001 : decode formats 0xf9804001 = some (.prfm, [1, 0, 16]) := by decide +kernel
theorem w0f08a42a : decode formats 0x0f08a42a = some (.sxtlB, [10, 1]) := by decide +kernel
theorem w4f08a42b : decode formats 0x4f08a42b = some (.sxtl2B, [11, 1]) := by decide +kernel
theorem w0f08a44c : decode formats 0x0f08a44c = some (.sxtlB, [12, 2]) := by decide +kernel
theorem w4f08a44d : decode formats 0x4f08a44d = some (.sxtl2B, [13, 2]) := by decide +kernel
theorem w0f10a554 : decode formats 0x0f10a554 = some (.sxtlH, [20, 10]) := by decide +kernel
theorem w4f10a555 : decode formats 0x4f10a555 = some (.sxtl2H, [21, 10]) := by decide +kernel
theorem w0f10a576 : decode formats 0x0f10a576 = some (.sxtlH, [22, 11]) := by decide +kernel
theorem w4f10a577 : decode formats 0x4f10a577 = some (.sxtl2H, [23, 11]) := by decide +kernel
theorem w0f10a598 : decode formats 0x0f10a598 = some (.sxtlH, [24, 12]) := by decide +kernel
theorem w4f10a599 : decode formats 0x4f10a599 = some (.sxtl2H, [25, 12]) := by decide +kernel
theorem w0f10a5ba : decode formats 0x0f10a5ba = some (.sxtlH, [26, 13]) := by decide +kernel
theorem w4f10a5bb : decode formats 0x4f10a5bb = some (.sxtl2H, [27, 13]) := by decide +kernel
theorem w4e21da89 : decode formats 0x4e21da89 = some (.scvtf4, [9, 20]) := by decide +kernel
theorem w4e21daaa : decode formats 0x4e21daaa = some (.scvtf4, [10, 21]) := by decide +kernel
theorem w4e21dac3 : decode formats 0x4e21dac3 = some (.scvtf4, [3, 22]) := by decide +kernel
theorem w4e21dae4 : decode formats 0x4e21dae4 = some (.scvtf4, [4, 23]) := by decide +kernel
theorem wad002849 : decode formats 0xad002849 = some (.stpQ, [9, 2, 10, 0]) := by decide +kernel
theorem w4e21db05 : decode formats 0x4e21db05 = some (.scvtf4, [5, 24]) := by decide +kernel
theorem w4e21db26 : decode formats 0x4e21db26 = some (.scvtf4, [6, 25]) := by decide +kernel
theorem wad011043 : decode formats 0xad011043 = some (.stpQ, [3, 2, 4, 2]) := by decide +kernel
theorem w4e21db47 : decode formats 0x4e21db47 = some (.scvtf4, [7, 26]) := by decide +kernel
theorem w4e21db68 : decode formats 0x4e21db68 = some (.scvtf4, [8, 27]) := by decide +kernel
theorem wad021845 : decode formats 0xad021845 = some (.stpQ, [5, 2, 6, 4]) := by decide +kernel
theorem wad3f2047 : decode formats 0xad3f2047 = some (.stpQ, [7, 2, 8, 126]) := by decide +kernel
theorem wad411003 : decode formats 0xad411003 = some (.ldpQ, [3, 0, 4, 2]) := by decide +kernel
theorem w4f809021 : decode formats 0x4f809021 = some (.fmulE, [1, 1, 0, 0, 0]) := by decide +kernel
theorem w4f809042 : decode formats 0x4f809042 = some (.fmulE, [2, 2, 0, 0, 0]) := by decide +kernel
theorem w4f809063 : decode formats 0x4f809063 = some (.fmulE, [3, 3, 0, 0, 0]) := by decide +kernel
theorem w4f809084 : decode formats 0x4f809084 = some (.fmulE, [4, 4, 0, 0, 0]) := by decide +kernel
theorem wad000841 : decode formats 0xad000841 = some (.stpQ, [1, 2, 2, 0]) := by decide +kernel
theorem wad401c00 : decode formats 0xad401c00 = some (.ldpQ, [0, 0, 7, 0]) := by decide +kernel
theorem w4e21f400 : decode formats 0x4e21f400 = some (.fmax4, [0, 0, 1]) := by decide +kernel
theorem w4e23f4e7 : decode formats 0x4e23f4e7 = some (.fmax4, [7, 7, 3]) := by decide +kernel
theorem w4e22f400 : decode formats 0x4e22f400 = some (.fmax4, [0, 0, 2]) := by decide +kernel
theorem w4e24f4e7 : decode formats 0x4e24f4e7 = some (.fmax4, [7, 7, 4]) := by decide +kernel
theorem w6e30f81e : decode formats 0x6e30f81e = some (.fmaxv, [30, 0]) := by decide +kernel
theorem w6e30f8ff : decode formats 0x6e30f8ff = some (.fmaxv, [31, 7]) := by decide +kernel
theorem w4ea1f400 : decode formats 0x4ea1f400 = some (.fmin4, [0, 0, 1]) := by decide +kernel
theorem w4ea3f4e7 : decode formats 0x4ea3f4e7 = some (.fmin4, [7, 7, 3]) := by decide +kernel
theorem w4ea2f400 : decode formats 0x4ea2f400 = some (.fmin4, [0, 0, 2]) := by decide +kernel
theorem w4ea4f4e7 : decode formats 0x4ea4f4e7 = some (.fmin4, [7, 7, 4]) := by decide +kernel
theorem w6eb0f81e : decode formats 0x6eb0f81e = some (.fminv, [30, 0]) := by decide +kernel
theorem w6eb0f8ff : decode formats 0x6eb0f8ff = some (.fminv, [31, 7]) := by decide +kernel

/-! ### Offsets and flags -/

theorem off0 : pairOff 0 = BitVec.ofNat 64 0 := by decide +kernel
theorem off2 : pairOff 2 = BitVec.ofNat 64 32 := by decide +kernel
theorem off4 : pairOff 4 = BitVec.ofNat 64 64 := by decide +kernel

theorem taken_lt {a b : Nat} (ha : a < 2 ^ 63) (hb : b < 2 ^ 63) :
    (subFlags (BitVec.ofNat 64 a) (BitVec.ofNat 64 b)).taken .BLT = decide (a < b) := by
  have := X86.sub_lt (BitVec.ofNat 64 a) (BitVec.ofNat 64 b)
  simp only [subFlags, Flags.taken]
  rw [this, X86.toInt_ofNat ha, X86.toInt_ofNat hb]
  simp

theorem taken_ge {a b : Nat} (ha : a < 2 ^ 63) (hb : b < 2 ^ 63) :
    (subFlags (BitVec.ofNat 64 a) (BitVec.ofNat 64 b)).taken .BGE = decide (b ≤ a) := by
  have h := taken_lt ha hb
  simp only [subFlags, Flags.taken] at h ⊢
  rw [← Bool.not_not (_ == _), ← bne, h, ← decide_not]
  congr 1
  exact propext Nat.not_lt

theorem sub_zero_iff {a b : Nat} (ha : a < 2 ^ 63) (hb : b < 2 ^ 63) :
    (BitVec.ofNat 64 a - BitVec.ofNat 64 b == 0) = decide (a = b) := by
  rw [Bool.eq_iff_iff, beq_iff_eq, decide_eq_true_eq]
  constructor
  · intro h
    have h2 : BitVec.ofNat 64 a = BitVec.ofNat 64 b := by
      have := congrArg (· + BitVec.ofNat 64 b) h
      simpa [BitVec.sub_add_cancel] using this
    have := congrArg BitVec.toNat h2
    rwa [X86.toNat_ofNat (by omega), X86.toNat_ofNat (by omega)] at this
  · rintro rfl
    exact BitVec.sub_self _

theorem taken_eq {a b : Nat} (ha : a < 2 ^ 63) (hb : b < 2 ^ 63) :
    (subFlags (BitVec.ofNat 64 a) (BitVec.ofNat 64 b)).taken .BEQ = decide (a = b) := sub_zero_iff ha hb

theorem taken_ne {a b : Nat} (ha : a < 2 ^ 63) (hb : b < 2 ^ 63) :
    (subFlags (BitVec.ofNat 64 a) (BitVec.ofNat 64 b)).taken .BNE = decide (a ≠ b) := by
  rw [decide_not, ← sub_zero_iff ha hb]
  rfl

/-- An offset of -32. -/
theorem off126 (b : BitVec 64) (j : Nat) : b + BitVec.ofNat 64 (j + 32) + pairOff 126 = b + BitVec.ofNat 64 j := by
  have e1 : pairOff 126 = BitVec.ofNat 64 18446744073709551584 := by decide +kernel
  have e2 : BitVec.ofNat 64 (j + 32 + 18446744073709551584) = BitVec.ofNat 64 j := by
    apply BitVec.eq_of_toNat_eq
    rw [BitVec.toNat_ofNat, BitVec.toNat_ofNat, show j + 32 + 18446744073709551584 = j + 2 ^ 64 by omega, Nat.add_mod_right]
  rw [e1, adv, e2]

theorem w16_of16 (f : Nat → BitVec 16) (k : Nat) : w16 (of16 f) k = f k := by
  unfold w16 of16
  rw [show (2 * k + 1) / 2 = k by omega, show (2 * k + 1) % 2 = 1 by omega, show 2 * k / 2 = k by omega, show 2 * k % 2 = 0 by omega]
  apply BitVec.eq_of_getLsbD_eq
  intro i hi
  rw [BitVec.getLsbD_append, X86.getLsb_byte, X86.getLsb_byte]
  by_cases c : i < 8
  · simp [c]
  · simp [c, show i - 8 < 8 by omega, show 8 * 1 + (i - 8) = i by omega]

theorem toInt_sx (b : BitVec 8) : ((b.signExtend 16).signExtend 32).toInt = b.toInt := by
  rw [BitVec.toInt_signExtend_of_le (by omega), BitVec.toInt_signExtend_of_le (by omega)]

/-- Simplify straight-line code. -/
macro "as" "[" ls:Lean.Parser.Tactic.simpLemma,* "]" : tactic =>
  `(tactic| simp only [blk, sem, Env.exec, Env.go, Env.word, St.setX, St.setV, St.src, Function.update_apply, adv0, Option.map_some,
    Option.bind_some, off0, off2, off4, BitVec.ofInt_ofNat, Nat.reduceEqDiff, ↓reduceIte, $ls,*])

end Verif.A64
