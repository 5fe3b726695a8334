import Mathlib.Logic.Function.Iterate
import Mathlib.Logic.Function.Basic
import Mathlib.Tactic.Common

/-!
# Building blocks for the amd64 assembly models

* A 128-bit register is its sixteen bytes, `Nat → BitVec 8` (index 0 = lowest; only 0–15 matter).
* A loop of the form `L: body; test; Jcc L` is `doWhile`; the fuel argument bounds the number of
  iterations, and running out of fuel is `none` (the theorems show that it does not happen).
* `none` is also used for a general-protection fault of an aligned store.
-/

namespace Verif.Asm

variable {σ : Type}

/-- Run `body` once, then again as long as `cond` holds. -/
def doWhile (body : σ → Option σ) (cond : σ → Bool) : Nat → σ → Option σ
  | 0, _ => none
  | fuel + 1, s => (body s).bind fun s' => if cond s' then doWhile body cond fuel s' else some s'

/-- A 128-bit register, as bytes. -/
abbrev Xmm := Nat → BitVec 8

/-- The 32-bit lane `k` of a register (little-endian). -/
def dword (x : Xmm) (k : Nat) : BitVec 32 :=
  (x (4 * k)).zeroExtend 32 ||| ((x (4 * k + 1)).zeroExtend 32 <<< 8)
    ||| ((x (4 * k + 2)).zeroExtend 32 <<< 16) ||| ((x (4 * k + 3)).zeroExtend 32 <<< 24)

/-- `PSUBB src, dst`: bytewise difference `dst - src`. -/
def psubb (src dst : Xmm) : Xmm := fun i => dst i - src i

/-- `PUNPCKLBW x, x`: interleave the low eight bytes with themselves. -/
def punpcklbw (x : Xmm) : Xmm := fun i => x (i / 2)

/-- `PUNPCKHBW x, x`: interleave the high eight bytes with themselves. -/
def punpckhbw (x : Xmm) : Xmm := fun i => x (8 + i / 2)

/-- `PUNPCKLWL x, x`: interleave the low four 16-bit words with themselves. -/
def punpcklwl (x : Xmm) : Xmm := fun i => x (2 * (i / 4) + i % 2)

/-- `PUNPCKHWL x, x`: interleave the high four 16-bit words with themselves. -/
def punpckhwl (x : Xmm) : Xmm := fun i => x (8 + 2 * (i / 4) + i % 2)

/-- `MOVHLPS x, x`: copy the high half to the low half. -/
def movhlps (x : Xmm) : Xmm := fun i => if i < 8 then x (8 + i) else x i

/-- `PSHUFL $imm, x, dst`: 32-bit lane `k` of the result is the lane selected by bits `2k, 2k+1`. -/
def pshufl (imm : Nat) (x : Xmm) : Xmm := fun i => x (4 * (imm / 4 ^ (i / 4) % 4) + i % 4)

/-- Lane `k` after `PSRAL $c`: arithmetic shift right of each 32-bit lane. -/
def psral (c : Nat) (x : Xmm) (k : Nat) : BitVec 32 := (dword x k).sshiftRight c

/-- Lane `k` of `PMOVSXBD`: sign extension of byte `k`. -/
def pmovsxbd (x : Xmm) (k : Nat) : BitVec 32 := (x k).signExtend 32

/-- The 16-bit lane `k` of a register. -/
def word (x : Xmm) (k : Nat) : BitVec 16 :=
  (x (2 * k)).zeroExtend 16 ||| ((x (2 * k + 1)).zeroExtend 16 <<< 8)

/-- Lane `k` of `PMOVSXWD`: sign extension of 16-bit lane `k`. -/
def pmovsxwd (x : Xmm) (k : Nat) : BitVec 32 := (word x k).signExtend 32

end Verif.Asm
