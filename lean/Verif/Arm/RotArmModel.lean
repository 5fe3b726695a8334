import Verif.Arm.Arm32Model
import Verif.Rot.RotModel

/-!
# The quarter-turn filters of dsp/util_arm.s with 32-bit addresses

`Verif.Rot.RotModel` has these routines with natural numbers as addresses.  Here R7 and R8 are 32-bit words compared
as signed numbers.  Memory is made of 32-bit words; the word at byte address `a` is number `a / 4` (slices of these
element types are aligned).
-/

namespace Verif.Arm
open Verif.Rot Verif.Asm

/-- R8 and the memory. -/
structure StRot where
  r8 : Addr
  m : Nat → BitVec 32

/-- `r90_loop`, dsp/util_arm.s:13-32, and `i32r90_loop`, 56-75: skip a sample, replace the next six words by `g` of
them. -/
def rotStep32 (g : (Fin 6 → BitVec 32) → Fin 6 → BitVec 32) (s : StRot) : Option StRot :=
  let r8 := Addr.plus s.r8 8
  let m := six g s.m (r8.toNat / 4)
  some ⟨Addr.plus r8 24, m⟩

/-- `rotate90FilterAsm`, dsp/util_arm.s:3-44, `CMP R8, R7` and `BGT` in lines 34-35. -/
def rotate90Arm32 (m : Nat → BitVec 32) (ptr : Addr) (len : Nat) : Option (Nat → BitVec 32) :=
  let r7 := len - len % 4
  if r7 = 0 then some m
  else
    let r7 := Addr.plus ptr (8 * r7)
    (doWhile (rotStep32 turnF) (fun s => s.r8.slt r7) (len + 1) ⟨ptr, m⟩).map StRot.m

/-- `i32Rotate90FilterAsm`, dsp/util_arm.s:46-87. -/
def i32Rotate90Arm32 (m : Nat → BitVec 32) (ptr : Addr) (len : Nat) : Option (Nat → BitVec 32) :=
  let r7 := len - len % 4
  if r7 = 0 then some m
  else
    let r7 := Addr.plus ptr (4 * r7)
    (doWhile (rotStep32 turnI) (fun s => s.r8.slt r7) (len + 1) ⟨ptr, m⟩).map StRot.m

end Verif.Arm
