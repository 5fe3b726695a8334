import Verif.Conv.SliceModel

/-!
# Model of the quarter-turn filters of dsp/util.go and dsp/util_arm.s

A complex sample is a pair of real and imaginary part; of the arithmetic only negation is used.  On
amd64, 386 and arm64 the assembly entry points jump to the portable code (dsp/util_amd64.s,
dsp/util_386.s, dsp/util_arm64.s).
-/

namespace Verif.Rot
open Verif.Conv

variable {F : Type} [Neg F]

/-- Body of the loop of `rotate90Filter`, dsp/util.go:30-32, with `i = 4 j`. -/
def rotBody (samples : Slice) (j : Nat) (m : Nat → F × F) : Option (Nat → F × F) := do
  let i := 4 * j
  let a ← samples.read m (i + 1)
  let b ← samples.read m (i + 1)
  let m ← samples.write m (i + 1) (-a.2, b.1)
  let a ← samples.read m (i + 2)
  let m ← samples.write m (i + 2) (-a.1, -a.2)
  let a ← samples.read m (i + 3)
  let b ← samples.read m (i + 3)
  samples.write m (i + 3) (a.2, -b.1)

/-- `rotate90Filter`, dsp/util.go:28-35.  The loop `for i := 0; i < len(samples); i += 4` makes
`(len + 3) / 4` turns.  The slice returned is the argument. -/
def rotate90 (m : Nat → F × F) (samples : Slice) : Option (Nat → F × F) :=
  forRange ((samples.len + 3) / 4) m (rotBody samples)

/-- Body of the loop of `i32Rotate90Filter`, dsp/util.go:48-51, with `i = 8 j`.  A parallel assignment
reads both right sides first. -/
def i32Body (samples : Slice) (j : Nat) (m : Nat → F) : Option (Nat → F) := do
  let i := 8 * j
  let a ← samples.read m (i + 3)
  let b ← samples.read m (i + 2)
  let m ← samples.write m (i + 2) (-a)
  let m ← samples.write m (i + 3) b
  let a ← samples.read m (i + 4)
  let m ← samples.write m (i + 4) (-a)
  let a ← samples.read m (i + 5)
  let m ← samples.write m (i + 5) (-a)
  let a ← samples.read m (i + 7)
  let b ← samples.read m (i + 6)
  let m ← samples.write m (i + 6) a
  samples.write m (i + 7) (-b)

/-- `i32Rotate90Filter`, dsp/util.go:46-54, `(len + 7) / 8` turns.  The element type is a parameter;
the code uses `int32`. -/
def i32Rotate90 (m : Nat → F) (samples : Slice) : Option (Nat → F) :=
  forRange ((samples.len + 7) / 8) m (i32Body samples)

/-! ## 32-bit ARM assembly

Memory is addressed in 32-bit words; addresses are natural numbers, so the wrap-around of addresses
and the signed address comparison are not modelled. -/

/-- `MOVM.IA (R8), [R0-R5]` … `MOVM.IA.W [R0-R5], (R8)`: six words at `q` are replaced by `g` of them. -/
def six (g : (Fin 6 → BitVec 32) → Fin 6 → BitVec 32) (m : Nat → BitVec 32) (q : Nat) : Nat → BitVec 32 :=
  let r : Fin 6 → BitVec 32 := fun k => m (q + k)
  fun a => if h : q ≤ a ∧ a < q + 6 then g r ⟨a - q, by omega⟩ else m a

/-- The register moves of dsp/util_arm.s:20-31: sign flips by exclusive or. -/
def turnF (r : Fin 6 → BitVec 32) : Fin 6 → BitVec 32 :=
  let r0 := r 0; let r1 := r 1; let r2 := r 2; let r3 := r 3; let r4 := r 4; let r5 := r 5
  let r6 := r0
  let r0 := r1 ^^^ (1#32 <<< 31)
  let r1 := r6
  let r2 := r2 ^^^ (1#32 <<< 31)
  let r3 := r3 ^^^ (1#32 <<< 31)
  let r6 := r4 ^^^ (1#32 <<< 31)
  let r4 := r5
  let r5 := r6
  fun k => match k with | 0 => r0 | 1 => r1 | 2 => r2 | 3 => r3 | 4 => r4 | 5 => r5

/-- The register moves of dsp/util_arm.s:63-74: `MVN` is bitwise not. -/
def turnI (r : Fin 6 → BitVec 32) : Fin 6 → BitVec 32 :=
  let r0 := r 0; let r1 := r 1; let r2 := r 2; let r3 := r 3; let r4 := r 4; let r5 := r 5
  let r6 := r0
  let r0 := ~~~ r1
  let r1 := r6
  let r2 := ~~~ r2
  let r3 := ~~~ r3
  let r6 := ~~~ r4
  let r4 := r5
  let r5 := r6
  fun k => match k with | 0 => r0 | 1 => r1 | 2 => r2 | 3 => r3 | 4 => r4 | 5 => r5

/-- The loops dsp/util_arm.s:13-35 and 56-78: skip two words, turn six, repeat while the end is beyond
the pointer.  `R8 = p`, `R7 = e`. -/
def armLoop (g : (Fin 6 → BitVec 32) → Fin 6 → BitVec 32) (m : Nat → BitVec 32) (p e : Nat) : Nat → BitVec 32 :=
  let m := six g m (p + 2)
  let p' := p + 8
  if e > p' then armLoop g m p' e else m
termination_by e - p

/-- `rotate90FilterAsm`, dsp/util_arm.s:3-44: `ptr` is the word address of the slice, `len` its number
of complex samples; the length is rounded down to a multiple of four. -/
def rotate90Arm (m : Nat → BitVec 32) (ptr len : Nat) : Nat → BitVec 32 :=
  let r7 := len - len % 4
  if r7 = 0 then m else armLoop turnF m ptr (ptr + 2 * r7)

/-- `i32Rotate90FilterAsm`, dsp/util_arm.s:46-87: `len` is the number of words. -/
def i32Rotate90Arm (m : Nat → BitVec 32) (ptr len : Nat) : Nat → BitVec 32 :=
  let r7 := len - len % 4
  if r7 = 0 then m else armLoop turnI m ptr (ptr + r7)

end Verif.Rot
