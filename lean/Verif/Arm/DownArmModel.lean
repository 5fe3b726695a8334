import Verif.Arm.Arm32Model
import Verif.Down.DownModel

/-!
# Models of the 32-bit ARM decimating filters

dsp/downsample_arm.s.  Counters are 32-bit words compared as signed numbers.  The complex filter counts samples;
its pointers are positions in a memory of complex numbers.  The rational filter compares addresses; its memory is
indexed by address divided by four.  The capacity of the returned slice is not modelled.
-/

namespace Verif.Arm
open Verif.Conv Verif.Asm Verif.Down

variable {F : Type}

/-- `LowPassDownsampleComplexFilter` with 32-bit `int`, dsp/downsample.go:3-8. -/
structure LPD32 (F : Type) where
  downsample : BitVec 32
  re : F
  im : F
  prevIndex : BitVec 32

/-- R2, R5, R6, R7, F0, F1 and the memory. -/
structure StD (F : Type) where
  r2 : Nat
  r5 : Nat
  r6 : Nat
  r7 : BitVec 32
  f0 : F
  f1 : F
  m : Nat → F × F

/-- The loop of dsp/downsample_arm.s:21-49, with the decrement of line 15. -/
def complexBody [Add F] [Zero F] (r8 : BitVec 32) (s : StD F) : Option (StD F) :=
  let f2 := (s.m s.r5).1
  let f3 := (s.m s.r5).2
  let f0 := s.f0 + f2
  let f1 := s.f1 + f3
  let r7 := s.r7 + 1#32
  if r7.slt r8 then some ⟨s.r2 - 1, s.r5 + 1, s.r6, r7, f0, f1, s.m⟩
  else some ⟨s.r2 - 1, s.r5 + 1, s.r6 + 1, 0#32, 0, 0, Function.update s.m s.r6 (f0, f1)⟩

/-- `lowPassDownsampleComplexFilterAsm`, dsp/downsample_arm.s:3-64. -/
def complexFilterArm [Add F] [Zero F] (fi : LPD32 F) (m : Nat → F × F) (samples : Slice) : Option ((Nat → F × F) × LPD32 F × Slice) :=
  (whileDo (complexBody fi.downsample) (fun s => decide (s.r2 ≠ 0)) (samples.len + 1)
    ⟨samples.len, samples.base, samples.base, fi.prevIndex, fi.re, fi.im, m⟩).map fun s =>
      (s.m, { fi with re := s.f0, im := s.f1, prevIndex := s.r7 }, ⟨samples.base, s.r6 - samples.base⟩)

/-- `LowPassDownsampleRationalFilter` with 32-bit `int`, dsp/downsample.go:33-38. -/
structure LPR32 (F : Type) where
  fast : BitVec 32
  slow : BitVec 32
  sum : F
  prevIndex : BitVec 32

/-- R5, R6, R2, F3 and the memory. -/
structure StQ (F : Type) where
  r5 : Addr
  r6 : Addr
  r2 : BitVec 32
  f3 : F
  m : Nat → F

/-- The loop of dsp/downsample_arm.s:91-108. -/
def rationalBody [Add F] [Mul F] [Zero F] (f4 : F) (r7 r8 : BitVec 32) (s : StQ F) : Option (StQ F) :=
  let f3 := s.f3 + s.m (s.r5.toNat / 4)
  let r5 := Addr.plus s.r5 4
  let r2 := s.r2 + r7
  if r2.slt r8 then some ⟨r5, s.r6, r2, f3, s.m⟩
  else some ⟨r5, Addr.plus s.r6 4, r2 - r8, 0, Function.update s.m (s.r6.toNat / 4) (f3 * f4)⟩

/-- `lowPassDownsampleRationalFilterAsm`, dsp/downsample_arm.s:66-122, on `n` samples at address `p`; the result has
the length of the returned slice, which starts at `p`. -/
def rationalFilterArm [Add F] [Mul F] [Div F] [Zero F] (conv : Int → F) (fi : LPR32 F) (m : Nat → F) (p : Addr) (n : Nat) :
    Option ((Nat → F) × LPR32 F × Nat) :=
  let f4 := conv fi.slow.toInt / conv fi.fast.toInt
  let r3 := Addr.plus p (4 * n)
  (whileDo (rationalBody f4 fi.slow fi.fast) (fun s => s.r5.slt r3) (n + 1) ⟨p, p, fi.prevIndex, fi.sum, m⟩).map fun s =>
    (s.m, { fi with sum := s.f3, prevIndex := s.r2 }, ((s.r6 - p) >>> 2).toNat)

end Verif.Arm
