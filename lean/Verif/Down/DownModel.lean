import Verif.Conv.SliceModel

/-!
# Model of dsp/downsample.go

The portable code; on amd64, 386 and arm64 the assembly entry points jump to it
(dsp/downsample_amd64.s, dsp/downsample_386.s, dsp/downsample_arm64.s).  The 32-bit ARM assembly is
modelled in `Arm/DownArmModel`.  The arithmetic of samples is a parameter without laws.  `int` counters are unbounded
integers: `prevIndex` stays below `Downsample` resp. `Fast` (proved), so only rates above 2^62 could
overflow.
-/

namespace Verif.Down
open Verif.Conv

variable {C : Type}

/-- `LowPassDownsampleComplexFilter`, dsp/downsample.go:3-8. -/
structure LPD (C : Type) where
  downsample : Int
  now : C
  prevIndex : Int

/-- `lowPassDownsampleComplexFilter`, dsp/downsample.go:16-31.  The result is the memory, the updated
filter and the returned slice. -/
def LPD.filter [Add C] [Zero C] (fi : LPD C) (m : Nat → C) (samples : Slice) :
    Option ((Nat → C) × LPD C × Slice) := do
  let (m, fi, i2) ← forRange samples.len (m, fi, 0) fun i (m, fi, i2) => do
    let v ← samples.read m i
    let fi := { fi with now := fi.now + v }
    let fi := { fi with prevIndex := fi.prevIndex + 1 }
    if fi.prevIndex < fi.downsample then some (m, fi, i2) else
    let m ← samples.write m i2 fi.now
    let fi := { fi with prevIndex := 0 }
    let fi := { fi with now := 0 }
    some (m, fi, i2 + 1)
  let out ← samples.take i2
  some (m, fi, out)

/-- `LowPassDownsampleRationalFilter`, dsp/downsample.go:33-38. -/
structure LPR (C : Type) where
  fast : Int
  slow : Int
  sum : C
  prevIndex : Int

/-- `lowPassDownsampleRationalFilter`, dsp/downsample.go:46-61; `conv` is the conversion `float32` of
line 48. -/
def LPR.filter [Add C] [Mul C] [Div C] [Zero C] (conv : Int → C) (fi : LPR C) (m : Nat → C) (samples : Slice) :
    Option ((Nat → C) × LPR C × Slice) := do
  let fastSlowRatio := conv fi.slow / conv fi.fast
  let (m, fi, i2) ← forRange samples.len (m, fi, 0) fun i (m, fi, i2) => do
    let v ← samples.read m i
    let fi := { fi with sum := fi.sum + v }
    let fi := { fi with prevIndex := fi.prevIndex + fi.slow }
    if fi.prevIndex < fi.fast then some (m, fi, i2) else
    let m ← samples.write m i2 (fi.sum * fastSlowRatio)
    let fi := { fi with prevIndex := fi.prevIndex - fi.fast }
    let fi := { fi with sum := 0 }
    some (m, fi, i2 + 1)
  let out ← samples.take i2
  some (m, fi, out)

/-- The samples in a slice. -/
def contents (m : Nat → C) (s : Slice) : List C := (List.range s.len).map fun i => m (s.base + i)

end Verif.Down
