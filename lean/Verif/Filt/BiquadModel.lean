import Verif.Conv.SliceModel
import Mathlib.Analysis.SpecialFunctions.Trigonometric.Basic
import Mathlib.Analysis.SpecialFunctions.Pow.Real

/-!
# Model of the biquad filters (dsp/biquad.go)

The filter loops are over an arbitrary sample type with arbitrary operations.  The designs are over
the real numbers: sine, cosine, power and square root are exact (simplification: the code computes
them in float64).
-/

namespace Verif.Filt
open Verif.Conv

variable {F S : Type}

/-- `BiQuadFilter`, dsp/biquad.go:7-11. -/
structure BQ (F : Type) where
  B0 : F
  B1 : F
  B2 : F
  A0 : F
  A1 : F
  A2 : F
  prevIn0 : F
  prevIn1 : F
  prevOut0 : F
  prevOut1 : F

section
variable [Add F] [Sub F] [Mul F] [Div F]

/-- `BiQuadFilter.Filter`, dsp/biquad.go:13-27. -/
def BQ.filter (f : BQ F) (m : Nat → F) (input output : Slice) : Option ((Nat → F) × BQ F) :=
  let b0a0 := f.B0 / f.A0
  let b1a0 := f.B1 / f.A0
  let b2a0 := f.B2 / f.A0
  let a1a0 := f.A1 / f.A0
  let a2a0 := f.A2 / f.A0
  forRange input.len (m, f) fun i (m, f) => do
    let s ← input.read m i
    let newSample := b0a0 * s + b1a0 * f.prevIn0 + b2a0 * f.prevIn1 - a1a0 * f.prevOut0 - a2a0 * f.prevOut1
    let f := { f with prevOut1 := f.prevOut0 }
    let f := { f with prevOut0 := newSample }
    let f := { f with prevIn1 := f.prevIn0 }
    let f := { f with prevIn0 := s }
    let m ← output.write m i newSample
    some (m, f)

/-- `BiQuadFilter.FilterF32`, dsp/biquad.go:29-43; `wide s` is `float64(s)`, `narrow v` is
`float32(v)`. -/
def BQ.filterF32 (wide : S → F) (narrow : F → S) (f : BQ F) (m : Nat → S) (input output : Slice) :
    Option ((Nat → S) × BQ F) :=
  let b0a0 := f.B0 / f.A0
  let b1a0 := f.B1 / f.A0
  let b2a0 := f.B2 / f.A0
  let a1a0 := f.A1 / f.A0
  let a2a0 := f.A2 / f.A0
  forRange input.len (m, f) fun i (m, f) => do
    let s ← input.read m i
    let newSample := b0a0 * wide s + b1a0 * f.prevIn0 + b2a0 * f.prevIn1 - a1a0 * f.prevOut0 - a2a0 * f.prevOut1
    let f := { f with prevOut1 := f.prevOut0 }
    let f := { f with prevOut0 := newSample }
    let f := { f with prevIn1 := f.prevIn0 }
    let f := { f with prevIn0 := wide s }
    let m ← output.write m i (narrow newSample)
    some (m, f)

end

/-- A new filter with the given coefficients; the state is zero as in every Go composite literal. -/
def bq [Zero F] (B0 B1 B2 A0 A1 A2 : F) : BQ F := ⟨B0, B1, B2, A0, A1, A2, 0, 0, 0, 0⟩

open Real

/-- `NewLowPassBiQuadFilter`, dsp/biquad.go:46-59. -/
noncomputable def newLowPass (sampleRate cutoffFreq q : ℝ) : BQ ℝ :=
  let w0 := 2 * π * cutoffFreq / sampleRate
  let sinW0 := sin w0
  let cosW0 := cos w0
  let alpha := sinW0 / (2 * q)
  bq ((1 - cosW0) / 2) (1 - cosW0) ((1 - cosW0) / 2) (1 + alpha) (-2 * cosW0) (1 - alpha)

/-- `NewHighPassBiQuadFilter`, dsp/biquad.go:62-75. -/
noncomputable def newHighPass (sampleRate cutoffFreq q : ℝ) : BQ ℝ :=
  let w0 := 2 * π * cutoffFreq / sampleRate
  let sinW0 := sin w0
  let cosW0 := cos w0
  let alpha := sinW0 / (2 * q)
  bq ((1 + cosW0) / 2) (-(1 + cosW0)) ((1 + cosW0) / 2) (1 + alpha) (-2 * cosW0) (1 - alpha)

/-- `NewBandPassConstantSkirtGainBiQuadFilter`, dsp/biquad.go:78-91. -/
noncomputable def newBandPassSkirt (sampleRate centreFrequency q : ℝ) : BQ ℝ :=
  let w0 := 2 * π * centreFrequency / sampleRate
  let sinW0 := sin w0
  let cosW0 := cos w0
  let alpha := sinW0 / (2 * q)
  bq (sinW0 / 2) 0 (-sinW0 / 2) (1 + alpha) (-2 * cosW0) (1 - alpha)

/-- `NewBandPassConstantPeakGainBiQuadFilter`, dsp/biquad.go:94-107. -/
noncomputable def newBandPassPeak (sampleRate centreFrequency q : ℝ) : BQ ℝ :=
  let w0 := 2 * π * centreFrequency / sampleRate
  let sinW0 := sin w0
  let cosW0 := cos w0
  let alpha := sinW0 / (2 * q)
  bq alpha 0 (-alpha) (1 + alpha) (-2 * cosW0) (1 - alpha)

/-- `NotchBiQuadFilter`, dsp/biquad.go:110-123. -/
noncomputable def newNotch (sampleRate centreFrequency q : ℝ) : BQ ℝ :=
  let w0 := 2 * π * centreFrequency / sampleRate
  let sinW0 := sin w0
  let cosW0 := cos w0
  let alpha := sinW0 / (2 * q)
  bq 1 (-2 * cosW0) 1 (1 + alpha) (-2 * cosW0) (1 - alpha)

/-- `AllPassBiQuadFilter`, dsp/biquad.go:126-139. -/
noncomputable def newAllPass (sampleRate centreFrequency q : ℝ) : BQ ℝ :=
  let w0 := 2 * π * centreFrequency / sampleRate
  let sinW0 := sin w0
  let cosW0 := cos w0
  let alpha := sinW0 / (2 * q)
  bq (1 - alpha) (-2 * cosW0) (1 + alpha) (1 + alpha) (-2 * cosW0) (1 - alpha)

/-- `PeakingEQBiQuadFilter`, dsp/biquad.go:142-156. -/
noncomputable def newPeaking (sampleRate centreFrequency q dbGain : ℝ) : BQ ℝ :=
  let w0 := 2 * π * centreFrequency / sampleRate
  let sinW0 := sin w0
  let cosW0 := cos w0
  let alpha := sinW0 / (2 * q)
  let a := (10 : ℝ) ^ (dbGain / 40)
  bq (1 + alpha * a) (-2 * cosW0) (1 - alpha * a) (1 + alpha / a) (-2 * cosW0) (1 - alpha / a)

/-- `LowShelfBiQuadFilter`, dsp/biquad.go:164-179. -/
noncomputable def newLowShelf (sampleRate cutoffFrequency shelfSlope dbGain : ℝ) : BQ ℝ :=
  let w0 := 2 * π * cutoffFrequency / sampleRate
  let sinW0 := sin w0
  let cosW0 := cos w0
  let a := (10 : ℝ) ^ (dbGain / 40)
  let alpha := sinW0 / 2 * √((a + 1 / a) * (1 / shelfSlope - 1) + 2)
  let temp := 2 * √a * alpha
  bq (a * ((a + 1) - (a - 1) * cosW0 + temp)) (2 * a * ((a - 1) - (a + 1) * cosW0))
    (a * ((a + 1) - (a - 1) * cosW0 - temp)) ((a + 1) + (a - 1) * cosW0 + temp)
    (-2 * ((a - 1) + (a + 1) * cosW0)) ((a + 1) + (a - 1) * cosW0 - temp)

/-- `HighShelfBiQuadFilter`, dsp/biquad.go:182-197. -/
noncomputable def newHighShelf (sampleRate cutoffFrequency shelfSlope dbGain : ℝ) : BQ ℝ :=
  let w0 := 2 * π * cutoffFrequency / sampleRate
  let sinW0 := sin w0
  let cosW0 := cos w0
  let a := (10 : ℝ) ^ (dbGain / 40)
  let alpha := sinW0 / 2 * √((a + 1 / a) * (1 / shelfSlope - 1) + 2)
  let temp := 2 * √a * alpha
  bq (a * ((a + 1) + (a - 1) * cosW0 + temp)) (-2 * a * ((a - 1) + (a + 1) * cosW0))
    (a * ((a + 1) + (a - 1) * cosW0 - temp)) ((a + 1) - (a - 1) * cosW0 + temp)
    (2 * ((a - 1) - (a + 1) * cosW0)) ((a + 1) - (a - 1) * cosW0 - temp)

end Verif.Filt
