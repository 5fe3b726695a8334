import Verif.Filt.BiquadModel

/-!
# Model of the biquad designs over arbitrary arithmetic (dsp/biquad.go:45-197)

The designs of `BiquadModel` once more, with the operations, the constants and the functions of package math left open, so
that they can be taken with rounding.  `DesignProps` shows that over the real numbers they are the designs of
`BiquadModel`.
-/

namespace Verif.Filt

/-- The constants and functions that the designs use. -/
structure Lib (F : Type) where
  /-- an integer constant -/
  lit : ℤ → F
  /-- the constant `2 * math.Pi` -/
  twoPi : F
  /-- `math.Sin` -/
  sin : F → F
  /-- `math.Cos` -/
  cos : F → F
  /-- `math.Pow` -/
  pow : F → F → F
  /-- `math.Sqrt` -/
  sqrt : F → F

variable {F : Type} [Add F] [Sub F] [Mul F] [Div F] [Neg F] [Zero F]

/-- `w0`, dsp/biquad.go:47 (also 63, 79, 95, 111, 127, 143, 165, 183). -/
def Lib.w0 (L : Lib F) (sampleRate freq : F) : F := L.twoPi * freq / sampleRate

/-- `alpha`, dsp/biquad.go:50 (also 66, 82, 98, 114, 130, 146). -/
def Lib.alpha (L : Lib F) (sampleRate freq q : F) : F := L.sin (L.w0 sampleRate freq) / (L.lit 2 * q)

/-- `NewLowPassBiQuadFilter`, dsp/biquad.go:46-59. -/
def Lib.lowPass (L : Lib F) (sampleRate cutoffFreq q : F) : BQ F :=
  let cosW0 := L.cos (L.w0 sampleRate cutoffFreq)
  let alpha := L.alpha sampleRate cutoffFreq q
  bq ((L.lit 1 - cosW0) / L.lit 2) (L.lit 1 - cosW0) ((L.lit 1 - cosW0) / L.lit 2) (L.lit 1 + alpha)
    (L.lit (-2) * cosW0) (L.lit 1 - alpha)

/-- `NewHighPassBiQuadFilter`, dsp/biquad.go:62-75. -/
def Lib.highPass (L : Lib F) (sampleRate cutoffFreq q : F) : BQ F :=
  let cosW0 := L.cos (L.w0 sampleRate cutoffFreq)
  let alpha := L.alpha sampleRate cutoffFreq q
  bq ((L.lit 1 + cosW0) / L.lit 2) (-(L.lit 1 + cosW0)) ((L.lit 1 + cosW0) / L.lit 2) (L.lit 1 + alpha)
    (L.lit (-2) * cosW0) (L.lit 1 - alpha)

/-- `NewBandPassConstantSkirtGainBiQuadFilter`, dsp/biquad.go:78-91. -/
def Lib.bandPassSkirt (L : Lib F) (sampleRate centreFrequency q : F) : BQ F :=
  let sinW0 := L.sin (L.w0 sampleRate centreFrequency)
  let cosW0 := L.cos (L.w0 sampleRate centreFrequency)
  let alpha := L.alpha sampleRate centreFrequency q
  bq (sinW0 / L.lit 2) (L.lit 0) (-sinW0 / L.lit 2) (L.lit 1 + alpha) (L.lit (-2) * cosW0) (L.lit 1 - alpha)

/-- `NewBandPassConstantPeakGainBiQuadFilter`, dsp/biquad.go:94-107. -/
def Lib.bandPassPeak (L : Lib F) (sampleRate centreFrequency q : F) : BQ F :=
  let cosW0 := L.cos (L.w0 sampleRate centreFrequency)
  let alpha := L.alpha sampleRate centreFrequency q
  bq alpha (L.lit 0) (-alpha) (L.lit 1 + alpha) (L.lit (-2) * cosW0) (L.lit 1 - alpha)

/-- `NotchBiQuadFilter`, dsp/biquad.go:110-123. -/
def Lib.notch (L : Lib F) (sampleRate centreFrequency q : F) : BQ F :=
  let cosW0 := L.cos (L.w0 sampleRate centreFrequency)
  let alpha := L.alpha sampleRate centreFrequency q
  bq (L.lit 1) (L.lit (-2) * cosW0) (L.lit 1) (L.lit 1 + alpha) (L.lit (-2) * cosW0) (L.lit 1 - alpha)

/-- `AllPassBiQuadFilter`, dsp/biquad.go:126-139. -/
def Lib.allPass (L : Lib F) (sampleRate centreFrequency q : F) : BQ F :=
  let cosW0 := L.cos (L.w0 sampleRate centreFrequency)
  let alpha := L.alpha sampleRate centreFrequency q
  bq (L.lit 1 - alpha) (L.lit (-2) * cosW0) (L.lit 1 + alpha) (L.lit 1 + alpha) (L.lit (-2) * cosW0) (L.lit 1 - alpha)

/-- `PeakingEQBiQuadFilter`, dsp/biquad.go:142-156. -/
def Lib.peaking (L : Lib F) (sampleRate centreFrequency q dbGain : F) : BQ F :=
  let cosW0 := L.cos (L.w0 sampleRate centreFrequency)
  let alpha := L.alpha sampleRate centreFrequency q
  let a := L.pow (L.lit 10) (dbGain / L.lit 40)
  bq (L.lit 1 + alpha * a) (L.lit (-2) * cosW0) (L.lit 1 - alpha * a) (L.lit 1 + alpha / a) (L.lit (-2) * cosW0)
    (L.lit 1 - alpha / a)

/-- `LowShelfBiQuadFilter`, dsp/biquad.go:164-179. -/
def Lib.lowShelf (L : Lib F) (sampleRate cutoffFrequency shelfSlope dbGain : F) : BQ F :=
  let w0 := L.w0 sampleRate cutoffFrequency
  let sinW0 := L.sin w0
  let cosW0 := L.cos w0
  let a := L.pow (L.lit 10) (dbGain / L.lit 40)
  let alpha := sinW0 / L.lit 2 * L.sqrt ((a + L.lit 1 / a) * (L.lit 1 / shelfSlope - L.lit 1) + L.lit 2)
  let temp := L.lit 2 * L.sqrt a * alpha
  bq (a * ((a + L.lit 1) - (a - L.lit 1) * cosW0 + temp)) (L.lit 2 * a * ((a - L.lit 1) - (a + L.lit 1) * cosW0))
    (a * ((a + L.lit 1) - (a - L.lit 1) * cosW0 - temp)) ((a + L.lit 1) + (a - L.lit 1) * cosW0 + temp)
    (L.lit (-2) * ((a - L.lit 1) + (a + L.lit 1) * cosW0)) ((a + L.lit 1) + (a - L.lit 1) * cosW0 - temp)

/-- `HighShelfBiQuadFilter`, dsp/biquad.go:182-197. -/
def Lib.highShelf (L : Lib F) (sampleRate cutoffFrequency shelfSlope dbGain : F) : BQ F :=
  let w0 := L.w0 sampleRate cutoffFrequency
  let sinW0 := L.sin w0
  let cosW0 := L.cos w0
  let a := L.pow (L.lit 10) (dbGain / L.lit 40)
  let alpha := sinW0 / L.lit 2 * L.sqrt ((a + L.lit 1 / a) * (L.lit 1 / shelfSlope - L.lit 1) + L.lit 2)
  let temp := L.lit 2 * L.sqrt a * alpha
  bq (a * ((a + L.lit 1) + (a - L.lit 1) * cosW0 + temp)) (L.lit (-2) * a * ((a - L.lit 1) + (a + L.lit 1) * cosW0))
    (a * ((a + L.lit 1) + (a - L.lit 1) * cosW0 - temp)) ((a + L.lit 1) - (a - L.lit 1) * cosW0 + temp)
    (L.lit 2 * ((a - L.lit 1) - (a + L.lit 1) * cosW0)) ((a + L.lit 1) - (a - L.lit 1) * cosW0 - temp)

end Verif.Filt
