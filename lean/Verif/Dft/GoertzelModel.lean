import Mathlib.Analysis.SpecialFunctions.Trigonometric.Basic
import Mathlib.Algebra.Order.Floor.Semiring
import Mathlib.Algebra.Order.Floor.Ring

/-!
# Model of dsp/goertzel.go

The arithmetic is a parameter with no laws assumed, so statements about states hold bit for bit; the
exact-arithmetic statements instantiate it with the real numbers.  The detectors of one object are the
list `freq`; in the code it is a slice of pointers to distinct structs, all created by the constructor
and never shared.  The result buffers `mag` and `cplx` have the length of `freq`, set by the
constructors (dsp/goertzel.go:46-47, 98-99, 149-150), and are entirely rewritten by each call, so the
methods are modelled by the list they return.
-/

namespace Verif.Dft

/-- The struct `goertzel`, dsp/goertzel.go:23-28. -/
structure Gz (F : Type) where
  coeff : F
  cos : F
  sin : F
  q1 : F
  q2 : F
  q1i : F
  q2i : F

variable {F S R : Type}

section
variable [Add F] [Sub F] [Mul F] [Zero F]

/-- `Goertzel.Reset` and `Goertzel32.Reset`, dsp/goertzel.go:103-108 and 51-56. -/
def reset (freq : List (Gz F)) : List (Gz F) :=
  freq.map fun g => { g with q1 := 0, q2 := 0 }

/-- Body of the inner loop of `Goertzel.Feed`, dsp/goertzel.go:113-115. -/
def Gz.step (g : Gz F) (samp : F) : Gz F :=
  let q0 := g.coeff * g.q1 - g.q2 + samp
  let g := { g with q2 := g.q1 }
  { g with q1 := q0 }

/-- `Goertzel32.Feed`, dsp/goertzel.go:58-66, and `Goertzel.Feed`, dsp/goertzel.go:110-118.  `wide` is
the conversion `float64(samp)` of line 61, the identity for `Goertzel`. -/
def feed (wide : S → F) (freq : List (Gz F)) (samples : List S) : List (Gz F) :=
  samples.foldl (fun freq samp => freq.map fun g => g.step (wide samp)) freq

/-- `Goertzel.Magnitude`, dsp/goertzel.go:120-125, and `Goertzel32.Magnitude`, dsp/goertzel.go:68-73.
`narrow` is the conversion `float32` of line 70, the identity for `Goertzel`. -/
def magnitude (narrow : F → R) (freq : List (Gz F)) : List R :=
  freq.map fun g => narrow (g.q1 * g.q1 + g.q2 * g.q2 - g.q1 * g.q2 * g.coeff)

/-- `Goertzel.Complex`, dsp/goertzel.go:127-132, and `Goertzel32.Complex`, dsp/goertzel.go:75-80: pairs
of real and imaginary part. -/
def complex (narrow : F → R) (freq : List (Gz F)) : List (R × R) :=
  freq.map fun g => (narrow (g.q1 * g.cos - g.q2), narrow (g.q1 * g.sin))

/-- `ComplexGoertzel.Reset`, dsp/goertzel.go:154-161. -/
def resetC (freq : List (Gz F)) : List (Gz F) :=
  freq.map fun g => { g with q1 := 0, q2 := 0, q1i := 0, q2i := 0 }

/-- Body of the inner loop of `ComplexGoertzel.Feed`, dsp/goertzel.go:166-171. -/
def Gz.stepC (g : Gz F) (samp : F × F) : Gz F :=
  let q0 := g.coeff * g.q1 - g.q2 + samp.1
  let g := { g with q2 := g.q1 }
  let g := { g with q1 := q0 }
  let q0 := g.coeff * g.q1i - g.q2i + samp.2
  let g := { g with q2i := g.q1i }
  { g with q1i := q0 }

/-- `ComplexGoertzel.Feed`, dsp/goertzel.go:163-174. -/
def feedC (freq : List (Gz F)) (samples : List (F × F)) : List (Gz F) :=
  samples.foldl (fun freq samp => freq.map fun g => g.stepC samp) freq

/-- `ComplexGoertzel.Magnitude`, dsp/goertzel.go:176-184. -/
def magnitudeC (freq : List (Gz F)) : List F :=
  freq.map fun f =>
    let re := f.q1 * f.cos - f.q2 - f.q1i * f.sin
    let im := f.q1 * f.sin + f.q1i * f.cos - f.q2i
    re * re + im * im

/-- `ComplexGoertzel.Complex`, dsp/goertzel.go:186-194. -/
def complexC (freq : List (Gz F)) : List (F × F) :=
  freq.map fun f => (f.q1 * f.cos - f.q2 - f.q1i * f.sin, f.q1 * f.sin + f.q1i * f.cos - f.q2i)

end

open Real

/-- The bucket `k` of dsp/goertzel.go:86 (also 34 and 137), in exact real arithmetic: the product is
computed modulo 2^64, the conversion to `uint64` truncates. -/
noncomputable def bucket (f sampleRate blockSize : Nat) : Nat :=
  ⌊(0.5 : ℝ) + ((blockSize * f % 2 ^ 64 : Nat) : ℝ) / sampleRate⌋₊

/-- One detector as built in dsp/goertzel.go:86-94 (also 34-42 and 137-145). -/
noncomputable def newGz (f sampleRate blockSize : Nat) : Gz ℝ :=
  let k := bucket f sampleRate blockSize
  let w := 2 * π * k / blockSize
  let sin := Real.sin w
  let cos := Real.cos w
  { coeff := 2 * cos, cos := cos, sin := sin, q1 := 0, q2 := 0, q1i := 0, q2i := 0 }

/-- `NewGoertzel`, dsp/goertzel.go:82-101, `NewGoertzel32`, dsp/goertzel.go:30-49, and
`NewComplexGoertzel`, dsp/goertzel.go:134-152.  The sample rate and block size are `int` in the code;
the model takes the non-negative ones. -/
noncomputable def newGoertzel (targetFreqs : List Nat) (sampleRate blockSize : Nat) : List (Gz ℝ) :=
  targetFreqs.map fun f => newGz f sampleRate blockSize

end Verif.Dft
