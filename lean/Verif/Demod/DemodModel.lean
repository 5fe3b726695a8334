import Verif.Angle.FastModel

/-!
# Model of the FM demodulator of dsp/demod.go and dsp/demod_arm.s

A complex sample is a pair of real and imaginary part.  Input and output are slices of different
types, so they do not overlap; the input is a list, and the output a list that is written by index.
On amd64, 386 and arm64 the assembly entry point jumps to the portable function
(dsp/demod_amd64.s, dsp/demod_386.s, dsp/demod_arm64.s).
-/

namespace Verif.Demod

variable {F : Type*}

/-- `PolarDiscriminator32`, dsp/demod.go:13-15, and the expression of dsp/demod.go:38; the arctangent is a
parameter. -/
def disc [Mul F] [Sub F] [Add F] (atan2 : F → F → F) (a b : F × F) : F :=
  atan2 (a.2 * b.1 - a.1 * b.2) (a.1 * b.1 + a.2 * b.2)

/-- The loop of `fmDemodulate`, dsp/demod.go:36-40, from index `i` on.  `none` is the panic of a write
outside the output (the samples already written stay written and `fi.pre` stays unchanged). -/
def fmLoop [Mul F] [Sub F] [Add F] (atan2 : F → F → F) : Nat → F × F → List (F × F) → List F → Option ((F × F) × List F)
  | _, pre, [], output => some (pre, output)
  | i, pre, inp :: rest, output =>
    if i < output.length then fmLoop atan2 (i + 1) inp rest (output.set i (disc atan2 inp pre)) else none

/-- `fmDemodulate`, dsp/demod.go:34-43, with `FMDemodFilter.Demodulate`, 28-30: the new `fi.pre`, the
output and the result. -/
def fmDemodulate [Mul F] [Sub F] [Add F] (atan2 : F → F → F) (pre : F × F) (input : List (F × F)) (output : List F) :
    Option ((F × F) × List F × Nat) :=
  (fmLoop atan2 0 pre input output).map fun r => (r.1, r.2, input.length)

/-! ## 32-bit ARM assembly, exact arithmetic -/

variable {K : Type*} [Field K] [LinearOrder K]

/-- The arctangent inlined in dsp/demod_arm.s:38-75; the constants `π·3/4`, `π/4`, `π/2` have their exact
values. -/
def armAtan2 (pi : K) (y x : K) : K :=
  let f2 := |y|
  let f2 := f2 + 1 / 100000000000000000000
  if x = 0 then
    let f6 := if y < 0 then -(pi / 2) else y
    if y > 0 then pi / 2 else f6
  else
    let r : K × K × K := if x > 0 then (x - f2, x + f2, pi / 4) else (x + f2, f2 - x, pi * 3 / 4)
    let f2 := r.1 / r.2.1
    let f7 := 1963 / 10000
    let f7 := f7 * f2
    let f7 := f7 * f2
    let f7 := f7 - 9817 / 10000
    let f7 := f7 * f2
    let f7 := f7 + r.2.2
    if y < 0 then -f7 else f7

/-- The loop dsp/demod_arm.s:21-85 over `count` samples: `R2` counts down, `R1` and `R3` advance. -/
def armLoop (pi : K) : Nat → Nat → K × K → (Nat → K × K) → List K → (K × K) × List K
  | 0, _, pre, _, output => (pre, output)
  | count + 1, i, pre, input, output =>
    let inp := input i
    let f6 := inp.2 * pre.1
    let f0 := inp.1 * pre.2
    let f4 := inp.1 * pre.1
    let f7 := inp.2 * pre.2
    let f6 := f6 - f0
    let f4 := f4 + f7
    armLoop pi count (i + 1) inp input (output.set i (armAtan2 pi f6 f4))

/-- `fmDemodulateAsm`, dsp/demod_arm.s:3-93.  The shorter length is used; the result is the length of the
input (lines 91-92). -/
def fmDemodulateArm (pi : K) (pre : K × K) (input : List (K × K)) (output : List K) : (K × K) × List K × Nat :=
  let r2 := if output.length < input.length then output.length else input.length
  if r2 = 0 then (pre, output, input.length)
  else
    let r := armLoop pi r2 0 pre (fun i => input.getD i (0, 0)) output
    (r.1, r.2, input.length)

end Verif.Demod
