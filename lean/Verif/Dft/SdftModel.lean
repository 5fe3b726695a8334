import Verif.Conv.SliceModel
import Mathlib.Analysis.SpecialFunctions.Trigonometric.Basic

/-!
# Model of dsp/sdft.go

`Filter` uses arithmetic that is a parameter without laws; the constructor is over the complex
numbers (exact arithmetic).  The slices of the struct are private, made by the constructor and never
shared, so they are lists.  A panic is `none`.
-/

namespace Verif.Dft
open Verif.Conv

/-- The structs `SDFT`, dsp/sdft.go:11-17, and `SDFT32`, dsp/sdft.go:63-69. -/
structure SDFT (C : Type) where
  i : Nat
  w : List C
  s : List C
  x : List C
  e : List C

variable {C : Type}

/-- `l[i] = v` on a private slice. -/
def setAt (l : List C) (i : Nat) (v : C) : Option (List C) := if i < l.length then some (l.set i v) else none

/-- `SDFT.Filter`, dsp/sdft.go:47-60, and `SDFT32.Filter`, dsp/sdft.go:99-112.  The remainder by a zero
length panics. -/
def SDFT.filter [Add C] [Sub C] [Mul C] [Zero C] (sd : SDFT C) (x : C) : Option (SDFT C × C) := do
  if sd.x.length = 0 then none else
  let i := (sd.i + 1) % sd.x.length
  let x0 ← sd.x[i]?
  let sd := { sd with x := sd.x.set i x }
  let sd := { sd with i := i }
  let xd := x - x0
  let (s, sum) ← forRange sd.w.length (sd.s, 0) fun i (s, sum) => do
    let w ← sd.w[i]?
    let si ← s[i]?
    let ei ← sd.e[i]?
    let v := (xd + si) * ei
    let s ← setAt s i v
    some (s, sum + w * v)
  some ({ sd with s := s }, sum)

/-- The index `j` of dsp/sdft.go:36-41 (also 88-93). -/
def binIndex (k n : Int) (len i : Nat) : Int :=
  let j := k - (len / 2 : Nat) + i
  if j < 0 then j + n else if j ≥ n then j - n else j

/-- `NewSDFT`, dsp/sdft.go:19-45, and `NewSDFT32`, dsp/sdft.go:71-97, over the complex numbers;
`make` panics on a negative length. -/
noncomputable def newSDFT (k n : Int) (window : List ℝ) : Option (SDFT ℂ) :=
  let win : List ℂ := if window.length = 0 then [1] else window.map Complex.ofReal
  if n < 0 then none else
  some {
    i := 0
    w := win
    x := List.replicate n.toNat 0
    s := List.replicate win.length 0
    e := (List.range win.length).map fun i =>
      Complex.exp ((2 * Real.pi * binIndex k n win.length i / n : ℝ) * Complex.I) }

/-- `BlackmanFreqCoeff`, dsp/window.go:9. -/
noncomputable def blackmanFreqCoeff : List ℝ := [0.16 / 4, -1.0 / 4, (1 - 0.16) / 2, -1.0 / 4, 0.16 / 4]
/-- `HammingFreqCoeff`, dsp/window.go:10. -/
noncomputable def hammingFreqCoeff : List ℝ := [(0.53836 - 1) / 2, 0.53836, (0.53836 - 1) / 2]
/-- `HanningFreqCoeff`, dsp/window.go:11. -/
noncomputable def hanningFreqCoeff : List ℝ := [-0.25, 0.5, -0.25]

/-- Filtering a sequence of samples; the outputs in order. -/
def SDFT.filterAll [Add C] [Sub C] [Mul C] [Zero C] (sd : SDFT C) : List C → Option (SDFT C × List C)
  | [] => some (sd, [])
  | x :: xs => do
    let (sd, y) ← sd.filter x
    let (sd, ys) ← SDFT.filterAll sd xs
    some (sd, y :: ys)

end Verif.Dft
