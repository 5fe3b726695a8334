import Verif.Conv.ConvModel
import Verif.Asm.FromI16Model
import Verif.Fp.FpModel

/-!
# Model of dsp/fuzz.go
-/

namespace Verif.Asm
open Verif.Conv Verif.Fp

variable {F D : Type}

/-- A routine `func(input []byte, output []float32, scale float32)`: length and contents of `input`, length and contents of
`output`; the contents it leaves in `output`, or `none` for a panic. -/
abbrev Routine (F : Type) := Nat → (Nat → BitVec 8) → Nat → (Nat → F) → F → Option (Nat → F)

/-- `I16bleToF32` on amd64, dsp/conversion_amd64.s:633-714. -/
def amdRoutine (o : FloatOps F D) (useSSE4 : Bool) : Routine F := fun inLen im outLen om scale =>
  (i16bleToF32Amd o useSSE4 inLen outLen scale im om).map (·.om)

/-- `i16bleToF32`, dsp/conversion.go:165-173. -/
def goRoutine (o : FloatOps F D) : Routine F := fun inLen im outLen om scale => i16bleToF32 o ⟨0, inLen⟩ im ⟨0, outLen⟩ om scale

/-- `!=` for floating point numbers. -/
def neV : Val → Val → Bool
  | .nan, _ => true
  | _, .nan => true
  | .inf s, .inf t => s != t
  | .fin s q, .fin t r => decide ((Val.fin s q).toRat ≠ (Val.fin t r).toRat)
  | _, _ => true

/-- `Fuzz`, dsp/fuzz.go:5-17, of `impl` (`I16bleToF32`) against `portable` (`i16bleToF32`). -/
def fuzz (ne : F → F → Bool) (zero two : F) (impl portable : Routine F) (data : List (BitVec 8)) : Option Nat := do
  let data := data.take (data.length / 2 * 2)
  let output ← impl data.length (fun i => data.getD i 0) (data.length / 2) (fun _ => zero) two
  let expected ← portable data.length (fun i => data.getD i 0) (data.length / 2) (fun _ => zero) two
  some (if (List.range (data.length / 2)).any (fun i => ne (output i) (expected i)) then 0 else 1)

end Verif.Asm
