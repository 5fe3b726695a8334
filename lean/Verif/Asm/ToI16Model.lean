import Verif.Asm.AsmCore
import Verif.Conv.ConvModel

/-!
# Models of the amd64 routines `Ui8toi16` and `Ui8toi16b`

The output is modelled as bytes counted from the start of the output slice, `addr` being the
address of that slice; the input as bytes counted from the start of the input slice.  Input and
output do not overlap.  `rEnd`/`wEnd` are one past the highest byte read/written.
-/

namespace Verif.Asm
open Verif.Conv

/-- Machine state: input pointer, output pointer (bytes from the slice starts), remaining samples
(BX), loop counter (AX), output memory. -/
structure St16 where
  si : Nat
  di : Nat
  bx : Nat
  ax : Nat
  om : Nat → BitVec 8
  rEnd : Nat
  wEnd : Nat

/-- The memory effect of storing a 128-bit register at byte `d`. -/
def storeX (om : Nat → BitVec 8) (d : Nat) (x : Xmm) : Nat → BitVec 8 :=
  fun a => if d ≤ a ∧ a < d + 16 then x (a - d) else om a

/-- One scalar sample: dsp/conversion_amd64.s:30-37, 78-85 and 152-159. -/
def w16Step (im : Nat → BitVec 8) (s : St16) : Option St16 :=
  let cx := im s.si - 128#8
  let om := Function.update s.om s.di cx
  let om := Function.update om (s.di + 1) cx
  some { s with si := s.si + 1, di := s.di + 2, bx := s.bx - 1, om := om,
                rEnd := max s.rEnd (s.si + 1), wEnd := max s.wEnd (s.di + 2) }

/-- `DECQ AX` after a loop body. -/
def decAx (s : St16) : St16 := { s with ax := s.ax - 1 }

/-- The vector loop body, dsp/conversion_amd64.s:50-66 (aligned stores: fault unless the output
pointer is a multiple of 16) and 124-140 (unaligned stores). -/
def w16Block (aligned : Bool) (addr : Nat) (im : Nat → BitVec 8) (s : St16) : Option St16 :=
  if aligned && decide ((addr + s.di) % 16 ≠ 0) then none else
  let x8 : Xmm := fun _ => 0x80#8
  let x0 : Xmm := psubb x8 fun i => im (s.si + i)
  let x1 : Xmm := psubb x8 fun i => im (s.si + 16 + i)
  let om := storeX s.om s.di (punpcklbw x0)
  let om := storeX om (s.di + 16) (punpckhbw x0)
  let om := storeX om (s.di + 32) (punpcklbw x1)
  let om := storeX om (s.di + 48) (punpckhbw x1)
  some { s with si := s.si + 32, di := s.di + 64, bx := s.bx - 32, om := om,
                rEnd := max s.rEnd (s.si + 32), wEnd := max s.wEnd (s.di + 64) }

/-- The tail: dsp/conversion_amd64.s:72-89 and 146-163. -/
def w16Tail (im : Nat → BitVec 8) (s : St16) : Option St16 :=
  if s.bx = 0 then some s
  else doWhile (w16Step im) (fun s => decide (s.bx ≠ 0)) (s.bx + 1) s

/-- The vector part and the tail: dsp/conversion_amd64.s:41-89 and 116-163. -/
def w16Vec (aligned : Bool) (addr : Nat) (im : Nat → BitVec 8) (s : St16) : Option St16 :=
  let s := { s with ax := s.bx / 32 }
  if s.ax = 0 then w16Tail im s
  else (doWhile (fun s => (w16Block aligned addr im s).map decAx) (fun s => decide (s.ax ≠ 0))
    (s.ax + 1) s).bind (w16Tail im)

/-- `Ui8toi16` on amd64, dsp/conversion_amd64.s:4-89; `outLen` counts 16-bit samples. -/
def ui8toi16Amd (addr inLen outLen : Nat) (im om : Nat → BitVec 8) : Option St16 :=
  let bx := if outLen ≥ inLen then inLen else outLen
  let s : St16 := ⟨0, 0, bx, 32, om, 0, 0⟩
  if 32 > bx then w16Tail im s
  else
    let cx := addr % 16
    if cx = 0 then w16Vec true addr im s
    else
      let s := { s with ax := (16 - cx) / 2 }
      (doWhile (fun s => (w16Step im s).map decAx) (fun s => decide (s.ax ≠ 0)) (s.ax + 1) s).bind
        (w16Vec true addr im)

/-- `Ui8toi16b` on amd64, dsp/conversion_amd64.s:91-163; `outLen` counts bytes. -/
def ui8toi16bAmd (addr inLen outLen : Nat) (im om : Nat → BitVec 8) : Option St16 :=
  let cx := outLen / 2
  if addr % 2 = 0 then ui8toi16Amd addr inLen cx im om
  else
    let bx := if cx ≥ inLen then inLen else cx
    w16Vec false addr im ⟨0, 0, bx, 0, om, 0, 0⟩

end Verif.Asm
