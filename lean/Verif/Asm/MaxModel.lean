import Verif.Asm.AsmCore
import Mathlib.Data.List.Basic

/-!
# Models of `VMaxF32` and `VMinF32`, portable and amd64

The two routines differ only in the initial value and the direction of every comparison (compare
dsp/math32.go:94-102 with 106-114 and dsp/math32_amd64.s:13-117 with 119-223), so there is one model
with parameters `gt` (`>` for the maximum, `<` for the minimum) and `init` (−∞, +∞).
-/

namespace Verif.Asm
variable {F : Type}

/-- `vMaxF32`, dsp/math32.go:94-102, and `vMinF32`, dsp/math32.go:106-114. -/
def vExtreme (gt : F → F → Bool) (init : F) (input : List F) : F :=
  input.foldl (fun m v => if gt v m then v else m) init

/-- One lane of `MAXPS`/`VMAXPS` (`MINPS`/`VMINPS`): `a` (the destination, first source) if the
comparison holds, otherwise `b` — so `b` when an operand is a NaN and when both are zeros. -/
def maxps (gt : F → F → Bool) (a b : F) : F := if gt a b then a else b

/-- State of the vector loops: four accumulators with lanes, counter DX (= position in input). -/
structure StM (F : Type) where
  acc : Nat → Nat → F
  dx : Nat

/-- Vector loop body with `w` lanes per register: dsp/math32_amd64.s:42-51 and 148-157 (`w = 8`),
78-87 and 184-193 (`w = 4`). -/
def vmBlock (gt : F → F → Bool) (w : Nat) (im : Nat → F) (s : StM F) : Option (StM F) :=
  some { acc := fun r k => maxps gt (s.acc r k) (im (s.dx + w * r + k)), dx := s.dx + 4 * w }

/-- `MAXPS X1, X0; MAXPS X2, X0; MAXPS X3, X0`: dsp/math32_amd64.s:55-57, 91-93, 161-163, 197-199. -/
def vmJoin (gt : F → F → Bool) (acc : Nat → Nat → F) : Nat → F :=
  fun k => maxps gt (maxps gt (maxps gt (acc 0 k) (acc 1 k)) (acc 2 k)) (acc 3 k)

/-- Lane 0 after `MOVHLPS`, `MAXPS`, `PSHUFD $0x55`, `MAXPS`: dsp/math32_amd64.s:60-63, 94-97,
166-169, 200-203 (the other lanes are not used afterwards). -/
def vmFold4 (gt : F → F → Bool) (x : Nat → F) : F :=
  let x := fun k => maxps gt (x k) (x (k + 2))
  maxps gt (x 0) (x 1)

/-- `VEXTRACTF128 $1, Y0, X1; MAXPS X1, X0`: dsp/math32_amd64.s:58-59, 164-165. -/
def vmHalf (gt : F → F → Bool) (y : Nat → F) : Nat → F := fun k => maxps gt (y k) (y (k + 4))

/-- Scalar step: dsp/math32_amd64.s:104-111, 210-217.  `UCOMISS` followed by `JLS` keeps the old
value when the comparison fails or an operand is a NaN. -/
def vmStep (gt : F → F → Bool) (im : Nat → F) (s : F × Nat) : Option (F × Nat) :=
  let x1 := im s.2
  some (if gt x1 s.1 then x1 else s.1, s.2 + 1)

/-- The scalar loop, dsp/math32_amd64.s:99-113 and 205-219. -/
def vmScalar (gt : F → F → Bool) (im : Nat → F) (n : Nat) (x0 : F) (dx : Nat) : Option F :=
  if dx ≥ n then some x0
  else (doWhile (vmStep gt im) (fun s => decide (s.2 < n)) (n + 1) (x0, dx)).map (·.1)

/-- `VMaxF32`/`VMinF32` on amd64, dsp/math32_amd64.s:13-117 and 119-223; `im` is the input, of
length `n`. -/
def vExtremeAmd (gt : F → F → Bool) (init : F) (useAVX2 useSSE2 : Bool) (n : Nat) (im : Nat → F) :
    Option F :=
  if useAVX2 then
    let bx := n - n % 32
    if 0 ≥ bx then vmScalar gt im n init 0
    else (doWhile (vmBlock gt 8 im) (fun s => decide (s.dx < bx)) (n + 1) ⟨fun _ _ => init, 0⟩).bind
      fun s => vmScalar gt im n (vmFold4 gt (vmHalf gt (vmJoin gt s.acc))) s.dx
  else if useSSE2 then
    let bx := n - n % 16
    if 0 ≥ bx then vmScalar gt im n init 0
    else (doWhile (vmBlock gt 4 im) (fun s => decide (s.dx < bx)) (n + 1) ⟨fun _ _ => init, 0⟩).bind
      fun s => vmScalar gt im n (vmFold4 gt (vmJoin gt s.acc)) s.dx
  else vmScalar gt im n init 0

end Verif.Asm
