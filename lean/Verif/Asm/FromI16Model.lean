import Verif.Asm.AsmCore
import Verif.Asm.ToF32Model

/-!
# Models of the amd64 routines `I16bleToF64`, `I16bleToF32`, `F32toi16`, `F32toi16ble`, `VScaleF32`

Same conventions as in `ToF32Model`: offsets from the start of the slices, loop counters are
natural numbers, `rEnd`/`wEnd` are one past the highest input/output position touched.
-/

namespace Verif.Asm
open Verif.Conv

variable {F D : Type}

/-- A loop tested at the top: `L: test; Jcc out; body; JMP L`. -/
def whileDo {σ : Type} (body : σ → Option σ) (cond : σ → Bool) (fuel : Nat) (s : σ) : Option σ :=
  if cond s then doWhile body cond fuel s else some s

/-- Machine state: input byte offset SI, output element offset DI, counter BX. -/
structure StLe (G : Type) where
  si : Nat
  di : Nat
  bx : Nat
  om : Nat → G
  rEnd : Nat
  wEnd : Nat

/-- Store two lanes (`MOVUPD X, (DI)`). -/
def store2 {G : Type} (om : Nat → G) (d : Nat) (lane : Nat → G) : Nat → G :=
  Function.update (Function.update om d (lane 0)) (d + 1) (lane 1)

/-- Move the high two 32-bit lanes to the low two (`MOVHLPS X, X`). -/
def hiLanes (l : Nat → BitVec 32) : Nat → BitVec 32 := fun k => if k < 2 then l (k + 2) else l k

/-- Scalar step of `I16bleToF64`, dsp/conversion_amd64.s:620-627. -/
def d16Step (o : FloatOps F D) (scale : D) (im : Nat → BitVec 8) (s : StLe D) : Option (StLe D) :=
  let dx : Int := (word (fun i => im (s.si + i)) 0).toInt
  some { si := s.si + 2, di := s.di + 1, bx := s.bx + 1,
         om := Function.update s.om s.di (o.mulD (o.ofIntD dx) scale),
         rEnd := max s.rEnd (s.si + 2), wEnd := max s.wEnd (s.di + 1) }

/-- SSE4.1 loop body of `I16bleToF64`, dsp/conversion_amd64.s:573-593. -/
def d16Sse4 (o : FloatOps F D) (scale : D) (im : Nat → BitVec 8) (s : StLe D) : Option (StLe D) :=
  let x1 := load16 im s.si
  let x2 := pmovsxwd x1
  let x3 := fun k => o.ofIntD (x2 k).toInt
  let x2 := fun k => o.ofIntD (hiLanes x2 k).toInt
  let x1 := movhlps x1
  let x4 := pmovsxwd x1
  let x5 := fun k => o.ofIntD (x4 k).toInt
  let x4 := fun k => o.ofIntD (hiLanes x4 k).toInt
  let om := store2 s.om s.di fun k => o.mulD (x3 k) scale
  let om := store2 om (s.di + 2) fun k => o.mulD (x2 k) scale
  let om := store2 om (s.di + 4) fun k => o.mulD (x5 k) scale
  let om := store2 om (s.di + 6) fun k => o.mulD (x4 k) scale
  some { si := s.si + 16, di := s.di + 8, bx := s.bx + 8, om := om,
         rEnd := max s.rEnd (s.si + 16), wEnd := max s.wEnd (s.di + 8) }

/-- SSE2 loop body of `I16bleToF64`, dsp/conversion_amd64.s:602-614; `MOVQ (SI), X1` loads eight
bytes and clears the rest. -/
def d16Sse2 (o : FloatOps F D) (scale : D) (im : Nat → BitVec 8) (s : StLe D) : Option (StLe D) :=
  let x1 : Xmm := fun i => if i < 8 then im (s.si + i) else 0
  let x1 := psral 16 (punpcklwl x1)
  let x3 := fun k => o.ofIntD (x1 k).toInt
  let x1 := fun k => o.ofIntD (hiLanes x1 k).toInt
  let om := store2 s.om s.di fun k => o.mulD (x3 k) scale
  let om := store2 om (s.di + 2) fun k => o.mulD (x1 k) scale
  some { si := s.si + 8, di := s.di + 4, bx := s.bx + 4, om := om,
         rEnd := max s.rEnd (s.si + 8), wEnd := max s.wEnd (s.di + 4) }

/-- `I16bleToF64` on amd64, dsp/conversion_amd64.s:543-631. -/
def i16bleToF64Amd (o : FloatOps F D) (useSSE4 : Bool) (inLen outLen : Nat) (scale : D)
    (im : Nat → BitVec 8) (om : Nat → D) : Option (StLe D) :=
  let cx := inLen / 2
  let cx := if cx < outLen then cx else outLen
  let s : StLe D := ⟨0, 0, 0, om, 0, 0⟩
  let v := if useSSE4 then
      whileDo (d16Sse4 o scale im) (fun s => decide (s.bx < cx - cx % 8)) (cx + 1) s
    else whileDo (d16Sse2 o scale im) (fun s => decide (s.bx < cx - cx % 4)) (cx + 1) s
  v.bind (whileDo (d16Step o scale im) (fun s => decide (s.bx < cx)) (cx + 1))

/-- Scalar step of `I16bleToF32`, dsp/conversion_amd64.s:703-710. -/
def f16Step (o : FloatOps F D) (scale : F) (im : Nat → BitVec 8) (s : StLe F) : Option (StLe F) :=
  let dx : Int := (word (fun i => im (s.si + i)) 0).toInt
  some { si := s.si + 2, di := s.di + 1, bx := s.bx + 1,
         om := Function.update s.om s.di (o.mul (o.ofInt dx) scale),
         rEnd := max s.rEnd (s.si + 2), wEnd := max s.wEnd (s.di + 1) }

/-- SSE4.1 loop body of `I16bleToF32`, dsp/conversion_amd64.s:661-673. -/
def f16Sse4 (o : FloatOps F D) (scale : F) (im : Nat → BitVec 8) (s : StLe F) : Option (StLe F) :=
  let x1 := load16 im s.si
  let x2 := fun k => o.ofInt (pmovsxwd x1 k).toInt
  let x1 := movhlps x1
  let x1 := fun k => o.ofInt (pmovsxwd x1 k).toInt
  let om := store4 s.om s.di fun k => o.mul (x2 k) scale
  let om := store4 om (s.di + 4) fun k => o.mul (x1 k) scale
  some { si := s.si + 16, di := s.di + 8, bx := s.bx + 8, om := om,
         rEnd := max s.rEnd (s.si + 16), wEnd := max s.wEnd (s.di + 8) }

/-- SSE2 loop body of `I16bleToF32`, dsp/conversion_amd64.s:682-697. -/
def f16Sse2 (o : FloatOps F D) (scale : F) (im : Nat → BitVec 8) (s : StLe F) : Option (StLe F) :=
  let x2 := load16 im s.si
  let x1 := fun k => o.ofInt (psral 16 (punpcklwl x2) k).toInt
  let x2 := movhlps x2
  let x2 := fun k => o.ofInt (psral 16 (punpcklwl x2) k).toInt
  let om := store4 s.om s.di fun k => o.mul (x1 k) scale
  let om := store4 om (s.di + 4) fun k => o.mul (x2 k) scale
  some { si := s.si + 16, di := s.di + 8, bx := s.bx + 8, om := om,
         rEnd := max s.rEnd (s.si + 16), wEnd := max s.wEnd (s.di + 8) }

/-- `I16bleToF32` on amd64, dsp/conversion_amd64.s:633-714. -/
def i16bleToF32Amd (o : FloatOps F D) (useSSE4 : Bool) (inLen outLen : Nat) (scale : F)
    (im : Nat → BitVec 8) (om : Nat → F) : Option (StLe F) :=
  let cx := inLen / 2
  let cx := if cx < outLen then cx else outLen
  let s : StLe F := ⟨0, 0, 0, om, 0, 0⟩
  let v := if useSSE4 then
      whileDo (f16Sse4 o scale im) (fun s => decide (s.bx < cx - cx % 8)) (cx + 1) s
    else whileDo (f16Sse2 o scale im) (fun s => decide (s.bx < cx - cx % 8)) (cx + 1) s
  v.bind (whileDo (f16Step o scale im) (fun s => decide (s.bx < cx)) (cx + 1))

/-! ## `F32toi16` -/

/-- The packed and scalar truncating conversions to 32-bit integers and the product, as the
processor computes them. -/
structure CvtOps (F : Type) where
  mul : F → F → F
  /-- `CVTTPS2PL`/`CVTTSS2SL`, one lane -/
  cvtt : F → BitVec 32

/-- One lane of `PACKSSLW`: signed saturation to 16 bits. -/
def packss (x : BitVec 32) : BitVec 16 :=
  if x.toInt < -32768 then BitVec.ofInt 16 (-32768)
  else if 32767 < x.toInt then BitVec.ofInt 16 32767 else BitVec.ofInt 16 x.toInt

/-- Vector loop body of `F32toi16`, dsp/conversion_amd64.s:494-512.  The output is in 16-bit
elements; the store address is `DI + 2*AX` (`bx` here is AX). -/
def i16Block (o : CvtOps F) (scale : F) (im : Nat → F) (s : StLe (BitVec 16)) :
    Option (StLe (BitVec 16)) :=
  let lane := fun k => o.cvtt (o.mul (im (s.si + k)) scale)
  let om := fun a => if s.bx ≤ a ∧ a < s.bx + 16 then packss (lane (a - s.bx)) else s.om a
  some { si := s.si + 16, di := s.di, bx := s.bx + 16, om := om,
         rEnd := max s.rEnd (s.si + 16), wEnd := max s.wEnd (s.bx + 16) }

/-- Scalar step of `F32toi16`, dsp/conversion_amd64.s:521-527: the low 16 bits of the 32-bit
conversion are stored. -/
def i16Step (o : CvtOps F) (scale : F) (im : Nat → F) (s : StLe (BitVec 16)) :
    Option (StLe (BitVec 16)) :=
  let bp := o.cvtt (o.mul (im s.si) scale)
  some { si := s.si + 1, di := s.di, bx := s.bx + 1, om := Function.update s.om s.bx (bp.truncate 16),
         rEnd := max s.rEnd (s.si + 1), wEnd := max s.wEnd (s.bx + 1) }

/-- `F32toi16` on amd64, dsp/conversion_amd64.s:472-532. -/
def f32toi16Amd (o : CvtOps F) (inLen outLen : Nat) (scale : F) (im : Nat → F)
    (om : Nat → BitVec 16) : Option (StLe (BitVec 16)) :=
  let cx := if inLen ≥ outLen then outLen else inLen
  let dx := cx
  let cx := cx - cx % 32
  let s : StLe (BitVec 16) := ⟨0, 0, 0, om, 0, 0⟩
  let v := if 0 ≥ cx then some s
    else doWhile (i16Block o scale im) (fun s => decide (s.bx < cx)) (dx + 1) s
  v.bind fun s => if s.bx ≥ dx then some s
    else doWhile (i16Step o scale im) (fun s => decide (s.bx < dx)) (dx + 1) s

/-- `F32toi16ble` on amd64, dsp/conversion_amd64.s:534-538: the same with half the byte length (the
stored 16-bit words are little-endian in memory). -/
def f32toi16bleAmd (o : CvtOps F) (inLen outBytes : Nat) (scale : F) (im : Nat → F)
    (om : Nat → BitVec 16) : Option (StLe (BitVec 16)) :=
  f32toi16Amd o inLen (outBytes / 2) scale im om

/-! ## `VScaleF32` -/

/-- State of `VScaleF32`: absolute positions of the pointers in one float memory, counter AX. -/
structure StV (F : Type) where
  si : Nat
  di : Nat
  ax : Nat
  m : Nat → F

/-- A vector loop body that loads `w` floats, multiplies and stores them:
dsp/math32_amd64.s:261-275 (`w = 32`) and 288-302 (`w = 16`).  All loads precede all stores. -/
def vsBlock (mul : F → F → F) (scale : F) (w : Nat) (s : StV F) : Option (StV F) :=
  let m := fun a => if s.di ≤ a ∧ a < s.di + w then mul (s.m (s.si + (a - s.di))) scale else s.m a
  some { si := s.si + w, di := s.di + w, ax := s.ax + w, m := m }

/-- Scalar step, dsp/math32_amd64.s:311-316. -/
def vsStep (mul : F → F → F) (scale : F) (s : StV F) : Option (StV F) :=
  some { si := s.si + 1, di := s.di + 1, ax := s.ax + 1,
         m := Function.update s.m s.di (mul (s.m s.si) scale) }

/-- `VScaleF32` on amd64, dsp/math32_amd64.s:228-321.  Note that the scalar loop is entered when
AX < DX (the length) but repeats while AX < CX, which the vector paths have rounded down. -/
def vscaleF32Amd (mul : F → F → F) (useAVX2 useSSE2 : Bool) (input output : Slice) (scale : F)
    (m : Nat → F) : Option (StV F) :=
  let cx := if input.len ≥ output.len then output.len else input.len
  let dx := cx
  let s : StV F := ⟨input.base, output.base, 0, m⟩
  let scalar := fun (cx : Nat) (s : StV F) => if s.ax ≥ dx then some s
    else doWhile (vsStep mul scale) (fun s => decide (s.ax < cx)) (dx + 1) s
  if useAVX2 then
    let cx := cx - cx % 64
    if 0 ≥ cx then scalar cx s
    else (doWhile (vsBlock mul scale 32) (fun s => decide (s.ax < cx)) (dx + 1) s).bind (scalar cx)
  else if useSSE2 then
    let cx := cx - cx % 32
    if 0 ≥ cx then scalar cx s
    else (doWhile (vsBlock mul scale 16) (fun s => decide (s.ax < cx)) (dx + 1) s).bind (scalar cx)
  else scalar cx s

end Verif.Asm
