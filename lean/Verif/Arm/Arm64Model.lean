import Verif.Asm.ToF32Model
import Mathlib.Data.Rat.Defs
import Verif.Fp.FpModel

/-!
# Models of the arm64 routines `Ui8tof32`, `VScaleF32`, `VMaxF32` and `VMinF32`

dsp/conversion_arm64.s and dsp/math32_arm64.s; every other arm64 entry point jumps to the portable code.
A vector register is its lanes, a function of the lane number.  Pointers are positions (in elements),
counters are natural numbers: 64-bit wrap-around is not modelled.  The machine words given with `WORD` are
taken to be the instructions named in the comments beside them.  `prfm` (prefetch) has no effect.  All loops
are of the form `L: body; test; Bcc L` (`doWhile`).
-/

namespace Verif.Arm
open Verif.Conv Verif.Asm

variable {F D : Type}

/-- Registers of the counted loops: input and output position, number of elements left, the output memory,
and one past the highest position read and written. -/
structure StC (G : Type) where
  src : Nat
  dst : Nat
  cnt : Nat
  om : Nat → G
  rEnd : Nat
  wEnd : Nat

/-- `sxtl v.8h, x.8b`: sign extension of bytes 0–7. -/
def sxtlB (x : Xmm) : Nat → BitVec 16 := fun k => (x k).signExtend 16
/-- `sxtl2 v.8h, x.16b`: sign extension of bytes 8–15. -/
def sxtl2B (x : Xmm) : Nat → BitVec 16 := fun k => (x (8 + k)).signExtend 16
/-- `sxtl v.4s, x.4h` -/
def sxtlH (x : Nat → BitVec 16) : Nat → BitVec 32 := fun k => (x k).signExtend 32
/-- `sxtl2 v.4s, x.8h` -/
def sxtl2H (x : Nat → BitVec 16) : Nat → BitVec 32 := fun k => (x (4 + k)).signExtend 32
/-- `scvtf v.4s, x.4s` -/
def scvtf (o : FloatOps F D) (x : Nat → BitVec 32) : Nat → F := fun k => o.ofInt (x k).toInt

/-- `ui8tof32_simd_loop`, dsp/conversion_arm64.s:28-65: 32 elements.  The last store, line 63, comes after the
output pointer has moved. -/
def u8Block64 (o : FloatOps F D) (im : Nat → BitVec 8) (s : StC F) : Option (StC F) :=
  let v0 : Xmm := fun _ => 0x80#8
  let v1 := load16 im s.src
  let v2 := load16 im (s.src + 16)
  let v1 : Xmm := fun i => v1 i - v0 i
  let v2 : Xmm := fun i => v2 i - v0 i
  let v10 := sxtlB v1
  let v11 := sxtl2B v1
  let v12 := sxtlB v2
  let v13 := sxtl2B v2
  let v20 := sxtlH v10
  let v21 := sxtl2H v10
  let v22 := sxtlH v11
  let v23 := sxtl2H v11
  let v24 := sxtlH v12
  let v25 := sxtl2H v12
  let v26 := sxtlH v13
  let v27 := sxtl2H v13
  let om := store4 s.om s.dst (scvtf o v20)
  let om := store4 om (s.dst + 4) (scvtf o v21)
  let om := store4 om (s.dst + 8) (scvtf o v22)
  let om := store4 om (s.dst + 12) (scvtf o v23)
  let om := store4 om (s.dst + 16) (scvtf o v24)
  let om := store4 om (s.dst + 20) (scvtf o v25)
  let x2 := s.dst + 32
  let om := store4 om (x2 - 8) (scvtf o v26)
  let om := store4 om (x2 - 8 + 4) (scvtf o v27)
  some ⟨s.src + 32, x2, s.cnt - 32, om, max s.rEnd (s.src + 32), max s.wEnd x2⟩

/-- `ui8tof32_scalar_loop`, dsp/conversion_arm64.s:71-79: one element. -/
def u8Step64 (o : FloatOps F D) (im : Nat → BitVec 8) (s : StC F) : Option (StC F) :=
  let r5 : Int := ((im s.src).toNat : Int) - 128
  some ⟨s.src + 1, s.dst + 1, s.cnt - 1, Function.update s.om s.dst (o.ofInt r5), max s.rEnd (s.src + 1), max s.wEnd (s.dst + 1)⟩

/-- `CMP ZR, R1; BEQ done` and a loop that ends when the counter is zero: dsp/conversion_arm64.s:67-80,
dsp/math32_arm64.s:66-75. -/
def scalarPart (step : StC F → Option (StC F)) (fuel : Nat) (s : StC F) : Option (StC F) :=
  if s.cnt = 0 then some s else doWhile step (fun s => decide (s.cnt ≠ 0)) fuel s

/-- `Ui8tof32` on arm64, dsp/conversion_arm64.s:9-81. -/
def ui8tof32Arm64 (o : FloatOps F D) (input : Slice) (im : Nat → BitVec 8) (output : Slice) (om : Nat → F) : Option (StC F) :=
  let r1 := if input.len < output.len then input.len else output.len
  let s : StC F := ⟨input.base, output.base, r1, om, 0, 0⟩
  let v := if r1 < 32 then some s else doWhile (u8Block64 o im) (fun s => decide (s.cnt ≥ 32)) (r1 + 1) s
  v.bind (scalarPart (u8Step64 o im) (r1 + 1))

/-- `vscalef32_simd_loop`, dsp/math32_arm64.s:28-64: 16 elements, loaded before any is stored. -/
def vsBlock64 (mul : F → F → F) (scale : F) (s : StC F) : Option (StC F) :=
  let v1 : Nat → F := fun k => s.om (s.src + k)
  let v2 : Nat → F := fun k => s.om (s.src + 4 + k)
  let v3 : Nat → F := fun k => s.om (s.src + 8 + k)
  let v4 : Nat → F := fun k => s.om (s.src + 12 + k)
  let v1 := fun k => mul (v1 k) scale
  let v2 := fun k => mul (v2 k) scale
  let v3 := fun k => mul (v3 k) scale
  let v4 := fun k => mul (v4 k) scale
  let om := store4 s.om s.dst v1
  let om := store4 om (s.dst + 4) v2
  let om := store4 om (s.dst + 8) v3
  let om := store4 om (s.dst + 12) v4
  some ⟨s.src + 16, s.dst + 16, s.cnt - 16, om, max s.rEnd (s.src + 16), max s.wEnd (s.dst + 16)⟩

/-- `vscalef32_scaler_loop`, dsp/math32_arm64.s:69-74: one element. -/
def vsStep64 (mul : F → F → F) (scale : F) (s : StC F) : Option (StC F) :=
  some ⟨s.src + 1, s.dst + 1, s.cnt - 1, Function.update s.om s.dst (mul (s.om s.src) scale), max s.rEnd (s.src + 1), max s.wEnd (s.dst + 1)⟩

/-- `VScaleF32` on arm64, dsp/math32_arm64.s:12-76.  Input and output are slices of one memory. -/
def vscaleF32Arm64 (mul : F → F → F) (input output : Slice) (scale : F) (m : Nat → F) : Option (StC F) :=
  let r1 := if input.len < output.len then input.len else output.len
  let s : StC F := ⟨input.base, output.base, r1, m, 0, 0⟩
  let v := if r1 < 16 then some s else doWhile (vsBlock64 mul scale) (fun s => decide (s.cnt ≥ 16)) (r1 + 1) s
  v.bind (scalarPart (vsStep64 mul scale) (r1 + 1))

/-- Registers of `VMaxF32`: `v0`, `v7`, position and counter. -/
structure StX (F : Type) where
  v0 : Nat → F
  v7 : Nat → F
  src : Nat
  cnt : Nat

/-- `vmaxf32_simd_loop`, dsp/math32_arm64.s:100-112 (and 147-159 for the minimum). -/
def vxBlock64 (op : F → F → F) (im : Nat → F) (s : StX F) : Option (StX F) :=
  let v1 : Nat → F := fun k => im (s.src + k)
  let v2 : Nat → F := fun k => im (s.src + 4 + k)
  let v3 : Nat → F := fun k => im (s.src + 8 + k)
  let v4 : Nat → F := fun k => im (s.src + 12 + k)
  let v0 := fun k => op (s.v0 k) (v1 k)
  let v7 := fun k => op (s.v7 k) (v3 k)
  let v0 := fun k => op (v0 k) (v2 k)
  let v7 := fun k => op (v7 k) (v4 k)
  some ⟨v0, v7, s.src + 16, s.cnt - 16⟩

/-- `fmaxv s, v.4s` / `fminv`: dsp/math32_arm64.s:113-114, 160-161; the lanes are combined pairwise. -/
def across (op : F → F → F) (v : Nat → F) : F := op (op (v 0) (v 1)) (op (v 2) (v 3))

/-- `vmaxf32_loop`, dsp/math32_arm64.s:120-126, 167-173: value, position, counter. -/
def vxStep64 (op : F → F → F) (im : Nat → F) (s : F × Nat × Nat) : Option (F × Nat × Nat) :=
  some (op (im s.2.1) s.1, s.2.1 + 1, s.2.2 - 1)

/-- From `vmaxf32_scaler` on, dsp/math32_arm64.s:117-129, 164-176. -/
def vxScalar64 (op : F → F → F) (im : Nat → F) (fuel : Nat) (s : F × Nat × Nat) : Option F :=
  if s.2.2 = 0 then some s.1 else (doWhile (vxStep64 op im) (fun s => decide (s.2.2 ≠ 0)) fuel s).map (·.1)

/-- `VMaxF32` and `VMinF32` on arm64, dsp/math32_arm64.s:84-129 and 131-176: they differ in `op` (`fmax` or
`fmin`) and `init` (−∞ or +∞). -/
def vExtremeArm64 (op : F → F → F) (init : F) (n : Nat) (im : Nat → F) : Option F :=
  if n < 24 then vxScalar64 op im (n + 1) (init, 0, n)
  else
    let s : StX F := ⟨fun k => im k, fun k => im (4 + k), 8, n - 8⟩
    (doWhile (vxBlock64 op im) (fun s => decide (s.cnt ≥ 16)) (n + 1) s).bind fun s =>
      let f30 := across op s.v0
      let f31 := across op s.v7
      vxScalar64 op im (n + 1) (op f30 f31, s.src, s.cnt)

/-- The sign bit of a float that is not a NaN. -/
def isNeg : Fp.Val → Bool
  | .nan => false
  | .inf s => s
  | .fin s _ => s

/-- `FMAX` of arm64: a NaN if an operand is one, otherwise the larger operand; +0 counts as larger than −0. -/
def fmax (a b : Fp.Val) : Fp.Val :=
  if a = .nan then .nan else if b = .nan then .nan
  else if Fp.lt b a then a else if Fp.lt a b then b else if isNeg a then b else a

/-- `FMIN` of arm64. -/
def fmin (a b : Fp.Val) : Fp.Val :=
  if a = .nan then .nan else if b = .nan then .nan
  else if Fp.lt a b then a else if Fp.lt b a then b else if isNeg a then a else b

end Verif.Arm
