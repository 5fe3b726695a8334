import Verif.Arm.Arm64Model

/-!
# Models of the 32-bit ARM routines `VScaleF32`, `VAbsC64` and `VMaxF32`

dsp/math32_arm.s:142-352.  `VMulC64xF32` jumps to the portable code; there is no `VMinF32` for 32-bit ARM.  Loops
count elements; pointers are positions, without wrap-around.  The machine words given with `WORD` are taken to be
the instructions named beside them; `PLD` (prefetch) has no effect.  `neon` and `vector` are the variables `HaveNEON`
and `UseVector`, dsp/cpu_arm.go:14-16.  NEON arithmetic may differ from that of the scalar unit and is a parameter;
`neonMul` and `neonMax` say what it is: subnormal operands and results are replaced by zero.
-/

namespace Verif.Arm
open Verif.Conv Verif.Asm

variable {F D σ : Type}

/-- `TEQ $0, R2; BEQ done` and a loop that ends when the counter is zero: dsp/math32_arm.s:177-188, 251-266 and
334-348. -/
def rest (cnt : σ → Nat) (step : σ → Option σ) (fuel : Nat) (s : σ) : Option σ :=
  if cnt s = 0 then some s else doWhile step (fun s => decide (cnt s ≠ 0)) fuel s

/-- `vscalef32_neon_loop`, dsp/math32_arm.s:164-173: 16 elements in q1–q4, loaded before any is stored. -/
def vsNeon32 (mulN : F → F → F) (scale : F) (s : StC F) : Option (StC F) :=
  let q1 : Nat → F := fun k => s.om (s.src + k)
  let q2 : Nat → F := fun k => s.om (s.src + 4 + k)
  let q3 : Nat → F := fun k => s.om (s.src + 8 + k)
  let q4 : Nat → F := fun k => s.om (s.src + 12 + k)
  let om := store4 s.om s.dst fun k => mulN (q1 k) scale
  let om := store4 om (s.dst + 4) fun k => mulN (q2 k) scale
  let om := store4 om (s.dst + 8) fun k => mulN (q3 k) scale
  let om := store4 om (s.dst + 12) fun k => mulN (q4 k) scale
  some ⟨s.src + 16, s.dst + 16, s.cnt - 16, om, max s.rEnd (s.src + 16), max s.wEnd (s.dst + 16)⟩

/-- `vscalef32_scalar_loop`, dsp/math32_arm.s:180-188. -/
def vsScalar32 (mul : F → F → F) (scale : F) (s : StC F) : Option (StC F) :=
  some ⟨s.src + 1, s.dst + 1, s.cnt - 1, Function.update s.om s.dst (mul (s.om s.src) scale), max s.rEnd (s.src + 1), max s.wEnd (s.dst + 1)⟩

/-- `VScaleF32`, dsp/math32_arm.s:142-191.  Input and output are slices of one memory. -/
def vscaleF32Arm (mul mulN : F → F → F) (neon : Bool) (input output : Slice) (scale : F) (m : Nat → F) : Option (StC F) :=
  let r2 := if output.len < input.len then output.len else input.len
  let s : StC F := ⟨input.base, output.base, r2, m, 0, 0⟩
  if r2 = 0 then some s
  else if neon = false ∨ r2 < 16 then doWhile (vsScalar32 mul scale) (fun s => decide (s.cnt ≠ 0)) (r2 + 1) s
  else (doWhile (vsNeon32 mulN scale) (fun s => decide (s.cnt ≥ 16)) (r2 + 1) s).bind (rest StC.cnt (vsScalar32 mul scale) (r2 + 1))

/-- Register `k` of the VFP vector that starts in register `r`: vectors stay within a bank of eight registers. -/
def vecReg (stride r k : Nat) : Nat := 8 * (r / 8) + (r + k * stride) % 8

/-- An instruction in vector mode with length 4: destination `d`, operands `n` and `m`. -/
def vec4 (stride : Nat) (f : F → F → F → F) (d n m : Nat) (r : Nat → F) : Nat → F :=
  (List.range 4).foldl (fun r k => Function.update r (vecReg stride d k) (f (r (vecReg stride d k)) (r (vecReg stride n k)) (r (vecReg stride m k)))) r

/-- The stride that the two bits 21:20 of FPSCR select; the architecture leaves the other two values open
(UNPREDICTABLE). -/
def vfpStride (b : BitVec 2) : Option Nat := if b = 0#2 then some 1 else if b = 3#2 then some 2 else none

/-- `vabsc64_vector_loop`, dsp/math32_arm.s:230-244, with the stride in force: s8–s15 are four complex numbers. -/
def vaVector32 (o : FloatOps F D) (stride : Nat) (im : Nat → F × F) (s : StC F) : Option (StC F) :=
  let r : Nat → F := fun i => if i % 2 = 0 then (im (s.src + (i - 8) / 2)).1 else (im (s.src + (i - 8) / 2)).2
  let r := vec4 stride (fun _ a b => o.mul a b) 8 8 8 r
  let r := vec4 stride (fun d a b => o.add d (o.mul a b)) 8 9 9 r
  let r := vec4 stride (fun _ _ b => o.sqrt b) 8 8 8 r
  let om := store4 s.om s.dst fun k => r (8 + 2 * k)
  some ⟨s.src + 4, s.dst + 4, s.cnt - 4, om, max s.rEnd (s.src + 4), max s.wEnd (s.dst + 4)⟩

/-- `vabsc64_scalar_loop`, dsp/math32_arm.s:254-266. -/
def vaScalar32 (o : FloatOps F D) (im : Nat → F × F) (s : StC F) : Option (StC F) :=
  let f0 := (im s.src).1
  let f1 := (im s.src).2
  let f0 := o.mul f0 f0
  let f1 := o.mul f1 f1
  let f0 := o.add f0 f1
  some ⟨s.src + 1, s.dst + 1, s.cnt - 1, Function.update s.om s.dst (o.sqrt f0), max s.rEnd (s.src + 1), max s.wEnd (s.dst + 1)⟩

/-- `VAbsC64`, dsp/math32_arm.s:197-269.  `strideOf` is the meaning of the stride bits of FPSCR, which lines 225-226
set to 1; no result where it has none. -/
def vAbsC64Arm (o : FloatOps F D) (strideOf : BitVec 2 → Option Nat) (vector : Bool) (input : Slice) (im : Nat → F × F) (output : Slice)
    (om : Nat → F) : Option (StC F) :=
  let r2 := if output.len < input.len then output.len else input.len
  let s : StC F := ⟨input.base, output.base, r2, om, 0, 0⟩
  if r2 = 0 then some s
  else if vector = false ∨ r2 < 4 then doWhile (vaScalar32 o im) (fun s => decide (s.cnt ≠ 0)) (r2 + 1) s
  else (strideOf 1#2).bind fun stride =>
    (doWhile (vaVector32 o stride im) (fun s => decide (s.cnt ≥ 4)) (r2 + 1) s).bind (rest StC.cnt (vaScalar32 o im) (r2 + 1))

/-- Registers of the NEON part of `VMaxF32`: q4, q5, position, counter. -/
structure StN (F : Type) where
  q4 : Nat → F
  q5 : Nat → F
  src : Nat
  cnt : Nat

/-- `vmaxf32_neon_loop`, dsp/math32_arm.s:291-298. -/
def vmNeon32 (maxN : F → F → F) (im : Nat → F) (s : StN F) : Option (StN F) :=
  let q1 : Nat → F := fun k => im (s.src + k)
  let q2 : Nat → F := fun k => im (s.src + 4 + k)
  some ⟨fun k => maxN (s.q4 k) (q1 k), fun k => maxN (s.q5 k) (q2 k), s.src + 8, s.cnt - 8⟩

/-- dsp/math32_arm.s:300-302: the maximum over the lanes, left in s8 (`F4`). -/
def vmFold32 (maxN : F → F → F) (s : StN F) : F :=
  let q0 : Nat → F := fun k => maxN (s.q4 k) (s.q5 k)
  let d4 : Nat → F := fun k => if k = 0 then maxN (q0 0) (q0 1) else maxN (q0 2) (q0 3)
  maxN (d4 0) (d4 1)

/-- `F4`, position and counter. -/
structure StF (F : Type) where
  f4 : F
  src : Nat
  cnt : Nat

/-- `vcmpe` and `vmovgt`: the new value if it is greater. -/
def takeGt (gt : F → F → Bool) (f4 v : F) : F := if gt v f4 then v else f4

/-- `vmaxf32_batch_loop`, dsp/math32_arm.s:314-332. -/
def vmBatch32 (gt : F → F → Bool) (im : Nat → F) (s : StF F) : Option (StF F) :=
  let f4 := takeGt gt s.f4 (im s.src)
  let f4 := takeGt gt f4 (im (s.src + 1))
  let f4 := takeGt gt f4 (im (s.src + 2))
  let f4 := takeGt gt f4 (im (s.src + 3))
  some ⟨f4, s.src + 4, s.cnt - 4⟩

/-- `vmaxf32_scalar_loop`, dsp/math32_arm.s:338-348. -/
def vmScalar32 (gt : F → F → Bool) (im : Nat → F) (s : StF F) : Option (StF F) :=
  some ⟨takeGt gt s.f4 (im s.src), s.src + 1, s.cnt - 1⟩

/-- `VMaxF32`, dsp/math32_arm.s:271-352; `init` is −∞ (line 275). -/
def vmaxF32Arm (gt : F → F → Bool) (maxN : F → F → F) (init : F) (neon : Bool) (n : Nat) (im : Nat → F) : Option F :=
  if n = 0 then some init
  else if neon = true ∧ ¬ n < 16 then
    (doWhile (vmNeon32 maxN im) (fun s => decide (s.cnt ≥ 8)) (n + 1) ⟨fun k => im k, fun k => im (4 + k), 8, n - 8⟩).bind fun s =>
      (rest StF.cnt (vmScalar32 gt im) (n + 1) ⟨vmFold32 maxN s, s.src, s.cnt⟩).map StF.f4
  else if n < 4 then (doWhile (vmScalar32 gt im) (fun s => decide (s.cnt ≠ 0)) (n + 1) ⟨init, 0, n⟩).map StF.f4
  else ((doWhile (vmBatch32 gt im) (fun s => decide (s.cnt ≥ 4)) (n + 1) ⟨init, 0, n⟩).bind
    (rest StF.cnt (vmScalar32 gt im) (n + 1))).map StF.f4

open Verif.Fp in
/-- Flush to zero: NEON takes a subnormal operand as a zero of its sign. -/
def flush : Val → Val
  | .fin s q => if q < 2 ^ (-126 : ℤ) then .fin s 0 else .fin s q
  | v => v

open Verif.Fp in
/-- `vmul.f32` of NEON: a product below the least normal number, before rounding, is flushed too. -/
def neonMul (a b : Val) : Val :=
  match flush a, flush b with
  | .fin s q, .fin t r => if q * r < 2 ^ (-126 : ℤ) then .fin (s != t) 0 else round binary32 (s != t) (q * r)
  | a, b => mul binary32 a b

/-- `vmax.f32` and `vpmax.f32` of NEON, on one pair of lanes. -/
def neonMax (a b : Fp.Val) : Fp.Val := fmax (flush a) (flush b)

end Verif.Arm
