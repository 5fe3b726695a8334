import Verif.X86.AvoModel

/-!
# The generator of dsp/conversion_avo_amd64.s

`dsp/conversion_avo_amd64.go` is a program that writes `dsp/conversion_avo_amd64.s`. It calls the library avo: every call `MOVQ(a, b)`,
`Label(..)` … appends one line, every call `GP64()`, `GP32()`, `XMM()` makes a new virtual register. Here the calls are steps of a state
monad; virtual registers are numbered in the order in which they are made, general and vector registers apart.

Not modelled: the source of avo (it is not in the repository); comments, blank lines and the header; the choice of the physical
registers, which is part of what is proved about the checked-in file.
-/

namespace Verif.X86.Gen
open Verif.X86.Avo

/-- A line with virtual registers. -/
abbrev VLine := Line Lbl Nat Nat

/-- The state of the generator: the number of general and vector registers made so far and the lines, the last first. -/
structure GSt where
  gp : Nat
  xm : Nat
  out : List VLine

/-- A step of the generator. -/
abbrev G := StateM GSt

/-- `GP64()`, `GP32()`. -/
def GP : G Nat := fun s => (s.gp, { s with gp := s.gp + 1 })

/-- `XMM()`. -/
def XMM : G Nat := fun s => (s.xm, { s with xm := s.xm + 1 })

/-- Append a line. -/
def emit (l : VLine) : G Unit := fun s => ((), { s with out := l :: s.out })

/-- An instruction. -/
def ins (mn : Mn) (ops : List (Op Nat Nat)) : G Unit := emit (.ins mn ops)

/-- The parameters of `func(input []byte, output []float32)`; a slice takes 24 bytes (base, length, capacity). -/
inductive Param | input | output

/-- The offset of a parameter in the frame. -/
def Param.off : Param → Nat
  | .input => 0
  | .output => 24

/-- `Load(Param(p).Base(), GP64())`. -/
def loadBase (p : Param) : G Nat := do
  let r ← GP
  ins .MOVQ [.fp p.off, .r r]
  return r

/-- `Load(Param(p).Len(), GP64())`. -/
def loadLen (p : Param) : G Nat := do
  let r ← GP
  ins .MOVQ [.fp (p.off + 8), .r r]
  return r

/-- dsp/conversion_avo_amd64.go:80-93. -/
def ui8tof32Step (inputPtr outputPtr index maxIndex : Nat) (label : Lbl) : G Unit := do
  emit (.label label)
  let x0 ← XMM
  let t64 ← GP
  ins .MOVBQZX [.m inputPtr 0, .r t64]
  ins .INCQ [.r inputPtr]
  ins .SUBQ [.i 128, .r t64]
  ins .CVTSQ2SS [.r t64, .x x0]
  ins .MOVSS [.x x0, .m outputPtr 0]
  ins .ADDQ [.i 4, .r outputPtr]
  ins .INCQ [.r index]
  ins .CMPQ [.r index, .r maxIndex]
  emit (.j .JLT label)

/-- dsp/conversion_avo_amd64.go:95-143. -/
def ui8tof32SSE4 (inputPtr outputPtr index maxIndex : Nat) : G Unit := do
  let t32 ← GP
  let x0 ← XMM
  let x1 ← XMM
  let toSub ← XMM
  ins .MOVL [.i 0x80808080, .r t32]
  ins .MOVD [.r t32, .x toSub]
  ins .PSHUFL [.i 0, .x toSub, .x toSub]
  emit (.label .ui8tof32_sse4_loop)
  ins .MOVOU [.m inputPtr 0, .x x0]
  ins .PSUBB [.x toSub, .x x0]
  ins .PMOVSXBD [.x x0, .x x1]
  ins .CVTPL2PS [.x x1, .x x1]
  ins .MOVAPS [.x x1, .m outputPtr 0]
  ins .PSHUFL [.i 1, .x x0, .x x1]
  ins .PMOVSXBD [.x x1, .x x1]
  ins .CVTPL2PS [.x x1, .x x1]
  ins .MOVAPS [.x x1, .m outputPtr 16]
  ins .PSHUFL [.i 2, .x x0, .x x1]
  ins .PMOVSXBD [.x x1, .x x1]
  ins .CVTPL2PS [.x x1, .x x1]
  ins .MOVAPS [.x x1, .m outputPtr 32]
  ins .PSHUFL [.i 3, .x x0, .x x1]
  ins .PMOVSXBD [.x x1, .x x1]
  ins .CVTPL2PS [.x x1, .x x1]
  ins .MOVAPS [.x x1, .m outputPtr 48]
  ins .ADDQ [.i 16, .r index]
  ins .ADDQ [.i 16, .r inputPtr]
  ins .ADDQ [.i 64, .r outputPtr]
  ins .CMPQ [.r index, .r maxIndex]
  emit (.j .JLT .ui8tof32_sse4_loop)

/-- dsp/conversion_avo_amd64.go:145-196. -/
def ui8tof32SSE2 (inputPtr outputPtr index maxIndex : Nat) : G Unit := do
  let t32 ← GP
  let x0 ← XMM
  let x1 ← XMM
  let x2 ← XMM
  let toSub ← XMM
  ins .MOVL [.i 0x80808080, .r t32]
  ins .MOVD [.r t32, .x toSub]
  ins .PSHUFL [.i 0, .x toSub, .x toSub]
  emit (.label .ui8tof32_sse2_loop)
  ins .MOVOU [.m inputPtr 0, .x x0]
  ins .PSUBB [.x toSub, .x x0]
  ins .MOVO [.x x0, .x x1]
  ins .PUNPCKLBW [.x x1, .x x1]
  ins .MOVO [.x x1, .x x2]
  ins .PUNPCKLWL [.x x1, .x x1]
  ins .PSRAL [.i 24, .x x1]
  ins .CVTPL2PS [.x x1, .x x1]
  ins .MOVAPS [.x x1, .m outputPtr 0]
  ins .PUNPCKHWL [.x x2, .x x2]
  ins .PSRAL [.i 24, .x x2]
  ins .CVTPL2PS [.x x2, .x x2]
  ins .MOVAPS [.x x2, .m outputPtr 16]
  ins .PUNPCKHBW [.x x0, .x x0]
  ins .MOVO [.x x0, .x x2]
  ins .PUNPCKLWL [.x x0, .x x0]
  ins .PSRAL [.i 24, .x x0]
  ins .CVTPL2PS [.x x0, .x x0]
  ins .MOVAPS [.x x0, .m outputPtr 32]
  ins .PUNPCKHWL [.x x2, .x x2]
  ins .PSRAL [.i 24, .x x2]
  ins .CVTPL2PS [.x x2, .x x2]
  ins .MOVAPS [.x x2, .m outputPtr 48]
  ins .ADDQ [.i 16, .r index]
  ins .ADDQ [.i 16, .r inputPtr]
  ins .ADDQ [.i 64, .r outputPtr]
  ins .CMPQ [.r index, .r maxIndex]
  emit (.j .JLT .ui8tof32_sse2_loop)

/-- dsp/conversion_avo_amd64.go:12-78. `U32(^uint32(15))` is 0xfffffff0. -/
def main : G Unit := do
  emit (.label .Ui8tof32)
  let inputPtr ← loadBase .input
  let inputLen ← loadLen .input
  let outputPtr ← loadBase .output
  let outputLen ← loadLen .output
  ins .CMPQ [.r outputLen, .r inputLen]
  emit (.j .JGE .ui8tof32_min_len)
  ins .MOVQ [.r outputLen, .r inputLen]
  emit (.label .ui8tof32_min_len)
  let index ← GP
  ins .MOVQ [.i 0, .r index]
  let t64 ← GP
  ins .MOVQ [.i 32, .r t64]
  ins .CMPQ [.r t64, .r inputLen]
  emit (.j .JGE .ui8tof32_stepper)
  ins .MOVQ [.r outputPtr, .r t64]
  ins .ANDQ [.i 0xf, .r t64]
  ins .SHRQ [.i 2, .r t64]
  emit (.j .JZ .ui8tof32_aligned)
  let t2 ← GP
  ins .MOVQ [.i 4, .r t2]
  ins .SUBQ [.r t64, .r t2]
  ui8tof32Step inputPtr outputPtr index t2 .ui8tof32_align
  emit (.label .ui8tof32_aligned)
  let n ← GP
  ins .MOVQ [.r inputLen, .r n]
  ins .ANDQ [.i ((2 : Int) ^ 32 - 1 - 15), .r n]
  ins .CMPQ [.r index, .r n]
  emit (.j .JGE .ui8tof32_stepper)
  ins .CMPB [.sb .useSSE4, .i 1]
  emit (.j .JNE .ui8tof32_nosse4)
  ui8tof32SSE4 inputPtr outputPtr index n
  emit (.j .JMP .ui8tof32_stepper)
  emit (.label .ui8tof32_nosse4)
  ui8tof32SSE2 inputPtr outputPtr index n
  emit (.label .ui8tof32_stepper)
  ins .CMPQ [.r index, .r inputLen]
  emit (.j .JGE .ui8tof32_done)
  ui8tof32Step inputPtr outputPtr index inputLen .ui8tof32_step
  emit (.label .ui8tof32_done)
  emit .RET

/-- The lines that the generator writes, with virtual registers. -/
def lines : List VLine := ((main ⟨0, 0, []⟩).2.out).reverse

end Verif.X86.Gen
