import Verif.X86.X86Model

/-!
# The program of dsp/conversion_avo_amd64.s

Every entry is one line of `dsp/conversion_avo_amd64.s`; entry 0 stands before line 1, so that the program counter is the line number.
-/

namespace Verif.X86.Avo

/-- The labels and routines of dsp/conversion_avo_amd64.s. -/
inductive Lbl
  | Ui8tof32
  | ui8tof32_min_len
  | ui8tof32_align
  | ui8tof32_aligned
  | ui8tof32_sse4_loop
  | ui8tof32_nosse4
  | ui8tof32_sse2_loop
  | ui8tof32_stepper
  | ui8tof32_step
  | ui8tof32_done
  deriving DecidableEq

/-- dsp/conversion_avo_amd64.s:1-6. -/
def head : Prog Lbl :=
  [.nop, .nop, .nop, .nop, .nop, .nop, .nop]

/-- dsp/conversion_avo_amd64.s:7-163. -/
def at7 : Prog Lbl :=
  [.label .Ui8tof32,
  .ins .MOVQ [.fp 0, .r .AX],
  .ins .MOVQ [.fp 8, .r .CX],
  .ins .MOVQ [.fp 24, .r .DX],
  .ins .MOVQ [.fp 32, .r .BX], .nop, .nop,
  .ins .CMPQ [.r .BX, .r .CX],
  .j .JGE .ui8tof32_min_len,
  .ins .MOVQ [.r .BX, .r .CX], .nop,
  .label .ui8tof32_min_len,
  .ins .MOVQ [.i 0x0, .r .BX], .nop, .nop,
  .ins .MOVQ [.i 0x20, .r .SI],
  .ins .CMPQ [.r .SI, .r .CX],
  .j .JGE .ui8tof32_stepper, .nop, .nop,
  .ins .MOVQ [.r .DX, .r .SI],
  .ins .ANDQ [.i 0xf, .r .SI],
  .ins .SHRQ [.i 0x2, .r .SI],
  .j .JZ .ui8tof32_aligned,
  .ins .MOVQ [.i 0x4, .r .DI],
  .ins .SUBQ [.r .SI, .r .DI], .nop,
  .label .ui8tof32_align,
  .ins .MOVBQZX [.m .AX 0, .r .SI],
  .ins .INCQ [.r .AX],
  .ins .SUBQ [.i 0x80, .r .SI],
  .ins .CVTSQ2SS [.r .SI, .x 0],
  .ins .MOVSS [.x 0, .m .DX 0],
  .ins .ADDQ [.i 0x4, .r .DX],
  .ins .INCQ [.r .BX],
  .ins .CMPQ [.r .BX, .r .DI],
  .j .JLT .ui8tof32_align, .nop,
  .label .ui8tof32_aligned,
  .ins .MOVQ [.r .CX, .r .SI],
  .ins .ANDQ [.i 0xfffffff0, .r .SI],
  .ins .CMPQ [.r .BX, .r .SI],
  .j .JGE .ui8tof32_stepper,
  .ins .CMPB [.sb .useSSE4, .i 0x1],
  .j .JNE .ui8tof32_nosse4,
  .ins .MOVL [.i 0x80808080, .r .DI],
  .ins .MOVD [.r .DI, .x 3],
  .ins .PSHUFL [.i 0x0, .x 3, .x 3], .nop,
  .label .ui8tof32_sse4_loop, .nop,
  .ins .MOVOU [.m .AX 0, .x 0], .nop, .nop,
  .ins .PSUBB [.x 3, .x 0], .nop, .nop,
  .ins .PMOVSXBD [.x 0, .x 2], .nop, .nop,
  .ins .CVTPL2PS [.x 2, .x 2],
  .ins .MOVAPS [.x 2, .m .DX 0], .nop, .nop,
  .ins .PSHUFL [.i 0x1, .x 0, .x 2],
  .ins .PMOVSXBD [.x 2, .x 2], .nop, .nop,
  .ins .CVTPL2PS [.x 2, .x 2],
  .ins .MOVAPS [.x 2, .m .DX 16], .nop, .nop,
  .ins .PSHUFL [.i 0x2, .x 0, .x 2],
  .ins .PMOVSXBD [.x 2, .x 2], .nop, .nop,
  .ins .CVTPL2PS [.x 2, .x 2],
  .ins .MOVAPS [.x 2, .m .DX 32], .nop, .nop,
  .ins .PSHUFL [.i 0x3, .x 0, .x 2],
  .ins .PMOVSXBD [.x 2, .x 2], .nop, .nop,
  .ins .CVTPL2PS [.x 2, .x 2],
  .ins .MOVAPS [.x 2, .m .DX 48],
  .ins .ADDQ [.i 0x10, .r .BX],
  .ins .ADDQ [.i 0x10, .r .AX],
  .ins .ADDQ [.i 0x40, .r .DX],
  .ins .CMPQ [.r .BX, .r .SI],
  .j .JLT .ui8tof32_sse4_loop,
  .j .JMP .ui8tof32_stepper, .nop,
  .label .ui8tof32_nosse4,
  .ins .MOVL [.i 0x80808080, .r .DI],
  .ins .MOVD [.r .DI, .x 4],
  .ins .PSHUFL [.i 0x0, .x 4, .x 4], .nop,
  .label .ui8tof32_sse2_loop, .nop,
  .ins .MOVOU [.m .AX 0, .x 0], .nop, .nop,
  .ins .PSUBB [.x 4, .x 0],
  .ins .MOVO [.x 0, .x 2], .nop, .nop,
  .ins .PUNPCKLBW [.x 2, .x 2],
  .ins .MOVO [.x 2, .x 3],
  .ins .PUNPCKLWL [.x 2, .x 2],
  .ins .PSRAL [.i 0x18, .x 2],
  .ins .CVTPL2PS [.x 2, .x 2],
  .ins .MOVAPS [.x 2, .m .DX 0], .nop, .nop,
  .ins .PUNPCKHWL [.x 3, .x 3],
  .ins .PSRAL [.i 0x18, .x 3],
  .ins .CVTPL2PS [.x 3, .x 3],
  .ins .MOVAPS [.x 3, .m .DX 16], .nop, .nop,
  .ins .PUNPCKHBW [.x 0, .x 0],
  .ins .MOVO [.x 0, .x 3],
  .ins .PUNPCKLWL [.x 0, .x 0],
  .ins .PSRAL [.i 0x18, .x 0],
  .ins .CVTPL2PS [.x 0, .x 0],
  .ins .MOVAPS [.x 0, .m .DX 32], .nop, .nop,
  .ins .PUNPCKHWL [.x 3, .x 3],
  .ins .PSRAL [.i 0x18, .x 3],
  .ins .CVTPL2PS [.x 3, .x 3],
  .ins .MOVAPS [.x 3, .m .DX 48],
  .ins .ADDQ [.i 0x10, .r .BX],
  .ins .ADDQ [.i 0x10, .r .AX],
  .ins .ADDQ [.i 0x40, .r .DX],
  .ins .CMPQ [.r .BX, .r .SI],
  .j .JLT .ui8tof32_sse2_loop, .nop, .nop,
  .label .ui8tof32_stepper,
  .ins .CMPQ [.r .BX, .r .CX],
  .j .JGE .ui8tof32_done, .nop,
  .label .ui8tof32_step,
  .ins .MOVBQZX [.m .AX 0, .r .SI],
  .ins .INCQ [.r .AX],
  .ins .SUBQ [.i 0x80, .r .SI],
  .ins .CVTSQ2SS [.r .SI, .x 1],
  .ins .MOVSS [.x 1, .m .DX 0],
  .ins .ADDQ [.i 0x4, .r .DX],
  .ins .INCQ [.r .BX],
  .ins .CMPQ [.r .BX, .r .CX],
  .j .JLT .ui8tof32_step, .nop,
  .label .ui8tof32_done,
  .RET]

/-- dsp/conversion_avo_amd64.s:1-163. -/
def prog : Prog Lbl := head ++ at7

end Verif.X86.Avo
