import Verif.X86.X86Model

/-!
# The program of dsp/math32_amd64.s

Every entry is one line of `dsp/math32_amd64.s`; entry 0 stands before line 1, so that the program counter is the line number.
-/

namespace Verif.X86.Math

/-- The labels and routines of dsp/math32_amd64.s and the routines it jumps to. -/
inductive Lbl
  | FastAtan2
  | FastAtan2_2
  | VAbsC64
  | VMaxF32
  | vmaxf32_avx2
  | vmaxf32_avx2_loop
  | vmaxf32_sse2
  | vmaxf32_sse_loop
  | vmaxf32_scalar
  | vmaxf32_scalar_loop
  | vmaxf32_not_max
  | vmaxf32_done
  | VMinF32
  | vminf32_avx2
  | vminf32_avx2_loop
  | vminf32_sse2
  | vminf32_sse_loop
  | vminf32_scalar
  | vminf32_scalar_loop
  | vminf32_not_min
  | vminf32_done
  | VMulC64xF32
  | VScaleF32
  | vscalef32_min_len
  | vscalef32_avx2
  | vscalef32_avx2_loop
  | vscalef32_sse2
  | vscalef32_sse2_loop
  | vscalef32_scalar
  | vscalef32_scalar_loop
  | vscalef32_done
  | fastAtan2
  | fastAtan2_2
  | vAbsC64
  | vMulC64xF32
  deriving DecidableEq

/-- dsp/math32_amd64.s:1-3. -/
def head : Prog Lbl :=
  [.nop, .nop, .nop, .nop]

/-- dsp/math32_amd64.s:4-6. -/
def at4 : Prog Lbl :=
  [.label .FastAtan2,
  .j .JMP .fastAtan2, .nop]

/-- dsp/math32_amd64.s:7-9. -/
def at7 : Prog Lbl :=
  [.label .FastAtan2_2,
  .j .JMP .fastAtan2_2, .nop]

/-- dsp/math32_amd64.s:10-12. -/
def at10 : Prog Lbl :=
  [.label .VAbsC64,
  .j .JMP .vAbsC64, .nop]

/-- dsp/math32_amd64.s:13-118. -/
def at13 : Prog Lbl :=
  [.label .VMaxF32,
  .ins .MOVQ [.fp 0, .r .SI],
  .ins .MOVQ [.fp 8, .r .CX], .nop,
  .ins .MOVL [.i 0xff800000, .r .AX],
  .ins .MOVL [.r .AX, .x 0], .nop,
  .ins .MOVQ [.i 0, .r .DX], .nop, .nop,
  .ins .CMPB [.sb .useAVX2, .i 1],
  .j .JE .vmaxf32_avx2, .nop,
  .ins .CMPB [.sb .useSSE2, .i 1],
  .j .JE .vmaxf32_sse2,
  .j .JMP .vmaxf32_scalar, .nop,
  .label .vmaxf32_avx2,
  .ins .MOVQ [.r .CX, .r .BX],
  .ins .ANDQ [.i (-32), .r .BX],
  .ins .CMPQ [.r .DX, .r .BX],
  .j .JGE .vmaxf32_scalar, .nop,
  .ins .VBROADCASTSS [.x 0, .y 0],
  .ins .VMOVUPS [.y 0, .y 1],
  .ins .VMOVUPS [.y 0, .y 2],
  .ins .VMOVUPS [.y 0, .y 3], .nop,
  .label .vmaxf32_avx2_loop,
  .ins .VMOVUPS [.m .SI 0, .y 4],
  .ins .VMOVUPS [.m .SI 32, .y 5],
  .ins .VMOVUPS [.m .SI 64, .y 6],
  .ins .VMOVUPS [.m .SI 96, .y 7],
  .ins .VMAXPS [.y 4, .y 0, .y 0],
  .ins .VMAXPS [.y 5, .y 1, .y 1],
  .ins .VMAXPS [.y 6, .y 2, .y 2],
  .ins .VMAXPS [.y 7, .y 3, .y 3],
  .ins .ADDQ [.i 128, .r .SI],
  .ins .ADDQ [.i 32, .r .DX],
  .ins .CMPQ [.r .DX, .r .BX],
  .j .JLT .vmaxf32_avx2_loop, .nop,
  .ins .VMAXPS [.y 1, .y 0, .y 0],
  .ins .VMAXPS [.y 2, .y 0, .y 0],
  .ins .VMAXPS [.y 3, .y 0, .y 0],
  .ins .VEXTRACTF128 [.i 1, .y 0, .x 1],
  .ins .MAXPS [.x 1, .x 0],
  .ins .MOVHLPS [.x 0, .x 1],
  .ins .MAXPS [.x 1, .x 0],
  .ins .PSHUFD [.i 0x55, .x 0, .x 1],
  .ins .MAXPS [.x 1, .x 0],
  .j .JMP .vmaxf32_scalar, .nop,
  .label .vmaxf32_sse2,
  .ins .MOVQ [.r .CX, .r .BX],
  .ins .ANDQ [.i (-16), .r .BX],
  .ins .CMPQ [.r .DX, .r .BX],
  .j .JGE .vmaxf32_scalar, .nop,
  .ins .PSHUFD [.i 0, .x 0, .x 0],
  .ins .MOVUPS [.x 0, .x 1],
  .ins .MOVUPS [.x 0, .x 2],
  .ins .MOVUPS [.x 0, .x 3], .nop,
  .label .vmaxf32_sse_loop,
  .ins .MOVUPS [.m .SI 0, .x 4],
  .ins .MOVUPS [.m .SI 16, .x 5],
  .ins .MOVUPS [.m .SI 32, .x 6],
  .ins .MOVUPS [.m .SI 48, .x 7],
  .ins .MAXPS [.x 4, .x 0],
  .ins .MAXPS [.x 5, .x 1],
  .ins .MAXPS [.x 6, .x 2],
  .ins .MAXPS [.x 7, .x 3],
  .ins .ADDQ [.i 64, .r .SI],
  .ins .ADDQ [.i 16, .r .DX],
  .ins .CMPQ [.r .DX, .r .BX],
  .j .JLT .vmaxf32_sse_loop, .nop,
  .ins .MAXPS [.x 1, .x 0],
  .ins .MAXPS [.x 2, .x 0],
  .ins .MAXPS [.x 3, .x 0],
  .ins .MOVHLPS [.x 0, .x 1],
  .ins .MAXPS [.x 1, .x 0],
  .ins .PSHUFD [.i 0x55, .x 0, .x 1],
  .ins .MAXPS [.x 1, .x 0], .nop,
  .label .vmaxf32_scalar,
  .ins .CMPQ [.r .DX, .r .CX],
  .j .JGE .vmaxf32_done, .nop,
  .label .vmaxf32_scalar_loop,
  .ins .MOVSS [.m .SI 0, .x 1],
  .ins .UCOMISS [.x 0, .x 1],
  .j .JLS .vmaxf32_not_max,
  .ins .MOVO [.x 1, .x 0], .nop,
  .label .vmaxf32_not_max,
  .ins .ADDQ [.i 4, .r .SI],
  .ins .INCQ [.r .DX],
  .ins .CMPQ [.r .DX, .r .CX],
  .j .JLT .vmaxf32_scalar_loop, .nop,
  .label .vmaxf32_done,
  .ins .MOVSS [.x 0, .fp 24],
  .RET, .nop]

/-- dsp/math32_amd64.s:119-224. -/
def at119 : Prog Lbl :=
  [.label .VMinF32,
  .ins .MOVQ [.fp 0, .r .SI],
  .ins .MOVQ [.fp 8, .r .CX], .nop,
  .ins .MOVL [.i 0x7f800000, .r .AX],
  .ins .MOVL [.r .AX, .x 0], .nop,
  .ins .MOVQ [.i 0, .r .DX], .nop, .nop,
  .ins .CMPB [.sb .useAVX2, .i 1],
  .j .JE .vminf32_avx2, .nop,
  .ins .CMPB [.sb .useSSE2, .i 1],
  .j .JE .vminf32_sse2,
  .j .JMP .vminf32_scalar, .nop,
  .label .vminf32_avx2,
  .ins .MOVQ [.r .CX, .r .BX],
  .ins .ANDQ [.i (-32), .r .BX],
  .ins .CMPQ [.r .DX, .r .BX],
  .j .JGE .vminf32_scalar, .nop,
  .ins .VBROADCASTSS [.x 0, .y 0],
  .ins .VMOVUPS [.y 0, .y 1],
  .ins .VMOVUPS [.y 0, .y 2],
  .ins .VMOVUPS [.y 0, .y 3], .nop,
  .label .vminf32_avx2_loop,
  .ins .VMOVUPS [.m .SI 0, .y 4],
  .ins .VMOVUPS [.m .SI 32, .y 5],
  .ins .VMOVUPS [.m .SI 64, .y 6],
  .ins .VMOVUPS [.m .SI 96, .y 7],
  .ins .VMINPS [.y 4, .y 0, .y 0],
  .ins .VMINPS [.y 5, .y 1, .y 1],
  .ins .VMINPS [.y 6, .y 2, .y 2],
  .ins .VMINPS [.y 7, .y 3, .y 3],
  .ins .ADDQ [.i 128, .r .SI],
  .ins .ADDQ [.i 32, .r .DX],
  .ins .CMPQ [.r .DX, .r .BX],
  .j .JLT .vminf32_avx2_loop, .nop,
  .ins .VMINPS [.y 1, .y 0, .y 0],
  .ins .VMINPS [.y 2, .y 0, .y 0],
  .ins .VMINPS [.y 3, .y 0, .y 0],
  .ins .VEXTRACTF128 [.i 1, .y 0, .x 1],
  .ins .MINPS [.x 1, .x 0],
  .ins .MOVHLPS [.x 0, .x 1],
  .ins .MINPS [.x 1, .x 0],
  .ins .PSHUFD [.i 0x55, .x 0, .x 1],
  .ins .MINPS [.x 1, .x 0],
  .j .JMP .vminf32_scalar, .nop,
  .label .vminf32_sse2,
  .ins .MOVQ [.r .CX, .r .BX],
  .ins .ANDQ [.i (-16), .r .BX],
  .ins .CMPQ [.r .DX, .r .BX],
  .j .JGE .vminf32_scalar, .nop,
  .ins .PSHUFD [.i 0, .x 0, .x 0],
  .ins .MOVUPS [.x 0, .x 1],
  .ins .MOVUPS [.x 0, .x 2],
  .ins .MOVUPS [.x 0, .x 3], .nop,
  .label .vminf32_sse_loop,
  .ins .MOVUPS [.m .SI 0, .x 4],
  .ins .MOVUPS [.m .SI 16, .x 5],
  .ins .MOVUPS [.m .SI 32, .x 6],
  .ins .MOVUPS [.m .SI 48, .x 7],
  .ins .MINPS [.x 4, .x 0],
  .ins .MINPS [.x 5, .x 1],
  .ins .MINPS [.x 6, .x 2],
  .ins .MINPS [.x 7, .x 3],
  .ins .ADDQ [.i 64, .r .SI],
  .ins .ADDQ [.i 16, .r .DX],
  .ins .CMPQ [.r .DX, .r .BX],
  .j .JLT .vminf32_sse_loop, .nop,
  .ins .MINPS [.x 1, .x 0],
  .ins .MINPS [.x 2, .x 0],
  .ins .MINPS [.x 3, .x 0],
  .ins .MOVHLPS [.x 0, .x 1],
  .ins .MINPS [.x 1, .x 0],
  .ins .PSHUFD [.i 0x55, .x 0, .x 1],
  .ins .MINPS [.x 1, .x 0], .nop,
  .label .vminf32_scalar,
  .ins .CMPQ [.r .DX, .r .CX],
  .j .JGE .vminf32_done, .nop,
  .label .vminf32_scalar_loop,
  .ins .MOVSS [.m .SI 0, .x 1],
  .ins .UCOMISS [.x 1, .x 0],
  .j .JLS .vminf32_not_min,
  .ins .MOVO [.x 1, .x 0], .nop,
  .label .vminf32_not_min,
  .ins .ADDQ [.i 4, .r .SI],
  .ins .INCQ [.r .DX],
  .ins .CMPQ [.r .DX, .r .CX],
  .j .JLT .vminf32_scalar_loop, .nop,
  .label .vminf32_done,
  .ins .MOVSS [.x 0, .fp 24],
  .RET, .nop]

/-- dsp/math32_amd64.s:225-227. -/
def at225 : Prog Lbl :=
  [.label .VMulC64xF32,
  .j .JMP .vMulC64xF32, .nop]

/-- dsp/math32_amd64.s:228-321. -/
def at228 : Prog Lbl :=
  [.label .VScaleF32,
  .ins .MOVQ [.fp 0, .r .SI],
  .ins .MOVQ [.fp 8, .r .AX],
  .ins .MOVQ [.fp 24, .r .DI],
  .ins .MOVQ [.fp 32, .r .CX],
  .ins .MOVSS [.fp 48, .x 8],
  .ins .PSHUFD [.i 0, .x 8, .x 8], .nop,
  .ins .CMPQ [.r .AX, .r .CX],
  .j .JGE .vscalef32_min_len,
  .ins .MOVQ [.r .AX, .r .CX],
  .label .vscalef32_min_len,
  .ins .MOVQ [.r .CX, .r .DX], .nop,
  .ins .MOVQ [.i 0, .r .AX], .nop, .nop,
  .ins .CMPB [.sb .useAVX2, .i 1],
  .j .JE .vscalef32_avx2, .nop,
  .ins .CMPB [.sb .useSSE2, .i 1],
  .j .JE .vscalef32_sse2,
  .j .JMP .vscalef32_scalar, .nop,
  .label .vscalef32_avx2,
  .ins .MOVQ [.r .CX, .r .DX],
  .ins .ANDQ [.i (-64), .r .CX],
  .ins .CMPQ [.r .AX, .r .CX],
  .j .JGE .vscalef32_scalar, .nop,
  .ins .VBROADCASTSS [.x 8, .y 8], .nop,
  .label .vscalef32_avx2_loop,
  .ins .VMOVUPS [.m .SI 0, .y 0],
  .ins .VMOVUPS [.m .SI 32, .y 1],
  .ins .VMOVUPS [.m .SI 64, .y 2],
  .ins .VMOVUPS [.m .SI 96, .y 3],
  .ins .VMULPS [.y 8, .y 0, .y 0],
  .ins .VMULPS [.y 8, .y 1, .y 1],
  .ins .VMULPS [.y 8, .y 2, .y 2],
  .ins .VMULPS [.y 8, .y 3, .y 3],
  .ins .VMOVUPS [.y 0, .m .DI 0],
  .ins .VMOVUPS [.y 1, .m .DI 32],
  .ins .VMOVUPS [.y 2, .m .DI 64],
  .ins .VMOVUPS [.y 3, .m .DI 96],
  .ins .ADDQ [.i 32, .r .AX],
  .ins .ADDQ [.i 128, .r .SI],
  .ins .ADDQ [.i 128, .r .DI],
  .ins .CMPQ [.r .AX, .r .CX],
  .j .JLT .vscalef32_avx2_loop, .nop,
  .j .JMP .vscalef32_scalar, .nop,
  .label .vscalef32_sse2,
  .ins .MOVQ [.r .CX, .r .DX],
  .ins .ANDQ [.i (-32), .r .CX],
  .ins .CMPQ [.r .AX, .r .CX],
  .j .JGE .vscalef32_scalar, .nop,
  .label .vscalef32_sse2_loop,
  .ins .MOVUPS [.m .SI 0, .x 0],
  .ins .MOVUPS [.m .SI 16, .x 1],
  .ins .MOVUPS [.m .SI 32, .x 2],
  .ins .MOVUPS [.m .SI 48, .x 3],
  .ins .MULPS [.x 8, .x 0],
  .ins .MULPS [.x 8, .x 1],
  .ins .MULPS [.x 8, .x 2],
  .ins .MULPS [.x 8, .x 3],
  .ins .MOVUPS [.x 0, .m .DI 0],
  .ins .MOVUPS [.x 1, .m .DI 16],
  .ins .MOVUPS [.x 2, .m .DI 32],
  .ins .MOVUPS [.x 3, .m .DI 48],
  .ins .ADDQ [.i 16, .r .AX],
  .ins .ADDQ [.i 64, .r .SI],
  .ins .ADDQ [.i 64, .r .DI],
  .ins .CMPQ [.r .AX, .r .CX],
  .j .JLT .vscalef32_sse2_loop, .nop,
  .label .vscalef32_scalar,
  .ins .CMPQ [.r .AX, .r .DX],
  .j .JGE .vscalef32_done, .nop,
  .label .vscalef32_scalar_loop,
  .ins .MOVSS [.m .SI 0, .x 0],
  .ins .MULSS [.x 8, .x 0],
  .ins .MOVSS [.x 0, .m .DI 0],
  .ins .INCQ [.r .AX],
  .ins .ADDQ [.i 4, .r .SI],
  .ins .ADDQ [.i 4, .r .DI],
  .ins .CMPQ [.r .AX, .r .CX],
  .j .JLT .vscalef32_scalar_loop, .nop,
  .label .vscalef32_done,
  .RET]

/-- dsp/math32_amd64.s:1-321. -/
def prog : Prog Lbl := head ++ at4 ++ at7 ++ at10 ++ at13 ++ at119 ++ at225 ++ at228

end Verif.X86.Math
