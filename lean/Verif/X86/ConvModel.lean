import Verif.X86.X86Model

/-!
# The program of dsp/conversion_amd64.s

Every entry is one line of `dsp/conversion_amd64.s`; entry 0 stands before line 1, so that the program counter is the line number.
-/

namespace Verif.X86.Conv

/-- The labels and routines of dsp/conversion_amd64.s and the routines it jumps to. -/
inductive Lbl
  | Ui8toi16
  | ui8toi16_min_length
  | ui8toi16_head_loop
  | ui8toi16_aligned
  | ui8toi16_aligned_loop
  | ui8toi16_tail
  | ui8toi16_tail_loop
  | ui8toi16_done
  | Ui8toi16b
  | ui8toi16b_unaligned
  | ui8toi16b_min_length
  | ui8toi16b_aligned_loop
  | ui8toi16b_tail
  | ui8toi16l_tail_loop
  | ui8toi16b_done
  | I8tof32
  | i8tof32_min_len
  | i8tof32_align
  | i8tof32_aligned
  | i8tof32_sse4_loop
  | i8tof32_nosse4
  | i8tof32_sse2_loop
  | i8tof32_stepper
  | i8tof32_step
  | i8tof32_done
  | Ui8toc64
  | F32toi16
  | f32toi16_min_len
  | f32toi16_loop
  | f32toi16_stepper
  | f32toi16_step
  | f32toi16_done
  | F32toi16ble
  | I16ToBLE
  | I16bleToF64
  | i16bleToF64_min_len
  | i16bleToF64_sse4_loop
  | i16bleToF64_nosse4
  | i16bleToF64_sse2_loop
  | i16bleToF64_scalar_loop
  | i16bleToF64_done
  | I16bleToF32
  | i16bleToF32_min_len
  | i16bleToF32_sse4_loop
  | i16bleToF32_nosse4
  | i16bleToF32_sse2_loop
  | i16bleToF32_scalar_loop
  | i16bleToF32_done
  | Ui8tof32
  | i16ToBLE
  deriving DecidableEq

/-- dsp/conversion_amd64.s:1-3. -/
def head : Prog Lbl :=
  [.nop, .nop, .nop, .nop]

/-- dsp/conversion_amd64.s:4-90. -/
def at4 : Prog Lbl :=
  [.label .Ui8toi16,
  .ins .MOVQ [.fp 0, .r .SI],
  .ins .MOVQ [.fp 8, .r .BX],
  .ins .MOVQ [.fp 24, .r .DI],
  .ins .MOVQ [.fp 32, .r .CX], .nop,
  .ins .CMPQ [.r .CX, .r .BX],
  .j .JGE .ui8toi16_min_length,
  .ins .MOVQ [.r .CX, .r .BX], .nop,
  .label .ui8toi16_min_length, .nop, .nop,
  .ins .MOVQ [.i 32, .r .AX],
  .ins .CMPQ [.r .AX, .r .BX],
  .j .JG .ui8toi16_tail, .nop, .nop,
  .ins .MOVQ [.r .DI, .r .CX],
  .ins .ANDQ [.i 15, .r .CX],
  .j .JZ .ui8toi16_aligned,
  .ins .MOVQ [.i 16, .r .AX],
  .ins .SUBQ [.r .CX, .r .AX],
  .ins .SHRQ [.i 1, .r .AX], .nop,
  .label .ui8toi16_head_loop,
  .ins .MOVBQZX [.m .SI 0, .r .CX],
  .ins .INCQ [.r .SI],
  .ins .SUBQ [.i 128, .r .CX],
  .ins .MOVB [.r .CX, .m .DI 0],
  .ins .INCQ [.r .DI],
  .ins .MOVB [.r .CX, .m .DI 0],
  .ins .INCQ [.r .DI],
  .ins .DECQ [.r .BX],
  .ins .DECQ [.r .AX],
  .j .JNZ .ui8toi16_head_loop, .nop,
  .label .ui8toi16_aligned,
  .ins .MOVQ [.i 0x8080808080808080, .r .AX],
  .ins .MOVQ [.r .AX, .x 8],
  .ins .PUNPCKLBW [.x 8, .x 8],
  .ins .MOVQ [.r .BX, .r .AX],
  .ins .SHRQ [.i 5, .r .AX],
  .j .JZ .ui8toi16_tail, .nop,
  .label .ui8toi16_aligned_loop,
  .ins .MOVOU [.m .SI 0, .x 0],
  .ins .MOVOU [.m .SI 16, .x 1],
  .ins .PSUBB [.x 8, .x 0],
  .ins .PSUBB [.x 8, .x 1],
  .ins .MOVO [.x 0, .x 9],
  .ins .PUNPCKLBW [.x 0, .x 0],
  .ins .PUNPCKHBW [.x 9, .x 9],
  .ins .MOVO [.x 0, .m .DI 0],
  .ins .MOVO [.x 9, .m .DI 16],
  .ins .MOVO [.x 1, .x 9],
  .ins .PUNPCKLBW [.x 1, .x 1],
  .ins .PUNPCKHBW [.x 9, .x 9],
  .ins .MOVO [.x 1, .m .DI 32],
  .ins .MOVO [.x 9, .m .DI 48],
  .ins .ADDQ [.i 32, .r .SI],
  .ins .ADDQ [.i 64, .r .DI],
  .ins .SUBQ [.i 32, .r .BX],
  .ins .DECQ [.r .AX],
  .j .JNZ .ui8toi16_aligned_loop, .nop, .nop, .nop,
  .label .ui8toi16_tail, .nop,
  .ins .ANDQ [.r .BX, .r .BX],
  .j .JZ .ui8toi16_done, .nop,
  .label .ui8toi16_tail_loop,
  .ins .MOVBQZX [.m .SI 0, .r .CX],
  .ins .INCQ [.r .SI],
  .ins .SUBQ [.i 128, .r .CX],
  .ins .MOVB [.r .CX, .m .DI 0],
  .ins .INCQ [.r .DI],
  .ins .MOVB [.r .CX, .m .DI 0],
  .ins .INCQ [.r .DI],
  .ins .DECQ [.r .BX],
  .j .JNZ .ui8toi16_tail_loop, .nop,
  .label .ui8toi16_done,
  .RET, .nop]

/-- dsp/conversion_amd64.s:91-316. -/
def at91 : Prog Lbl :=
  [.label .Ui8toi16b,
  .ins .MOVQ [.fp 32, .r .CX],
  .ins .SHRQ [.i 1, .r .CX],
  .ins .MOVQ [.fp 24, .r .DI],
  .ins .MOVQ [.r .DI, .r .AX],
  .ins .ANDQ [.i 1, .r .AX],
  .j .JNZ .ui8toi16b_unaligned, .nop, .nop,
  .ins .MOVQ [.r .CX, .fp 32],
  .j .JMP .Ui8toi16, .nop,
  .label .ui8toi16b_unaligned, .nop,
  .ins .MOVQ [.fp 0, .r .SI],
  .ins .MOVQ [.fp 8, .r .BX], .nop, .nop,
  .ins .CMPQ [.r .CX, .r .BX],
  .j .JGE .ui8toi16b_min_length,
  .ins .MOVQ [.r .CX, .r .BX], .nop,
  .label .ui8toi16b_min_length, .nop, .nop,
  .ins .MOVQ [.i 0x8080808080808080, .r .AX],
  .ins .MOVQ [.r .AX, .x 8],
  .ins .PUNPCKLBW [.x 8, .x 8],
  .ins .MOVQ [.r .BX, .r .AX],
  .ins .SHRQ [.i 5, .r .AX],
  .j .JZ .ui8toi16b_tail, .nop,
  .label .ui8toi16b_aligned_loop,
  .ins .MOVOU [.m .SI 0, .x 0],
  .ins .PSUBB [.x 8, .x 0],
  .ins .MOVOU [.m .SI 16, .x 1],
  .ins .PSUBB [.x 8, .x 1],
  .ins .MOVO [.x 0, .x 9],
  .ins .PUNPCKLBW [.x 0, .x 0],
  .ins .PUNPCKHBW [.x 9, .x 9],
  .ins .MOVOU [.x 0, .m .DI 0],
  .ins .MOVOU [.x 9, .m .DI 16],
  .ins .MOVO [.x 1, .x 9],
  .ins .PUNPCKLBW [.x 1, .x 1],
  .ins .PUNPCKHBW [.x 9, .x 9],
  .ins .MOVOU [.x 1, .m .DI 32],
  .ins .MOVOU [.x 9, .m .DI 48],
  .ins .ADDQ [.i 32, .r .SI],
  .ins .ADDQ [.i 64, .r .DI],
  .ins .SUBQ [.i 32, .r .BX],
  .ins .DECQ [.r .AX],
  .j .JNZ .ui8toi16b_aligned_loop, .nop, .nop, .nop,
  .label .ui8toi16b_tail, .nop,
  .ins .ANDQ [.r .BX, .r .BX],
  .j .JZ .ui8toi16b_done, .nop,
  .label .ui8toi16l_tail_loop,
  .ins .MOVBQZX [.m .SI 0, .r .CX],
  .ins .INCQ [.r .SI],
  .ins .SUBQ [.i 128, .r .CX],
  .ins .MOVB [.r .CX, .m .DI 0],
  .ins .INCQ [.r .DI],
  .ins .MOVB [.r .CX, .m .DI 0],
  .ins .INCQ [.r .DI],
  .ins .DECQ [.r .BX],
  .j .JNZ .ui8toi16l_tail_loop, .nop,
  .label .ui8toi16b_done,
  .RET] ++ List.replicate 153 .nop

/-- dsp/conversion_amd64.s:317-462. -/
def at317 : Prog Lbl :=
  [.label .I8tof32,
  .ins .MOVQ [.fp 0, .r .SI],
  .ins .MOVQ [.fp 8, .r .AX],
  .ins .MOVQ [.fp 24, .r .DI],
  .ins .MOVQ [.fp 32, .r .CX], .nop,
  .ins .CMPQ [.r .AX, .r .CX],
  .j .JGE .i8tof32_min_len,
  .ins .MOVQ [.r .AX, .r .CX], .nop,
  .label .i8tof32_min_len, .nop,
  .ins .MOVQ [.i 0, .r .AX], .nop, .nop,
  .ins .MOVQ [.i 32, .r .BX],
  .ins .CMPQ [.r .BX, .r .CX],
  .j .JGE .i8tof32_stepper, .nop, .nop,
  .ins .MOVQ [.r .DI, .r .BP],
  .ins .ANDQ [.i 15, .r .BP],
  .ins .SHRQ [.i 2, .r .BP],
  .j .JZ .i8tof32_aligned,
  .ins .MOVQ [.i 16, .r .DX],
  .ins .SUBQ [.r .BP, .r .DX], .nop,
  .label .i8tof32_align,
  .ins .MOVBQSX [.m .SI 0, .r .BX],
  .ins .INCQ [.r .SI],
  .ins .CVTSQ2SS [.r .BX, .x 0],
  .ins .MOVSS [.x 0, .m .DI 0],
  .ins .ADDQ [.i 4, .r .DI],
  .ins .INCQ [.r .AX],
  .ins .DECQ [.r .DX],
  .j .JNZ .i8tof32_align, .nop,
  .label .i8tof32_aligned, .nop,
  .ins .MOVQ [.r .CX, .r .DX],
  .ins .ANDQ [.i (-16), .r .DX],
  .ins .CMPQ [.r .AX, .r .DX],
  .j .JGE .i8tof32_stepper, .nop, .nop,
  .ins .CMPB [.sb .useSSE4, .i 1],
  .j .JNE .i8tof32_nosse4, .nop,
  .ins .MOVQ [.i 0, .r .BP],
  .ins .MOVQ [.r .BP, .x 9], .nop,
  .label .i8tof32_sse4_loop,
  .ins .MOVOU [.m .SI 0, .x 0], .nop, .nop,
  .ins .PMOVSXBD [.x 0, .x 2],
  .ins .CVTPL2PS [.x 2, .x 2],
  .ins .MOVAPS [.x 2, .m .DI 0], .nop, .nop,
  .ins .PSHUFL [.i 1, .x 0, .x 2],
  .ins .PMOVSXBD [.x 2, .x 2],
  .ins .CVTPL2PS [.x 2, .x 2],
  .ins .MOVAPS [.x 2, .m .DI 16], .nop, .nop,
  .ins .PSHUFL [.i 2, .x 0, .x 2],
  .ins .PMOVSXBD [.x 2, .x 2],
  .ins .CVTPL2PS [.x 2, .x 2],
  .ins .MOVAPS [.x 2, .m .DI 32], .nop, .nop,
  .ins .PSHUFL [.i 3, .x 0, .x 2],
  .ins .PMOVSXBD [.x 2, .x 2],
  .ins .CVTPL2PS [.x 2, .x 2],
  .ins .MOVAPS [.x 2, .m .DI 48], .nop,
  .ins .ADDQ [.i 16, .r .AX],
  .ins .ADDQ [.i 16, .r .SI],
  .ins .ADDQ [.i 64, .r .DI],
  .ins .CMPQ [.r .AX, .r .DX],
  .j .JLT .i8tof32_sse4_loop,
  .j .JMP .i8tof32_stepper, .nop,
  .label .i8tof32_nosse4,
  .ins .MOVQ [.i 0, .r .BP],
  .ins .MOVQ [.r .BP, .x 9], .nop,
  .label .i8tof32_sse2_loop,
  .ins .MOVOU [.m .SI 0, .x 0],
  .ins .MOVO [.x 0, .x 1], .nop, .nop,
  .ins .PUNPCKLBW [.x 1, .x 1],
  .ins .MOVO [.x 1, .x 2],
  .ins .PUNPCKLWL [.x 1, .x 1],
  .ins .PSRAL [.i 24, .x 1],
  .ins .CVTPL2PS [.x 1, .x 1],
  .ins .MOVAPS [.x 1, .m .DI 0], .nop, .nop,
  .ins .PUNPCKHWL [.x 2, .x 2],
  .ins .PSRAL [.i 24, .x 2],
  .ins .CVTPL2PS [.x 2, .x 2],
  .ins .MOVAPS [.x 2, .m .DI 16], .nop, .nop,
  .ins .PUNPCKHBW [.x 0, .x 0],
  .ins .MOVO [.x 0, .x 2],
  .ins .PUNPCKLWL [.x 0, .x 0],
  .ins .PSRAL [.i 24, .x 0],
  .ins .CVTPL2PS [.x 0, .x 0],
  .ins .MOVAPS [.x 0, .m .DI 32], .nop, .nop,
  .ins .PUNPCKHWL [.x 2, .x 2],
  .ins .PSRAL [.i 24, .x 2],
  .ins .CVTPL2PS [.x 2, .x 2],
  .ins .MOVAPS [.x 2, .m .DI 48], .nop,
  .ins .ADDQ [.i 16, .r .AX],
  .ins .ADDQ [.i 16, .r .SI],
  .ins .ADDQ [.i 64, .r .DI],
  .ins .CMPQ [.r .AX, .r .DX],
  .j .JLT .i8tof32_sse2_loop, .nop, .nop, .nop,
  .label .i8tof32_stepper,
  .ins .CMPQ [.r .AX, .r .CX],
  .j .JGE .i8tof32_done, .nop,
  .label .i8tof32_step,
  .ins .MOVBQSX [.m .SI 0, .r .BX],
  .ins .INCQ [.r .SI],
  .ins .CVTSQ2SS [.r .BX, .x 0],
  .ins .MOVSS [.x 0, .m .DI 0],
  .ins .ADDQ [.i 4, .r .DI],
  .ins .INCQ [.r .AX],
  .ins .CMPQ [.r .AX, .r .CX],
  .j .JLT .i8tof32_step, .nop,
  .label .i8tof32_done,
  .RET, .nop, .nop]

/-- dsp/conversion_amd64.s:463-471. -/
def at463 : Prog Lbl :=
  [.label .Ui8toc64,
  .ins .MOVQ [.fp 8, .r .AX],
  .ins .ANDQ [.i (-2), .r .AX],
  .ins .MOVQ [.r .AX, .fp 8],
  .ins .MOVQ [.fp 32, .r .CX],
  .ins .SHLQ [.i 1, .r .CX],
  .ins .MOVQ [.r .CX, .fp 32],
  .j .JMP .Ui8tof32, .nop]

/-- dsp/conversion_amd64.s:472-533. -/
def at472 : Prog Lbl :=
  [.label .F32toi16,
  .ins .MOVQ [.fp 0, .r .SI],
  .ins .MOVQ [.fp 8, .r .AX],
  .ins .MOVQ [.fp 24, .r .DI],
  .ins .MOVQ [.fp 32, .r .CX],
  .ins .MOVSS [.fp 48, .x 8],
  .ins .PSHUFD [.i 0, .x 8, .x 8], .nop,
  .ins .CMPQ [.r .AX, .r .CX],
  .j .JGE .f32toi16_min_len,
  .ins .MOVQ [.r .AX, .r .CX], .nop,
  .label .f32toi16_min_len, .nop,
  .ins .MOVQ [.r .CX, .r .DX],
  .ins .ANDQ [.i (-32), .r .CX], .nop,
  .ins .MOVQ [.i 0, .r .AX],
  .ins .CMPQ [.r .AX, .r .CX],
  .j .JGE .f32toi16_stepper, .nop,
  .label .f32toi16_loop,
  .ins .MOVUPS [.m .SI 0, .x 0],
  .ins .MOVUPS [.m .SI 16, .x 1],
  .ins .MOVUPS [.m .SI 32, .x 2],
  .ins .MOVUPS [.m .SI 48, .x 3],
  .ins .LEAQ [.ix .DI .AX 2, .r .BX],
  .ins .MULPS [.x 8, .x 0],
  .ins .MULPS [.x 8, .x 1],
  .ins .MULPS [.x 8, .x 2],
  .ins .MULPS [.x 8, .x 3],
  .ins .CVTTPS2PL [.x 0, .x 0],
  .ins .CVTTPS2PL [.x 1, .x 1],
  .ins .CVTTPS2PL [.x 2, .x 2],
  .ins .CVTTPS2PL [.x 3, .x 3],
  .ins .PACKSSLW [.x 1, .x 0],
  .ins .PACKSSLW [.x 3, .x 2],
  .ins .MOVOU [.x 0, .m .BX 0],
  .ins .MOVOU [.x 2, .m .BX 16],
  .ins .ADDQ [.i 64, .r .SI],
  .ins .ADDQ [.i 16, .r .AX],
  .ins .CMPQ [.r .AX, .r .CX],
  .j .JLT .f32toi16_loop, .nop,
  .label .f32toi16_stepper,
  .ins .CMPQ [.r .AX, .r .DX],
  .j .JGE .f32toi16_done, .nop,
  .label .f32toi16_step,
  .ins .MOVSS [.m .SI 0, .x 0],
  .ins .LEAQ [.ix .DI .AX 2, .r .BX],
  .ins .MULSS [.x 8, .x 0],
  .ins .CVTTSS2SL [.x 0, .r .BP],
  .ins .MOVW [.r .BP, .m .BX 0],
  .ins .ADDQ [.i 4, .r .SI],
  .ins .INCQ [.r .AX],
  .ins .CMPQ [.r .AX, .r .DX],
  .j .JLT .f32toi16_step, .nop,
  .label .f32toi16_done,
  .RET, .nop]

/-- dsp/conversion_amd64.s:534-539. -/
def at534 : Prog Lbl :=
  [.label .F32toi16ble,
  .ins .MOVQ [.fp 32, .r .AX],
  .ins .SHRQ [.i 1, .r .AX],
  .ins .MOVQ [.r .AX, .fp 32],
  .j .JMP .F32toi16, .nop]

/-- dsp/conversion_amd64.s:540-542. -/
def at540 : Prog Lbl :=
  [.label .I16ToBLE,
  .j .JMP .i16ToBLE, .nop]

/-- dsp/conversion_amd64.s:543-632. -/
def at543 : Prog Lbl :=
  [.label .I16bleToF64,
  .ins .MOVQ [.fp 0, .r .SI],
  .ins .MOVQ [.fp 8, .r .CX],
  .ins .MOVQ [.fp 24, .r .DI],
  .ins .MOVQ [.fp 32, .r .AX], .nop, .nop,
  .ins .MOVQ [.fp 48, .x 0],
  .ins .MOVHPS [.x 0, .x 0], .nop,
  .ins .SARQ [.i 1, .r .CX],
  .ins .CMPQ [.r .CX, .r .AX],
  .j .JLT .i16bleToF64_min_len,
  .ins .MOVQ [.r .AX, .r .CX], .nop,
  .label .i16bleToF64_min_len, .nop, .nop,
  .ins .MOVQ [.i 0, .r .BX],
  .ins .MOVQ [.r .CX, .r .DX], .nop, .nop,
  .ins .CMPB [.sb .useSSE4, .i 1],
  .j .JNE .i16bleToF64_nosse4, .nop,
  .ins .ANDQ [.i (-8), .r .DX], .nop,
  .label .i16bleToF64_sse4_loop,
  .ins .CMPQ [.r .BX, .r .DX],
  .j .JGE .i16bleToF64_scalar_loop,
  .ins .MOVOU [.m .SI 0, .x 1],
  .ins .PMOVSXWD [.x 1, .x 2],
  .ins .CVTPL2PD [.x 2, .x 3],
  .ins .MOVHLPS [.x 2, .x 2],
  .ins .CVTPL2PD [.x 2, .x 2],
  .ins .MOVHLPS [.x 1, .x 1],
  .ins .PMOVSXWD [.x 1, .x 4],
  .ins .CVTPL2PD [.x 4, .x 5],
  .ins .MOVHLPS [.x 4, .x 4],
  .ins .CVTPL2PD [.x 4, .x 4],
  .ins .MULPD [.x 0, .x 3],
  .ins .MULPD [.x 0, .x 2],
  .ins .MULPD [.x 0, .x 4],
  .ins .MULPD [.x 0, .x 5],
  .ins .MOVUPD [.x 3, .m .DI 0],
  .ins .MOVUPD [.x 2, .m .DI 16],
  .ins .MOVUPD [.x 5, .m .DI 32],
  .ins .MOVUPD [.x 4, .m .DI 48],
  .ins .ADDQ [.i 16, .r .SI],
  .ins .ADDQ [.i 64, .r .DI],
  .ins .ADDQ [.i 8, .r .BX],
  .j .JMP .i16bleToF64_sse4_loop, .nop,
  .label .i16bleToF64_nosse4,
  .ins .ANDQ [.i (-4), .r .DX], .nop,
  .label .i16bleToF64_sse2_loop,
  .ins .CMPQ [.r .BX, .r .DX],
  .j .JGE .i16bleToF64_scalar_loop,
  .ins .MOVQ [.m .SI 0, .x 1],
  .ins .PUNPCKLWL [.x 1, .x 1],
  .ins .PSRAL [.i 16, .x 1],
  .ins .CVTPL2PD [.x 1, .x 3],
  .ins .MOVHLPS [.x 1, .x 1],
  .ins .CVTPL2PD [.x 1, .x 1],
  .ins .MULPD [.x 0, .x 3],
  .ins .MULPD [.x 0, .x 1],
  .ins .MOVUPD [.x 3, .m .DI 0],
  .ins .MOVUPD [.x 1, .m .DI 16],
  .ins .ADDQ [.i 8, .r .SI],
  .ins .ADDQ [.i 32, .r .DI],
  .ins .ADDQ [.i 4, .r .BX],
  .j .JMP .i16bleToF64_sse2_loop, .nop,
  .label .i16bleToF64_scalar_loop,
  .ins .CMPQ [.r .BX, .r .CX],
  .j .JGE .i16bleToF64_done,
  .ins .MOVWLSX [.m .SI 0, .r .DX],
  .ins .XORPS [.x 1, .x 1],
  .ins .CVTSL2SD [.r .DX, .x 1],
  .ins .MULSD [.x 0, .x 1],
  .ins .MOVSD [.x 1, .m .DI 0],
  .ins .ADDQ [.i 2, .r .SI],
  .ins .ADDQ [.i 8, .r .DI],
  .ins .INCQ [.r .BX],
  .j .JMP .i16bleToF64_scalar_loop, .nop,
  .label .i16bleToF64_done,
  .RET, .nop]

/-- dsp/conversion_amd64.s:633-714. -/
def at633 : Prog Lbl :=
  [.label .I16bleToF32,
  .ins .MOVQ [.fp 0, .r .SI],
  .ins .MOVQ [.fp 8, .r .CX],
  .ins .MOVQ [.fp 24, .r .DI],
  .ins .MOVQ [.fp 32, .r .AX],
  .ins .MOVSS [.fp 48, .x 0],
  .ins .PSHUFD [.i 0, .x 0, .x 0], .nop,
  .ins .SARQ [.i 1, .r .CX],
  .ins .CMPQ [.r .CX, .r .AX],
  .j .JLT .i16bleToF32_min_len,
  .ins .MOVQ [.r .AX, .r .CX], .nop,
  .label .i16bleToF32_min_len, .nop, .nop,
  .ins .MOVQ [.i 0, .r .BX],
  .ins .MOVQ [.r .CX, .r .DX], .nop, .nop,
  .ins .CMPB [.sb .useSSE4, .i 1],
  .j .JNE .i16bleToF32_nosse4, .nop,
  .ins .ANDQ [.i (-8), .r .DX], .nop,
  .label .i16bleToF32_sse4_loop,
  .ins .CMPQ [.r .BX, .r .DX],
  .j .JGE .i16bleToF32_scalar_loop,
  .ins .MOVOU [.m .SI 0, .x 1],
  .ins .PMOVSXWD [.x 1, .x 2],
  .ins .CVTPL2PS [.x 2, .x 2],
  .ins .MOVHLPS [.x 1, .x 1],
  .ins .PMOVSXWD [.x 1, .x 1],
  .ins .CVTPL2PS [.x 1, .x 1],
  .ins .MULPS [.x 0, .x 2],
  .ins .MULPS [.x 0, .x 1],
  .ins .MOVUPS [.x 2, .m .DI 0],
  .ins .MOVUPS [.x 1, .m .DI 16],
  .ins .ADDQ [.i 16, .r .SI],
  .ins .ADDQ [.i 32, .r .DI],
  .ins .ADDQ [.i 8, .r .BX],
  .j .JMP .i16bleToF32_sse4_loop, .nop,
  .label .i16bleToF32_nosse4,
  .ins .ANDQ [.i (-8), .r .DX], .nop,
  .label .i16bleToF32_sse2_loop,
  .ins .CMPQ [.r .BX, .r .DX],
  .j .JGE .i16bleToF32_scalar_loop,
  .ins .MOVOU [.m .SI 0, .x 2],
  .ins .MOVO [.x 2, .x 1],
  .ins .PUNPCKLWL [.x 1, .x 1],
  .ins .PSRAL [.i 16, .x 1],
  .ins .CVTPL2PS [.x 1, .x 1],
  .ins .MOVHLPS [.x 2, .x 2],
  .ins .PUNPCKLWL [.x 2, .x 2],
  .ins .PSRAL [.i 16, .x 2],
  .ins .CVTPL2PS [.x 2, .x 2],
  .ins .MULPS [.x 0, .x 1],
  .ins .MULPS [.x 0, .x 2],
  .ins .MOVUPS [.x 1, .m .DI 0],
  .ins .MOVUPS [.x 2, .m .DI 16],
  .ins .ADDQ [.i 16, .r .SI],
  .ins .ADDQ [.i 32, .r .DI],
  .ins .ADDQ [.i 8, .r .BX],
  .j .JMP .i16bleToF32_sse2_loop, .nop,
  .label .i16bleToF32_scalar_loop,
  .ins .CMPQ [.r .BX, .r .CX],
  .j .JGE .i16bleToF32_done,
  .ins .MOVWLSX [.m .SI 0, .r .DX],
  .ins .XORPS [.x 1, .x 1],
  .ins .CVTSL2SS [.r .DX, .x 1],
  .ins .MULSS [.x 0, .x 1],
  .ins .MOVSS [.x 1, .m .DI 0],
  .ins .ADDQ [.i 2, .r .SI],
  .ins .ADDQ [.i 4, .r .DI],
  .ins .INCQ [.r .BX],
  .j .JMP .i16bleToF32_scalar_loop, .nop,
  .label .i16bleToF32_done,
  .RET]

/-- dsp/conversion_amd64.s:1-714. -/
def prog : Prog Lbl := head ++ at4 ++ at91 ++ at317 ++ at463 ++ at472 ++ at534 ++ at540 ++ at543 ++ at633

end Verif.X86.Conv
