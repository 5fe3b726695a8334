import Verif.A64.A64Model

/-!
# The program of dsp/math32_arm64.s

Every entry is one line of dsp/math32_arm64.s; entry 0 stands before line 1, so that the program counter is the line number.
-/

namespace Verif.A64.Math
open Verif.A64 Verif.Mach

/-- The labels and the routines jumped to in dsp/math32_arm64.s. -/
inductive Lbl
  | FastAtan2 | fastAtan2 | FastAtan2_2 | fastAtan2_2 | VScaleF32 | vscalef32_min_len | vscalef32_scaler | vscalef32_simd_loop
  | vscalef32_done | vscalef32_scaler_loop | VMulC64xF32 | vMulC64xF32 | VAbsC64 | vAbsC64 | VMaxF32 | vmaxf32_scaler | vmaxf32_simd_loop
  | vmaxf32_done | vmaxf32_loop | VMinF32 | vminf32_scaler | vminf32_simd_loop | vminf32_done | vminf32_loop
  deriving DecidableEq, Repr

/-- dsp/math32_arm64.s:1-176. -/
def prog : Prog Lbl Ins Cond :=
  [.nop, .nop, .nop, .nop, .nop, .nop,
   .label .FastAtan2,
   .j .B .fastAtan2, .nop,
   .label .FastAtan2_2,
   .j .B .fastAtan2_2, .nop,
   .label .VScaleF32,
   .ins (.op .MOVD [.fp 0, .r 0]),
   .ins (.op .MOVD [.fp 8, .r 1]),
   .ins (.op .MOVD [.fp 24, .r 2]),
   .ins (.op .MOVD [.fp 32, .r 3]),
   .ins (.op .FMOVS [.fp 48, .f 0]), .nop,
   .ins (.op .CMP [.r 3, .r 1]),
   .j .BLT .vscalef32_min_len,
   .ins (.op .MOVD [.r 3, .r 1]),
   .label .vscalef32_min_len, .nop, .nop, .nop,
   .ins (.op .CMP [.i 16, .r 1]),
   .j .BLT .vscalef32_scaler,
   .label .vscalef32_simd_loop, .nop, .nop, .nop, .nop, .nop, .nop, .nop,
   .ins (.WORD 0xf9804001), .nop, .nop, .nop,
   .ins (.WORD 0xad400801),
   .ins (.WORD 0xad411003), .nop,
   .ins (.op .ADD [.i 64, .r 0]), .nop,
   .ins (.WORD 0x4f809021),
   .ins (.WORD 0x4f809042),
   .ins (.WORD 0x4f809063),
   .ins (.WORD 0x4f809084), .nop, .nop, .nop, .nop, .nop, .nop, .nop, .nop,
   .ins (.WORD 0xad000841),
   .ins (.WORD 0xad011043), .nop,
   .ins (.op .ADD [.i 64, .r 2]), .nop,
   .ins (.op .SUB [.i 16, .r 1]),
   .ins (.op .CMP [.i 16, .r 1]),
   .j .BGE .vscalef32_simd_loop, .nop,
   .label .vscalef32_scaler,
   .ins (.op .CMP [.zr, .r 1]),
   .j .BEQ .vscalef32_done,
   .label .vscalef32_scaler_loop,
   .ins (.op .FMOVSP [.m 0 4, .f 1]),
   .ins (.op .FMULS [.f 0, .f 1, .f 1]),
   .ins (.op .FMOVSP [.f 1, .m 2 4]),
   .ins (.op .SUBS [.i 1, .r 1]),
   .j .BNE .vscalef32_scaler_loop,
   .label .vscalef32_done,
   .RET, .nop,
   .label .VMulC64xF32,
   .j .B .vMulC64xF32, .nop,
   .label .VAbsC64,
   .j .B .vAbsC64, .nop,
   .label .VMaxF32,
   .ins (.op .MOVD [.fp 0, .r 0]),
   .ins (.op .MOVD [.fp 8, .r 1]),
   .ins (.op .MOVW [.i 0xff800000, .r 2]),
   .ins (.op .FMOVS [.r 2, .f 31]), .nop, .nop, .nop, .nop,
   .ins (.op .CMP [.i 24, .r 1]),
   .j .BLT .vmaxf32_scaler, .nop, .nop,
   .ins (.WORD 0xad401c00),
   .ins (.op .ADD [.i 32, .r 0]),
   .ins (.op .SUB [.i 8, .r 1]),
   .label .vmaxf32_simd_loop, .nop, .nop,
   .ins (.WORD 0xad400801),
   .ins (.WORD 0xad411003),
   .ins (.op .ADD [.i 64, .r 0]),
   .ins (.WORD 0x4e21f400),
   .ins (.WORD 0x4e23f4e7),
   .ins (.WORD 0x4e22f400),
   .ins (.WORD 0x4e24f4e7),
   .ins (.op .SUB [.i 16, .r 1]),
   .ins (.op .CMP [.i 16, .r 1]),
   .j .BGE .vmaxf32_simd_loop,
   .ins (.WORD 0x6e30f81e),
   .ins (.WORD 0x6e30f8ff),
   .ins (.op .FMAXS [.f 31, .f 30, .f 31]), .nop,
   .label .vmaxf32_scaler,
   .ins (.op .CMP [.zr, .r 1]),
   .j .BEQ .vmaxf32_done,
   .label .vmaxf32_loop, .nop,
   .ins (.op .FMOVS [.m 0 0, .f 1]),
   .ins (.op .ADD [.i 4, .r 0]),
   .ins (.op .FMAXS [.f 31, .f 1, .f 31]),
   .ins (.op .SUBS [.i 1, .r 1]),
   .j .BNE .vmaxf32_loop,
   .label .vmaxf32_done,
   .ins (.op .FMOVS [.f 31, .fp 24]),
   .RET, .nop,
   .label .VMinF32,
   .ins (.op .MOVD [.fp 0, .r 0]),
   .ins (.op .MOVD [.fp 8, .r 1]),
   .ins (.op .MOVW [.i 0x7f800000, .r 2]),
   .ins (.op .FMOVS [.r 2, .f 31]), .nop, .nop, .nop, .nop,
   .ins (.op .CMP [.i 24, .r 1]),
   .j .BLT .vminf32_scaler, .nop, .nop,
   .ins (.WORD 0xad401c00),
   .ins (.op .ADD [.i 32, .r 0]),
   .ins (.op .SUB [.i 8, .r 1]),
   .label .vminf32_simd_loop, .nop, .nop,
   .ins (.WORD 0xad400801),
   .ins (.WORD 0xad411003),
   .ins (.op .ADD [.i 64, .r 0]),
   .ins (.WORD 0x4ea1f400),
   .ins (.WORD 0x4ea3f4e7),
   .ins (.WORD 0x4ea2f400),
   .ins (.WORD 0x4ea4f4e7),
   .ins (.op .SUB [.i 16, .r 1]),
   .ins (.op .CMP [.i 16, .r 1]),
   .j .BGE .vminf32_simd_loop,
   .ins (.WORD 0x6eb0f81e),
   .ins (.WORD 0x6eb0f8ff),
   .ins (.op .FMINS [.f 31, .f 30, .f 31]), .nop,
   .label .vminf32_scaler,
   .ins (.op .CMP [.zr, .r 1]),
   .j .BEQ .vminf32_done,
   .label .vminf32_loop, .nop,
   .ins (.op .FMOVS [.m 0 0, .f 1]),
   .ins (.op .ADD [.i 4, .r 0]),
   .ins (.op .FMINS [.f 31, .f 1, .f 31]),
   .ins (.op .SUBS [.i 1, .r 1]),
   .j .BNE .vminf32_loop,
   .label .vminf32_done,
   .ins (.op .FMOVS [.f 31, .fp 24]),
   .RET]

end Verif.A64.Math
