import Verif.A64.A64Model

/-!
# The program of dsp/conversion_arm64.s

Every entry is one line of dsp/conversion_arm64.s; entry 0 stands before line 1, so that the program counter is the line number.
-/

namespace Verif.A64.Conv
open Verif.A64 Verif.Mach

/-- The labels and the routines jumped to in dsp/conversion_arm64.s. -/
inductive Lbl
  | Ui8toi16 | ui8toi16 | Ui8toi16b | ui8toi16b | Ui8tof32 | ui8tof32_min_len | ui8tof32_scalar | ui8tof32_simd_loop | ui8tof32_done
  | ui8tof32_scalar_loop | I8tof32 | i8tof32 | Ui8toc64 | ui8toc64 | F32toi16 | f32toi16 | F32toi16ble | f32toi16ble | I16bleToF64
  | i16bleToF64 | I16bleToF32 | i16bleToF32
  deriving DecidableEq, Repr

/-- dsp/conversion_arm64.s:1-99. -/
def prog : Prog Lbl Ins Cond :=
  [.nop, .nop, .nop,
   .label .Ui8toi16,
   .j .B .ui8toi16, .nop,
   .label .Ui8toi16b,
   .j .B .ui8toi16b, .nop,
   .label .Ui8tof32,
   .ins (.op .MOVD [.fp 0, .r 0]),
   .ins (.op .MOVD [.fp 8, .r 1]),
   .ins (.op .MOVD [.fp 24, .r 2]),
   .ins (.op .MOVD [.fp 32, .r 3]), .nop,
   .ins (.op .CMP [.r 3, .r 1]),
   .j .BLT .ui8tof32_min_len,
   .ins (.op .MOVD [.r 3, .r 1]),
   .label .ui8tof32_min_len, .nop, .nop, .nop,
   .ins (.op .MOVW [.i 128, .r 3]),
   .ins (.WORD 0x4e010c60), .nop,
   .ins (.op .CMP [.i 32, .r 1]),
   .j .BLT .ui8tof32_scalar, .nop,
   .label .ui8tof32_simd_loop,
   .ins (.WORD 0xad400801),
   .ins (.op .ADD [.i 32, .r 0]),
   .ins (.WORD 0x6e208421),
   .ins (.WORD 0x6e208442),
   .ins (.WORD 0xf9804001),
   .ins (.WORD 0x0f08a42a),
   .ins (.WORD 0x4f08a42b),
   .ins (.WORD 0x0f08a44c),
   .ins (.WORD 0x4f08a44d),
   .ins (.WORD 0x0f10a554),
   .ins (.WORD 0x4f10a555),
   .ins (.WORD 0x0f10a576),
   .ins (.WORD 0x4f10a577),
   .ins (.WORD 0x0f10a598),
   .ins (.WORD 0x4f10a599),
   .ins (.WORD 0x0f10a5ba),
   .ins (.WORD 0x4f10a5bb), .nop, .nop,
   .ins (.WORD 0x4e21da89),
   .ins (.WORD 0x4e21daaa),
   .ins (.WORD 0x4e21dac3),
   .ins (.WORD 0x4e21dae4), .nop,
   .ins (.WORD 0xad002849),
   .ins (.WORD 0x4e21db05),
   .ins (.WORD 0x4e21db26),
   .ins (.WORD 0xad011043),
   .ins (.WORD 0x4e21db47),
   .ins (.WORD 0x4e21db68),
   .ins (.WORD 0xad021845), .nop,
   .ins (.op .ADD [.i 128, .r 2]),
   .ins (.op .SUB [.i 32, .r 1]),
   .ins (.WORD 0xad3f2047),
   .ins (.op .CMP [.i 32, .r 1]),
   .j .BGE .ui8tof32_simd_loop, .nop,
   .label .ui8tof32_scalar,
   .ins (.op .CMP [.zr, .r 1]),
   .j .BEQ .ui8tof32_done, .nop,
   .label .ui8tof32_scalar_loop,
   .ins (.op .MOVBU [.m 0 0, .r 5]),
   .ins (.op .SUB [.i 128, .r 5, .r 5]),
   .ins (.op .SCVTFS [.r 5, .f 0]),
   .ins (.op .FMOVS [.f 0, .m 2 0]),
   .ins (.op .ADD [.i 1, .r 0]),
   .ins (.op .ADD [.i 4, .r 2]),
   .ins (.op .SUBS [.i 1, .r 1]),
   .j .BNE .ui8tof32_scalar_loop,
   .label .ui8tof32_done,
   .RET, .nop,
   .label .I8tof32,
   .j .B .i8tof32, .nop,
   .label .Ui8toc64,
   .j .B .ui8toc64, .nop,
   .label .F32toi16,
   .j .B .f32toi16, .nop,
   .label .F32toi16ble,
   .j .B .f32toi16ble, .nop,
   .label .I16bleToF64,
   .j .B .i16bleToF64, .nop,
   .label .I16bleToF32,
   .j .B .i16bleToF32]

end Verif.A64.Conv
