import Verif.A32.A32Model

/-!
# The program of dsp/conversion_arm.s

Every entry is one line of dsp/conversion_arm.s; entry 0 stands before line 1, so that the program counter is the line number.
-/

namespace Verif.A32.Conv
open Verif.A32 Verif.Mach

/-- The labels and the routines jumped to in dsp/conversion_arm.s. -/
inductive Lbl
  | Ui8toi16 | ui8toi16_done | ui8toi16_loop | Ui8toi16b | Ui8tof32 | ui8tof32_done | ui8tof32_neon | ui8tof32_tail | ui8tof32_loop
  | ui8tof32_neon_loop | ui8tof32_tail_loop | I8tof32 | i8tof32 | Ui8toc64 | F32toi16 | f32toi16_done | f32toi16_vector | f32toi16_tail
  | f32toi16_scalar_loop | f32toi16_vector_loop | f32toi16_tail_loop | F32toi16ble | I16bleToF64 | i16bleToF64 | I16bleToF32 | i16bleToF32
  deriving DecidableEq, Repr

/-- dsp/conversion_arm.s:1-308. -/
def prog : Prog Lbl Ins Cond :=
  [.nop, .nop, .nop,
   .label .Ui8toi16,
   .ins (.op .MOVW [.fp 0, .r 1]),
   .ins (.op .MOVW [.fp 4, .r 2]),
   .ins (.op .MOVW [.fp 12, .r 3]),
   .ins (.op .MOVW [.fp 16, .r 4]), .nop, .nop,
   .ins (.op .CMP [.r 2, .r 4]),
   .ins (.opc .LT .MOVW [.r 4, .r 2]), .nop, .nop,
   .ins (.op .TEQ [.i 0, .r 2]),
   .j .EQ .ui8toi16_done,
   .ins (.op .ADD [.r 1, .r 2]), .nop,
   .label .ui8toi16_loop,
   .ins (.op .MOVBU [.m 1 0, .r 0]),
   .ins (.op .ADD [.i 1, .r 1]),
   .ins (.op .SUB [.i 128, .r 0]),
   .ins (.op .MOVBU [.r 0, .m 3 0]),
   .ins (.op .MOVBU [.r 0, .m 3 1]),
   .ins (.op .ADD [.i 2, .r 3]),
   .ins (.op .CMP [.r 2, .r 1]),
   .j .LT .ui8toi16_loop, .nop,
   .label .ui8toi16_done,
   .RET, .nop,
   .label .Ui8toi16b,
   .ins (.op .MOVW [.fp 16, .r 4]),
   .ins (.op .MOVW [.sr 4 1, .r 4]),
   .ins (.op .MOVW [.r 4, .fp 16]),
   .j .AL .Ui8toi16, .nop,
   .label .Ui8tof32,
   .ins (.op .MOVW [.fp 0, .r 1]),
   .ins (.op .MOVW [.fp 4, .r 2]),
   .ins (.op .MOVW [.fp 12, .r 3]),
   .ins (.op .MOVW [.fp 16, .r 0]), .nop, .nop,
   .ins (.op .CMP [.r 2, .r 0]),
   .ins (.opc .LT .MOVW [.r 0, .r 2]), .nop, .nop,
   .ins (.op .CMP [.i 0, .r 2]),
   .j .EQ .ui8tof32_done, .nop,
   .ins (.op .MOVBU [.sb .HaveNEON, .r 0]),
   .ins (.op .CMP [.i 0, .r 0]),
   .j .NE .ui8tof32_neon, .nop,
   .ins (.op .AND [.i (-4), .r 2, .r 0]),
   .ins (.op .ADD [.r 1, .r 2]),
   .ins (.op .TEQ [.i 0, .r 0]),
   .j .EQ .ui8tof32_tail,
   .ins (.op .ADD [.r 1, .r 0]), .nop,
   .ins (.op .MOVW [.i 0x80808080, .r 8]), .nop,
   .label .ui8tof32_loop, .nop, .nop, .nop, .nop, .nop, .nop, .nop, .nop, .nop, .nop, .nop, .nop,
   .ins (.op .MOVW [.m 1 0, .r 4]),
   .ins (.op .ADD [.i 4, .r 1]),
   .ins (.WORD 0xe6544ff8),
   .ins (.WORD 0xe6af5474),
   .ins (.WORD 0xe6af6874),
   .ins (.WORD 0xe6af7c74),
   .ins (.WORD 0xe6af4074), .nop,
   .ins (.WORD 0xec454a1e),
   .ins (.WORD 0xec476a1f),
   .ins (.WORD 0xeeb80ace),
   .ins (.WORD 0xeef80aee),
   .ins (.WORD 0xeeb81acf),
   .ins (.WORD 0xeef81aef), .nop,
   .ins (.WORD 0xeca30a04),
   .ins (.op .CMP [.r 0, .r 1]),
   .j .LT .ui8tof32_loop, .nop,
   .j .AL .ui8tof32_tail, .nop, .nop, .nop,
   .label .ui8tof32_neon,
   .ins (.op .MOVW [.i 128, .r 0]),
   .ins (.WORD 0xeee00b10), .nop,
   .ins (.op .AND [.i (-64), .r 2, .r 4]),
   .ins (.op .ADD [.r 1, .r 2]),
   .ins (.op .TEQ [.i 0, .r 4]),
   .j .EQ .ui8tof32_tail,
   .ins (.op .ADD [.r 1, .r 4]), .nop,
   .label .ui8tof32_neon_loop,
   .ins (.WORD 0xf461c28d), .nop, .nop,
   .ins (.WORD 0xf3cc4280),
   .ins (.WORD 0xf3cd6280),
   .ins (.WORD 0xf3ce8280),
   .ins (.WORD 0xf3cfa280),
   .ins (.WORD 0xf2902a34),
   .ins (.WORD 0xf2904a35),
   .ins (.WORD 0xf2906a36),
   .ins (.WORD 0xf2908a37),
   .ins (.WORD 0xf290aa38),
   .ins (.WORD 0xf290ca39),
   .ins (.WORD 0xf290ea3a),
   .ins (.WORD 0xf2d00a3b),
   .ins (.WORD 0xf3bb2642),
   .ins (.WORD 0xf3bb4644),
   .ins (.WORD 0xf3bb6646),
   .ins (.WORD 0xf3bb8648),
   .ins (.WORD 0xf403228d),
   .ins (.WORD 0xf3bba64a),
   .ins (.WORD 0xf3bbc64c),
   .ins (.WORD 0xf403628d),
   .ins (.WORD 0xf3bbe64e),
   .ins (.WORD 0xf3fb0660),
   .ins (.WORD 0xf403a28d),
   .ins (.WORD 0xf403e28d), .nop,
   .ins (.op .CMP [.r 4, .r 1]),
   .j .LT .ui8tof32_neon_loop, .nop,
   .label .ui8tof32_tail,
   .ins (.op .CMP [.r 1, .r 2]),
   .j .EQ .ui8tof32_done, .nop,
   .label .ui8tof32_tail_loop,
   .ins (.op .MOVBU [.m 1 0, .r 4]),
   .ins (.op .SUB [.i 128, .r 4]),
   .ins (.op .MOVWF [.r 4, .f 0]),
   .ins (.op .ADD [.i 1, .r 1]),
   .ins (.WORD 0xeca30a01),
   .ins (.op .CMP [.r 2, .r 1]),
   .j .LT .ui8tof32_tail_loop, .nop,
   .label .ui8tof32_done,
   .RET, .nop, .nop,
   .label .I8tof32,
   .j .AL .i8tof32, .nop,
   .label .Ui8toc64,
   .ins (.op .MOVW [.fp 4, .r 2]),
   .ins (.op .AND [.i (-2), .r 2]),
   .ins (.op .MOVW [.r 2, .fp 4]),
   .ins (.op .MOVW [.fp 16, .r 0]),
   .ins (.op .MOVW [.sl 0 1, .r 0]),
   .ins (.op .MOVW [.r 0, .fp 16]),
   .j .AL .Ui8tof32, .nop,
   .label .F32toi16,
   .ins (.op .MOVW [.fp 0, .r 1]),
   .ins (.op .MOVW [.fp 4, .r 2]),
   .ins (.op .MOVW [.fp 12, .r 3]),
   .ins (.op .MOVW [.fp 16, .r 0]),
   .ins (.op .MOVF [.fp 24, .f 0]), .nop, .nop,
   .ins (.op .CMP [.r 2, .r 0]),
   .ins (.opc .LT .MOVW [.r 0, .r 2]), .nop, .nop,
   .ins (.op .TEQ [.i 0, .r 2]),
   .j .EQ .f32toi16_done, .nop,
   .ins (.op .MOVW [.r 2, .r 7]),
   .ins (.op .ADD [.sl 2 2, .r 1, .r 2]), .nop, .nop, .nop, .nop, .nop, .nop,
   .ins (.op .MOVBU [.sb .UseVector, .r 0]),
   .ins (.op .TEQ [.i 0, .r 0]),
   .j .NE .f32toi16_vector, .nop, .nop, .nop,
   .ins (.op .AND [.i (-4), .r 7]),
   .ins (.op .TEQ [.i 0, .r 7]),
   .j .EQ .f32toi16_tail,
   .ins (.op .ADD [.sl 7 2, .r 1, .r 7]), .nop,
   .label .f32toi16_scalar_loop,
   .ins (.WORD 0xecb11a04),
   .ins (.WORD 0xee211a00),
   .ins (.WORD 0xee611a80),
   .ins (.WORD 0xee222a00),
   .ins (.WORD 0xee622a80),
   .ins (.WORD 0xeebd1ac1),
   .ins (.WORD 0xeefd1ae1),
   .ins (.WORD 0xeebd2ac2),
   .ins (.WORD 0xeefd2ae2),
   .ins (.WORD 0xec540a11),
   .ins (.op .MOVH [.r 0, .m 3 0]),
   .ins (.op .MOVH [.r 4, .m 3 2]),
   .ins (.WORD 0xec5b8a12),
   .ins (.op .MOVH [.r 8, .m 3 4]),
   .ins (.op .MOVH [.r 11, .m 3 6]),
   .ins (.op .ADD [.i 8, .r 3]), .nop,
   .ins (.op .CMP [.r 7, .r 1]),
   .j .LT .f32toi16_scalar_loop, .nop,
   .j .AL .f32toi16_tail, .nop, .nop, .nop,
   .label .f32toi16_vector,
   .ins (.op .AND [.i (-8), .r 7]),
   .ins (.op .TEQ [.i 0, .r 7]),
   .j .EQ .f32toi16_tail,
   .ins (.op .ADD [.sl 7 2, .r 1, .r 7]), .nop,
   .ins (.op .PLD [.m 1 0]),
   .ins (.op .PLD [.m 1 64]),
   .ins (.op .PLD [.m 1 128]),
   .ins (.op .PLD [.m 1 192]), .nop, .nop,
   .ins (.WORD 0xeef10a10),
   .ins (.op .BIC [.i 0x370000, .r 0]),
   .ins (.op .ORR [.i 0x70000, .r 0]),
   .ins (.WORD 0xeee10a10), .nop,
   .label .f32toi16_vector_loop,
   .ins (.op .PLD [.m 1 256]),
   .ins (.WORD 0xecb14a08),
   .ins (.WORD 0xee244a00),
   .ins (.WORD 0xeebd4ac4),
   .ins (.WORD 0xeefd4ae4),
   .ins (.WORD 0xeebd5ac5),
   .ins (.WORD 0xeefd5ae5),
   .ins (.WORD 0xec540a14),
   .ins (.WORD 0xec5b8a15),
   .ins (.op .MOVH [.r 0, .m 3 0]),
   .ins (.op .MOVH [.r 4, .m 3 2]),
   .ins (.op .MOVH [.r 8, .m 3 4]),
   .ins (.op .MOVH [.r 11, .m 3 6]),
   .ins (.WORD 0xeebd6ac6),
   .ins (.WORD 0xeefd6ae6),
   .ins (.WORD 0xeebd7ac7),
   .ins (.WORD 0xeefd7ae7),
   .ins (.WORD 0xec540a16),
   .ins (.WORD 0xec5b8a17),
   .ins (.op .MOVH [.r 0, .m 3 8]),
   .ins (.op .MOVH [.r 4, .m 3 10]),
   .ins (.op .MOVH [.r 8, .m 3 12]),
   .ins (.op .MOVH [.r 11, .m 3 14]),
   .ins (.op .ADD [.i 16, .r 3]), .nop,
   .ins (.op .CMP [.r 7, .r 1]),
   .j .LT .f32toi16_vector_loop, .nop, .nop,
   .ins (.WORD 0xeef10a10),
   .ins (.op .BIC [.i 0x370000, .r 0]),
   .ins (.WORD 0xeee10a10), .nop,
   .label .f32toi16_tail,
   .ins (.op .CMP [.r 1, .r 2]),
   .j .EQ .f32toi16_done, .nop,
   .label .f32toi16_tail_loop,
   .ins (.op .MOVF [.m 1 0, .f 1]),
   .ins (.op .ADD [.i 4, .r 1]),
   .ins (.op .MULF [.f 0, .f 1]),
   .ins (.op .MOVFW [.f 1, .r 0]),
   .ins (.op .MOVHU [.r 0, .m 3 0]),
   .ins (.op .ADD [.i 2, .r 3]),
   .ins (.op .CMP [.r 2, .r 1]),
   .j .LT .f32toi16_tail_loop, .nop,
   .label .f32toi16_done,
   .RET, .nop, .nop,
   .label .F32toi16ble,
   .ins (.op .MOVW [.fp 16, .r 0]),
   .ins (.op .MOVW [.sr 0 1, .r 0]),
   .ins (.op .MOVW [.r 0, .fp 16]),
   .j .AL .F32toi16, .nop,
   .label .I16bleToF64,
   .j .AL .i16bleToF64, .nop,
   .label .I16bleToF32,
   .j .AL .i16bleToF32]

end Verif.A32.Conv
