import Verif.A32.A32Model

/-!
# The program of dsp/math32_arm.s

Every entry is one line of dsp/math32_arm.s; entry 0 stands before line 1, so that the program counter is the line number.
-/

namespace Verif.A32.Math
open Verif.A32 Verif.Mach

/-- The labels and the routines jumped to in dsp/math32_arm.s. -/
inductive Lbl
  | FastAtan2 | fatan2_pos_x | fatan2_zero_x | fatan2_2 | fatan2_pos_y | fatan2_neg_y | FastAtan2_2 | fatan22_zero_x | fatan22_5 | fatan22_6
  | fatan22_pi2 | fatan22_neg_pi2 | VScaleF32 | vscalef32_done | vscalef32_scalar_loop | vscalef32_neon_loop | vscalef32_scalar | VMulC64xF32
  | vMulC64xF32 | VAbsC64 | vabsc64_done | vabsc64_scalar_loop | vabsc64_vector_loop | VMaxF32 | vmaxf32_done | vmaxf32_batch
  | vmaxf32_neon_loop | vmaxf32_scalar | vmaxf32_scalar_loop | vmaxf32_batch_loop
  deriving DecidableEq, Repr

/-- dsp/math32_arm.s:1-352. -/
def prog : Prog Lbl Ins Cond :=
  [.nop, .nop, .nop, .nop, .nop, .nop, .nop, .nop, .nop, .nop,
   .label .FastAtan2,
   .ins (.op .MOVF [.fp 0, .f 6]),
   .ins (.op .MOVF [.fp 4, .f 4]), .nop,
   .ins (.op .ABSF [.f 6, .f 2]), .nop,
   .ins (.op .MOVF [.fi 0x1e3ce508, .f 0]),
   .ins (.op .ADDF [.f 0, .f 2]), .nop,
   .ins (.WORD 0xeeb54ac0),
   .ins (.WORD 0xeef1fa10),
   .j .GT .fatan2_pos_x,
   .j .EQ .fatan2_zero_x, .nop,
   .ins (.op .ADDF [.f 2, .f 4, .f 1]),
   .ins (.op .SUBF [.f 4, .f 2, .f 4]),
   .ins (.op .MOVF [.fi 0x4016cbe4, .f 3]),
   .j .AL .fatan2_2, .nop,
   .label .fatan2_pos_x,
   .ins (.op .SUBF [.f 2, .f 4, .f 1]),
   .ins (.op .ADDF [.f 2, .f 4, .f 4]),
   .ins (.op .MOVF [.fi 0x3f490fdb, .f 3]), .nop,
   .label .fatan2_2,
   .ins (.op .DIVF [.f 4, .f 1, .f 2]), .nop,
   .ins (.op .MOVF [.fi 0x3e4902de, .f 1]),
   .ins (.op .MULF [.f 2, .f 1]),
   .ins (.op .MULF [.f 2, .f 1]),
   .ins (.op .MOVF [.fi 0x3f7b50b1, .f 0]),
   .ins (.op .SUBF [.f 0, .f 1]),
   .ins (.op .MULF [.f 2, .f 1]),
   .ins (.op .ADDF [.f 3, .f 1]), .nop,
   .ins (.WORD 0xeeb56ac0),
   .ins (.WORD 0xeef1fa10),
   .ins (.WORD 0xbeb11a41),
   .ins (.op .MOVF [.f 1, .fp 8]),
   .RET, .nop,
   .label .fatan2_zero_x,
   .ins (.WORD 0xeeb56ac0),
   .ins (.WORD 0xeef1fa10),
   .j .GT .fatan2_pos_y,
   .j .LT .fatan2_neg_y,
   .ins (.op .MOVF [.f 6, .fp 8]),
   .RET, .nop,
   .label .fatan2_neg_y,
   .ins (.op .MOVF [.fi 0xbfc90fdb, .f 6]),
   .ins (.op .MOVF [.f 6, .fp 8]),
   .RET, .nop,
   .label .fatan2_pos_y,
   .ins (.op .MOVF [.fi 0x3fc90fdb, .f 6]),
   .ins (.op .MOVF [.f 6, .fp 8]),
   .RET, .nop, .nop,
   .label .FastAtan2_2,
   .ins (.op .MOVF [.fp 4, .f 6]),
   .ins (.op .MOVF [.fp 0, .f 3]),
   .ins (.WORD 0xeeb56ac0),
   .ins (.WORD 0xeef1fa10),
   .j .EQ .fatan22_zero_x, .nop, .nop,
   .ins (.op .DIVF [.f 6, .f 3, .f 1]),
   .ins (.op .MULF [.f 1, .f 1, .f 2]),
   .ins (.op .MOVF [.fi 0x3f800000, .f 0]), .nop, .nop,
   .ins (.WORD 0xeeb42ac0),
   .ins (.WORD 0xeef1fa10),
   .j .GT .fatan22_5, .nop, .nop,
   .ins (.op .MOVF [.fi 0x3e8f5c29, .f 4]),
   .ins (.op .MULF [.f 4, .f 2]),
   .ins (.op .ADDF [.f 0, .f 2]),
   .ins (.op .DIVF [.f 2, .f 1, .f 2]),
   .ins (.WORD 0xeeb56ac0),
   .ins (.WORD 0xeef1fa10),
   .j .GE .fatan22_6,
   .ins (.op .MOVF [.fi 0x40490fdb, .f 1]),
   .ins (.WORD 0xeeb53ac0),
   .ins (.WORD 0xeef1fa10),
   .ins (.opc .LT .SUBF [.f 1, .f 2]),
   .ins (.opc .GE .ADDF [.f 1, .f 2]), .nop,
   .label .fatan22_6,
   .ins (.op .MOVF [.f 2, .fp 8]),
   .RET, .nop,
   .label .fatan22_5, .nop,
   .ins (.op .MOVF [.fi 0x3e8f5c29, .f 4]),
   .ins (.op .ADDF [.f 4, .f 2]),
   .ins (.op .DIVF [.f 2, .f 1, .f 2]),
   .ins (.op .MOVF [.fi 0x3fc90fdb, .f 1]),
   .ins (.op .SUBF [.f 2, .f 1, .f 2]),
   .ins (.op .MOVF [.fi 0x40490fdb, .f 1]),
   .ins (.WORD 0xeeb53ac0),
   .ins (.WORD 0xeef1fa10),
   .ins (.opc .LT .SUBF [.f 1, .f 2]),
   .ins (.op .MOVF [.f 2, .fp 8]),
   .RET, .nop,
   .label .fatan22_zero_x,
   .ins (.WORD 0xeeb53ac0),
   .ins (.WORD 0xeef1fa10), .nop, .nop, .nop, .nop, .nop,
   .j .GT .fatan22_pi2,
   .j .LT .fatan22_neg_pi2,
   .ins (.op .MOVF [.f 6, .fp 8]),
   .RET, .nop,
   .label .fatan22_neg_pi2,
   .ins (.op .MOVF [.fi 0xbfc90fdb, .f 6]),
   .ins (.op .MOVF [.f 6, .fp 8]),
   .RET, .nop,
   .label .fatan22_pi2,
   .ins (.op .MOVF [.fi 0x3fc90fdb, .f 6]),
   .ins (.op .MOVF [.f 6, .fp 8]),
   .RET, .nop,
   .label .VScaleF32,
   .ins (.op .MOVW [.fp 0, .r 0]),
   .ins (.op .MOVW [.fp 4, .r 2]),
   .ins (.op .MOVW [.fp 12, .r 1]),
   .ins (.op .MOVW [.fp 16, .r 3]),
   .ins (.op .MOVF [.fp 24, .f 0]), .nop, .nop,
   .ins (.op .CMP [.r 2, .r 3]),
   .ins (.opc .LT .MOVW [.r 3, .r 2]), .nop,
   .ins (.op .TEQ [.i 0, .r 2]),
   .j .EQ .vscalef32_done, .nop,
   .ins (.op .MOVBU [.sb .HaveNEON, .r 3]),
   .ins (.op .CMP [.i 0, .r 3]),
   .j .EQ .vscalef32_scalar_loop, .nop,
   .ins (.op .CMP [.i 16, .r 2]),
   .j .LT .vscalef32_scalar_loop, .nop,
   .ins (.op .PLD [.m 0 0]),
   .label .vscalef32_neon_loop,
   .ins (.op .PLD [.m 0 64]),
   .ins (.WORD 0xecb02b10),
   .ins (.WORD 0xf3a22940),
   .ins (.WORD 0xf3a44940),
   .ins (.WORD 0xf3a66940),
   .ins (.WORD 0xf3a88940),
   .ins (.WORD 0xeca12b10),
   .ins (.op .SUB [.i 16, .r 2]),
   .ins (.op .CMP [.i 16, .r 2]),
   .j .GE .vscalef32_neon_loop, .nop,
   .label .vscalef32_scalar,
   .ins (.op .TEQ [.i 0, .r 2]),
   .j .EQ .vscalef32_done, .nop,
   .label .vscalef32_scalar_loop,
   .ins (.op .MOVF [.m 0 0, .f 1]),
   .ins (.op .ADD [.i 4, .r 0]),
   .ins (.op .MULF [.f 0, .f 1, .f 1]),
   .ins (.op .MOVF [.f 1, .m 1 0]),
   .ins (.op .ADD [.i 4, .r 1]),
   .ins (.op .SUB [.i 1, .r 2]),
   .ins (.op .TEQ [.i 0, .r 2]),
   .j .NE .vscalef32_scalar_loop, .nop,
   .label .vscalef32_done,
   .RET, .nop, .nop,
   .label .VMulC64xF32,
   .j .AL .vMulC64xF32, .nop,
   .label .VAbsC64,
   .ins (.op .MOVW [.fp 0, .r 0]),
   .ins (.op .MOVW [.fp 12, .r 1]),
   .ins (.op .MOVW [.fp 4, .r 2]),
   .ins (.op .MOVW [.fp 16, .r 3]), .nop, .nop,
   .ins (.op .CMP [.r 2, .r 3]),
   .ins (.opc .LT .MOVW [.r 3, .r 2]), .nop, .nop,
   .ins (.op .CMP [.i 0, .r 2]),
   .j .EQ .vabsc64_done, .nop,
   .ins (.op .MOVBU [.sb .UseVector, .r 3]),
   .ins (.op .TEQ [.i 0, .r 3]),
   .j .EQ .vabsc64_scalar_loop, .nop,
   .ins (.op .CMP [.i 4, .r 2]),
   .j .LT .vabsc64_scalar_loop, .nop,
   .ins (.op .PLD [.m 0 0]),
   .ins (.op .PLD [.m 0 64]),
   .ins (.op .PLD [.m 0 128]),
   .ins (.op .PLD [.m 0 192]), .nop, .nop,
   .ins (.WORD 0xeef13a10),
   .ins (.op .BIC [.i 0x370000, .r 3]),
   .ins (.op .ORR [.i 0x130000, .r 3]),
   .ins (.WORD 0xeee13a10), .nop,
   .label .vabsc64_vector_loop,
   .ins (.op .PLD [.m 0 256]), .nop,
   .ins (.WORD 0xecb04a08),
   .ins (.WORD 0xee244a04),
   .ins (.WORD 0xee044aa4),
   .ins (.WORD 0xeeb14ac4),
   .ins (.WORD 0xed814a00),
   .ins (.WORD 0xed815a01),
   .ins (.WORD 0xed816a02),
   .ins (.WORD 0xed817a03),
   .ins (.op .ADD [.i 16, .r 1]), .nop,
   .ins (.op .SUB [.i 4, .r 2]),
   .ins (.op .CMP [.i 4, .r 2]),
   .j .GE .vabsc64_vector_loop, .nop, .nop,
   .ins (.WORD 0xeef13a10),
   .ins (.op .BIC [.i 0x370000, .r 3]),
   .ins (.WORD 0xeee13a10), .nop,
   .ins (.op .TEQ [.i 0, .r 2]),
   .j .EQ .vabsc64_done, .nop,
   .label .vabsc64_scalar_loop,
   .ins (.op .MOVF [.m 0 0, .f 0]),
   .ins (.op .MOVF [.m 0 4, .f 1]),
   .ins (.op .ADD [.i 8, .r 0]),
   .ins (.op .MULF [.f 0, .f 0]),
   .ins (.op .MULF [.f 1, .f 1]),
   .ins (.op .ADDF [.f 1, .f 0]),
   .ins (.op .SQRTF [.f 0, .f 0]),
   .ins (.op .MOVF [.f 0, .m 1 0]),
   .ins (.op .ADD [.i 4, .r 1]),
   .ins (.op .SUB [.i 1, .r 2]),
   .ins (.op .TEQ [.i 0, .r 2]),
   .j .NE .vabsc64_scalar_loop, .nop,
   .label .vabsc64_done,
   .RET, .nop,
   .label .VMaxF32,
   .ins (.op .MOVW [.fp 0, .r 0]),
   .ins (.op .MOVW [.fp 4, .r 2]), .nop,
   .ins (.op .MOVW [.i 0xff800000, .r 1]),
   .ins (.op .MOVW [.r 1, .f 4]), .nop,
   .ins (.op .CMP [.i 0, .r 2]),
   .j .EQ .vmaxf32_done, .nop,
   .ins (.op .MOVBU [.sb .HaveNEON, .r 3]),
   .ins (.op .CMP [.i 0, .r 3]),
   .j .EQ .vmaxf32_batch, .nop,
   .ins (.op .CMP [.i 16, .r 2]),
   .j .LT .vmaxf32_batch, .nop,
   .ins (.WORD 0xecb08b08),
   .ins (.op .SUB [.i 8, .r 2]), .nop, .nop,
   .label .vmaxf32_neon_loop, .nop,
   .ins (.WORD 0xecb02b08),
   .ins (.WORD 0xf2088f42),
   .ins (.WORD 0xf20aaf44),
   .ins (.op .SUB [.i 8, .r 2]),
   .ins (.op .CMP [.i 8, .r 2]),
   .j .GE .vmaxf32_neon_loop, .nop,
   .ins (.WORD 0xf2080f4a),
   .ins (.WORD 0xf3004f01),
   .ins (.WORD 0xf3044f04), .nop,
   .j .AL .vmaxf32_scalar, .nop,
   .label .vmaxf32_batch,
   .ins (.op .CMP [.i 4, .r 2]),
   .j .LT .vmaxf32_scalar_loop, .nop,
   .ins (.op .PLD [.m 0 0]),
   .ins (.op .PLD [.m 0 64]),
   .ins (.op .PLD [.m 0 128]), .nop,
   .label .vmaxf32_batch_loop,
   .ins (.op .PLD [.m 0 192]),
   .ins (.WORD 0xecb00a04),
   .ins (.WORD 0xeeb40ac4),
   .ins (.WORD 0xeef1fa10),
   .ins (.WORD 0xceb04a40),
   .ins (.WORD 0xeef40ac4),
   .ins (.WORD 0xeef1fa10),
   .ins (.WORD 0xceb04a60),
   .ins (.WORD 0xeeb41ac4),
   .ins (.WORD 0xeef1fa10),
   .ins (.WORD 0xceb04a41),
   .ins (.WORD 0xeef41ac4),
   .ins (.WORD 0xeef1fa10),
   .ins (.WORD 0xceb04a61),
   .ins (.op .SUB [.i 4, .r 2]),
   .ins (.op .CMP [.i 4, .r 2]),
   .j .GE .vmaxf32_batch_loop, .nop,
   .label .vmaxf32_scalar,
   .ins (.op .TEQ [.i 0, .r 2]),
   .j .EQ .vmaxf32_done, .nop,
   .label .vmaxf32_scalar_loop,
   .ins (.op .MOVF [.m 0 0, .f 1]),
   .ins (.op .ADD [.i 4, .r 0]), .nop, .nop,
   .ins (.WORD 0xeeb41ac4),
   .ins (.WORD 0xeef1fa10),
   .ins (.opc .GT .MOVF [.f 1, .f 4]),
   .ins (.op .SUB [.i 1, .r 2]),
   .ins (.op .TEQ [.i 0, .r 2]),
   .j .NE .vmaxf32_scalar_loop, .nop,
   .label .vmaxf32_done,
   .ins (.op .MOVF [.f 4, .fp 12]),
   .RET]

end Verif.A32.Math
