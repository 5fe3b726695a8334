import Verif.A32.A32Model

/-!
# The program of dsp/demod_arm.s

Every entry is one line of dsp/demod_arm.s; entry 0 stands before line 1, so that the program counter is the line number.
-/

namespace Verif.A32.Demod
open Verif.A32 Verif.Mach

/-- The labels and the routines jumped to in dsp/demod_arm.s. -/
inductive Lbl
  | fmDemodulateAsm | fmDemod_done | fmDemod_loop | fmDemod_atan_zero_x | fmDemod_atan_pos_x | fmDemod_atan_1 | fmDemod_atan_done
  deriving DecidableEq, Repr

/-- dsp/demod_arm.s:1-93. -/
def prog : Prog Lbl Ins Cond :=
  [.nop, .nop, .nop,
   .label .fmDemodulateAsm,
   .ins (.op .MOVW [.fp 4, .r 1]),
   .ins (.op .MOVW [.fp 8, .r 2]),
   .ins (.op .MOVW [.fp 16, .r 3]),
   .ins (.op .MOVW [.fp 20, .r 4]), .nop, .nop,
   .ins (.op .CMP [.r 2, .r 4]),
   .ins (.opc .LT .MOVW [.r 4, .r 2]), .nop, .nop,
   .ins (.op .TEQ [.i 0, .r 2]),
   .j .EQ .fmDemod_done, .nop,
   .ins (.op .MOVW [.fp 0, .r 0]),
   .ins (.op .MOVF [.m 0 0, .f 5]),
   .ins (.op .MOVF [.m 0 4, .f 1]), .nop,
   .label .fmDemod_loop,
   .ins (.op .MOVF [.m 1 0, .f 2]),
   .ins (.op .MOVF [.m 1 4, .f 3]),
   .ins (.op .ADD [.i 8, .r 1]), .nop,
   .ins (.op .MULF [.f 3, .f 5, .f 6]),
   .ins (.op .MULF [.f 2, .f 1, .f 0]),
   .ins (.op .MULF [.f 2, .f 5, .f 4]),
   .ins (.op .MULF [.f 3, .f 1, .f 7]),
   .ins (.op .SUBF [.f 0, .f 6]),
   .ins (.op .ADDF [.f 7, .f 4]), .nop,
   .ins (.op .MOVF [.f 2, .f 5]),
   .ins (.op .MOVF [.f 3, .f 1]), .nop, .nop, .nop,
   .ins (.op .ABSF [.f 6, .f 2]),
   .ins (.op .MOVF [.fi 0x1e3ce508, .f 0]),
   .ins (.op .ADDF [.f 0, .f 2]),
   .ins (.WORD 0xeeb54ac0),
   .ins (.WORD 0xeef1fa10),
   .j .EQ .fmDemod_atan_zero_x,
   .j .GT .fmDemod_atan_pos_x,
   .ins (.op .ADDF [.f 2, .f 4, .f 7]),
   .ins (.op .SUBF [.f 4, .f 2, .f 4]),
   .ins (.op .MOVF [.fi 0x4016cbe4, .f 3]),
   .j .AL .fmDemod_atan_1, .nop,
   .label .fmDemod_atan_pos_x,
   .ins (.op .SUBF [.f 2, .f 4, .f 7]),
   .ins (.op .ADDF [.f 2, .f 4, .f 4]),
   .ins (.op .MOVF [.fi 0x3f490fdb, .f 3]), .nop,
   .label .fmDemod_atan_1,
   .ins (.op .DIVF [.f 4, .f 7, .f 2]),
   .ins (.op .MOVF [.fi 0x3e4902de, .f 7]),
   .ins (.op .MULF [.f 2, .f 7]),
   .ins (.op .MULF [.f 2, .f 7]),
   .ins (.op .MOVF [.fi 0x3f7b50b1, .f 0]),
   .ins (.op .SUBF [.f 0, .f 7]),
   .ins (.op .MULF [.f 2, .f 7]),
   .ins (.op .ADDF [.f 3, .f 7]),
   .ins (.WORD 0xeeb56ac0),
   .ins (.WORD 0xeef1fa10),
   .ins (.WORD 0xbeb17a47),
   .ins (.op .MOVF [.f 7, .m 3 0]),
   .j .AL .fmDemod_atan_done, .nop,
   .label .fmDemod_atan_zero_x,
   .ins (.WORD 0xeeb56ac0),
   .ins (.WORD 0xeef1fa10),
   .ins (.opc .LT .MOVF [.fi 0xbfc90fdb, .f 6]),
   .ins (.opc .GT .MOVF [.fi 0x3fc90fdb, .f 6]),
   .ins (.op .MOVF [.f 6, .m 3 0]), .nop,
   .label .fmDemod_atan_done, .nop, .nop, .nop,
   .ins (.op .ADD [.i 4, .r 3]), .nop,
   .ins (.op .SUB [.i 1, .r 2]),
   .ins (.op .TEQ [.i 0, .r 2]),
   .j .NE .fmDemod_loop, .nop,
   .ins (.op .MOVF [.f 5, .m 0 0]),
   .ins (.op .MOVF [.f 1, .m 0 4]), .nop,
   .label .fmDemod_done,
   .ins (.op .MOVW [.fp 8, .r 0]),
   .ins (.op .MOVW [.r 0, .fp 28]),
   .RET]

end Verif.A32.Demod
