import Verif.A32.A32Model

/-!
# The program of dsp/util_arm.s

Every entry is one line of dsp/util_arm.s; entry 0 stands before line 1, so that the program counter is the line number.
-/

namespace Verif.A32.Util
open Verif.A32 Verif.Mach

/-- The labels and the routines jumped to in dsp/util_arm.s. -/
inductive Lbl
  | rotate90FilterAsm | r90_end | r90_loop | i32Rotate90FilterAsm | i32r90_end | i32r90_loop
  deriving DecidableEq, Repr

/-- dsp/util_arm.s:1-87. -/
def prog : Prog Lbl Ins Cond :=
  [.nop, .nop, .nop,
   .label .rotate90FilterAsm,
   .ins (.op .MOVW [.fp 8, .r 7]),
   .ins (.op .MOVW [.fp 4, .r 8]),
   .ins (.op .AND [.i (-4), .r 7]), .nop,
   .ins (.op .TEQ [.i 0, .r 7]),
   .j .EQ .r90_end, .nop,
   .ins (.op .ADD [.sl 7 3, .r 8, .r 7]), .nop,
   .label .r90_loop, .nop,
   .ins (.op .ADD [.i 8, .r 8]), .nop,
   .ins (.op .MOVMIA [.m 8 0, .rl 0 5]), .nop, .nop,
   .ins (.op .MOVW [.r 0, .r 6]),
   .ins (.op .EOR [.i 0x80000000, .r 1, .r 0]),
   .ins (.op .MOVW [.r 6, .r 1]), .nop, .nop,
   .ins (.op .EOR [.i 0x80000000, .r 2]),
   .ins (.op .EOR [.i 0x80000000, .r 3]), .nop, .nop,
   .ins (.op .EOR [.i 0x80000000, .r 4, .r 6]),
   .ins (.op .MOVW [.r 5, .r 4]),
   .ins (.op .MOVW [.r 6, .r 5]),
   .ins (.op .MOVMIAW [.rl 0 5, .m 8 0]), .nop,
   .ins (.op .CMP [.r 8, .r 7]),
   .j .GT .r90_loop, .nop,
   .label .r90_end,
   .ins (.op .MOVW [.fp 4, .r 0]),
   .ins (.op .MOVW [.r 0, .fp 16]),
   .ins (.op .MOVW [.fp 8, .r 0]),
   .ins (.op .MOVW [.r 0, .fp 20]),
   .ins (.op .MOVW [.fp 12, .r 0]),
   .ins (.op .MOVW [.r 0, .fp 24]),
   .RET, .nop,
   .label .i32Rotate90FilterAsm,
   .ins (.op .MOVW [.fp 8, .r 7]),
   .ins (.op .MOVW [.fp 4, .r 8]),
   .ins (.op .AND [.i (-4), .r 7]), .nop,
   .ins (.op .TEQ [.i 0, .r 7]),
   .j .EQ .i32r90_end, .nop,
   .ins (.op .ADD [.sl 7 2, .r 8, .r 7]), .nop,
   .label .i32r90_loop, .nop,
   .ins (.op .ADD [.i 8, .r 8]), .nop,
   .ins (.op .MOVMIA [.m 8 0, .rl 0 5]), .nop, .nop,
   .ins (.op .MOVW [.r 0, .r 6]),
   .ins (.op .MVN [.r 1, .r 0]),
   .ins (.op .MOVW [.r 6, .r 1]), .nop, .nop,
   .ins (.op .MVN [.r 2, .r 2]),
   .ins (.op .MVN [.r 3, .r 3]), .nop, .nop,
   .ins (.op .MVN [.r 4, .r 6]),
   .ins (.op .MOVW [.r 5, .r 4]),
   .ins (.op .MOVW [.r 6, .r 5]),
   .ins (.op .MOVMIAW [.rl 0 5, .m 8 0]), .nop,
   .ins (.op .CMP [.r 8, .r 7]),
   .j .GT .i32r90_loop, .nop,
   .label .i32r90_end,
   .ins (.op .MOVW [.fp 4, .r 0]),
   .ins (.op .MOVW [.r 0, .fp 16]),
   .ins (.op .MOVW [.fp 8, .r 0]),
   .ins (.op .MOVW [.r 0, .fp 20]),
   .ins (.op .MOVW [.fp 12, .r 0]),
   .ins (.op .MOVW [.r 0, .fp 24]),
   .RET]

end Verif.A32.Util
