import Verif.A32.A32Model

/-!
# The program of dsp/downsample_arm.s

Every entry is one line of dsp/downsample_arm.s; entry 0 stands before line 1, so that the program counter is the line number.
-/

namespace Verif.A32.Down
open Verif.A32 Verif.Mach

/-- The labels and the routines jumped to in dsp/downsample_arm.s. -/
inductive Lbl
  | lowPassDownsampleComplexFilterAsm | complexLoopStart | complexLoop | complexLoopEnd | lowPassDownsampleRationalFilterAsm | rationalLoop
  | rationalLoopEnd
  deriving DecidableEq, Repr

/-- dsp/downsample_arm.s:1-122. -/
def prog : Prog Lbl Ins Cond :=
  [.nop, .nop, .nop,
   .label .lowPassDownsampleComplexFilterAsm,
   .ins (.op .MOVW [.fp 0, .r 3]),
   .ins (.op .MOVW [.m 3 0, .r 8]),
   .ins (.op .MOVW [.m 3 12, .r 7]),
   .ins (.op .MOVW [.fp 8, .r 2]),
   .ins (.op .MOVW [.fp 4, .r 5]),
   .ins (.op .MOVW [.r 5, .r 6]),
   .ins (.op .MOVF [.m 3 4, .f 0]),
   .ins (.op .MOVF [.m 3 8, .f 1]),
   .j .AL .complexLoopStart, .nop,
   .label .complexLoop,
   .ins (.op .SUB [.i 1, .r 2]), .nop,
   .label .complexLoopStart,
   .ins (.op .TEQ [.i 0, .r 2]),
   .j .EQ .complexLoopEnd, .nop, .nop,
   .ins (.op .MOVF [.m 5 0, .f 2]),
   .ins (.op .MOVF [.m 5 4, .f 3]),
   .ins (.op .ADD [.i 8, .r 5]), .nop, .nop,
   .ins (.op .ADDF [.f 2, .f 0]),
   .ins (.op .ADDF [.f 3, .f 1]), .nop, .nop,
   .ins (.op .ADD [.i 1, .r 7]), .nop, .nop,
   .ins (.op .CMP [.r 8, .r 7]),
   .j .LT .complexLoop, .nop, .nop,
   .ins (.op .MOVF [.f 0, .m 6 0]),
   .ins (.op .MOVF [.f 1, .m 6 4]),
   .ins (.op .ADD [.i 8, .r 6]), .nop, .nop,
   .ins (.op .MOVW [.i 0, .r 7]), .nop, .nop,
   .ins (.op .MOVF [.fi 0x00000000, .f 0]),
   .ins (.op .MOVF [.fi 0x00000000, .f 1]), .nop,
   .j .AL .complexLoop, .nop,
   .label .complexLoopEnd,
   .ins (.op .MOVW [.r 7, .m 3 12]),
   .ins (.op .MOVF [.f 0, .m 3 4]),
   .ins (.op .MOVF [.f 1, .m 3 8]), .nop,
   .ins (.op .MOVW [.fp 4, .r 0]),
   .ins (.op .SUB [.r 0, .r 6]),
   .ins (.op .MOVW [.sr 6 3, .r 6]),
   .ins (.op .MOVW [.r 6, .fp 20]),
   .ins (.op .MOVW [.fp 12, .r 4]),
   .ins (.op .MOVW [.r 4, .fp 24]),
   .ins (.op .MOVW [.fp 4, .r 0]),
   .ins (.op .MOVW [.r 0, .fp 16]),
   .RET, .nop,
   .label .lowPassDownsampleRationalFilterAsm,
   .ins (.op .MOVW [.fp 0, .r 4]), .nop,
   .ins (.op .MOVW [.m 4 4, .r 7]),
   .ins (.op .MOVW [.r 7, .f 4]),
   .ins (.op .MOVWF [.f 4, .f 4]), .nop,
   .ins (.op .MOVW [.m 4 0, .r 8]),
   .ins (.op .MOVW [.r 8, .f 3]),
   .ins (.op .MOVWF [.f 3, .f 3]), .nop,
   .ins (.op .DIVF [.f 3, .f 4]), .nop,
   .ins (.op .MOVF [.m 4 8, .f 3]),
   .ins (.op .MOVW [.m 4 12, .r 2]), .nop,
   .ins (.op .MOVW [.fp 4, .r 5]),
   .ins (.op .MOVW [.r 5, .r 6]),
   .ins (.op .MOVW [.fp 8, .r 3]),
   .ins (.op .ADD [.sl 3 2, .r 5, .r 3]), .nop,
   .label .rationalLoop,
   .ins (.op .CMP [.r 5, .r 3]),
   .j .LE .rationalLoopEnd, .nop,
   .ins (.op .MOVF [.m 5 0, .f 0]),
   .ins (.op .ADD [.i 4, .r 5]), .nop,
   .ins (.op .ADDF [.f 0, .f 3]),
   .ins (.op .ADD [.r 7, .r 2]), .nop,
   .ins (.op .CMP [.r 8, .r 2]),
   .j .LT .rationalLoop, .nop,
   .ins (.op .MULF [.f 4, .f 3]), .nop,
   .ins (.op .MOVF [.f 3, .m 6 0]),
   .ins (.op .ADD [.i 4, .r 6]), .nop,
   .ins (.op .SUB [.r 8, .r 2]),
   .ins (.op .MOVF [.fi 0x00000000, .f 3]), .nop,
   .j .AL .rationalLoop, .nop,
   .label .rationalLoopEnd,
   .ins (.op .MOVW [.r 2, .m 4 12]),
   .ins (.op .MOVF [.f 3, .m 4 8]), .nop,
   .ins (.op .MOVW [.fp 4, .r 0]),
   .ins (.op .SUB [.r 0, .r 6]),
   .ins (.op .MOVW [.sr 6 2, .r 6]),
   .ins (.op .MOVW [.r 6, .fp 20]),
   .ins (.op .MOVW [.fp 12, .r 4]),
   .ins (.op .MOVW [.r 4, .fp 24]),
   .ins (.op .MOVW [.fp 4, .r 0]),
   .ins (.op .MOVW [.r 0, .fp 16]),
   .RET]

end Verif.A32.Down
