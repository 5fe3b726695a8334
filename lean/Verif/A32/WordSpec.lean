import Verif.A32.A32Model

/-!
# The comments beside the instruction words of the 32-bit ARM sources

Every `WORD $0x…` of dsp/conversion_arm.s, dsp/math32_arm.s and dsp/demod_arm.s has a comment with the instruction it is meant to be; the
macro of dsp/math32_arm.s:7 says it in its name.  Here these comments are written down, line by line, with what a disassembler prints for a
decoded word.  (dsp/util_arm.s and dsp/downsample_arm.s have no such lines.)
-/

namespace Verif.A32

/-- Operands in the comments: `r4`, `s28`, `d20`, `q1`, `d0[0]`, `r3!`, `[r1]!`, `[r1, #0x4]`, `ror #8`, `#0x0`, `fpscr`, `APSR_nzcv`.  A list
in braces is written out. -/
inductive Arg
  | r (n : Nat)
  | s (n : Nat)
  | d (n : Nat)
  | q (n : Nat)
  | e (n lane : Nat)
  | wb (n : Nat)
  | mwb (n : Nat)
  | m (base off : Nat)
  | ror (n : Nat)
  | zero | fpscr | apsr
  deriving DecidableEq, Repr

/-- Mnemonics in the comments; `fmxr` is the older name of `vmsr`. -/
inductive Name
  | usub8 | sxtb | vmov | vcvtF32S32 | vcvtS32F32 | vldmia | vstmia | vstr | vdup8 | vld1 | vst1 | vsublU8 | vmovlS16 | vmul | vmla | vsqrt | vneg
  | vmovF32 | vcmpe | vmrs | fmxr | vmax | vpmax
  deriving DecidableEq, Repr

/-- A double register by its number, as a pair `q` when both halves are meant. -/
def qs (d k : Nat) : List Arg := (List.range (k / 4)).map fun i => .q (d / 2 + i)

/-- `k` single registers from `s d` on. -/
def ss (d k : Nat) : List Arg := (List.range k).map fun i => .s (d + i)

/-- Disassembly. -/
def disasm (o : WOp) (fs : List Nat) : Option (Name × Cond × List Arg) :=
  match o, fs with
  | .usub8, [m, d, n, c] => (condOf c).map fun c => (.usub8, c, [.r d, .r n, .r m])
  | .sxtb, [m, k, d, c] => (condOf c).map fun c => (.sxtb, c, [.r d, .r m] ++ if k = 0 then [] else [.ror (8 * k)])
  | .vmovSR, [v, b, t, t2, c] => (condOf c).map fun c => (.vmov, c, [.s (2 * v + b), .s (2 * v + b + 1), .r t, .r t2])
  | .vmovRS, [v, b, t, t2, c] => (condOf c).map fun c => (.vmov, c, [.r t, .r t2, .s (2 * v + b), .s (2 * v + b + 1)])
  | .vcvtF, [m, b, d, a, c] => (condOf c).map fun c => (.vcvtF32S32, c, [.s (2 * d + a), .s (2 * m + b)])
  | .vcvtI, [m, b, d, a, c] => (condOf c).map fun c => (.vcvtS32F32, c, [.s (2 * d + a), .s (2 * m + b)])
  | .vldmS, [k, d, n, a, c] => (condOf c).map fun c => (.vldmia, c, .wb n :: ss (2 * d + a) k)
  | .vstmS, [k, d, n, a, c] => (condOf c).map fun c => (.vstmia, c, .wb n :: ss (2 * d + a) k)
  | .vldmD, [k, d, n, a, c] => if d % 2 = 1 ∨ k % 4 ≠ 0 then none else (condOf c).map fun c => (.vldmia, c, .wb n :: qs (16 * a + d) k)
  | .vstmD, [k, d, n, a, c] => if d % 2 = 1 ∨ k % 4 ≠ 0 then none else (condOf c).map fun c => (.vstmia, c, .wb n :: qs (16 * a + d) k)
  | .vstr, [k, d, n, a, c] => (condOf c).map fun c => (.vstr, c, [.s (2 * d + a), .m n (4 * k)])
  | .vdup8, [a, t, d, c] => (condOf c).map fun c => (.vdup8, c, [.q ((16 * a + d) / 2), .r t])
  | .vld1, [d, n, a] => some (.vld1, .AL, [.d (16 * a + d), .d (16 * a + d + 1), .d (16 * a + d + 2), .d (16 * a + d + 3), .mwb n])
  | .vst1, [d, n, a] => some (.vst1, .AL, [.d (16 * a + d), .d (16 * a + d + 1), .d (16 * a + d + 2), .d (16 * a + d + 3), .mwb n])
  | .vsublU8, [m, b, p, d, n, a] => some (.vsublU8, .AL, [.q ((16 * a + d) / 2), .d (16 * p + n), .d (16 * b + m)])
  | .vmovlS16, [m, b, d, a] => some (.vmovlS16, .AL, [.q ((16 * a + d) / 2), .d (16 * b + m)])
  | .vcvtQ, [m, b, d, a] => some (.vcvtF32S32, .AL, [.q ((16 * a + d) / 2), .q ((16 * b + m) / 2)])
  | .vmul, [m, b, p, d, n, a, c] => (condOf c).map fun c => (.vmul, c, [.s (2 * d + a), .s (2 * n + p), .s (2 * m + b)])
  | .vmla, [m, b, p, d, n, a, c] => (condOf c).map fun c => (.vmla, c, [.s (2 * d + a), .s (2 * n + p), .s (2 * m + b)])
  | .vsqrt, [m, b, d, a, c] => (condOf c).map fun c => (.vsqrt, c, [.s (2 * d + a), .s (2 * m + b)])
  | .vneg, [m, b, d, a, c] => (condOf c).map fun c => (.vneg, c, [.s (2 * d + a), .s (2 * m + b)])
  | .vmov, [m, b, d, a, c] => (condOf c).map fun c => (.vmovF32, c, [.s (2 * d + a), .s (2 * m + b)])
  | .vcmpe, [m, b, d, a, c] => (condOf c).map fun c => (.vcmpe, c, [.s (2 * d + a), .s (2 * m + b)])
  | .vcmpe0, [d, a, c] => (condOf c).map fun c => (.vcmpe, c, [.s (2 * d + a), .zero])
  | .vmrs, [t, c] => (condOf c).map fun c => (.vmrs, c, [if t = 15 then .apsr else .r t, .fpscr])
  | .vmsr, [t, c] => (condOf c).map fun c => (.fmxr, c, [.fpscr, .r t])
  | .vmulQ, [m, b, p, d, n, a] => some (.vmul, .AL, [.q ((16 * a + d) / 2), .q ((16 * p + n) / 2), .e m b])
  | .vmaxQ, [m, b, p, d, n, a] => some (.vmax, .AL, [.q ((16 * a + d) / 2), .q ((16 * p + n) / 2), .q ((16 * b + m) / 2)])
  | .vpmaxD, [m, b, p, d, n, a] => some (.vpmax, .AL, [.d (16 * a + d), .d (16 * p + n), .d (16 * b + m)])
  | _, _ => none

/-- The comments of the `WORD` lines of dsp/conversion_arm.s with their line numbers. -/
def convComments : List (Nat × Name × Cond × List Arg) :=
  [(78, .usub8, .AL, [.r 4, .r 4, .r 8]),
   (79, .sxtb, .AL, [.r 5, .r 4, .ror 8]),
   (80, .sxtb, .AL, [.r 6, .r 4, .ror 16]),
   (81, .sxtb, .AL, [.r 7, .r 4, .ror 24]),
   (82, .sxtb, .AL, [.r 4, .r 4]),
   (84, .vmov, .AL, [.s 28, .s 29, .r 4, .r 5]),
   (85, .vmov, .AL, [.s 30, .s 31, .r 6, .r 7]),
   (86, .vcvtF32S32, .AL, [.s 0, .s 28]),
   (87, .vcvtF32S32, .AL, [.s 1, .s 29]),
   (88, .vcvtF32S32, .AL, [.s 2, .s 30]),
   (89, .vcvtF32S32, .AL, [.s 3, .s 31]),
   (91, .vstmia, .AL, [.wb 3, .s 0, .s 1, .s 2, .s 3]),
   (101, .vdup8, .AL, [.q 0, .r 0]),
   (110, .vld1, .AL, [.d 28, .d 29, .d 30, .d 31, .mwb 1]),
   (113, .vsublU8, .AL, [.q 10, .d 28, .d 0]),
   (114, .vsublU8, .AL, [.q 11, .d 29, .d 0]),
   (115, .vsublU8, .AL, [.q 12, .d 30, .d 0]),
   (116, .vsublU8, .AL, [.q 13, .d 31, .d 0]),
   (117, .vmovlS16, .AL, [.q 1, .d 20]),
   (118, .vmovlS16, .AL, [.q 2, .d 21]),
   (119, .vmovlS16, .AL, [.q 3, .d 22]),
   (120, .vmovlS16, .AL, [.q 4, .d 23]),
   (121, .vmovlS16, .AL, [.q 5, .d 24]),
   (122, .vmovlS16, .AL, [.q 6, .d 25]),
   (123, .vmovlS16, .AL, [.q 7, .d 26]),
   (124, .vmovlS16, .AL, [.q 8, .d 27]),
   (125, .vcvtF32S32, .AL, [.q 1, .q 1]),
   (126, .vcvtF32S32, .AL, [.q 2, .q 2]),
   (127, .vcvtF32S32, .AL, [.q 3, .q 3]),
   (128, .vcvtF32S32, .AL, [.q 4, .q 4]),
   (129, .vst1, .AL, [.d 2, .d 3, .d 4, .d 5, .mwb 3]),
   (130, .vcvtF32S32, .AL, [.q 5, .q 5]),
   (131, .vcvtF32S32, .AL, [.q 6, .q 6]),
   (132, .vst1, .AL, [.d 6, .d 7, .d 8, .d 9, .mwb 3]),
   (133, .vcvtF32S32, .AL, [.q 7, .q 7]),
   (134, .vcvtF32S32, .AL, [.q 8, .q 8]),
   (135, .vst1, .AL, [.d 10, .d 11, .d 12, .d 13, .mwb 3]),
   (136, .vst1, .AL, [.d 14, .d 15, .d 16, .d 17, .mwb 3]),
   (150, .vstmia, .AL, [.wb 3, .s 0]),
   (205, .vldmia, .AL, [.wb 1, .s 2, .s 3, .s 4, .s 5]),
   (206, .vmul, .AL, [.s 2, .s 2, .s 0]),
   (207, .vmul, .AL, [.s 3, .s 3, .s 0]),
   (208, .vmul, .AL, [.s 4, .s 4, .s 0]),
   (209, .vmul, .AL, [.s 5, .s 5, .s 0]),
   (210, .vcvtS32F32, .AL, [.s 2, .s 2]),
   (211, .vcvtS32F32, .AL, [.s 3, .s 3]),
   (212, .vcvtS32F32, .AL, [.s 4, .s 4]),
   (213, .vcvtS32F32, .AL, [.s 5, .s 5]),
   (214, .vmov, .AL, [.r 0, .r 4, .s 2, .s 3]),
   (217, .vmov, .AL, [.r 8, .r 11, .s 4, .s 5]),
   (241, .vmrs, .AL, [.r 0, .fpscr]),
   (244, .fmxr, .AL, [.fpscr, .r 0]),
   (248, .vldmia, .AL, [.wb 1, .s 8, .s 9, .s 10, .s 11, .s 12, .s 13, .s 14, .s 15]),
   (249, .vmul, .AL, [.s 8, .s 8, .s 0]),
   (250, .vcvtS32F32, .AL, [.s 8, .s 8]),
   (251, .vcvtS32F32, .AL, [.s 9, .s 9]),
   (252, .vcvtS32F32, .AL, [.s 10, .s 10]),
   (253, .vcvtS32F32, .AL, [.s 11, .s 11]),
   (254, .vmov, .AL, [.r 0, .r 4, .s 8, .s 9]),
   (255, .vmov, .AL, [.r 8, .r 11, .s 10, .s 11]),
   (260, .vcvtS32F32, .AL, [.s 12, .s 12]),
   (261, .vcvtS32F32, .AL, [.s 13, .s 13]),
   (262, .vcvtS32F32, .AL, [.s 14, .s 14]),
   (263, .vcvtS32F32, .AL, [.s 15, .s 15]),
   (264, .vmov, .AL, [.r 0, .r 4, .s 12, .s 13]),
   (265, .vmov, .AL, [.r 8, .r 11, .s 14, .s 15]),
   (276, .vmrs, .AL, [.r 0, .fpscr]),
   (278, .fmxr, .AL, [.fpscr, .r 0])]

/-- The comments of the `WORD` lines of dsp/math32_arm.s with their line numbers. -/
def mathComments : List (Nat × Name × Cond × List Arg) :=
  [(19, .vcmpe, .AL, [.s 8, .zero]),
   (20, .vmrs, .AL, [.apsr, .fpscr]),
   (45, .vcmpe, .AL, [.s 12, .zero]),
   (46, .vmrs, .AL, [.apsr, .fpscr]),
   (47, .vneg, .LT, [.s 2, .s 2]),
   (52, .vcmpe, .AL, [.s 12, .zero]),
   (53, .vmrs, .AL, [.apsr, .fpscr]),
   (73, .vcmpe, .AL, [.s 12, .zero]),
   (74, .vmrs, .AL, [.apsr, .fpscr]),
   (83, .vcmpe, .AL, [.s 4, .s 0]),
   (84, .vmrs, .AL, [.apsr, .fpscr]),
   (92, .vcmpe, .AL, [.s 12, .zero]),
   (93, .vmrs, .AL, [.apsr, .fpscr]),
   (96, .vcmpe, .AL, [.s 6, .zero]),
   (97, .vmrs, .AL, [.apsr, .fpscr]),
   (113, .vcmpe, .AL, [.s 6, .zero]),
   (114, .vmrs, .AL, [.apsr, .fpscr]),
   (120, .vcmpe, .AL, [.s 6, .zero]),
   (121, .vmrs, .AL, [.apsr, .fpscr]),
   (166, .vldmia, .AL, [.wb 0, .q 1, .q 2, .q 3, .q 4]),
   (167, .vmul, .AL, [.q 1, .q 1, .e 0 0]),
   (168, .vmul, .AL, [.q 2, .q 2, .e 0 0]),
   (169, .vmul, .AL, [.q 3, .q 3, .e 0 0]),
   (170, .vmul, .AL, [.q 4, .q 4, .e 0 0]),
   (171, .vstmia, .AL, [.wb 1, .q 1, .q 2, .q 3, .q 4]),
   (224, .vmrs, .AL, [.r 3, .fpscr]),
   (227, .fmxr, .AL, [.fpscr, .r 3]),
   (232, .vldmia, .AL, [.wb 0, .s 8, .s 9, .s 10, .s 11, .s 12, .s 13, .s 14, .s 15]),
   (233, .vmul, .AL, [.s 8, .s 8, .s 8]),
   (234, .vmla, .AL, [.s 8, .s 9, .s 9]),
   (235, .vsqrt, .AL, [.s 8, .s 8]),
   (236, .vstr, .AL, [.s 8, .m 1 0]),
   (237, .vstr, .AL, [.s 10, .m 1 4]),
   (238, .vstr, .AL, [.s 12, .m 1 8]),
   (239, .vstr, .AL, [.s 14, .m 1 12]),
   (247, .vmrs, .AL, [.r 3, .fpscr]),
   (249, .fmxr, .AL, [.fpscr, .r 3]),
   (288, .vldmia, .AL, [.wb 0, .q 4, .q 5]),
   (294, .vldmia, .AL, [.wb 0, .q 1, .q 2]),
   (295, .vmax, .AL, [.q 4, .q 4, .q 1]),
   (296, .vmax, .AL, [.q 5, .q 5, .q 2]),
   (301, .vmax, .AL, [.q 0, .q 4, .q 5]),
   (302, .vpmax, .AL, [.d 4, .d 0, .d 1]),
   (303, .vpmax, .AL, [.d 4, .d 4, .d 4]),
   (317, .vldmia, .AL, [.wb 0, .s 0, .s 1, .s 2, .s 3]),
   (318, .vcmpe, .AL, [.s 0, .s 8]),
   (319, .vmrs, .AL, [.apsr, .fpscr]),
   (320, .vmovF32, .GT, [.s 8, .s 0]),
   (321, .vcmpe, .AL, [.s 1, .s 8]),
   (322, .vmrs, .AL, [.apsr, .fpscr]),
   (323, .vmovF32, .GT, [.s 8, .s 1]),
   (324, .vcmpe, .AL, [.s 2, .s 8]),
   (325, .vmrs, .AL, [.apsr, .fpscr]),
   (326, .vmovF32, .GT, [.s 8, .s 2]),
   (327, .vcmpe, .AL, [.s 3, .s 8]),
   (328, .vmrs, .AL, [.apsr, .fpscr]),
   (329, .vmovF32, .GT, [.s 8, .s 3]),
   (343, .vcmpe, .AL, [.s 2, .s 8]),
   (344, .vmrs, .AL, [.apsr, .fpscr])]

/-- The comments of the `WORD` lines of dsp/demod_arm.s with their line numbers. -/
def demodComments : List (Nat × Name × Cond × List Arg) :=
  [(41, .vcmpe, .AL, [.s 8, .zero]),
   (42, .vmrs, .AL, [.apsr, .fpscr]),
   (64, .vcmpe, .AL, [.s 12, .zero]),
   (65, .vmrs, .AL, [.apsr, .fpscr]),
   (66, .vneg, .LT, [.s 14, .s 14]),
   (71, .vcmpe, .AL, [.s 12, .zero]),
   (72, .vmrs, .AL, [.apsr, .fpscr])]

end Verif.A32
