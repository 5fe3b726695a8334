import Verif.A64.A64Model

/-!
# The comments beside the instruction words

Every `WORD $0x…` of dsp/conversion_arm64.s and dsp/math32_arm64.s has a comment with the instruction it is meant to be.  Here these
comments are written down, line by line, with what a disassembler prints for a decoded word.
-/

namespace Verif.A64

/-- Arrangements of vector registers. -/
inductive Arr | b16 | b8 | h8 | h4 | s4
  deriving DecidableEq, Repr

/-- Operands in the comments: `v1.16b`, `v0.s[0]`, `w3`, `q1`, `s30`, `[x0, 32]`, `pldl1strm`. -/
inductive Arg
  | v (n : Nat) (a : Arr)
  | e (n lane : Nat)
  | w (n : Nat)
  | q (n : Nat)
  | s (n : Nat)
  | m (base : Nat) (off : Int)
  | pldl1strm
  deriving DecidableEq, Repr

/-- Mnemonics in the comments. -/
inductive Name | dup | ldp | stp | sub | prfm | sxtl | sxtl2 | scvtf | fmul | fmax | fmin | fmaxv | fminv
  deriving DecidableEq, Repr

/-- Disassembly. -/
def disasm : WOp → List Nat → Option (Name × List Arg)
  | .dupB, [d, n] => some (.dup, [.v d .b16, .w n])
  | .ldpQ, [t, n, t2, i] => some (.ldp, [.q t, .q t2, .m n (16 * (BitVec.ofNat 7 i).toInt)])
  | .stpQ, [t, n, t2, i] => some (.stp, [.q t, .q t2, .m n (16 * (BitVec.ofNat 7 i).toInt)])
  | .subB, [d, n, m] => some (.sub, [.v d .b16, .v n .b16, .v m .b16])
  | .prfm, [1, n, i] => some (.prfm, [.pldl1strm, .m n (8 * i)])
  | .sxtlB, [d, n] => some (.sxtl, [.v d .h8, .v n .b8])
  | .sxtl2B, [d, n] => some (.sxtl2, [.v d .h8, .v n .b16])
  | .sxtlH, [d, n] => some (.sxtl, [.v d .s4, .v n .h4])
  | .sxtl2H, [d, n] => some (.sxtl2, [.v d .s4, .v n .h8])
  | .scvtf4, [d, n] => some (.scvtf, [.v d .s4, .v n .s4])
  | .fmulE, [d, n, h, m, l] => some (.fmul, [.v d .s4, .v n .s4, .e m (2 * h + l)])
  | .fmax4, [d, n, m] => some (.fmax, [.v d .s4, .v n .s4, .v m .s4])
  | .fmin4, [d, n, m] => some (.fmin, [.v d .s4, .v n .s4, .v m .s4])
  | .fmaxv, [d, n] => some (.fmaxv, [.s d, .v n .s4])
  | .fminv, [d, n] => some (.fminv, [.s d, .v n .s4])
  | _, _ => none

/-- The comments of the `WORD` lines of dsp/conversion_arm64.s with their line numbers. -/
def convComments : List (Nat × Name × List Arg) :=
  [(23, .dup, [.v 0 .b16, .w 3]),
   (29, .ldp, [.q 1, .q 2, .m 0 0]),
   (31, .sub, [.v 1 .b16, .v 1 .b16, .v 0 .b16]),
   (32, .sub, [.v 2 .b16, .v 2 .b16, .v 0 .b16]),
   (33, .prfm, [.pldl1strm, .m 0 128]),
   (34, .sxtl, [.v 10 .h8, .v 1 .b8]),
   (35, .sxtl2, [.v 11 .h8, .v 1 .b16]),
   (36, .sxtl, [.v 12 .h8, .v 2 .b8]),
   (37, .sxtl2, [.v 13 .h8, .v 2 .b16]),
   (38, .sxtl, [.v 20 .s4, .v 10 .h4]),
   (39, .sxtl2, [.v 21 .s4, .v 10 .h8]),
   (40, .sxtl, [.v 22 .s4, .v 11 .h4]),
   (41, .sxtl2, [.v 23 .s4, .v 11 .h8]),
   (42, .sxtl, [.v 24 .s4, .v 12 .h4]),
   (43, .sxtl2, [.v 25 .s4, .v 12 .h8]),
   (44, .sxtl, [.v 26 .s4, .v 13 .h4]),
   (45, .sxtl2, [.v 27 .s4, .v 13 .h8]),
   (48, .scvtf, [.v 9 .s4, .v 20 .s4]),
   (49, .scvtf, [.v 10 .s4, .v 21 .s4]),
   (50, .scvtf, [.v 3 .s4, .v 22 .s4]),
   (51, .scvtf, [.v 4 .s4, .v 23 .s4]),
   (53, .stp, [.q 9, .q 10, .m 2 0]),
   (54, .scvtf, [.v 5 .s4, .v 24 .s4]),
   (55, .scvtf, [.v 6 .s4, .v 25 .s4]),
   (56, .stp, [.q 3, .q 4, .m 2 32]),
   (57, .scvtf, [.v 7 .s4, .v 26 .s4]),
   (58, .scvtf, [.v 8 .s4, .v 27 .s4]),
   (59, .stp, [.q 5, .q 6, .m 2 64]),
   (63, .stp, [.q 7, .q 8, .m 2 (-32)])]

/-- The comments of the `WORD` lines of dsp/math32_arm64.s with their line numbers. -/
def mathComments : List (Nat × Name × List Arg) :=
  [(36, .prfm, [.pldl1strm, .m 0 128]),
   (40, .ldp, [.q 1, .q 2, .m 0 0]),
   (41, .ldp, [.q 3, .q 4, .m 0 32]),
   (45, .fmul, [.v 1 .s4, .v 1 .s4, .e 0 0]),
   (46, .fmul, [.v 2 .s4, .v 2 .s4, .e 0 0]),
   (47, .fmul, [.v 3 .s4, .v 3 .s4, .e 0 0]),
   (48, .fmul, [.v 4 .s4, .v 4 .s4, .e 0 0]),
   (57, .stp, [.q 1, .q 2, .m 2 0]),
   (58, .stp, [.q 3, .q 4, .m 2 32]),
   (97, .ldp, [.q 0, .q 7, .m 0 0]),
   (103, .ldp, [.q 1, .q 2, .m 0 0]),
   (104, .ldp, [.q 3, .q 4, .m 0 32]),
   (106, .fmax, [.v 0 .s4, .v 0 .s4, .v 1 .s4]),
   (107, .fmax, [.v 7 .s4, .v 7 .s4, .v 3 .s4]),
   (108, .fmax, [.v 0 .s4, .v 0 .s4, .v 2 .s4]),
   (109, .fmax, [.v 7 .s4, .v 7 .s4, .v 4 .s4]),
   (113, .fmaxv, [.s 30, .v 0 .s4]),
   (114, .fmaxv, [.s 31, .v 7 .s4]),
   (144, .ldp, [.q 0, .q 7, .m 0 0]),
   (150, .ldp, [.q 1, .q 2, .m 0 0]),
   (151, .ldp, [.q 3, .q 4, .m 0 32]),
   (153, .fmin, [.v 0 .s4, .v 0 .s4, .v 1 .s4]),
   (154, .fmin, [.v 7 .s4, .v 7 .s4, .v 3 .s4]),
   (155, .fmin, [.v 0 .s4, .v 0 .s4, .v 2 .s4]),
   (156, .fmin, [.v 7 .s4, .v 7 .s4, .v 4 .s4]),
   (160, .fminv, [.s 30, .v 0 .s4]),
   (161, .fminv, [.s 31, .v 7 .s4])]

end Verif.A64
