import Verif.X86.X86Lemmas
import Verif.X86.ConvModel

/-!
# The runs of `Ui8toi16` and `Ui8toi16b` on amd64, instruction by instruction
-/

namespace Verif.X86.Conv.U16
open Verif.X86

/-! ### Basic blocks -/

/-- dsp/conversion_amd64.s:4-10. -/
abbrev b4 : List (Line Lbl Reg Nat) :=
  [.label .Ui8toi16,
    .ins .MOVQ [.fp 0, .r .SI],
    .ins .MOVQ [.fp 8, .r .BX],
    .ins .MOVQ [.fp 24, .r .DI],
    .ins .MOVQ [.fp 32, .r .CX], .nop,
    .ins .CMPQ [.r .CX, .r .BX]]

theorem h4 : (prog.drop 4).take b4.length = b4 := by decide +kernel

/-- dsp/conversion_amd64.s:12-13. -/
abbrev b12 : List (Line Lbl Reg Nat) :=
  [.ins .MOVQ [.r .CX, .r .BX], .nop]

theorem h12 : (prog.drop 12).take b12.length = b12 := by decide +kernel

/-- dsp/conversion_amd64.s:14-18. -/
abbrev b14 : List (Line Lbl Reg Nat) :=
  [.label .ui8toi16_min_length, .nop, .nop,
    .ins .MOVQ [.i 32, .r .AX],
    .ins .CMPQ [.r .AX, .r .BX]]

theorem h14 : (prog.drop 14).take b14.length = b14 := by decide +kernel

/-- dsp/conversion_amd64.s:20-23. -/
abbrev b20 : List (Line Lbl Reg Nat) :=
  [.nop, .nop,
    .ins .MOVQ [.r .DI, .r .CX],
    .ins .ANDQ [.i 15, .r .CX]]

theorem h20 : (prog.drop 20).take b20.length = b20 := by decide +kernel

/-- dsp/conversion_amd64.s:25-28. -/
abbrev b25 : List (Line Lbl Reg Nat) :=
  [.ins .MOVQ [.i 16, .r .AX],
    .ins .SUBQ [.r .CX, .r .AX],
    .ins .SHRQ [.i 1, .r .AX], .nop]

theorem h25 : (prog.drop 25).take b25.length = b25 := by decide +kernel

/-- dsp/conversion_amd64.s:29-38. -/
abbrev b29 : List (Line Lbl Reg Nat) :=
  [.label .ui8toi16_head_loop,
    .ins .MOVBQZX [.m .SI 0, .r .CX],
    .ins .INCQ [.r .SI],
    .ins .SUBQ [.i 128, .r .CX],
    .ins .MOVB [.r .CX, .m .DI 0],
    .ins .INCQ [.r .DI],
    .ins .MOVB [.r .CX, .m .DI 0],
    .ins .INCQ [.r .DI],
    .ins .DECQ [.r .BX],
    .ins .DECQ [.r .AX]]

theorem h29 : (prog.drop 29).take b29.length = b29 := by decide +kernel

/-- dsp/conversion_amd64.s:40-40. -/
abbrev b40 : List (Line Lbl Reg Nat) :=
  [.nop]

theorem h40 : (prog.drop 40).take b40.length = b40 := by decide +kernel

/-- dsp/conversion_amd64.s:41-46. -/
abbrev b41 : List (Line Lbl Reg Nat) :=
  [.label .ui8toi16_aligned,
    .ins .MOVQ [.i 0x8080808080808080, .r .AX],
    .ins .MOVQ [.r .AX, .x 8],
    .ins .PUNPCKLBW [.x 8, .x 8],
    .ins .MOVQ [.r .BX, .r .AX],
    .ins .SHRQ [.i 5, .r .AX]]

theorem h41 : (prog.drop 41).take b41.length = b41 := by decide +kernel

/-- dsp/conversion_amd64.s:48-48. -/
abbrev b48 : List (Line Lbl Reg Nat) :=
  [.nop]

theorem h48 : (prog.drop 48).take b48.length = b48 := by decide +kernel

/-- dsp/conversion_amd64.s:49-56. -/
abbrev b49 : List (Line Lbl Reg Nat) :=
  [.label .ui8toi16_aligned_loop,
    .ins .MOVOU [.m .SI 0, .x 0],
    .ins .MOVOU [.m .SI 16, .x 1],
    .ins .PSUBB [.x 8, .x 0],
    .ins .PSUBB [.x 8, .x 1],
    .ins .MOVO [.x 0, .x 9],
    .ins .PUNPCKLBW [.x 0, .x 0],
    .ins .PUNPCKHBW [.x 9, .x 9]]

theorem h49 : (prog.drop 49).take b49.length = b49 := by decide +kernel

/-- dsp/conversion_amd64.s:57-57. -/
abbrev b57 : List (Line Lbl Reg Nat) :=
  [.ins .MOVO [.x 0, .m .DI 0]]

theorem h57 : (prog.drop 57).take b57.length = b57 := by decide +kernel

/-- dsp/conversion_amd64.s:58-61. -/
abbrev b58 : List (Line Lbl Reg Nat) :=
  [.ins .MOVO [.x 9, .m .DI 16],
    .ins .MOVO [.x 1, .x 9],
    .ins .PUNPCKLBW [.x 1, .x 1],
    .ins .PUNPCKHBW [.x 9, .x 9]]

theorem h58 : (prog.drop 58).take b58.length = b58 := by decide +kernel

/-- dsp/conversion_amd64.s:62-62. -/
abbrev b62 : List (Line Lbl Reg Nat) :=
  [.ins .MOVO [.x 1, .m .DI 32]]

theorem h62 : (prog.drop 62).take b62.length = b62 := by decide +kernel

/-- dsp/conversion_amd64.s:63-63. -/
abbrev b63 : List (Line Lbl Reg Nat) :=
  [.ins .MOVO [.x 9, .m .DI 48]]

theorem h63 : (prog.drop 63).take b63.length = b63 := by decide +kernel

/-- dsp/conversion_amd64.s:64-67. -/
abbrev b64 : List (Line Lbl Reg Nat) :=
  [.ins .ADDQ [.i 32, .r .SI],
    .ins .ADDQ [.i 64, .r .DI],
    .ins .SUBQ [.i 32, .r .BX],
    .ins .DECQ [.r .AX]]

theorem h64 : (prog.drop 64).take b64.length = b64 := by decide +kernel

/-- dsp/conversion_amd64.s:69-71. -/
abbrev b69 : List (Line Lbl Reg Nat) :=
  [.nop, .nop, .nop]

theorem h69 : (prog.drop 69).take b69.length = b69 := by decide +kernel

/-- dsp/conversion_amd64.s:72-74. -/
abbrev b72 : List (Line Lbl Reg Nat) :=
  [.label .ui8toi16_tail, .nop,
    .ins .ANDQ [.r .BX, .r .BX]]

theorem h72 : (prog.drop 72).take b72.length = b72 := by decide +kernel

/-- dsp/conversion_amd64.s:76-76. -/
abbrev b76 : List (Line Lbl Reg Nat) :=
  [.nop]

theorem h76 : (prog.drop 76).take b76.length = b76 := by decide +kernel

/-- dsp/conversion_amd64.s:77-85. -/
abbrev b77 : List (Line Lbl Reg Nat) :=
  [.label .ui8toi16_tail_loop,
    .ins .MOVBQZX [.m .SI 0, .r .CX],
    .ins .INCQ [.r .SI],
    .ins .SUBQ [.i 128, .r .CX],
    .ins .MOVB [.r .CX, .m .DI 0],
    .ins .INCQ [.r .DI],
    .ins .MOVB [.r .CX, .m .DI 0],
    .ins .INCQ [.r .DI],
    .ins .DECQ [.r .BX]]

theorem h77 : (prog.drop 77).take b77.length = b77 := by decide +kernel

/-- dsp/conversion_amd64.s:87-88. -/
abbrev b87 : List (Line Lbl Reg Nat) :=
  [.nop, .label .ui8toi16_done]

theorem h87 : (prog.drop 87).take b87.length = b87 := by decide +kernel

/-- dsp/conversion_amd64.s:91-96. -/
abbrev b91 : List (Line Lbl Reg Nat) :=
  [.label .Ui8toi16b,
    .ins .MOVQ [.fp 32, .r .CX],
    .ins .SHRQ [.i 1, .r .CX],
    .ins .MOVQ [.fp 24, .r .DI],
    .ins .MOVQ [.r .DI, .r .AX],
    .ins .ANDQ [.i 1, .r .AX]]

theorem h91 : (prog.drop 91).take b91.length = b91 := by decide +kernel

/-- dsp/conversion_amd64.s:98-100. -/
abbrev b98 : List (Line Lbl Reg Nat) :=
  [.nop, .nop,
    .ins .MOVQ [.r .CX, .fp 32]]

theorem h98 : (prog.drop 98).take b98.length = b98 := by decide +kernel

/-- dsp/conversion_amd64.s:103-109. -/
abbrev b103 : List (Line Lbl Reg Nat) :=
  [.label .ui8toi16b_unaligned, .nop,
    .ins .MOVQ [.fp 0, .r .SI],
    .ins .MOVQ [.fp 8, .r .BX], .nop, .nop,
    .ins .CMPQ [.r .CX, .r .BX]]

theorem h103 : (prog.drop 103).take b103.length = b103 := by decide +kernel

/-- dsp/conversion_amd64.s:111-112. -/
abbrev b111 : List (Line Lbl Reg Nat) :=
  [.ins .MOVQ [.r .CX, .r .BX], .nop]

theorem h111 : (prog.drop 111).take b111.length = b111 := by decide +kernel

/-- dsp/conversion_amd64.s:113-120. -/
abbrev b113 : List (Line Lbl Reg Nat) :=
  [.label .ui8toi16b_min_length, .nop, .nop,
    .ins .MOVQ [.i 0x8080808080808080, .r .AX],
    .ins .MOVQ [.r .AX, .x 8],
    .ins .PUNPCKLBW [.x 8, .x 8],
    .ins .MOVQ [.r .BX, .r .AX],
    .ins .SHRQ [.i 5, .r .AX]]

theorem h113 : (prog.drop 113).take b113.length = b113 := by decide +kernel

/-- dsp/conversion_amd64.s:122-122. -/
abbrev b122 : List (Line Lbl Reg Nat) :=
  [.nop]

theorem h122 : (prog.drop 122).take b122.length = b122 := by decide +kernel

/-- dsp/conversion_amd64.s:123-130. -/
abbrev b123 : List (Line Lbl Reg Nat) :=
  [.label .ui8toi16b_aligned_loop,
    .ins .MOVOU [.m .SI 0, .x 0],
    .ins .PSUBB [.x 8, .x 0],
    .ins .MOVOU [.m .SI 16, .x 1],
    .ins .PSUBB [.x 8, .x 1],
    .ins .MOVO [.x 0, .x 9],
    .ins .PUNPCKLBW [.x 0, .x 0],
    .ins .PUNPCKHBW [.x 9, .x 9]]

theorem h123 : (prog.drop 123).take b123.length = b123 := by decide +kernel

/-- dsp/conversion_amd64.s:131-131. -/
abbrev b131 : List (Line Lbl Reg Nat) :=
  [.ins .MOVOU [.x 0, .m .DI 0]]

theorem h131 : (prog.drop 131).take b131.length = b131 := by decide +kernel

/-- dsp/conversion_amd64.s:132-135. -/
abbrev b132 : List (Line Lbl Reg Nat) :=
  [.ins .MOVOU [.x 9, .m .DI 16],
    .ins .MOVO [.x 1, .x 9],
    .ins .PUNPCKLBW [.x 1, .x 1],
    .ins .PUNPCKHBW [.x 9, .x 9]]

theorem h132 : (prog.drop 132).take b132.length = b132 := by decide +kernel

/-- dsp/conversion_amd64.s:136-136. -/
abbrev b136 : List (Line Lbl Reg Nat) :=
  [.ins .MOVOU [.x 1, .m .DI 32]]

theorem h136 : (prog.drop 136).take b136.length = b136 := by decide +kernel

/-- dsp/conversion_amd64.s:137-137. -/
abbrev b137 : List (Line Lbl Reg Nat) :=
  [.ins .MOVOU [.x 9, .m .DI 48]]

theorem h137 : (prog.drop 137).take b137.length = b137 := by decide +kernel

/-- dsp/conversion_amd64.s:138-141. -/
abbrev b138 : List (Line Lbl Reg Nat) :=
  [.ins .ADDQ [.i 32, .r .SI],
    .ins .ADDQ [.i 64, .r .DI],
    .ins .SUBQ [.i 32, .r .BX],
    .ins .DECQ [.r .AX]]

theorem h138 : (prog.drop 138).take b138.length = b138 := by decide +kernel

/-- dsp/conversion_amd64.s:143-145. -/
abbrev b143 : List (Line Lbl Reg Nat) :=
  [.nop, .nop, .nop]

theorem h143 : (prog.drop 143).take b143.length = b143 := by decide +kernel

/-- dsp/conversion_amd64.s:146-148. -/
abbrev b146 : List (Line Lbl Reg Nat) :=
  [.label .ui8toi16b_tail, .nop,
    .ins .ANDQ [.r .BX, .r .BX]]

theorem h146 : (prog.drop 146).take b146.length = b146 := by decide +kernel

/-- dsp/conversion_amd64.s:150-150. -/
abbrev b150 : List (Line Lbl Reg Nat) :=
  [.nop]

theorem h150 : (prog.drop 150).take b150.length = b150 := by decide +kernel

/-- dsp/conversion_amd64.s:151-159. -/
abbrev b151 : List (Line Lbl Reg Nat) :=
  [.label .ui8toi16l_tail_loop,
    .ins .MOVBQZX [.m .SI 0, .r .CX],
    .ins .INCQ [.r .SI],
    .ins .SUBQ [.i 128, .r .CX],
    .ins .MOVB [.r .CX, .m .DI 0],
    .ins .INCQ [.r .DI],
    .ins .MOVB [.r .CX, .m .DI 0],
    .ins .INCQ [.r .DI],
    .ins .DECQ [.r .BX]]

theorem h151 : (prog.drop 151).take b151.length = b151 := by decide +kernel

/-- dsp/conversion_amd64.s:161-162. -/
abbrev b161 : List (Line Lbl Reg Nat) :=
  [.nop, .label .ui8toi16b_done]

theorem h161 : (prog.drop 161).take b161.length = b161 := by decide +kernel



/-! ### Invariant -/

/-- The output bytes: both bytes of element `i` are input byte `i` less 128. -/
def want (m0 : BitVec 64 → BitVec 8) (ib : BitVec 64) (j : Nat) : BitVec 8 := m0 (ib + BitVec.ofNat 64 (j / 2)) - 0x80#8

/-- After `k` of `n` elements, with `w` bytes written. -/
structure Inv (m0 : BitVec 64 → BitVec 8) (ib ob : BitVec 64) (n : Nat) (f0 : Nat → BitVec 64) (bp : BitVec 64) (k w : Nat)
    (s : St) : Prop where
  si : s.g.si = ib + BitVec.ofNat 64 k
  di : s.g.di = ob + BitVec.ofNat 64 (2 * k)
  bx : s.g.bx = BitVec.ofNat 64 (n - k)
  bp : s.g.bp = bp
  fp : s.fp = f0
  mem : s.mem = fill m0 ob w (want m0 ib)

variable {e : Env} {m0 : BitVec 64 → BitVec 8} {ib ob : BitVec 64} {n : Nat} {f0 : Nat → BitVec 64} {bp : BitVec 64}

theorem one64 : (1 : BitVec 64) = BitVec.ofNat 64 1 := rfl

theorem sub128b (b : BitVec 8) : byte (b.setWidth 64 - imm32 128) 0 = b - 0x80#8 := by
  revert b
  decide +kernel

/-- One element, followed by the instructions `ls`. -/
theorem step_inv (h : Io e ib ob n (2 * n)) {k : Nat} (hk : k < n) {s : St} (hi : Inv m0 ib ob n f0 bp k (2 * k) s) (ls : List (Line Lbl Reg Nat)) :
    ∃ s1, blk e ([.ins .MOVBQZX [.m .SI 0, .r .CX], .ins .INCQ [.r .SI], .ins .SUBQ [.i 128, .r .CX], .ins .MOVB [.r .CX, .m .DI 0],
      .ins .INCQ [.r .DI], .ins .MOVB [.r .CX, .m .DI 0], .ins .INCQ [.r .DI]] ++ ls : List (Line Lbl Reg Nat)) s = blk e ls s1 ∧
      s1.g.si = ib + BitVec.ofNat 64 (k + 1) ∧ s1.g.di = ob + BitVec.ofNat 64 (2 * (k + 1)) ∧ s1.g.bx = BitVec.ofNat 64 (n - k) ∧
      s1.g.bp = bp ∧ s1.fp = f0 ∧ s1.mem = fill m0 ob (2 * (k + 1)) (want m0 ib) ∧ s1.g.ax = s.g.ax := by
  simp only [List.cons_append, List.nil_append]
  xs [hi.si, h.load hi.mem (by omega) rfl (show k + 1 ≤ n by omega), hi.di, one64]
  rw [h.store (w := 2 * k) (g := want m0 ib) (m0 := m0) ?_ rfl ?_ ?_]
  rotate_left
  · exact hi.mem
  · omega
  · intro i hi1
    obtain rfl : i = 0 := by omega
    simp only [inp, sub128b, want, Nat.zero_lt_one, if_true, Nat.add_zero]
    rw [show 2 * k / 2 = k by omega]
  xs [adv]
  rw [h.store (w := 2 * k + 1) (g := want m0 ib) (m0 := m0) ?_ rfl ?_ ?_]
  rotate_left
  · rfl
  · omega
  · intro i hi1
    obtain rfl : i = 0 := by omega
    simp only [inp, sub128b, want, Nat.zero_lt_one, if_true, Nat.add_zero]
    rw [show (2 * k + 1) / 2 = k by omega]
  xs [adv]
  exact ⟨_, rfl, rfl, rfl, hi.bx, hi.bp, hi.fp, rfl, rfl⟩

theorem dec_bx {k : Nat} (hk : k < n) (hn : n < 2 ^ 63) : BitVec.ofNat 64 (n - k) - 1 = BitVec.ofNat 64 (n - (k + 1)) := by
  rw [one64, sub_ofNat (by omega) (by omega), Nat.sub_sub]

/-! ### The loops over single elements -/

theorem head_loop (h : Io e ib ob n (2 * n)) {d : Nat} (hd : d ≤ n) {k : Nat} (hk : k < d) {s : St} (hi : Inv m0 ib ob n f0 bp k (2 * k) s)
    (hax : s.g.ax = BitVec.ofNat 64 (d - k)) : ∃ s', Inv m0 ib ob n f0 bp d (2 * d) s' ∧ Reach e prog 29 s 40 s' := by
  have hn := h.nin_lt
  obtain ⟨k', s', ⟨h1, h1'⟩, h2, h3, -, -, h6⟩ := loop (e := e) (p := prog) (a := 29) (b := 40)
    (fun k s => Inv m0 ib ob n f0 bp k (2 * k) s ∧ s.g.ax = BitVec.ofNat 64 (d - k)) d 1 (by omega)
    (by
      rintro k s hk ⟨hi, hax⟩
      obtain ⟨s1, g1, u1, u2, u3, u4, u5, u6, u7⟩ := step_inv h (show k < n by omega) hi [.ins .DECQ [.r .BX], .ins .DECQ [.r .AX]]
      have g4 : blk e ([.ins .DECQ [.r .BX], .ins .DECQ [.r .AX]] : List (Line Lbl Reg Nat)) s1 =
          some { s1 with g := { s1.g with bx := BitVec.ofNat 64 (n - (k + 1)), ax := BitVec.ofNat 64 (d - (k + 1)) }, fl := { subFlags (BitVec.ofNat 64 (d - k)) 1 with cf := s1.fl.cf } } := by
        xs [u3, u7, hax, dec_bx (show k < n by omega) (by omega), dec_bx (show k < d by omega) (by omega)]
      have r1 : Reach e prog 29 s 39 _ := reach_blk b29 h29 (g1.trans g4)
      have r2 := reach_branch (e := e) (p := prog) (pc := 39) .JNZ .ui8toi16_head_loop (by decide +kernel) (t := 29) (by decide +kernel)
        (s := { s1 with g := { s1.g with bx := BitVec.ofNat 64 (n - (k + 1)), ax := BitVec.ofNat 64 (d - (k + 1)) }, fl := { subFlags (BitVec.ofNat 64 (d - k)) 1 with cf := s1.fl.cf } })
        (jnz_dec (show 0 < d - k by omega) (by omega) _)
      have e1 : (d - k ≠ 1) = (k + 1 < d) := by rw [eq_iff_iff]; omega
      simp only [decide_eq_true_eq, e1] at r2
      refine ⟨_, ?_, r1.trans r2⟩
      exact ⟨⟨u1, u2, rfl, u4, u5, u6⟩, rfl⟩)
    k s hk ⟨hi, hax⟩
  obtain rfl : k' = d := by omega
  exact ⟨s', h1, h6⟩

theorem and_self_flags (c : Nat) (hc : c < 2 ^ 63) : (logicFlags (BitVec.ofNat 64 c &&& BitVec.ofNat 64 c)).taken .JZ = some (decide (c = 0)) := by
  rw [BitVec.and_self]
  simp only [logicFlags, Flags.taken]
  congr 1
  rw [Bool.eq_iff_iff]
  simp only [beq_iff_eq, decide_eq_true_eq]
  refine ⟨fun g => ?_, fun g => by rw [g]; rfl⟩
  have := congrArg BitVec.toNat g
  rw [toNat_ofNat (by omega)] at this
  exact this

theorem shift_flags (c : Nat) (hc : c < 2 ^ 63) : (shiftFlags (BitVec.ofNat 64 c)).taken .JZ = some (decide (c = 0)) := by
  have := and_self_flags c hc
  rwa [BitVec.and_self] at this

theorem ui8toi16_tail_loop (h : Io e ib ob n (2 * n)) {k : Nat} (hk : k < n) {s : St} (hi : Inv m0 ib ob n f0 bp k (2 * k) s) :
    ∃ s', Inv m0 ib ob n f0 bp n (2 * n) s' ∧ Reach e prog 77 s 87 s' := by
  have hn := h.nin_lt
  obtain ⟨k', s', h1, h2, h3, -, -, h6⟩ := loop (e := e) (p := prog) (a := 77) (b := 87)
    (fun k s => Inv m0 ib ob n f0 bp k (2 * k) s) n 1 (by omega)
    (by
      rintro k s hk hi
      obtain ⟨s1, g1, u1, u2, u3, u4, u5, u6, u7⟩ := step_inv h (show k < n by omega) hi [.ins .DECQ [.r .BX]]
      have g4 : blk e ([.ins .DECQ [.r .BX]] : List (Line Lbl Reg Nat)) s1 =
          some { s1 with g := { s1.g with bx := BitVec.ofNat 64 (n - (k + 1)) }, fl := { subFlags (BitVec.ofNat 64 (n - k)) 1 with cf := s1.fl.cf } } := by
        xs [u3, dec_bx (show k < n by omega) (by omega)]
      have r1 : Reach e prog 77 s 86 _ := reach_blk b77 h77 (g1.trans g4)
      have r2 := reach_branch (e := e) (p := prog) (pc := 86) .JNZ .ui8toi16_tail_loop (by decide +kernel) (t := 77) (by decide +kernel)
        (s := { s1 with g := { s1.g with bx := BitVec.ofNat 64 (n - (k + 1)) }, fl := { subFlags (BitVec.ofNat 64 (n - k)) 1 with cf := s1.fl.cf } })
        (jnz_dec (show 0 < n - k by omega) (by omega) _)
      have e1 : (n - k ≠ 1) = (k + 1 < n) := by rw [eq_iff_iff]; omega
      simp only [decide_eq_true_eq, e1] at r2
      refine ⟨_, ?_, r1.trans r2⟩
      exact ⟨u1, u2, rfl, u4, u5, u6⟩)
    k s hk hi
  obtain rfl : k' = n := by omega
  exact ⟨s', h1, h6⟩

/-- From the label `ui8toi16_tail` the routine converts the rest and returns. -/
theorem ui8toi16_tail (h : Io e ib ob n (2 * n)) {k : Nat} (hk : k ≤ n) {s : St} (hi : Inv m0 ib ob n f0 bp k (2 * k) s) :
    ∃ s', Returns e prog 72 s s' ∧ Inv m0 ib ob n f0 bp n (2 * n) s' := by
  have hn := h.nin_lt
  have b1 : blk e b72 s = some { s with g := { s.g with bx := BitVec.ofNat 64 (n - k) &&& BitVec.ofNat 64 (n - k) }, fl := logicFlags (BitVec.ofNat 64 (n - k) &&& BitVec.ofNat 64 (n - k)) } := by
    xs [hi.bx]
  have r1 : Reach e prog 72 s 75 _ := reach_blk b72 h72 b1
  have r2 := reach_branch (e := e) (p := prog) (pc := 75) .JZ .ui8toi16_done (by decide +kernel) (t := 88) (by decide +kernel)
    (s := { s with g := { s.g with bx := BitVec.ofNat 64 (n - k) &&& BitVec.ofNat 64 (n - k) }, fl := logicFlags (BitVec.ofNat 64 (n - k) &&& BitVec.ofNat 64 (n - k)) })
    (and_self_flags (n - k) (by omega))
  have hi2 : Inv m0 ib ob n f0 bp k (2 * k) { s with g := { s.g with bx := BitVec.ofNat 64 (n - k) &&& BitVec.ofNat 64 (n - k) }, fl := logicFlags (BitVec.ofNat 64 (n - k) &&& BitVec.ofNat 64 (n - k)) } :=
    ⟨hi.si, hi.di, BitVec.and_self, hi.bp, hi.fp, hi.mem⟩
  generalize ({ s with g := { s.g with bx := BitVec.ofNat 64 (n - k) &&& BitVec.ofNat 64 (n - k) }, fl := logicFlags (BitVec.ofNat 64 (n - k) &&& BitVec.ofNat 64 (n - k)) } : St) = s1 at *
  simp only [decide_eq_true_eq] at r2
  by_cases c : n - k = 0
  · rw [if_pos c] at r2
    obtain rfl : k = n := by omega
    have r3 : Reach e prog 88 s1 89 s1 := reach_blk [.label .ui8toi16_done] (by decide +kernel) rfl
    exact ⟨s1, ((r1.trans r2).trans r3).returns (returns_ret (by decide +kernel)), hi2⟩
  · rw [if_neg c] at r2
    have r3 : Reach e prog 76 s1 77 s1 := reach_blk b76 h76 rfl
    obtain ⟨s', h1, h2⟩ := ui8toi16_tail_loop h (by omega) hi2
    have r4 : Reach e prog 87 s' 89 s' := reach_blk b87 h87 rfl
    exact ⟨s', (((r1.trans r2).trans r3).trans (h2.trans r4)).returns (returns_ret (by decide +kernel)), h1⟩

theorem ui8toi16b_tail_loop (h : Io e ib ob n (2 * n)) {k : Nat} (hk : k < n) {s : St} (hi : Inv m0 ib ob n f0 bp k (2 * k) s) :
    ∃ s', Inv m0 ib ob n f0 bp n (2 * n) s' ∧ Reach e prog 151 s 161 s' := by
  have hn := h.nin_lt
  obtain ⟨k', s', h1, h2, h3, -, -, h6⟩ := loop (e := e) (p := prog) (a := 151) (b := 161)
    (fun k s => Inv m0 ib ob n f0 bp k (2 * k) s) n 1 (by omega)
    (by
      rintro k s hk hi
      obtain ⟨s1, g1, u1, u2, u3, u4, u5, u6, u7⟩ := step_inv h (show k < n by omega) hi [.ins .DECQ [.r .BX]]
      have g4 : blk e ([.ins .DECQ [.r .BX]] : List (Line Lbl Reg Nat)) s1 =
          some { s1 with g := { s1.g with bx := BitVec.ofNat 64 (n - (k + 1)) }, fl := { subFlags (BitVec.ofNat 64 (n - k)) 1 with cf := s1.fl.cf } } := by
        xs [u3, dec_bx (show k < n by omega) (by omega)]
      have r1 : Reach e prog 151 s 160 _ := reach_blk b151 h151 (g1.trans g4)
      have r2 := reach_branch (e := e) (p := prog) (pc := 160) .JNZ .ui8toi16l_tail_loop (by decide +kernel) (t := 151) (by decide +kernel)
        (s := { s1 with g := { s1.g with bx := BitVec.ofNat 64 (n - (k + 1)) }, fl := { subFlags (BitVec.ofNat 64 (n - k)) 1 with cf := s1.fl.cf } })
        (jnz_dec (show 0 < n - k by omega) (by omega) _)
      have e1 : (n - k ≠ 1) = (k + 1 < n) := by rw [eq_iff_iff]; omega
      simp only [decide_eq_true_eq, e1] at r2
      refine ⟨_, ?_, r1.trans r2⟩
      exact ⟨u1, u2, rfl, u4, u5, u6⟩)
    k s hk hi
  obtain rfl : k' = n := by omega
  exact ⟨s', h1, h6⟩

/-- From the label `ui8toi16b_tail` the routine converts the rest and returns. -/
theorem ui8toi16b_tail (h : Io e ib ob n (2 * n)) {k : Nat} (hk : k ≤ n) {s : St} (hi : Inv m0 ib ob n f0 bp k (2 * k) s) :
    ∃ s', Returns e prog 146 s s' ∧ Inv m0 ib ob n f0 bp n (2 * n) s' := by
  have hn := h.nin_lt
  have b1 : blk e b146 s = some { s with g := { s.g with bx := BitVec.ofNat 64 (n - k) &&& BitVec.ofNat 64 (n - k) }, fl := logicFlags (BitVec.ofNat 64 (n - k) &&& BitVec.ofNat 64 (n - k)) } := by
    xs [hi.bx]
  have r1 : Reach e prog 146 s 149 _ := reach_blk b146 h146 b1
  have r2 := reach_branch (e := e) (p := prog) (pc := 149) .JZ .ui8toi16b_done (by decide +kernel) (t := 162) (by decide +kernel)
    (s := { s with g := { s.g with bx := BitVec.ofNat 64 (n - k) &&& BitVec.ofNat 64 (n - k) }, fl := logicFlags (BitVec.ofNat 64 (n - k) &&& BitVec.ofNat 64 (n - k)) })
    (and_self_flags (n - k) (by omega))
  have hi2 : Inv m0 ib ob n f0 bp k (2 * k) { s with g := { s.g with bx := BitVec.ofNat 64 (n - k) &&& BitVec.ofNat 64 (n - k) }, fl := logicFlags (BitVec.ofNat 64 (n - k) &&& BitVec.ofNat 64 (n - k)) } :=
    ⟨hi.si, hi.di, BitVec.and_self, hi.bp, hi.fp, hi.mem⟩
  generalize ({ s with g := { s.g with bx := BitVec.ofNat 64 (n - k) &&& BitVec.ofNat 64 (n - k) }, fl := logicFlags (BitVec.ofNat 64 (n - k) &&& BitVec.ofNat 64 (n - k)) } : St) = s1 at *
  simp only [decide_eq_true_eq] at r2
  by_cases c : n - k = 0
  · rw [if_pos c] at r2
    obtain rfl : k = n := by omega
    have r3 : Reach e prog 162 s1 163 s1 := reach_blk [.label .ui8toi16b_done] (by decide +kernel) rfl
    exact ⟨s1, ((r1.trans r2).trans r3).returns (returns_ret (by decide +kernel)), hi2⟩
  · rw [if_neg c] at r2
    have r3 : Reach e prog 150 s1 151 s1 := reach_blk b150 h150 rfl
    obtain ⟨s', h1, h2⟩ := ui8toi16b_tail_loop h (by omega) hi2
    have r4 : Reach e prog 161 s' 163 s' := reach_blk b161 h161 rfl
    exact ⟨s', (((r1.trans r2).trans r3).trans (h2.trans r4)).returns (returns_ret (by decide +kernel)), h1⟩

/-! ### Thirty-two elements at a time -/

/-- Before an iteration: `c` iterations are left, `X8` holds 0x80 in every byte. -/
structure Top (m0 : BitVec 64 → BitVec 8) (ib ob : BitVec 64) (n : Nat) (f0 : Nat → BitVec 64) (bp : BitVec 64) (c k w : Nat)
    (s : St) : Prop where
  inv : Inv m0 ib ob n f0 bp k w s
  ax : s.g.ax = BitVec.ofNat 64 c
  x8 : ∀ i < 16, s.x 8 i = 0x80#8

theorem i32 : imm32 32 = BitVec.ofNat 64 32 := rfl

theorem i64 : imm32 64 = BitVec.ofNat 64 64 := rfl

theorem ui8toi16_load (h : Io e ib ob n (2 * n)) {c k : Nat} (hk : k + 32 ≤ n) {s : St} (hi : Top m0 ib ob n f0 bp c k (2 * k) s) :
    ∃ s', blk e b49 s = some s' ∧ Top m0 ib ob n f0 bp c k (2 * k) s' ∧ (∀ i < 16, s'.x 0 i = m0 (ib + BitVec.ofNat 64 (k + i / 2)) - 0x80#8) ∧
      (∀ i < 16, s'.x 9 i = m0 (ib + BitVec.ofNat 64 (k + (8 + i / 2))) - 0x80#8) ∧ (∀ i < 16, s'.x 1 i = m0 (ib + BitVec.ofNat 64 (k + (16 + i))) - 0x80#8) := by
  xs [hi.inv.si, h.load hi.inv.mem (by omega) rfl (show k + 16 ≤ n by omega), adv]
  rw [h.load (k := k + 16) (g := want m0 ib) (m0 := m0) (w := 2 * k) ?_ (by omega) rfl (by omega)]
  rotate_left
  · exact hi.inv.mem
  xs []
  refine ⟨_, rfl, ⟨⟨hi.inv.si, hi.inv.di, hi.inv.bx, hi.inv.bp, hi.inv.fp, hi.inv.mem⟩, hi.ax, ?_⟩, ?_, ?_, ?_⟩
  · intro i hi16
    simp [hi.x8 i hi16]
  · intro i hi16
    have e1 : i / 2 < 16 := by omega
    simp [low_lt hi16, inp, hi16, hi.x8 _ e1, low_lt e1, e1]
  · intro i hi16
    have e1 : 8 + i / 2 < 16 := by omega
    simp [low_lt hi16, inp, hi16, hi.x8 _ e1, low_lt e1, e1]
  · intro i hi16
    simp [low_lt hi16, inp, hi16, hi.x8 i hi16, Nat.add_assoc]

theorem ui8toi16_st0 (h : Io e ib ob n (2 * n)) {c k : Nat} (hk : k + 32 ≤ n) (ha : (ob.toNat + 2 * k) % 16 = 0) {s : St} (hi : Top m0 ib ob n f0 bp c k (2 * k) s)
    (q0 : ∀ i < 16, s.x 0 i = m0 (ib + BitVec.ofNat 64 (k + i / 2)) - 0x80#8) (q9 : ∀ i < 16, s.x 9 i = m0 (ib + BitVec.ofNat 64 (k + (8 + i / 2))) - 0x80#8) (q1 : ∀ i < 16, s.x 1 i = m0 (ib + BitVec.ofNat 64 (k + (16 + i))) - 0x80#8) :
    ∃ s', blk e b57 s = some s' ∧ Top m0 ib ob n f0 bp c k (2 * k + 16) s' ∧ (∀ i < 16, s'.x 9 i = m0 (ib + BitVec.ofNat 64 (k + (8 + i / 2))) - 0x80#8) ∧ (∀ i < 16, s'.x 1 i = m0 (ib + BitVec.ofNat 64 (k + (16 + i))) - 0x80#8) := by
  have hal := aligned16 (ob := ob) (j := 2 * k) (d := 0) ha (by norm_num)
  rw [adv] at hal
  simp only [Nat.add_zero] at hal
  xs [hi.inv.di, adv, hal, beq_self_eq_true, if_true]
  rw [h.store (w := 2 * k) (g := want m0 ib) (m0 := m0) ?_ rfl ?_ ?_]
  rotate_left
  · exact hi.inv.mem
  · omega
  · intro i hi16
    rw [q0 i hi16, want, show (2 * k + i) / 2 = k + i / 2 by omega]
  exact ⟨_, rfl, ⟨⟨hi.inv.si, hi.inv.di, hi.inv.bx, hi.inv.bp, hi.inv.fp, rfl⟩, hi.ax, hi.x8⟩, q9, q1⟩

theorem ui8toi16_st1 (h : Io e ib ob n (2 * n)) {c k : Nat} (hk : k + 32 ≤ n) (ha : (ob.toNat + 2 * k) % 16 = 0) {s : St} (hi : Top m0 ib ob n f0 bp c k (2 * k + 16) s)
    (q9 : ∀ i < 16, s.x 9 i = m0 (ib + BitVec.ofNat 64 (k + (8 + i / 2))) - 0x80#8) (q1 : ∀ i < 16, s.x 1 i = m0 (ib + BitVec.ofNat 64 (k + (16 + i))) - 0x80#8) :
    ∃ s', blk e b58 s = some s' ∧ Top m0 ib ob n f0 bp c k (2 * k + 32) s' ∧ (∀ i < 16, s'.x 9 i = m0 (ib + BitVec.ofNat 64 (k + (24 + i / 2))) - 0x80#8) ∧ (∀ i < 16, s'.x 1 i = m0 (ib + BitVec.ofNat 64 (k + (16 + i / 2))) - 0x80#8) := by
  have hal := aligned16 (ob := ob) (j := 2 * k) (d := 16) ha (by norm_num)
  rw [adv] at hal
  xs [hi.inv.di, adv, hal, beq_self_eq_true, if_true]
  rw [h.store (w := 2 * k + 16) (g := want m0 ib) (m0 := m0) ?_ rfl ?_ ?_]
  rotate_left
  · exact hi.inv.mem
  · omega
  · intro i hi16
    rw [q9 i hi16, want, show (2 * k + 16 + i) / 2 = k + (8 + i / 2) by omega]
  xs []
  refine ⟨_, rfl, ⟨⟨hi.inv.si, hi.inv.di, hi.inv.bx, hi.inv.bp, hi.inv.fp, rfl⟩, hi.ax, ?_⟩, ?_, ?_⟩
  · intro i hi16
    simp [hi.x8 i hi16]
  · intro i hi16
    have e1 : 8 + i / 2 < 16 := by omega
    have e2 : 16 + (8 + i / 2) = 24 + i / 2 := by omega
    simp [low_lt hi16, low_lt e1, q1 _ e1, e2]
  · intro i hi16
    have e1 : i / 2 < 16 := by omega
    simp [low_lt hi16, low_lt e1, q1 _ e1]

theorem ui8toi16_st2 (h : Io e ib ob n (2 * n)) {c k : Nat} (hk : k + 32 ≤ n) (ha : (ob.toNat + 2 * k) % 16 = 0) {s : St} (hi : Top m0 ib ob n f0 bp c k (2 * k + 32) s)
    (q9 : ∀ i < 16, s.x 9 i = m0 (ib + BitVec.ofNat 64 (k + (24 + i / 2))) - 0x80#8) (q1 : ∀ i < 16, s.x 1 i = m0 (ib + BitVec.ofNat 64 (k + (16 + i / 2))) - 0x80#8) :
    ∃ s', blk e b62 s = some s' ∧ Top m0 ib ob n f0 bp c k (2 * k + 48) s' ∧ (∀ i < 16, s'.x 9 i = m0 (ib + BitVec.ofNat 64 (k + (24 + i / 2))) - 0x80#8) := by
  have hal := aligned16 (ob := ob) (j := 2 * k) (d := 32) ha (by norm_num)
  rw [adv] at hal
  xs [hi.inv.di, adv, hal, beq_self_eq_true, if_true]
  rw [h.store (w := 2 * k + 32) (g := want m0 ib) (m0 := m0) ?_ rfl ?_ ?_]
  rotate_left
  · exact hi.inv.mem
  · omega
  · intro i hi16
    rw [q1 i hi16, want, show (2 * k + 32 + i) / 2 = k + (16 + i / 2) by omega]
  exact ⟨_, rfl, ⟨⟨hi.inv.si, hi.inv.di, hi.inv.bx, hi.inv.bp, hi.inv.fp, rfl⟩, hi.ax, hi.x8⟩, q9⟩

theorem ui8toi16_st3 (h : Io e ib ob n (2 * n)) {c k : Nat} (hk : k + 32 ≤ n) (ha : (ob.toNat + 2 * k) % 16 = 0) {s : St} (hi : Top m0 ib ob n f0 bp c k (2 * k + 48) s)
    (q9 : ∀ i < 16, s.x 9 i = m0 (ib + BitVec.ofNat 64 (k + (24 + i / 2))) - 0x80#8) :
    ∃ s', blk e b63 s = some s' ∧ Top m0 ib ob n f0 bp c k (2 * k + 64) s' := by
  have hal := aligned16 (ob := ob) (j := 2 * k) (d := 48) ha (by norm_num)
  rw [adv] at hal
  xs [hi.inv.di, adv, hal, beq_self_eq_true, if_true]
  rw [h.store (w := 2 * k + 48) (g := want m0 ib) (m0 := m0) ?_ rfl ?_ ?_]
  rotate_left
  · exact hi.inv.mem
  · omega
  · intro i hi16
    rw [q9 i hi16, want, show (2 * k + 48 + i) / 2 = k + (24 + i / 2) by omega]
  exact ⟨_, rfl, ⟨⟨hi.inv.si, hi.inv.di, hi.inv.bx, hi.inv.bp, hi.inv.fp, rfl⟩, hi.ax, hi.x8⟩⟩

theorem ui8toi16_next {c k : Nat} (hc : 0 < c) (hc' : c < 2 ^ 63) (hk : k + 32 ≤ n) (hn : n < 2 ^ 63) {s : St} (hi : Top m0 ib ob n f0 bp c k (2 * k + 64) s) :
    ∃ s', blk e b64 s = some s' ∧ Top m0 ib ob n f0 bp (c - 1) (k + 32) (2 * (k + 32)) s' ∧ s'.fl.taken .JNZ = some (decide (c ≠ 1)) := by
  xs [hi.inv.si, hi.inv.bx, hi.inv.di, i32, i64, adv, hi.ax]
  refine ⟨_, rfl, ⟨⟨rfl, rfl, ?_, hi.inv.bp, hi.inv.fp, hi.inv.mem⟩, ?_, hi.x8⟩, ?_⟩
  · exact (sub_ofNat (by omega) (by omega)).trans (by rw [Nat.sub_sub])
  · exact sub_ofNat (b := 1) hc (by omega)
  · exact jnz_dec hc hc' _

/-- The loop over blocks. -/
theorem ui8toi16_blocks (h : Io e ib ob n (2 * n)) {c k : Nat} (hc : 0 < c) (hk : k + 32 * c ≤ n) (ha : (ob.toNat + 2 * k) % 16 = 0) {s : St}
    (hi : Top m0 ib ob n f0 bp c k (2 * k) s) : ∃ s', Inv m0 ib ob n f0 bp (k + 32 * c) (2 * (k + 32 * c)) s' ∧ Reach e prog 49 s 69 s' := by
  have hn := h.nin_lt
  induction c generalizing k s with
  | zero => omega
  | succ c ih =>
    have hk32 : k + 32 ≤ n := by omega
    obtain ⟨s1, g1, i1, u0, u9, u1⟩ := ui8toi16_load h hk32 hi
    obtain ⟨s2, g2, i2, v9, v1⟩ := ui8toi16_st0 h hk32 ha i1 u0 u9 u1
    obtain ⟨s3, g3, i3, w9, w1⟩ := ui8toi16_st1 h hk32 ha i2 v9 v1
    obtain ⟨s4, g4, i4, y9⟩ := ui8toi16_st2 h hk32 ha i3 w9 w1
    obtain ⟨s5, g5, i5⟩ := ui8toi16_st3 h hk32 ha i4 y9
    obtain ⟨s6, g6, i6, f6⟩ := ui8toi16_next (e := e) (Nat.succ_pos c) (by omega) hk32 hn i5
    have r1 : Reach e prog 49 s 57 s1 := reach_blk b49 h49 g1
    have r2 : Reach e prog 57 s1 58 s2 := reach_blk b57 h57 g2
    have r3 : Reach e prog 58 s2 62 s3 := reach_blk b58 h58 g3
    have r4 : Reach e prog 62 s3 63 s4 := reach_blk b62 h62 g4
    have r5 : Reach e prog 63 s4 64 s5 := reach_blk b63 h63 g5
    have r6 : Reach e prog 64 s5 68 s6 := reach_blk b64 h64 g6
    have r7 := reach_branch (e := e) (p := prog) (pc := 68) .JNZ .ui8toi16_aligned_loop (by decide +kernel) (t := 49) (by decide +kernel) f6
    simp only [decide_eq_true_eq] at r7
    have r := r1.trans (r2.trans (r3.trans (r4.trans (r5.trans (r6.trans r7)))))
    by_cases c0 : c = 0
    · subst c0
      rw [if_neg (by omega)] at r
      exact ⟨s6, i6.inv, r⟩
    · rw [if_pos (by omega)] at r
      have i6' : Top m0 ib ob n f0 bp c (k + 32) (2 * (k + 32)) s6 := i6
      obtain ⟨s', i', r'⟩ := ih (by omega) (by omega) (by omega) i6'
      rw [show k + 32 * (c + 1) = k + 32 + 32 * c by omega]
      exact ⟨s', i', r.trans r'⟩

theorem ui8toi16b_load (h : Io e ib ob n (2 * n)) {c k : Nat} (hk : k + 32 ≤ n) {s : St} (hi : Top m0 ib ob n f0 bp c k (2 * k) s) :
    ∃ s', blk e b123 s = some s' ∧ Top m0 ib ob n f0 bp c k (2 * k) s' ∧ (∀ i < 16, s'.x 0 i = m0 (ib + BitVec.ofNat 64 (k + i / 2)) - 0x80#8) ∧
      (∀ i < 16, s'.x 9 i = m0 (ib + BitVec.ofNat 64 (k + (8 + i / 2))) - 0x80#8) ∧ (∀ i < 16, s'.x 1 i = m0 (ib + BitVec.ofNat 64 (k + (16 + i))) - 0x80#8) := by
  xs [hi.inv.si, h.load hi.inv.mem (by omega) rfl (show k + 16 ≤ n by omega), adv]
  rw [h.load (k := k + 16) (g := want m0 ib) (m0 := m0) (w := 2 * k) ?_ (by omega) rfl (by omega)]
  rotate_left
  · exact hi.inv.mem
  xs []
  refine ⟨_, rfl, ⟨⟨hi.inv.si, hi.inv.di, hi.inv.bx, hi.inv.bp, hi.inv.fp, hi.inv.mem⟩, hi.ax, ?_⟩, ?_, ?_, ?_⟩
  · intro i hi16
    simp [hi.x8 i hi16]
  · intro i hi16
    have e1 : i / 2 < 16 := by omega
    simp [low_lt hi16, inp, hi16, hi.x8 _ e1, low_lt e1, e1]
  · intro i hi16
    have e1 : 8 + i / 2 < 16 := by omega
    simp [low_lt hi16, inp, hi16, hi.x8 _ e1, low_lt e1, e1]
  · intro i hi16
    simp [low_lt hi16, inp, hi16, hi.x8 i hi16, Nat.add_assoc]

theorem ui8toi16b_st0 (h : Io e ib ob n (2 * n)) {c k : Nat} (hk : k + 32 ≤ n) {s : St} (hi : Top m0 ib ob n f0 bp c k (2 * k) s)
    (q0 : ∀ i < 16, s.x 0 i = m0 (ib + BitVec.ofNat 64 (k + i / 2)) - 0x80#8) (q9 : ∀ i < 16, s.x 9 i = m0 (ib + BitVec.ofNat 64 (k + (8 + i / 2))) - 0x80#8) (q1 : ∀ i < 16, s.x 1 i = m0 (ib + BitVec.ofNat 64 (k + (16 + i))) - 0x80#8) :
    ∃ s', blk e b131 s = some s' ∧ Top m0 ib ob n f0 bp c k (2 * k + 16) s' ∧ (∀ i < 16, s'.x 9 i = m0 (ib + BitVec.ofNat 64 (k + (8 + i / 2))) - 0x80#8) ∧ (∀ i < 16, s'.x 1 i = m0 (ib + BitVec.ofNat 64 (k + (16 + i))) - 0x80#8) := by
  xs [hi.inv.di, adv]
  rw [h.store (w := 2 * k) (g := want m0 ib) (m0 := m0) ?_ rfl ?_ ?_]
  rotate_left
  · exact hi.inv.mem
  · omega
  · intro i hi16
    rw [q0 i hi16, want, show (2 * k + i) / 2 = k + i / 2 by omega]
  exact ⟨_, rfl, ⟨⟨hi.inv.si, hi.inv.di, hi.inv.bx, hi.inv.bp, hi.inv.fp, rfl⟩, hi.ax, hi.x8⟩, q9, q1⟩

theorem ui8toi16b_st1 (h : Io e ib ob n (2 * n)) {c k : Nat} (hk : k + 32 ≤ n) {s : St} (hi : Top m0 ib ob n f0 bp c k (2 * k + 16) s)
    (q9 : ∀ i < 16, s.x 9 i = m0 (ib + BitVec.ofNat 64 (k + (8 + i / 2))) - 0x80#8) (q1 : ∀ i < 16, s.x 1 i = m0 (ib + BitVec.ofNat 64 (k + (16 + i))) - 0x80#8) :
    ∃ s', blk e b132 s = some s' ∧ Top m0 ib ob n f0 bp c k (2 * k + 32) s' ∧ (∀ i < 16, s'.x 9 i = m0 (ib + BitVec.ofNat 64 (k + (24 + i / 2))) - 0x80#8) ∧ (∀ i < 16, s'.x 1 i = m0 (ib + BitVec.ofNat 64 (k + (16 + i / 2))) - 0x80#8) := by
  xs [hi.inv.di, adv]
  rw [h.store (w := 2 * k + 16) (g := want m0 ib) (m0 := m0) ?_ rfl ?_ ?_]
  rotate_left
  · exact hi.inv.mem
  · omega
  · intro i hi16
    rw [q9 i hi16, want, show (2 * k + 16 + i) / 2 = k + (8 + i / 2) by omega]
  xs []
  refine ⟨_, rfl, ⟨⟨hi.inv.si, hi.inv.di, hi.inv.bx, hi.inv.bp, hi.inv.fp, rfl⟩, hi.ax, ?_⟩, ?_, ?_⟩
  · intro i hi16
    simp [hi.x8 i hi16]
  · intro i hi16
    have e1 : 8 + i / 2 < 16 := by omega
    have e2 : 16 + (8 + i / 2) = 24 + i / 2 := by omega
    simp [low_lt hi16, low_lt e1, q1 _ e1, e2]
  · intro i hi16
    have e1 : i / 2 < 16 := by omega
    simp [low_lt hi16, low_lt e1, q1 _ e1]

theorem ui8toi16b_st2 (h : Io e ib ob n (2 * n)) {c k : Nat} (hk : k + 32 ≤ n) {s : St} (hi : Top m0 ib ob n f0 bp c k (2 * k + 32) s)
    (q9 : ∀ i < 16, s.x 9 i = m0 (ib + BitVec.ofNat 64 (k + (24 + i / 2))) - 0x80#8) (q1 : ∀ i < 16, s.x 1 i = m0 (ib + BitVec.ofNat 64 (k + (16 + i / 2))) - 0x80#8) :
    ∃ s', blk e b136 s = some s' ∧ Top m0 ib ob n f0 bp c k (2 * k + 48) s' ∧ (∀ i < 16, s'.x 9 i = m0 (ib + BitVec.ofNat 64 (k + (24 + i / 2))) - 0x80#8) := by
  xs [hi.inv.di, adv]
  rw [h.store (w := 2 * k + 32) (g := want m0 ib) (m0 := m0) ?_ rfl ?_ ?_]
  rotate_left
  · exact hi.inv.mem
  · omega
  · intro i hi16
    rw [q1 i hi16, want, show (2 * k + 32 + i) / 2 = k + (16 + i / 2) by omega]
  exact ⟨_, rfl, ⟨⟨hi.inv.si, hi.inv.di, hi.inv.bx, hi.inv.bp, hi.inv.fp, rfl⟩, hi.ax, hi.x8⟩, q9⟩

theorem ui8toi16b_st3 (h : Io e ib ob n (2 * n)) {c k : Nat} (hk : k + 32 ≤ n) {s : St} (hi : Top m0 ib ob n f0 bp c k (2 * k + 48) s)
    (q9 : ∀ i < 16, s.x 9 i = m0 (ib + BitVec.ofNat 64 (k + (24 + i / 2))) - 0x80#8) :
    ∃ s', blk e b137 s = some s' ∧ Top m0 ib ob n f0 bp c k (2 * k + 64) s' := by
  xs [hi.inv.di, adv]
  rw [h.store (w := 2 * k + 48) (g := want m0 ib) (m0 := m0) ?_ rfl ?_ ?_]
  rotate_left
  · exact hi.inv.mem
  · omega
  · intro i hi16
    rw [q9 i hi16, want, show (2 * k + 48 + i) / 2 = k + (24 + i / 2) by omega]
  exact ⟨_, rfl, ⟨⟨hi.inv.si, hi.inv.di, hi.inv.bx, hi.inv.bp, hi.inv.fp, rfl⟩, hi.ax, hi.x8⟩⟩

theorem ui8toi16b_next {c k : Nat} (hc : 0 < c) (hc' : c < 2 ^ 63) (hk : k + 32 ≤ n) (hn : n < 2 ^ 63) {s : St} (hi : Top m0 ib ob n f0 bp c k (2 * k + 64) s) :
    ∃ s', blk e b138 s = some s' ∧ Top m0 ib ob n f0 bp (c - 1) (k + 32) (2 * (k + 32)) s' ∧ s'.fl.taken .JNZ = some (decide (c ≠ 1)) := by
  xs [hi.inv.si, hi.inv.bx, hi.inv.di, i32, i64, adv, hi.ax]
  refine ⟨_, rfl, ⟨⟨rfl, rfl, ?_, hi.inv.bp, hi.inv.fp, hi.inv.mem⟩, ?_, hi.x8⟩, ?_⟩
  · exact (sub_ofNat (by omega) (by omega)).trans (by rw [Nat.sub_sub])
  · exact sub_ofNat (b := 1) hc (by omega)
  · exact jnz_dec hc hc' _

/-- The loop over blocks. -/
theorem ui8toi16b_blocks (h : Io e ib ob n (2 * n)) {c k : Nat} (hc : 0 < c) (hk : k + 32 * c ≤ n) {s : St}
    (hi : Top m0 ib ob n f0 bp c k (2 * k) s) : ∃ s', Inv m0 ib ob n f0 bp (k + 32 * c) (2 * (k + 32 * c)) s' ∧ Reach e prog 123 s 143 s' := by
  have hn := h.nin_lt
  induction c generalizing k s with
  | zero => omega
  | succ c ih =>
    have hk32 : k + 32 ≤ n := by omega
    obtain ⟨s1, g1, i1, u0, u9, u1⟩ := ui8toi16b_load h hk32 hi
    obtain ⟨s2, g2, i2, v9, v1⟩ := ui8toi16b_st0 h hk32 i1 u0 u9 u1
    obtain ⟨s3, g3, i3, w9, w1⟩ := ui8toi16b_st1 h hk32 i2 v9 v1
    obtain ⟨s4, g4, i4, y9⟩ := ui8toi16b_st2 h hk32 i3 w9 w1
    obtain ⟨s5, g5, i5⟩ := ui8toi16b_st3 h hk32 i4 y9
    obtain ⟨s6, g6, i6, f6⟩ := ui8toi16b_next (e := e) (Nat.succ_pos c) (by omega) hk32 hn i5
    have r1 : Reach e prog 123 s 131 s1 := reach_blk b123 h123 g1
    have r2 : Reach e prog 131 s1 132 s2 := reach_blk b131 h131 g2
    have r3 : Reach e prog 132 s2 136 s3 := reach_blk b132 h132 g3
    have r4 : Reach e prog 136 s3 137 s4 := reach_blk b136 h136 g4
    have r5 : Reach e prog 137 s4 138 s5 := reach_blk b137 h137 g5
    have r6 : Reach e prog 138 s5 142 s6 := reach_blk b138 h138 g6
    have r7 := reach_branch (e := e) (p := prog) (pc := 142) .JNZ .ui8toi16b_aligned_loop (by decide +kernel) (t := 123) (by decide +kernel) f6
    simp only [decide_eq_true_eq] at r7
    have r := r1.trans (r2.trans (r3.trans (r4.trans (r5.trans (r6.trans r7)))))
    by_cases c0 : c = 0
    · subst c0
      rw [if_neg (by omega)] at r
      exact ⟨s6, i6.inv, r⟩
    · rw [if_pos (by omega)] at r
      have i6' : Top m0 ib ob n f0 bp c (k + 32) (2 * (k + 32)) s6 := i6
      obtain ⟨s', i', r'⟩ := ih (by omega) (by omega) i6'
      rw [show k + 32 * (c + 1) = k + 32 + 32 * c by omega]
      exact ⟨s', i', r.trans r'⟩

/-! ### The routines -/

theorem taken_jg_nat {a b : Nat} (ha : a < 2 ^ 63) (hb : b < 2 ^ 63) :
    (subFlags (BitVec.ofNat 64 a) (BitVec.ofNat 64 b)).taken .JG = some (decide (b < a)) := by
  have h1 := taken_jge_nat ha hb
  simp only [subFlags, Flags.taken, Option.bind_some, Option.map_some, Option.some.injEq] at h1 ⊢
  rw [h1, Bool.eq_iff_iff]
  simp only [Bool.and_eq_true, Bool.not_eq_true', beq_eq_false_iff_ne, decide_eq_true_eq, ne_eq]
  constructor
  · rintro ⟨g1, g2⟩
    refine lt_of_le_of_ne g2 fun g => g1 ?_
    rw [g]
    exact BitVec.sub_self _
  · intro g
    refine ⟨fun g1 => ?_, by omega⟩
    rw [sub_ofNat (by omega) (by omega)] at g1
    have := congrArg BitVec.toNat g1
    rw [toNat_ofNat (by omega)] at this
    have e0 : (0 : BitVec 64).toNat = 0 := rfl
    omega

theorem x80 (i : Nat) (hi : i < 16) : bytes64 (BitVec.ofInt 64 0x8080808080808080) (i / 2) = 0x80#8 := by
  unfold bytes64
  rw [if_pos (by omega)]
  have : i / 2 < 8 := by omega
  generalize i / 2 = j at *
  obtain rfl | rfl | rfl | rfl | rfl | rfl | rfl | rfl : j = 0 ∨ j = 1 ∨ j = 2 ∨ j = 3 ∨ j = 4 ∨ j = 5 ∨ j = 6 ∨ j = 7 := by omega
  all_goals decide +kernel

/-- From the label `ui8toi16_aligned`. -/
theorem ui8toi16_aligned (h : Io e ib ob n (2 * n)) {k : Nat} (hk : k ≤ n) (ha : (ob.toNat + 2 * k) % 16 = 0) {s : St}
    (hi : Inv m0 ib ob n f0 bp k (2 * k) s) : ∃ s', Returns e prog 41 s s' ∧ Inv m0 ib ob n f0 bp n (2 * n) s' := by
  have hn := h.nin_lt
  have b1 : ∃ s', blk e b41 s = some s' ∧ Top m0 ib ob n f0 bp ((n - k) / 32) k (2 * k) s' ∧ s'.fl = shiftFlags (BitVec.ofNat 64 ((n - k) / 32)) := by
    xs [hi.bx, Int.reduceToNat, shr_ofNat (show n - k < 2 ^ 64 by omega)]
    refine ⟨_, rfl, ⟨⟨hi.si, hi.di, rfl, hi.bp, hi.fp, hi.mem⟩, rfl, ?_⟩, rfl⟩
    intro i hi16
    have e1 : i / 2 < 16 := by omega
    have := x80 i hi16
    simpa [low_lt hi16, low_lt e1] using this
  obtain ⟨s1, g1, i1, f1⟩ := b1
  have r1 : Reach e prog 41 s 47 s1 := reach_blk b41 h41 g1
  have r2 := reach_branch (e := e) (p := prog) (pc := 47) .JZ .ui8toi16_tail (by decide +kernel) (t := 72) (by decide +kernel)
    (s := s1) (by rw [f1]; exact shift_flags _ (by omega))
  simp only [decide_eq_true_eq] at r2
  by_cases c : (n - k) / 32 = 0
  · rw [if_pos c] at r2
    obtain ⟨s', r', i'⟩ := ui8toi16_tail h hk i1.inv
    exact ⟨s', (r1.trans r2).returns r', i'⟩
  · rw [if_neg c] at r2
    have r3 : Reach e prog 48 s1 49 s1 := reach_blk b48 h48 rfl
    obtain ⟨s4, i4, r4⟩ := ui8toi16_blocks h (by omega) (by omega) ha i1
    have r5 : Reach e prog 69 s4 72 s4 := reach_blk b69 h69 rfl
    obtain ⟨s', r', i'⟩ := ui8toi16_tail h (by omega) i4
    exact ⟨s', (r1.trans (r2.trans (r3.trans (r4.trans r5)))).returns r', i'⟩

/-- From the label `ui8toi16b_min_length`. -/
theorem ui8toi16b_aligned (h : Io e ib ob n (2 * n)) {k : Nat} (hk : k ≤ n) {s : St}
    (hi : Inv m0 ib ob n f0 bp k (2 * k) s) : ∃ s', Returns e prog 113 s s' ∧ Inv m0 ib ob n f0 bp n (2 * n) s' := by
  have hn := h.nin_lt
  have b1 : ∃ s', blk e b113 s = some s' ∧ Top m0 ib ob n f0 bp ((n - k) / 32) k (2 * k) s' ∧ s'.fl = shiftFlags (BitVec.ofNat 64 ((n - k) / 32)) := by
    xs [hi.bx, Int.reduceToNat, shr_ofNat (show n - k < 2 ^ 64 by omega)]
    refine ⟨_, rfl, ⟨⟨hi.si, hi.di, rfl, hi.bp, hi.fp, hi.mem⟩, rfl, ?_⟩, rfl⟩
    intro i hi16
    have e1 : i / 2 < 16 := by omega
    have := x80 i hi16
    simpa [low_lt hi16, low_lt e1] using this
  obtain ⟨s1, g1, i1, f1⟩ := b1
  have r1 : Reach e prog 113 s 121 s1 := reach_blk b113 h113 g1
  have r2 := reach_branch (e := e) (p := prog) (pc := 121) .JZ .ui8toi16b_tail (by decide +kernel) (t := 146) (by decide +kernel)
    (s := s1) (by rw [f1]; exact shift_flags _ (by omega))
  simp only [decide_eq_true_eq] at r2
  by_cases c : (n - k) / 32 = 0
  · rw [if_pos c] at r2
    obtain ⟨s', r', i'⟩ := ui8toi16b_tail h hk i1.inv
    exact ⟨s', (r1.trans r2).returns r', i'⟩
  · rw [if_neg c] at r2
    have r3 : Reach e prog 122 s1 123 s1 := reach_blk b122 h122 rfl
    obtain ⟨s4, i4, r4⟩ := ui8toi16b_blocks h (by omega) (by omega) i1
    have r5 : Reach e prog 143 s4 146 s4 := reach_blk b143 h143 rfl
    obtain ⟨s', r', i'⟩ := ui8toi16b_tail h (by omega) i4
    exact ⟨s', (r1.trans (r2.trans (r3.trans (r4.trans r5)))).returns r', i'⟩

theorem and15' (a : BitVec 64) : a &&& imm32 15 = BitVec.ofNat 64 (a.toNat % 16) := by
  apply BitVec.eq_of_toNat_eq
  have e1 : (imm32 0xf).toNat = 2 ^ 4 - 1 := by decide +kernel
  rw [BitVec.toNat_and, e1, Nat.and_two_pow_sub_one_eq_mod, BitVec.toNat_ofNat]
  omega

/-- The registers at the jump in line 11; `BX` holds `c`. -/
def entry (s : St) (ib ob : BitVec 64) (nin nout c : Nat) : St :=
  ⟨⟨s.g.ax, BitVec.ofNat 64 c, BitVec.ofNat 64 nout, s.g.dx, ib, ob, s.g.bp⟩, s.x, subFlags (BitVec.ofNat 64 nout) (BitVec.ofNat 64 nin), s.mem, s.fp⟩

/-- The arguments and the smaller length. -/
theorem args {nin nout : Nat} (hin : nin < 2 ^ 63) (hout : nout < 2 ^ 63) {s : St} (f1 : s.fp 0 = ib) (f2 : s.fp 8 = BitVec.ofNat 64 nin)
    (f3 : s.fp 24 = ob) (f4 : s.fp 32 = BitVec.ofNat 64 nout) : Reach e prog 4 s 14 (entry s ib ob nin nout (min nin nout)) := by
  have b1 : blk e b4 s = some (entry s ib ob nin nout nin) := by
    xs [f1, f2, f3, f4, entry]
  have r1 : Reach e prog 4 s 11 _ := reach_blk b4 h4 b1
  have r2 := reach_branch (e := e) (p := prog) (pc := 11) .JGE .ui8toi16_min_length (by decide +kernel) (t := 14) (by decide +kernel)
    (s := entry s ib ob nin nout nin) (taken_jge_nat hout hin)
  simp only [decide_eq_true_eq] at r2
  by_cases c : nin ≤ nout
  · rw [if_pos c] at r2
    rw [Nat.min_eq_left c]
    exact r1.trans r2
  · rw [if_neg c] at r2
    rw [Nat.min_eq_right (by omega)]
    have b2 : blk e b12 (entry s ib ob nin nout nin) = some (entry s ib ob nin nout nout) := by
      xs [entry]
    have r3 : Reach e prog 12 _ 14 _ := reach_blk b12 h12 b2
    exact (r1.trans r2).trans r3

/-- The whole of `Ui8toi16`. -/
theorem routine {nin nout : Nat} (hin : nin < 2 ^ 63) (hout : nout < 2 ^ 63) (hn : n = min nin nout) (h : Io e ib ob n (2 * n))
    (h2 : ob.toNat % 2 = 0) {s : St} (f1 : s.fp 0 = ib) (f2 : s.fp 8 = BitVec.ofNat 64 nin) (f3 : s.fp 24 = ob) (f4 : s.fp 32 = BitVec.ofNat 64 nout) :
    ∃ s', Returns e prog 4 s s' ∧ Inv s.mem ib ob n s.fp s.g.bp n (2 * n) s' := by
  have hn63 := h.nin_lt
  have r0 := args (e := e) hin hout f1 f2 f3 f4
  rw [← hn] at r0
  have b1 : ∃ s', blk e b14 (entry s ib ob nin nout n) = some s' ∧ Inv s.mem ib ob n s.fp s.g.bp 0 (2 * 0) s' ∧ s'.fl = subFlags (BitVec.ofNat 64 32) (BitVec.ofNat 64 n) := by
    xs [entry]
    exact ⟨_, rfl, ⟨(adv0 _).symm, (adv0 _).symm, rfl, rfl, rfl, (fill_zero _ _ _).symm⟩, rfl⟩
  obtain ⟨s1, g1, i1, e1⟩ := b1
  have r1 : Reach e prog 14 _ 19 s1 := reach_blk b14 Conv.U16.h14 g1
  have r2 := reach_branch (e := e) (p := prog) (pc := 19) .JG .ui8toi16_tail (by decide +kernel) (t := 72) (by decide +kernel)
    (s := s1) (by rw [e1]; exact taken_jg_nat (by decide) hn63)
  simp only [decide_eq_true_eq] at r2
  by_cases c : n < 32
  · rw [if_pos c] at r2
    obtain ⟨s', r', i'⟩ := ui8toi16_tail h (Nat.zero_le _) i1
    exact ⟨s', (r0.trans (r1.trans r2)).returns r', i'⟩
  · rw [if_neg c] at r2
    have b3 : ∃ s', blk e b20 s1 = some s' ∧ Inv s.mem ib ob n s.fp s.g.bp 0 (2 * 0) s' ∧ s'.g.cx = BitVec.ofNat 64 (ob.toNat % 16) ∧
        s'.fl = logicFlags (BitVec.ofNat 64 (ob.toNat % 16)) := by
      have hd : s1.g.di = ob := by have := i1.di; rwa [Nat.mul_zero, adv0] at this
      xs [hd, and15']
      exact ⟨_, rfl, ⟨i1.si, (adv0 _).symm, i1.bx, i1.bp, i1.fp, i1.mem⟩, rfl, rfl⟩
    obtain ⟨s3, g3, i3, c3, e3⟩ := b3
    have r3 : Reach e prog 20 s1 24 s3 := reach_blk b20 h20 g3
    have r4 := reach_branch (e := e) (p := prog) (pc := 24) .JZ .ui8toi16_aligned (by decide +kernel) (t := 41) (by decide +kernel)
      (s := s3) (by rw [e3]; exact shift_flags _ (by omega))
    simp only [decide_eq_true_eq] at r4
    by_cases c4 : ob.toNat % 16 = 0
    · rw [if_pos c4] at r4
      obtain ⟨s', r', i'⟩ := ui8toi16_aligned h (Nat.zero_le _) (by omega) i3
      exact ⟨s', (r0.trans (r1.trans (r2.trans (r3.trans r4)))).returns r', i'⟩
    · rw [if_neg c4] at r4
      have b5 : ∃ s', blk e b25 s3 = some s' ∧ Inv s.mem ib ob n s.fp s.g.bp 0 (2 * 0) s' ∧ s'.g.ax = BitVec.ofNat 64 ((16 - ob.toNat % 16) / 2 - 0) := by
        have i16 : BitVec.ofInt 64 16 = BitVec.ofNat 64 16 := rfl
        xs [c3, i16, Int.reduceToNat, sub_ofNat (show ob.toNat % 16 ≤ 16 by omega) (by decide), shr_ofNat (show 16 - ob.toNat % 16 < 2 ^ 64 by omega)]
        exact ⟨_, rfl, ⟨i3.si, i3.di, i3.bx, i3.bp, i3.fp, i3.mem⟩, rfl⟩
      obtain ⟨s5, g5, i5, c5⟩ := b5
      have r5 : Reach e prog 25 s3 29 s5 := reach_blk b25 h25 g5
      obtain ⟨s6, i6, r6⟩ := head_loop h (d := (16 - ob.toNat % 16) / 2) (by omega) (k := 0) (by omega) i5 c5
      have r7 : Reach e prog 40 s6 41 s6 := reach_blk b40 h40 rfl
      obtain ⟨s', r', i'⟩ := ui8toi16_aligned h (by omega) (by omega) i6
      exact ⟨s', (r0.trans (r1.trans (r2.trans (r3.trans (r4.trans (r5.trans (r6.trans r7))))))).returns r', i'⟩

theorem and1 (a : BitVec 64) : a &&& imm32 1 = BitVec.ofNat 64 (a.toNat % 2) := by
  apply BitVec.eq_of_toNat_eq
  have e1 : (imm32 1).toNat = 2 ^ 1 - 1 := by decide +kernel
  rw [BitVec.toNat_and, e1, Nat.and_two_pow_sub_one_eq_mod, BitVec.toNat_ofNat]
  omega

theorem Inv.frame {f : Nat → BitVec 64} {k w : Nat} {s : St} (h : Inv m0 ib ob n f bp k w s) (g : f = f0) : Inv m0 ib ob n f0 bp k w s := g ▸ h

/-- The registers at the jump in line 97. -/
def entryb (s : St) (ob : BitVec 64) (nout : Nat) : St :=
  ⟨⟨BitVec.ofNat 64 (ob.toNat % 2), s.g.bx, BitVec.ofNat 64 (nout / 2), s.g.dx, s.g.si, ob, s.g.bp⟩, s.x, logicFlags (BitVec.ofNat 64 (ob.toNat % 2)), s.mem, s.fp⟩

/-- The registers at the jump in line 110; `BX` holds `c`. -/
def entryc (s : St) (ib ob : BitVec 64) (nin nout c : Nat) : St :=
  ⟨⟨BitVec.ofNat 64 (ob.toNat % 2), BitVec.ofNat 64 c, BitVec.ofNat 64 (nout / 2), s.g.dx, ib, ob, s.g.bp⟩, s.x, subFlags (BitVec.ofNat 64 (nout / 2)) (BitVec.ofNat 64 nin), s.mem, s.fp⟩

/-- The whole of `Ui8toi16b`; `nout` is in bytes. With an output at an even address the length in the frame is halved. -/
theorem routineb {nin nout : Nat} (hin : nin < 2 ^ 63) (hout : nout < 2 ^ 63) (hn : n = min nin (nout / 2)) (h : Io e ib ob n (2 * n))
    {s : St} (f1 : s.fp 0 = ib) (f2 : s.fp 8 = BitVec.ofNat 64 nin) (f3 : s.fp 24 = ob) (f4 : s.fp 32 = BitVec.ofNat 64 nout) :
    ∃ s', Returns e prog 91 s s' ∧
      Inv s.mem ib ob n (if ob.toNat % 2 = 0 then Function.update s.fp 32 (BitVec.ofNat 64 (nout / 2)) else s.fp) s.g.bp n (2 * n) s' := by
  have hn63 := h.nin_lt
  have b1 : blk e b91 s = some (entryb s ob nout) := by
    xs [f3, f4, Int.reduceToNat, shr_ofNat (show nout < 2 ^ 64 by omega), and1, entryb, Nat.pow_one]
  have r1 : Reach e prog 91 s 97 _ := reach_blk b91 h91 b1
  have hf : (entryb s ob nout).fl.taken .JNZ = some (decide (ob.toNat % 2 ≠ 0)) := by
    have : ob.toNat % 2 < 2 := by omega
    simp only [entryb]
    generalize ob.toNat % 2 = j at *
    obtain rfl | rfl : j = 0 ∨ j = 1 := by omega
    all_goals decide +kernel
  have r2 := reach_branch (e := e) (p := prog) (pc := 97) .JNZ .ui8toi16b_unaligned (by decide +kernel) (t := 103) (by decide +kernel) hf
  simp only [decide_eq_true_eq] at r2
  by_cases c : ob.toNat % 2 = 0
  · rw [if_neg (by omega)] at r2
    rw [if_pos c]
    have b3 : blk e b98 (entryb s ob nout) = some { entryb s ob nout with fp := Function.update s.fp 32 (BitVec.ofNat 64 (nout / 2)) } := by
      xs [entryb]
    have r3 : Reach e prog 98 _ 101 _ := reach_blk b98 h98 b3
    have r4 : Reach e prog 101 { entryb s ob nout with fp := Function.update s.fp 32 (BitVec.ofNat 64 (nout / 2)) } 4 _ :=
      reach_jump (l := .Ui8toi16) (c := .JMP) (by decide +kernel) rfl (by decide +kernel)
    obtain ⟨s', r', i'⟩ := routine (e := e) (s := { entryb s ob nout with fp := Function.update s.fp 32 (BitVec.ofNat 64 (nout / 2)) })
      (ib := ib) (ob := ob) hin (show nout / 2 < 2 ^ 63 by omega) hn h c (by simpa using f1) (by simpa using f2) (by simpa using f3) (by simp)
    exact ⟨s', (r1.trans (r2.trans (r3.trans r4))).returns r', i'⟩
  · rw [if_pos (by omega)] at r2
    rw [if_neg c]
    have b3 : blk e b103 (entryb s ob nout) = some (entryc s ib ob nin nout nin) := by
      xs [entryb, entryc, f1, f2]
    have r3 : Reach e prog 103 _ 110 _ := reach_blk b103 h103 b3
    have r4 := reach_branch (e := e) (p := prog) (pc := 110) .JGE .ui8toi16b_min_length (by decide +kernel) (t := 113) (by decide +kernel)
      (s := entryc s ib ob nin nout nin) (taken_jge_nat (show nout / 2 < 2 ^ 63 by omega) hin)
    simp only [decide_eq_true_eq] at r4
    have r5 : Reach e prog 110 (entryc s ib ob nin nout nin) 113 (entryc s ib ob nin nout n) := by
      by_cases c4 : nin ≤ nout / 2
      · rw [if_pos c4] at r4
        rw [show n = nin by omega]
        exact r4
      · rw [if_neg c4] at r4
        rw [show n = nout / 2 by omega]
        have b5 : blk e b111 (entryc s ib ob nin nout nin) = some (entryc s ib ob nin nout (nout / 2)) := by
          xs [entryc]
        have r5 : Reach e prog 111 _ 113 _ := reach_blk b111 h111 b5
        exact r4.trans r5
    have i5 : Inv s.mem ib ob n s.fp s.g.bp 0 (2 * 0) (entryc s ib ob nin nout n) :=
      ⟨(adv0 _).symm, (adv0 _).symm, rfl, rfl, rfl, (fill_zero _ _ _).symm⟩
    obtain ⟨s', r', i'⟩ := ui8toi16b_aligned h (Nat.zero_le _) i5
    exact ⟨s', (r1.trans (r2.trans (r3.trans r5))).returns r', i'⟩

end Verif.X86.Conv.U16
