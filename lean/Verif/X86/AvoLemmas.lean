import Verif.X86.X86Lemmas
import Verif.X86.AvoModel

/-!
# The run of `Ui8tof32` on amd64, instruction by instruction
-/

namespace Verif.X86.Avo
open Verif.X86

/-! ### Basic blocks -/

/-- dsp/conversion_avo_amd64.s:7-14. -/
abbrev b7 : List (Line Lbl Reg Nat) :=
  [.label .Ui8tof32,
    .ins .MOVQ [.fp 0, .r .AX],
    .ins .MOVQ [.fp 8, .r .CX],
    .ins .MOVQ [.fp 24, .r .DX],
    .ins .MOVQ [.fp 32, .r .BX], .nop, .nop,
    .ins .CMPQ [.r .BX, .r .CX]]

theorem h7 : (prog.drop 7).take b7.length = b7 := by decide +kernel

/-- dsp/conversion_avo_amd64.s:16-17. -/
abbrev b16 : List (Line Lbl Reg Nat) :=
  [.ins .MOVQ [.r .BX, .r .CX], .nop]

theorem h16 : (prog.drop 16).take b16.length = b16 := by decide +kernel

/-- dsp/conversion_avo_amd64.s:18-23. -/
abbrev b18 : List (Line Lbl Reg Nat) :=
  [.label .ui8tof32_min_len,
    .ins .MOVQ [.i 0x0, .r .BX], .nop, .nop,
    .ins .MOVQ [.i 0x20, .r .SI],
    .ins .CMPQ [.r .SI, .r .CX]]

theorem h18 : (prog.drop 18).take b18.length = b18 := by decide +kernel

/-- dsp/conversion_avo_amd64.s:25-29. -/
abbrev b25 : List (Line Lbl Reg Nat) :=
  [.nop, .nop,
    .ins .MOVQ [.r .DX, .r .SI],
    .ins .ANDQ [.i 0xf, .r .SI],
    .ins .SHRQ [.i 0x2, .r .SI]]

theorem h25 : (prog.drop 25).take b25.length = b25 := by decide +kernel

/-- dsp/conversion_avo_amd64.s:31-33. -/
abbrev b31 : List (Line Lbl Reg Nat) :=
  [.ins .MOVQ [.i 0x4, .r .DI],
    .ins .SUBQ [.r .SI, .r .DI], .nop]

theorem h31 : (prog.drop 31).take b31.length = b31 := by decide +kernel

/-- dsp/conversion_avo_amd64.s:34-42. -/
abbrev b34 : List (Line Lbl Reg Nat) :=
  [.label .ui8tof32_align,
    .ins .MOVBQZX [.m .AX 0, .r .SI],
    .ins .INCQ [.r .AX],
    .ins .SUBQ [.i 0x80, .r .SI],
    .ins .CVTSQ2SS [.r .SI, .x 0],
    .ins .MOVSS [.x 0, .m .DX 0],
    .ins .ADDQ [.i 0x4, .r .DX],
    .ins .INCQ [.r .BX],
    .ins .CMPQ [.r .BX, .r .DI]]

theorem h34 : (prog.drop 34).take b34.length = b34 := by decide +kernel

/-- dsp/conversion_avo_amd64.s:44-44. -/
abbrev b44 : List (Line Lbl Reg Nat) :=
  [.nop]

theorem h44 : (prog.drop 44).take b44.length = b44 := by decide +kernel

/-- dsp/conversion_avo_amd64.s:45-48. -/
abbrev b45 : List (Line Lbl Reg Nat) :=
  [.label .ui8tof32_aligned,
    .ins .MOVQ [.r .CX, .r .SI],
    .ins .ANDQ [.i 0xfffffff0, .r .SI],
    .ins .CMPQ [.r .BX, .r .SI]]

theorem h45 : (prog.drop 45).take b45.length = b45 := by decide +kernel

/-- dsp/conversion_avo_amd64.s:50-50. -/
abbrev b50 : List (Line Lbl Reg Nat) :=
  [.ins .CMPB [.sb .useSSE4, .i 0x1]]

theorem h50 : (prog.drop 50).take b50.length = b50 := by decide +kernel

/-- dsp/conversion_avo_amd64.s:52-55. -/
abbrev b52 : List (Line Lbl Reg Nat) :=
  [.ins .MOVL [.i 0x80808080, .r .DI],
    .ins .MOVD [.r .DI, .x 3],
    .ins .PSHUFL [.i 0x0, .x 3, .x 3], .nop]

theorem h52 : (prog.drop 52).take b52.length = b52 := by decide +kernel

/-- dsp/conversion_avo_amd64.s:56-61. -/
abbrev b56 : List (Line Lbl Reg Nat) :=
  [.label .ui8tof32_sse4_loop, .nop,
    .ins .MOVOU [.m .AX 0, .x 0], .nop, .nop,
    .ins .PSUBB [.x 3, .x 0]]

theorem h56 : (prog.drop 56).take b56.length = b56 := by decide +kernel

/-- dsp/conversion_avo_amd64.s:62-68. -/
abbrev b62 : List (Line Lbl Reg Nat) :=
  [.nop, .nop,
    .ins .PMOVSXBD [.x 0, .x 2], .nop, .nop,
    .ins .CVTPL2PS [.x 2, .x 2],
    .ins .MOVAPS [.x 2, .m .DX 0]]

theorem h62 : (prog.drop 62).take b62.length = b62 := by decide +kernel

/-- dsp/conversion_avo_amd64.s:69-76. -/
abbrev b69 : List (Line Lbl Reg Nat) :=
  [.nop, .nop,
    .ins .PSHUFL [.i 0x1, .x 0, .x 2],
    .ins .PMOVSXBD [.x 2, .x 2], .nop, .nop,
    .ins .CVTPL2PS [.x 2, .x 2],
    .ins .MOVAPS [.x 2, .m .DX 16]]

theorem h69 : (prog.drop 69).take b69.length = b69 := by decide +kernel

/-- dsp/conversion_avo_amd64.s:77-84. -/
abbrev b77 : List (Line Lbl Reg Nat) :=
  [.nop, .nop,
    .ins .PSHUFL [.i 0x2, .x 0, .x 2],
    .ins .PMOVSXBD [.x 2, .x 2], .nop, .nop,
    .ins .CVTPL2PS [.x 2, .x 2],
    .ins .MOVAPS [.x 2, .m .DX 32]]

theorem h77 : (prog.drop 77).take b77.length = b77 := by decide +kernel

/-- dsp/conversion_avo_amd64.s:85-92. -/
abbrev b85 : List (Line Lbl Reg Nat) :=
  [.nop, .nop,
    .ins .PSHUFL [.i 0x3, .x 0, .x 2],
    .ins .PMOVSXBD [.x 2, .x 2], .nop, .nop,
    .ins .CVTPL2PS [.x 2, .x 2],
    .ins .MOVAPS [.x 2, .m .DX 48]]

theorem h85 : (prog.drop 85).take b85.length = b85 := by decide +kernel

/-- dsp/conversion_avo_amd64.s:93-96. -/
abbrev b93 : List (Line Lbl Reg Nat) :=
  [.ins .ADDQ [.i 0x10, .r .BX],
    .ins .ADDQ [.i 0x10, .r .AX],
    .ins .ADDQ [.i 0x40, .r .DX],
    .ins .CMPQ [.r .BX, .r .SI]]

theorem h93 : (prog.drop 93).take b93.length = b93 := by decide +kernel

/-- dsp/conversion_avo_amd64.s:99-99. -/
abbrev b99 : List (Line Lbl Reg Nat) :=
  [.nop]

theorem h99 : (prog.drop 99).take b99.length = b99 := by decide +kernel

/-- dsp/conversion_avo_amd64.s:100-104. -/
abbrev b100 : List (Line Lbl Reg Nat) :=
  [.label .ui8tof32_nosse4,
    .ins .MOVL [.i 0x80808080, .r .DI],
    .ins .MOVD [.r .DI, .x 4],
    .ins .PSHUFL [.i 0x0, .x 4, .x 4], .nop]

theorem h100 : (prog.drop 100).take b100.length = b100 := by decide +kernel

/-- dsp/conversion_avo_amd64.s:105-111. -/
abbrev b105 : List (Line Lbl Reg Nat) :=
  [.label .ui8tof32_sse2_loop, .nop,
    .ins .MOVOU [.m .AX 0, .x 0], .nop, .nop,
    .ins .PSUBB [.x 4, .x 0],
    .ins .MOVO [.x 0, .x 2]]

theorem h105 : (prog.drop 105).take b105.length = b105 := by decide +kernel

/-- dsp/conversion_avo_amd64.s:112-119. -/
abbrev b112 : List (Line Lbl Reg Nat) :=
  [.nop, .nop,
    .ins .PUNPCKLBW [.x 2, .x 2],
    .ins .MOVO [.x 2, .x 3],
    .ins .PUNPCKLWL [.x 2, .x 2],
    .ins .PSRAL [.i 0x18, .x 2],
    .ins .CVTPL2PS [.x 2, .x 2],
    .ins .MOVAPS [.x 2, .m .DX 0]]

theorem h112 : (prog.drop 112).take b112.length = b112 := by decide +kernel

/-- dsp/conversion_avo_amd64.s:120-125. -/
abbrev b120 : List (Line Lbl Reg Nat) :=
  [.nop, .nop,
    .ins .PUNPCKHWL [.x 3, .x 3],
    .ins .PSRAL [.i 0x18, .x 3],
    .ins .CVTPL2PS [.x 3, .x 3],
    .ins .MOVAPS [.x 3, .m .DX 16]]

theorem h120 : (prog.drop 120).take b120.length = b120 := by decide +kernel

/-- dsp/conversion_avo_amd64.s:126-133. -/
abbrev b126 : List (Line Lbl Reg Nat) :=
  [.nop, .nop,
    .ins .PUNPCKHBW [.x 0, .x 0],
    .ins .MOVO [.x 0, .x 3],
    .ins .PUNPCKLWL [.x 0, .x 0],
    .ins .PSRAL [.i 0x18, .x 0],
    .ins .CVTPL2PS [.x 0, .x 0],
    .ins .MOVAPS [.x 0, .m .DX 32]]

theorem h126 : (prog.drop 126).take b126.length = b126 := by decide +kernel

/-- dsp/conversion_avo_amd64.s:134-139. -/
abbrev b134 : List (Line Lbl Reg Nat) :=
  [.nop, .nop,
    .ins .PUNPCKHWL [.x 3, .x 3],
    .ins .PSRAL [.i 0x18, .x 3],
    .ins .CVTPL2PS [.x 3, .x 3],
    .ins .MOVAPS [.x 3, .m .DX 48]]

theorem h134 : (prog.drop 134).take b134.length = b134 := by decide +kernel

/-- dsp/conversion_avo_amd64.s:140-143. -/
abbrev b140 : List (Line Lbl Reg Nat) :=
  [.ins .ADDQ [.i 0x10, .r .BX],
    .ins .ADDQ [.i 0x10, .r .AX],
    .ins .ADDQ [.i 0x40, .r .DX],
    .ins .CMPQ [.r .BX, .r .SI]]

theorem h140 : (prog.drop 140).take b140.length = b140 := by decide +kernel

/-- dsp/conversion_avo_amd64.s:145-146. -/
abbrev b145 : List (Line Lbl Reg Nat) :=
  [.nop, .nop]

theorem h145 : (prog.drop 145).take b145.length = b145 := by decide +kernel

/-- dsp/conversion_avo_amd64.s:147-148. -/
abbrev b147 : List (Line Lbl Reg Nat) :=
  [.label .ui8tof32_stepper,
    .ins .CMPQ [.r .BX, .r .CX]]

theorem h147 : (prog.drop 147).take b147.length = b147 := by decide +kernel

/-- dsp/conversion_avo_amd64.s:150-150. -/
abbrev b150 : List (Line Lbl Reg Nat) :=
  [.nop]

theorem h150 : (prog.drop 150).take b150.length = b150 := by decide +kernel

/-- dsp/conversion_avo_amd64.s:151-159. -/
abbrev b151 : List (Line Lbl Reg Nat) :=
  [.label .ui8tof32_step,
    .ins .MOVBQZX [.m .AX 0, .r .SI],
    .ins .INCQ [.r .AX],
    .ins .SUBQ [.i 0x80, .r .SI],
    .ins .CVTSQ2SS [.r .SI, .x 1],
    .ins .MOVSS [.x 1, .m .DX 0],
    .ins .ADDQ [.i 0x4, .r .DX],
    .ins .INCQ [.r .BX],
    .ins .CMPQ [.r .BX, .r .CX]]

theorem h151 : (prog.drop 151).take b151.length = b151 := by decide +kernel

/-- dsp/conversion_avo_amd64.s:161-162. -/
abbrev b161 : List (Line Lbl Reg Nat) :=
  [.nop, .label .ui8tof32_done]

theorem h161 : (prog.drop 161).take b161.length = b161 := by decide +kernel


/-! ### The result -/

/-- The value of element `i`. -/
def elem (e : Env) (m0 : BitVec 64 → BitVec 8) (ib : BitVec 64) (i : Nat) : BitVec 32 :=
  e.o.cvt32 (((m0 (ib + BitVec.ofNat 64 i)).toNat : Int) - 128)

/-- The output bytes. -/
def want (e : Env) (m0 : BitVec 64 → BitVec 8) (ib : BitVec 64) (j : Nat) : BitVec 8 := byte (elem e m0 ib (j / 4)) (j % 4)

/-- After `k` elements, with `w` bytes written. -/
structure Inv (e : Env) (m0 : BitVec 64 → BitVec 8) (ib ob : BitVec 64) (n : Nat) (f0 : Nat → BitVec 64) (bp : BitVec 64) (k w : Nat)
    (s : St) : Prop where
  ax : s.g.ax = ib + BitVec.ofNat 64 k
  dx : s.g.dx = ob + BitVec.ofNat 64 (4 * k)
  bx : s.g.bx = BitVec.ofNat 64 k
  cx : s.g.cx = BitVec.ofNat 64 n
  bp : s.g.bp = bp
  fp : s.fp = f0
  mem : s.mem = fill m0 ob w (want e m0 ib)

variable {e : Env} {m0 : BitVec 64 → BitVec 8} {ib ob : BitVec 64} {n N : Nat} {f0 : Nat → BitVec 64} {bp : BitVec 64}

theorem sub128 (b : BitVec 8) : (b.setWidth 64 - imm32 0x80).toInt = (b.toNat : Int) - 128 := by
  revert b
  decide +kernel

theorem one64 : (1 : BitVec 64) = BitVec.ofNat 64 1 := rfl

/-- One element. -/
theorem step_inv (h : Io e ib ob N (4 * N)) {k : Nat} (hk : k < N) {s : St} (hi : Inv e m0 ib ob n f0 bp k (4 * k) s) (q : Nat) (r : Reg)
    (hr : r = .DI ∨ r = .CX) : ∃ s', blk e ([.ins .MOVBQZX [.m .AX 0, .r .SI], .ins .INCQ [.r .AX], .ins .SUBQ [.i 0x80, .r .SI],
      .ins .CVTSQ2SS [.r .SI, .x q], .ins .MOVSS [.x q, .m .DX 0], .ins .ADDQ [.i 0x4, .r .DX], .ins .INCQ [.r .BX],
      .ins .CMPQ [.r .BX, .r r]] : List (Line Lbl Reg Nat)) s = some s' ∧ Inv e m0 ib ob n f0 bp (k + 1) (4 * (k + 1)) s' ∧
      s'.fl = subFlags (BitVec.ofNat 64 (k + 1)) (s.g.get r) ∧ s'.g.get r = s.g.get r := by
  have i4 : imm32 0x4 = BitVec.ofNat 64 4 := rfl
  xs [hi.ax, h.load hi.mem (by omega) rfl (show k + 1 ≤ N by omega), hi.dx]
  rw [h.store (w := 4 * k) (g := want e m0 ib) (m0 := m0) ?_ rfl ?_ ?_]
  rotate_left
  · exact hi.mem
  · omega
  · intro i hi4
    simp only [Function.update_self, inp, sub128, low, bytes32, want, elem, hi4, if_true]
    simp [show (4 * k + i) / 4 = k by omega, show (4 * k + i) % 4 = i by omega]
  rcases hr with rfl | rfl
  · refine ⟨_, rfl, ⟨?_, ?_, ?_, hi.cx, hi.bp, hi.fp, rfl⟩, ?_, rfl⟩
    · simp only [one64, adv]
    · simp only [i4, adv]; rfl
    · simp only [hi.bx, one64, ← BitVec.ofNat_add]
    · simp only [hi.bx, one64, ← BitVec.ofNat_add]
  · refine ⟨_, rfl, ⟨?_, ?_, ?_, hi.cx, hi.bp, hi.fp, rfl⟩, ?_, rfl⟩
    · simp only [one64, adv]
    · simp only [i4, adv]; rfl
    · simp only [hi.bx, one64, ← BitVec.ofNat_add]
    · simp only [hi.bx, one64, ← BitVec.ofNat_add]

/-! ### The loops over single elements -/

theorem align_loop (h : Io e ib ob N (4 * N)) {d : Nat} (hd : d ≤ N) {k : Nat} (hk : k < d) {s : St} (hi : Inv e m0 ib ob n f0 bp k (4 * k) s)
    (hdi : s.g.di = BitVec.ofNat 64 d) : ∃ s', Inv e m0 ib ob n f0 bp d (4 * d) s' ∧ Reach e prog 34 s 44 s' := by
  have hn := h.nin_lt
  obtain ⟨k', s', ⟨h1, h1'⟩, h2, h3, -, -, h6⟩ := loop (e := e) (p := prog) (a := 34) (b := 44)
    (fun k s => Inv e m0 ib ob n f0 bp k (4 * k) s ∧ s.g.di = BitVec.ofNat 64 d) d 1 (by omega)
    (by
      rintro k s hk ⟨hi, hdi⟩
      obtain ⟨s', g1, g2, g3, g4⟩ := step_inv h (by omega) hi 0 .DI (Or.inl rfl)
      have r1 : Reach e prog 34 s 43 s' := reach_blk b34 h34 g1
      have hfl : s'.fl.taken .JLT = some (decide (k + 1 < d)) := by
        rw [g3, show s.g.get .DI = _ from hdi, taken_jlt_nat (by omega) (by omega)]
      refine ⟨s', ⟨g2, g4.trans hdi⟩, ?_⟩
      have r2 := reach_branch (e := e) (p := prog) (pc := 43) .JLT .ui8tof32_align (by decide +kernel) (t := 34) (by decide +kernel) hfl
      simp only [decide_eq_true_eq] at r2
      exact r1.trans r2)
    k s hk ⟨hi, hdi⟩
  obtain rfl : k' = d := by omega
  exact ⟨s', h1, h6⟩

theorem step_loop (h : Io e ib ob N (4 * N)) (hnN : n ≤ N) {k : Nat} (hk : k < n) {s : St} (hi : Inv e m0 ib ob n f0 bp k (4 * k) s) :
    ∃ s', Inv e m0 ib ob n f0 bp n (4 * n) s' ∧ Reach e prog 151 s 161 s' := by
  have hn := h.nin_lt
  obtain ⟨k', s', h1, h2, h3, -, -, h6⟩ := loop (e := e) (p := prog) (a := 151) (b := 161)
    (fun k s => Inv e m0 ib ob n f0 bp k (4 * k) s) n 1 (by omega)
    (by
      rintro k s hk hi
      obtain ⟨s', g1, g2, g3, g4⟩ := step_inv h (by omega) hi 1 .CX (Or.inr rfl)
      have r1 : Reach e prog 151 s 160 s' := reach_blk b151 h151 g1
      have hfl : s'.fl.taken .JLT = some (decide (k + 1 < n)) := by
        rw [g3, show s.g.get .CX = _ from hi.cx, taken_jlt_nat (by omega) (by omega)]
      refine ⟨s', g2, ?_⟩
      have r2 := reach_branch (e := e) (p := prog) (pc := 160) .JLT .ui8tof32_step (by decide +kernel) (t := 151) (by decide +kernel) hfl
      simp only [decide_eq_true_eq] at r2
      exact r1.trans r2)
    k s hk hi
  obtain rfl : k' = n := by omega
  exact ⟨s', h1, h6⟩

/-- From the label `ui8tof32_stepper` the routine converts the rest and returns. -/
theorem stepper (h : Io e ib ob N (4 * N)) (hnN : n ≤ N) {k : Nat} (hk : k ≤ N) {s : St} (hi : Inv e m0 ib ob n f0 bp k (4 * k) s) :
    ∃ s', Returns e prog 147 s s' ∧ Inv e m0 ib ob n f0 bp (max n k) (4 * max n k) s' := by
  have hn := h.nin_lt
  have b1 : blk e b147 s = some { s with fl := subFlags (BitVec.ofNat 64 k) (BitVec.ofNat 64 n) } := by
    xs [hi.bx, hi.cx]
  have r1 : Reach e prog 147 s 149 _ := reach_blk b147 h147 b1
  have hi2 : Inv e m0 ib ob n f0 bp k (4 * k) { s with fl := subFlags (BitVec.ofNat 64 k) (BitVec.ofNat 64 n) } :=
    ⟨hi.ax, hi.dx, hi.bx, hi.cx, hi.bp, hi.fp, hi.mem⟩
  generalize hs1 : ({ s with fl := subFlags (BitVec.ofNat 64 k) (BitVec.ofNat 64 n) } : St) = s1 at *
  have hfl : s1.fl.taken .JGE = some (decide (n ≤ k)) := by rw [← hs1]; exact taken_jge_nat (by omega) (by omega)
  have done : ∀ t, Returns e prog 162 t t := fun t =>
    Reach.returns (reach_blk [.label .ui8tof32_done] (by decide +kernel) rfl : Reach e prog 162 t 163 t) (returns_ret (by decide +kernel))
  have r2 := reach_branch (e := e) (p := prog) (pc := 149) .JGE .ui8tof32_done (by decide +kernel) (t := 162) (by decide +kernel) hfl
  simp only [decide_eq_true_eq] at r2
  by_cases c : n ≤ k
  · rw [Nat.max_eq_right c]
    rw [if_pos c] at r2
    exact ⟨s1, (r1.trans r2).returns (done s1), hi2⟩
  · rw [Nat.max_eq_left (by omega)]
    rw [if_neg c] at r2
    have r3 : Reach e prog 150 s1 151 s1 := reach_blk b150 h150 rfl
    obtain ⟨s', h1, h2⟩ := step_loop h hnN (by omega) hi2
    have r4 : Reach e prog 161 s' 163 s' := reach_blk b161 h161 rfl
    exact ⟨s', (((r1.trans r2).trans r3).trans (h2.trans r4)).returns (returns_ret (by decide +kernel)), h1⟩

/-! ### Sixteen elements at a time -/

/-- Inside of an iteration: `w` bytes are written, `X0` holds sixteen samples made signed, register `z` holds 0x80 in every byte. -/
structure Mid (e : Env) (m0 : BitVec 64 → BitVec 8) (ib ob : BitVec 64) (n : Nat) (f0 : Nat → BitVec 64) (bp : BitVec 64) (z m k w : Nat)
    (s : St) : Prop where
  inv : Inv e m0 ib ob n f0 bp k w s
  si : s.g.si = BitVec.ofNat 64 m
  xz : ∀ i < 16, s.x z i = 0x80#8
  x0 : ∀ i < 16, s.x 0 i = m0 (ib + BitVec.ofNat 64 (k + i)) - 0x80#8

/-- Before an iteration. -/
structure Top (e : Env) (m0 : BitVec 64 → BitVec 8) (ib ob : BitVec 64) (n : Nat) (f0 : Nat → BitVec 64) (bp : BitVec 64) (z m k : Nat)
    (s : St) : Prop where
  inv : Inv e m0 ib ob n f0 bp k (4 * k) s
  si : s.g.si = BitVec.ofNat 64 m
  xz : ∀ i < 16, s.x z i = 0x80#8

theorem sub80 (b : BitVec 8) : (b - 0x80#8).toInt = (b.toNat : Int) - 128 := by
  revert b
  decide +kernel

theorem sse4_load (h : Io e ib ob N (4 * N)) {m k : Nat} (hk : k + 16 ≤ N) {s : St} (hi : Top e m0 ib ob n f0 bp 3 m k s) :
    ∃ s', blk e b56 s = some s' ∧ Mid e m0 ib ob n f0 bp 3 m k (4 * k) s' := by
  xs [hi.inv.ax, h.load hi.inv.mem (by omega) rfl hk]
  refine ⟨_, rfl, ⟨⟨hi.inv.ax, hi.inv.dx, hi.inv.bx, hi.inv.cx, hi.inv.bp, hi.inv.fp, hi.inv.mem⟩, hi.si, ?_, ?_⟩⟩
  · intro i hi16
    simp [hi.xz i hi16]
  · intro i hi16
    simp [low_lt hi16, hi.xz i hi16, inp, hi16]

theorem sse4_q0 (h : Io e ib ob N (4 * N)) {m k : Nat} (hk : k + 16 ≤ N) (ha : (ob.toNat + 4 * k) % 16 = 0) {s : St}
    (hi : Mid e m0 ib ob n f0 bp 3 m k (4 * k) s) : ∃ s', blk e b62 s = some s' ∧ Mid e m0 ib ob n f0 bp 3 m k (4 * k + 16) s' := by
  have hal := aligned16 (ob := ob) (j := 4 * k) (d := 0) ha (by norm_num)
  rw [adv] at hal
  simp only [Nat.add_zero] at hal
  xs [hi.inv.dx, adv, hal, beq_self_eq_true, if_true]
  rw [h.store (w := 4 * k) (g := want e m0 ib) (m0 := m0) ?_ rfl ?_ ?_]
  rotate_left
  · exact hi.inv.mem
  · omega
  · intro i hi16
    have h4 : i / 4 < 4 := by omega
    have hq := hi.x0 (i / 4) (by omega)
    have e1 : (4 * k + i) / 4 = k + (i / 4) := by omega
    have e2 : (4 * k + i) % 4 = i % 4 := by omega
    have e3 : i / 4 / 4 = 0 := by omega
    have e4 : i / 4 % 4 = i / 4 := by omega
    have e5 : i / 4 < 16 := by omega
    simp only [Function.update_self, low_lt hi16, low_lt e5, of32, d32_low_of32 _ _ _ h4, toInt_d32_sx, e3, e4]
    simp [want, elem, e1, e2, ← sub80, ← hq]
  refine ⟨_, rfl, ⟨⟨hi.inv.ax, hi.inv.dx, hi.inv.bx, hi.inv.cx, hi.inv.bp, hi.inv.fp, rfl⟩, hi.si, ?_, ?_⟩⟩
  · intro i hi16
    simp [hi.xz i hi16]
  · intro i hi16
    simp [hi.x0 i hi16]

theorem sse4_q1 (h : Io e ib ob N (4 * N)) {m k : Nat} (hk : k + 16 ≤ N) (ha : (ob.toNat + 4 * k) % 16 = 0) {s : St}
    (hi : Mid e m0 ib ob n f0 bp 3 m k (4 * k + 16) s) : ∃ s', blk e b69 s = some s' ∧ Mid e m0 ib ob n f0 bp 3 m k (4 * k + 32) s' := by
  have hal := aligned16 (ob := ob) (j := 4 * k) (d := 16) ha (by norm_num)
  rw [adv] at hal
  xs [hi.inv.dx, adv, hal, beq_self_eq_true, if_true]
  rw [h.store (w := 4 * k + 16) (g := want e m0 ib) (m0 := m0) ?_ rfl ?_ ?_]
  rotate_left
  · exact hi.inv.mem
  · omega
  · intro i hi16
    have h4 : i / 4 < 4 := by omega
    have hq := hi.x0 (4 + i / 4) (by omega)
    have e1 : (4 * k + 16 + i) / 4 = k + (4 + i / 4) := by omega
    have e2 : (4 * k + 16 + i) % 4 = i % 4 := by omega
    have e3 : i / 4 / 4 = 0 := by omega
    have e4 : i / 4 % 4 = i / 4 := by omega
    have e5 : i / 4 < 16 := by omega
    simp only [Function.update_self, low_lt hi16, low_lt e5, of32, d32_low_of32 _ _ _ h4, toInt_d32_sx, e3, e4]
    simp [want, elem, e1, e2, ← sub80, ← hq]
  refine ⟨_, rfl, ⟨⟨hi.inv.ax, hi.inv.dx, hi.inv.bx, hi.inv.cx, hi.inv.bp, hi.inv.fp, rfl⟩, hi.si, ?_, ?_⟩⟩
  · intro i hi16
    simp [hi.xz i hi16]
  · intro i hi16
    simp [hi.x0 i hi16]

theorem sse4_q2 (h : Io e ib ob N (4 * N)) {m k : Nat} (hk : k + 16 ≤ N) (ha : (ob.toNat + 4 * k) % 16 = 0) {s : St}
    (hi : Mid e m0 ib ob n f0 bp 3 m k (4 * k + 32) s) : ∃ s', blk e b77 s = some s' ∧ Mid e m0 ib ob n f0 bp 3 m k (4 * k + 48) s' := by
  have hal := aligned16 (ob := ob) (j := 4 * k) (d := 32) ha (by norm_num)
  rw [adv] at hal
  xs [hi.inv.dx, adv, hal, beq_self_eq_true, if_true]
  rw [h.store (w := 4 * k + 32) (g := want e m0 ib) (m0 := m0) ?_ rfl ?_ ?_]
  rotate_left
  · exact hi.inv.mem
  · omega
  · intro i hi16
    have h4 : i / 4 < 4 := by omega
    have hq := hi.x0 (8 + i / 4) (by omega)
    have e1 : (4 * k + 32 + i) / 4 = k + (8 + i / 4) := by omega
    have e2 : (4 * k + 32 + i) % 4 = i % 4 := by omega
    have e3 : i / 4 / 4 = 0 := by omega
    have e4 : i / 4 % 4 = i / 4 := by omega
    have e5 : i / 4 < 16 := by omega
    simp only [Function.update_self, low_lt hi16, low_lt e5, of32, d32_low_of32 _ _ _ h4, toInt_d32_sx, e3, e4]
    simp [want, elem, e1, e2, ← sub80, ← hq]
  refine ⟨_, rfl, ⟨⟨hi.inv.ax, hi.inv.dx, hi.inv.bx, hi.inv.cx, hi.inv.bp, hi.inv.fp, rfl⟩, hi.si, ?_, ?_⟩⟩
  · intro i hi16
    simp [hi.xz i hi16]
  · intro i hi16
    simp [hi.x0 i hi16]

theorem sse4_q3 (h : Io e ib ob N (4 * N)) {m k : Nat} (hk : k + 16 ≤ N) (ha : (ob.toNat + 4 * k) % 16 = 0) {s : St}
    (hi : Mid e m0 ib ob n f0 bp 3 m k (4 * k + 48) s) : ∃ s', blk e b85 s = some s' ∧ Mid e m0 ib ob n f0 bp 3 m k (4 * k + 64) s' := by
  have hal := aligned16 (ob := ob) (j := 4 * k) (d := 48) ha (by norm_num)
  rw [adv] at hal
  xs [hi.inv.dx, adv, hal, beq_self_eq_true, if_true]
  rw [h.store (w := 4 * k + 48) (g := want e m0 ib) (m0 := m0) ?_ rfl ?_ ?_]
  rotate_left
  · exact hi.inv.mem
  · omega
  · intro i hi16
    have h4 : i / 4 < 4 := by omega
    have hq := hi.x0 (12 + i / 4) (by omega)
    have e1 : (4 * k + 48 + i) / 4 = k + (12 + i / 4) := by omega
    have e2 : (4 * k + 48 + i) % 4 = i % 4 := by omega
    have e3 : i / 4 / 4 = 0 := by omega
    have e4 : i / 4 % 4 = i / 4 := by omega
    have e5 : i / 4 < 16 := by omega
    simp only [Function.update_self, low_lt hi16, low_lt e5, of32, d32_low_of32 _ _ _ h4, toInt_d32_sx, e3, e4]
    simp [want, elem, e1, e2, ← sub80, ← hq]
  refine ⟨_, rfl, ⟨⟨hi.inv.ax, hi.inv.dx, hi.inv.bx, hi.inv.cx, hi.inv.bp, hi.inv.fp, rfl⟩, hi.si, ?_, ?_⟩⟩
  · intro i hi16
    simp [hi.xz i hi16]
  · intro i hi16
    simp [hi.x0 i hi16]

theorem i16 : imm32 0x10 = BitVec.ofNat 64 16 := rfl

theorem i64 : imm32 0x40 = BitVec.ofNat 64 64 := rfl

theorem sse4_tail {m k : Nat} {s : St} (hi : Mid e m0 ib ob n f0 bp 3 m k (4 * k + 64) s) :
    ∃ s', blk e b93 s = some s' ∧ Top e m0 ib ob n f0 bp 3 m (k + 16) s' ∧ s'.fl = subFlags (BitVec.ofNat 64 (k + 16)) (BitVec.ofNat 64 m) := by
  xs [hi.inv.bx, hi.inv.ax, hi.inv.dx, i16, i64, adv, hi.si]
  refine ⟨_, rfl, ⟨⟨rfl, rfl, ?_, hi.inv.cx, hi.inv.bp, hi.inv.fp, hi.inv.mem⟩, rfl, hi.xz⟩, ?_⟩
  · simp only [← BitVec.ofNat_add]
  · simp only [← BitVec.ofNat_add]

/-- One iteration. -/
theorem sse4_body (h : Io e ib ob N (4 * N)) {m j : Nat} (hm : m < 2 ^ 63) (hj16 : j + 16 ≤ N) (haj : (ob.toNat + 4 * j) % 16 = 0) {s : St}
    (hi : Top e m0 ib ob n f0 bp 3 m j s) :
    ∃ s', Top e m0 ib ob n f0 bp 3 m (j + 16) s' ∧ Reach e prog 56 s (if j + 16 < m then 56 else 98) s' := by
  have hn := h.nin_lt
  obtain ⟨s1, g1, i1⟩ := sse4_load h hj16 hi
  obtain ⟨s2, g2, i2⟩ := sse4_q0 h hj16 haj i1
  obtain ⟨s3, g3, i3⟩ := sse4_q1 h hj16 haj i2
  obtain ⟨s4, g4, i4⟩ := sse4_q2 h hj16 haj i3
  obtain ⟨s5, g5, i5⟩ := sse4_q3 h hj16 haj i4
  obtain ⟨s6, g6, i6, f6⟩ := sse4_tail i5
  have r1 : Reach e prog 56 s 62 s1 := reach_blk b56 h56 g1
  have r2 : Reach e prog 62 s1 69 s2 := reach_blk b62 h62 g2
  have r3 : Reach e prog 69 s2 77 s3 := reach_blk b69 h69 g3
  have r4 : Reach e prog 77 s3 85 s4 := reach_blk b77 h77 g4
  have r5 : Reach e prog 85 s4 93 s5 := reach_blk b85 h85 g5
  have r6 : Reach e prog 93 s5 97 s6 := reach_blk b93 h93 g6
  have hfl : s6.fl.taken .JLT = some (decide (j + 16 < m)) := by
    rw [f6, taken_jlt_nat (by omega) (by omega)]
  have r7 := reach_branch (e := e) (p := prog) (pc := 97) .JLT .ui8tof32_sse4_loop (by decide +kernel) (t := 56) (by decide +kernel) hfl
  simp only [decide_eq_true_eq] at r7
  exact ⟨s6, i6, r1.trans (r2.trans (r3.trans (r4.trans (r5.trans (r6.trans r7)))))⟩

theorem sse4_loop (h : Io e ib ob N (4 * N)) {m k : Nat} (hm : m + k ≤ N) (hm16 : m % 16 = 0) (hk : k < m) (hk4 : k < 16)
    (ha : (ob.toNat + 4 * k) % 16 = 0) {s : St} (hi : Top e m0 ib ob n f0 bp 3 m k s) :
    ∃ s', Inv e m0 ib ob n f0 bp (m + k) (4 * (m + k)) s' ∧ Reach e prog 56 s 147 s' := by
  have hn := h.nin_lt
  obtain ⟨k', s', ⟨h1, h0⟩, h2, h3, h4, -, h6⟩ := loop (e := e) (p := prog) (a := 56) (b := 98)
    (fun j s => Top e m0 ib ob n f0 bp 3 m j s ∧ j % 16 = k) m 16 (by omega)
    (by
      rintro j s hj ⟨hi, hjk⟩
      obtain ⟨s', i', r'⟩ := sse4_body h (by omega) (by omega) (by omega) hi
      exact ⟨s', ⟨i', by omega⟩, r'⟩)
    k s hk ⟨hi, by omega⟩
  obtain rfl : k' = m + k := by omega
  refine ⟨s', h1.inv, h6.trans ?_⟩
  exact reach_jump (l := .ui8tof32_stepper) (c := .JMP) (by decide +kernel) rfl (by decide +kernel)

/-- Where the last block goes past the readable input the routine faults. -/
theorem sse4_fault (h : Io e ib ob N (4 * N)) (hrd : e.rd (ib + BitVec.ofNat 64 N) = false) {m k : Nat} (hm : N < m + k) (hmN : m ≤ N)
    (hm32 : 32 ≤ m) (hm16 : m % 16 = 0) (hk4 : k < 16) (ha : (ob.toNat + 4 * k) % 16 = 0) {s : St}
    (hi : Top e m0 ib ob n f0 bp 3 m k s) : Faults e prog 56 s := by
  have hn := h.nin_lt
  obtain ⟨k', s', ⟨h1, h0⟩, h2, h3, h4, -, h6⟩ := loop (e := e) (p := prog) (a := 56) (b := 56)
    (fun j s => Top e m0 ib ob n f0 bp 3 m j s ∧ j % 16 = k) (m - 16) 16 (by omega)
    (by
      rintro j s hj ⟨hi, hjk⟩
      obtain ⟨s', i', r'⟩ := sse4_body h (by omega) (by omega) (by omega) hi
      rw [if_pos (by omega)] at r'
      rw [ite_self]
      exact ⟨s', ⟨i', by omega⟩, r'⟩)
    k s (by omega) ⟨hi, by omega⟩
  obtain rfl : k' = m - 16 + k := by omega
  have r : Reach e prog 56 s' 58 s' := reach_blk [.label .ui8tof32_sse4_loop, .nop] (by decide +kernel) rfl
  refine (h6.trans r).faults (faults_ins (mn := .MOVOU) (ops := [.m .AX 0, .x 0]) (by decide +kernel) ?_)
  have hl : e.load s' (ib + BitVec.ofNat 64 (m - 16 + k)) 16 = none := by
    refine load_none (i := N - (m - 16 + k)) (by omega) ?_
    rw [adv, show m - 16 + k + (N - (m - 16 + k)) = N by omega]
    exact hrd
  xs [h1.inv.ax, hl]
  rfl

/-! #### With SSE2 only -/

theorem sse2_load (h : Io e ib ob N (4 * N)) {m k : Nat} (hk : k + 16 ≤ N) {s : St} (hi : Top e m0 ib ob n f0 bp 4 m k s) :
    ∃ s', blk e b105 s = some s' ∧ Mid e m0 ib ob n f0 bp 4 m k (4 * k) s' ∧
      ∀ i < 16, s'.x 2 i = m0 (ib + BitVec.ofNat 64 (k + i)) - 0x80#8 := by
  xs [hi.inv.ax, h.load hi.inv.mem (by omega) rfl hk]
  refine ⟨_, rfl, ⟨⟨hi.inv.ax, hi.inv.dx, hi.inv.bx, hi.inv.cx, hi.inv.bp, hi.inv.fp, hi.inv.mem⟩, hi.si, ?_, ?_⟩, ?_⟩
  · intro i hi16
    simp [hi.xz i hi16]
  · intro i hi16
    simp [low_lt hi16, hi.xz i hi16, inp, hi16]
  · intro i hi16
    simp [low_lt hi16, hi.xz i hi16, inp, hi16]

theorem sse2_q0 (h : Io e ib ob N (4 * N)) {m k : Nat} (hk : k + 16 ≤ N) (ha : (ob.toNat + 4 * k) % 16 = 0) {s : St}
    (hi : Mid e m0 ib ob n f0 bp 4 m k (4 * k) s) (h2 : ∀ i < 16, s.x 2 i = m0 (ib + BitVec.ofNat 64 (k + i)) - 0x80#8) :
    ∃ s', blk e b112 s = some s' ∧ Mid e m0 ib ob n f0 bp 4 m k (4 * k + 16) s' ∧
      ∀ i < 16, s'.x 3 i = m0 (ib + BitVec.ofNat 64 (k + i / 2)) - 0x80#8 := by
  have hal := aligned16 (ob := ob) (j := 4 * k) (d := 0) ha (by norm_num)
  rw [adv] at hal
  simp only [Nat.add_zero] at hal
  xs [hi.inv.dx, adv, hal, beq_self_eq_true, if_true]
  rw [h.store (w := 4 * k) (g := want e m0 ib) (m0 := m0) ?_ rfl ?_ ?_]
  rotate_left
  · exact hi.inv.mem
  · omega
  · intro i hi16
    have h4 : i / 4 < 4 := by omega
    have e1 : (4 * k + i) / 4 = k + (i / 4) := by omega
    have e2 : (4 * k + i) % 4 = i % 4 := by omega
    have e3 : 4 * (i / 4) + 3 < 16 := by omega
    have e4 : (4 * (i / 4) + 3) / 2 % 2 = 1 := by omega
    have e5 : (4 * (i / 4) + 3) / 4 = i / 4 := by omega
    have e6 : (4 * (i / 4) + 3) % 2 = 1 := by omega
    have e7 : 2 * (i / 4) + 1 < 16 := by omega
    have e8 : (2 * (i / 4) + 1) % 2 = 1 := by omega
    have e9 : (2 * (i / 4) + 1) / 2 = i / 4 := by omega
    have hq := h2 (i / 4) (by omega)
    simp only [Function.update_self, low_lt hi16, of32, d32_low_of32 _ _ _ h4, Int.reduceToNat, sar_d32, low_lt e3, toInt_d32_sx, e4, e5, e6, one_ne_zero, if_false]
    simp [want, elem, e1, e2, ← sub80, ← hq, low_lt e7, e9]
  refine ⟨_, rfl, ⟨⟨hi.inv.ax, hi.inv.dx, hi.inv.bx, hi.inv.cx, hi.inv.bp, hi.inv.fp, rfl⟩, hi.si, ?_, ?_⟩, ?_⟩
  · intro i hi16
    simp [hi.xz i hi16]
  · intro i hi16
    simp [hi.x0 i hi16]
  · intro i hi16
    simp [low_lt hi16, h2 (i / 2) (by omega)]

theorem sse2_q1 (h : Io e ib ob N (4 * N)) {m k : Nat} (hk : k + 16 ≤ N) (ha : (ob.toNat + 4 * k) % 16 = 0) {s : St}
    (hi : Mid e m0 ib ob n f0 bp 4 m k (4 * k + 16) s) (h3 : ∀ i < 16, s.x 3 i = m0 (ib + BitVec.ofNat 64 (k + i / 2)) - 0x80#8) :
    ∃ s', blk e b120 s = some s' ∧ Mid e m0 ib ob n f0 bp 4 m k (4 * k + 32) s' := by
  have hal := aligned16 (ob := ob) (j := 4 * k) (d := 16) ha (by norm_num)
  rw [adv] at hal
  xs [hi.inv.dx, adv, hal, beq_self_eq_true, if_true]
  rw [h.store (w := 4 * k + 16) (g := want e m0 ib) (m0 := m0) ?_ rfl ?_ ?_]
  rotate_left
  · exact hi.inv.mem
  · omega
  · intro i hi16
    have h4 : i / 4 < 4 := by omega
    have e1 : (4 * k + 16 + i) / 4 = k + (4 + i / 4) := by omega
    have e2 : (4 * k + 16 + i) % 4 = i % 4 := by omega
    have e3 : 4 * (i / 4) + 3 < 16 := by omega
    have e4 : (4 * (i / 4) + 3) / 2 % 2 = 1 := by omega
    have e5 : (4 * (i / 4) + 3) / 4 = i / 4 := by omega
    have e6 : (4 * (i / 4) + 3) % 2 = 1 := by omega
    have hq := h3 (8 + 2 * (i / 4) + 1) (by omega)
    rw [show (8 + 2 * (i / 4) + 1) / 2 = 4 + i / 4 by omega] at hq
    simp only [Function.update_self, low_lt hi16, of32, d32_low_of32 _ _ _ h4, Int.reduceToNat, sar_d32, low_lt e3, toInt_d32_sx, e4, e5, e6, one_ne_zero, if_false]
    simp [want, elem, e1, e2, ← sub80, ← hq]
  refine ⟨_, rfl, ⟨⟨hi.inv.ax, hi.inv.dx, hi.inv.bx, hi.inv.cx, hi.inv.bp, hi.inv.fp, rfl⟩, hi.si, ?_, ?_⟩⟩
  · intro i hi16
    simp [hi.xz i hi16]
  · intro i hi16
    simp [hi.x0 i hi16]

theorem sse2_q2 (h : Io e ib ob N (4 * N)) {m k : Nat} (hk : k + 16 ≤ N) (ha : (ob.toNat + 4 * k) % 16 = 0) {s : St}
    (hi : Mid e m0 ib ob n f0 bp 4 m k (4 * k + 32) s) :
    ∃ s', blk e b126 s = some s' ∧ Inv e m0 ib ob n f0 bp k (4 * k + 48) s' ∧ s'.g.si = BitVec.ofNat 64 m ∧ (∀ i < 16, s'.x 4 i = 0x80#8) ∧
      ∀ i < 16, s'.x 3 i = m0 (ib + BitVec.ofNat 64 (k + (8 + i / 2))) - 0x80#8 := by
  have hal := aligned16 (ob := ob) (j := 4 * k) (d := 32) ha (by norm_num)
  rw [adv] at hal
  xs [hi.inv.dx, adv, hal, beq_self_eq_true, if_true]
  rw [h.store (w := 4 * k + 32) (g := want e m0 ib) (m0 := m0) ?_ rfl ?_ ?_]
  rotate_left
  · exact hi.inv.mem
  · omega
  · intro i hi16
    have h4 : i / 4 < 4 := by omega
    have e1 : (4 * k + 32 + i) / 4 = k + (8 + i / 4) := by omega
    have e2 : (4 * k + 32 + i) % 4 = i % 4 := by omega
    have e3 : 4 * (i / 4) + 3 < 16 := by omega
    have e4 : (4 * (i / 4) + 3) / 2 % 2 = 1 := by omega
    have e5 : (4 * (i / 4) + 3) / 4 = i / 4 := by omega
    have e6 : (4 * (i / 4) + 3) % 2 = 1 := by omega
    have e7 : 2 * (i / 4) + 1 < 16 := by omega
    have e8 : (2 * (i / 4) + 1) % 2 = 1 := by omega
    have e9 : (2 * (i / 4) + 1) / 2 = i / 4 := by omega
    have hq := hi.x0 (8 + i / 4) (by omega)
    simp only [Function.update_self, low_lt hi16, of32, d32_low_of32 _ _ _ h4, Int.reduceToNat, sar_d32, low_lt e3, toInt_d32_sx, e4, e5, e6, one_ne_zero, if_false]
    simp [want, elem, e1, e2, ← sub80, ← hq, low_lt e7, e9]
  refine ⟨_, rfl, ⟨hi.inv.ax, hi.inv.dx, hi.inv.bx, hi.inv.cx, hi.inv.bp, hi.inv.fp, rfl⟩, hi.si, ?_, ?_⟩
  · intro i hi16
    simp [hi.xz i hi16]
  · intro i hi16
    simp [low_lt hi16, hi.x0 (8 + i / 2) (by omega)]

theorem sse2_q3 (h : Io e ib ob N (4 * N)) {m k : Nat} (hk : k + 16 ≤ N) (ha : (ob.toNat + 4 * k) % 16 = 0) {s : St}
    (hi : Inv e m0 ib ob n f0 bp k (4 * k + 48) s) (hsi : s.g.si = BitVec.ofNat 64 m) (hz : ∀ i < 16, s.x 4 i = 0x80#8)
    (h3 : ∀ i < 16, s.x 3 i = m0 (ib + BitVec.ofNat 64 (k + (8 + i / 2))) - 0x80#8) :
    ∃ s', blk e b134 s = some s' ∧ Inv e m0 ib ob n f0 bp k (4 * k + 64) s' ∧ s'.g.si = BitVec.ofNat 64 m ∧ (∀ i < 16, s'.x 4 i = 0x80#8) := by
  have hal := aligned16 (ob := ob) (j := 4 * k) (d := 48) ha (by norm_num)
  rw [adv] at hal
  xs [hi.dx, adv, hal, beq_self_eq_true, if_true]
  rw [h.store (w := 4 * k + 48) (g := want e m0 ib) (m0 := m0) ?_ rfl ?_ ?_]
  rotate_left
  · exact hi.mem
  · omega
  · intro i hi16
    have h4 : i / 4 < 4 := by omega
    have e1 : (4 * k + 48 + i) / 4 = k + (12 + i / 4) := by omega
    have e2 : (4 * k + 48 + i) % 4 = i % 4 := by omega
    have e3 : 4 * (i / 4) + 3 < 16 := by omega
    have e4 : (4 * (i / 4) + 3) / 2 % 2 = 1 := by omega
    have e5 : (4 * (i / 4) + 3) / 4 = i / 4 := by omega
    have e6 : (4 * (i / 4) + 3) % 2 = 1 := by omega
    have hq := h3 (8 + 2 * (i / 4) + 1) (by omega)
    rw [show 8 + (8 + 2 * (i / 4) + 1) / 2 = 12 + i / 4 by omega] at hq
    simp only [Function.update_self, low_lt hi16, of32, d32_low_of32 _ _ _ h4, Int.reduceToNat, sar_d32, low_lt e3, toInt_d32_sx, e4, e5, e6, one_ne_zero, if_false]
    simp [want, elem, e1, e2, ← sub80, ← hq]
  refine ⟨_, rfl, ⟨hi.ax, hi.dx, hi.bx, hi.cx, hi.bp, hi.fp, rfl⟩, hsi, ?_⟩
  intro i hi16
  simp [hz i hi16]

theorem sse2_tail {m k : Nat} {s : St} (hi : Inv e m0 ib ob n f0 bp k (4 * k + 64) s) (hsi : s.g.si = BitVec.ofNat 64 m)
    (hz : ∀ i < 16, s.x 4 i = 0x80#8) :
    ∃ s', blk e b140 s = some s' ∧ Top e m0 ib ob n f0 bp 4 m (k + 16) s' ∧ s'.fl = subFlags (BitVec.ofNat 64 (k + 16)) (BitVec.ofNat 64 m) := by
  xs [hi.bx, hi.ax, hi.dx, i16, i64, adv, hsi]
  refine ⟨_, rfl, ⟨⟨rfl, rfl, ?_, hi.cx, hi.bp, hi.fp, hi.mem⟩, rfl, hz⟩, ?_⟩
  · simp only [← BitVec.ofNat_add]
  · simp only [← BitVec.ofNat_add]

/-- One iteration. -/
theorem sse2_body (h : Io e ib ob N (4 * N)) {m j : Nat} (hm : m < 2 ^ 63) (hj16 : j + 16 ≤ N) (haj : (ob.toNat + 4 * j) % 16 = 0) {s : St}
    (hi : Top e m0 ib ob n f0 bp 4 m j s) :
    ∃ s', Top e m0 ib ob n f0 bp 4 m (j + 16) s' ∧ Reach e prog 105 s (if j + 16 < m then 105 else 145) s' := by
  have hn := h.nin_lt
  obtain ⟨s1, g1, i1, t1⟩ := sse2_load h hj16 hi
  obtain ⟨s2, g2, i2, t2⟩ := sse2_q0 h hj16 haj i1 t1
  obtain ⟨s3, g3, i3⟩ := sse2_q1 h hj16 haj i2 t2
  obtain ⟨s4, g4, i4, u4, v4, t4⟩ := sse2_q2 h hj16 haj i3
  obtain ⟨s5, g5, i5, u5, v5⟩ := sse2_q3 h hj16 haj i4 u4 v4 t4
  obtain ⟨s6, g6, i6, f6⟩ := sse2_tail i5 u5 v5
  have r1 : Reach e prog 105 s 112 s1 := reach_blk b105 h105 g1
  have r2 : Reach e prog 112 s1 120 s2 := reach_blk b112 h112 g2
  have r3 : Reach e prog 120 s2 126 s3 := reach_blk b120 h120 g3
  have r4 : Reach e prog 126 s3 134 s4 := reach_blk b126 h126 g4
  have r5 : Reach e prog 134 s4 140 s5 := reach_blk b134 h134 g5
  have r6 : Reach e prog 140 s5 144 s6 := reach_blk b140 h140 g6
  have hfl : s6.fl.taken .JLT = some (decide (j + 16 < m)) := by
    rw [f6, taken_jlt_nat (by omega) (by omega)]
  have r7 := reach_branch (e := e) (p := prog) (pc := 144) .JLT .ui8tof32_sse2_loop (by decide +kernel) (t := 105) (by decide +kernel) hfl
  simp only [decide_eq_true_eq] at r7
  exact ⟨s6, i6, r1.trans (r2.trans (r3.trans (r4.trans (r5.trans (r6.trans r7)))))⟩

theorem sse2_loop (h : Io e ib ob N (4 * N)) {m k : Nat} (hm : m + k ≤ N) (hm16 : m % 16 = 0) (hk : k < m) (hk4 : k < 16)
    (ha : (ob.toNat + 4 * k) % 16 = 0) {s : St} (hi : Top e m0 ib ob n f0 bp 4 m k s) :
    ∃ s', Inv e m0 ib ob n f0 bp (m + k) (4 * (m + k)) s' ∧ Reach e prog 105 s 147 s' := by
  have hn := h.nin_lt
  obtain ⟨k', s', ⟨h1, h0⟩, h2, h3, h4, -, h6⟩ := loop (e := e) (p := prog) (a := 105) (b := 145)
    (fun j s => Top e m0 ib ob n f0 bp 4 m j s ∧ j % 16 = k) m 16 (by omega)
    (by
      rintro j s hj ⟨hi, hjk⟩
      obtain ⟨s', i', r'⟩ := sse2_body h (by omega) (by omega) (by omega) hi
      exact ⟨s', ⟨i', by omega⟩, r'⟩)
    k s hk ⟨hi, by omega⟩
  obtain rfl : k' = m + k := by omega
  exact ⟨s', h1.inv, h6.trans (reach_blk b145 h145 rfl)⟩

/-- Where the last block goes past the readable input the routine faults. -/
theorem sse2_fault (h : Io e ib ob N (4 * N)) (hrd : e.rd (ib + BitVec.ofNat 64 N) = false) {m k : Nat} (hm : N < m + k) (hmN : m ≤ N)
    (hm32 : 32 ≤ m) (hm16 : m % 16 = 0) (hk4 : k < 16) (ha : (ob.toNat + 4 * k) % 16 = 0) {s : St}
    (hi : Top e m0 ib ob n f0 bp 4 m k s) : Faults e prog 105 s := by
  have hn := h.nin_lt
  obtain ⟨k', s', ⟨h1, h0⟩, h2, h3, h4, -, h6⟩ := loop (e := e) (p := prog) (a := 105) (b := 105)
    (fun j s => Top e m0 ib ob n f0 bp 4 m j s ∧ j % 16 = k) (m - 16) 16 (by omega)
    (by
      rintro j s hj ⟨hi, hjk⟩
      obtain ⟨s', i', r'⟩ := sse2_body h (by omega) (by omega) (by omega) hi
      rw [if_pos (by omega)] at r'
      rw [ite_self]
      exact ⟨s', ⟨i', by omega⟩, r'⟩)
    k s (by omega) ⟨hi, by omega⟩
  obtain rfl : k' = m - 16 + k := by omega
  have r : Reach e prog 105 s' 107 s' := reach_blk [.label .ui8tof32_sse2_loop, .nop] (by decide +kernel) rfl
  refine (h6.trans r).faults (faults_ins (mn := .MOVOU) (ops := [.m .AX 0, .x 0]) (by decide +kernel) ?_)
  have hl : e.load s' (ib + BitVec.ofNat 64 (m - 16 + k)) 16 = none := by
    refine load_none (i := N - (m - 16 + k)) (by omega) ?_
    rw [adv, show m - 16 + k + (N - (m - 16 + k)) = N by omega]
    exact hrd
  xs [h1.inv.ax, hl]
  rfl

/-! ### The whole routine -/

/-- How many single elements are converted before the output is at a 16-byte boundary. -/
def lead (ob : BitVec 64) : Nat := (4 - ob.toNat % 16 / 4) % 4

/-- How many elements the routine converts. -/
def total (n : Nat) (ob : BitVec 64) : Nat := if n ≤ 32 then n else max n (n - n % 16 + lead ob)

theorem splat (s : St) (z : Nat) : ∀ i < 16, low 16 (fun i => low 16 (bytes32 (BitVec.setWidth 32 (BitVec.setWidth 64 (BitVec.ofInt 32 0x80808080))))
    (s.x z) (4 * (0 / 4 ^ (i / 4) % 4) + i % 4)) (low 16 (bytes32 (BitVec.setWidth 32 (BitVec.setWidth 64 (BitVec.ofInt 32 0x80808080)))) (s.x z)) i = 0x80#8 := by
  intro i hi
  rw [low_lt hi]
  have e1 : 0 / 4 ^ (i / 4) % 4 = 0 := by simp
  rw [e1, low_lt (by omega)]
  have : i % 4 < 4 := Nat.mod_lt _ (by omega)
  simp only [Nat.mul_zero, Nat.zero_add]
  generalize i % 4 = j at *
  obtain rfl | rfl | rfl | rfl : j = 0 ∨ j = 1 ∨ j = 2 ∨ j = 3 := by omega
  all_goals decide +kernel

/-- From the label `ui8tof32_aligned`. -/
theorem setup (hn : n < 2 ^ 63) (h32 : 32 < n) {k : Nat} (hk : k < 4) {s : St} (hi : Inv e m0 ib ob n f0 bp k (4 * k) s) :
    ∃ s', (Reach e prog 45 s 56 s' ∧ Top e m0 ib ob n f0 bp 3 (n - n % 16) k s') ∨
      (Reach e prog 45 s 105 s' ∧ Top e m0 ib ob n f0 bp 4 (n - n % 16) k s') := by
  obtain ⟨m, hm⟩ : ∃ m, m = n - n % 16 := ⟨_, rfl⟩
  have hm16 : m % 16 = 0 := by omega
  have hkm : k < m := by omega
  have b1 : blk e b45 s = some { s with g := { s.g with si := BitVec.ofNat 64 m }, fl := subFlags (BitVec.ofNat 64 k) (BitVec.ofNat 64 m) } := by
    xs [hi.bx, hi.cx, and_mask16 hn, ← hm]
  rw [← hm]
  have r1 : Reach e prog 45 s 49 _ := reach_blk b45 h45 b1
  have hfl : (subFlags (BitVec.ofNat 64 k) (BitVec.ofNat 64 m)).taken .JGE = some (decide (m ≤ k)) := taken_jge_nat (by omega) (by omega)
  have r2 := reach_fall (e := e) (p := prog) (pc := 49) (c := .JGE) (l := .ui8tof32_stepper)
    (s := { s with g := { s.g with si := BitVec.ofNat 64 m }, fl := subFlags (BitVec.ofNat 64 k) (BitVec.ofNat 64 m) })
    (by decide +kernel) (by rw [hfl]; simp; omega)
  have b2 : ∀ t, blk e b50 t = some { t with fl := ⟨some ((e.sym .useSSE4).signExtend 64 == (BitVec.ofInt 8 1).signExtend 64), none, none, none⟩ } := by
    intro t
    xs []
  have r3 := r1.trans (r2.trans (reach_blk (pc := 50) b50 h50 (b2 _)))
  simp only [List.length_cons, List.length_nil, Nat.reduceAdd] at r3
  have r4 := reach_branch (e := e) (p := prog) (pc := 51) .JNE .ui8tof32_nosse4 (by decide +kernel) (t := 100) (by decide +kernel)
    (s := { s with g := { s.g with si := BitVec.ofNat 64 m }, fl := ⟨some ((e.sym .useSSE4).signExtend 64 == (BitVec.ofInt 8 1).signExtend 64), none, none, none⟩ }) rfl
  have r5 := r3.trans r4
  by_cases c : ((e.sym .useSSE4).signExtend 64 == (BitVec.ofInt 8 1).signExtend 64 : Bool) = true
  · rw [c] at r5
    simp only [Bool.not_true, Bool.false_eq_true, if_false] at r5
    have b6 : ∃ s', blk e b52 { s with g := { s.g with si := BitVec.ofNat 64 m }, fl := ⟨some true, none, none, none⟩ } = some s' ∧
        Top e m0 ib ob n f0 bp 3 m k s' := by
      xs [Int.reduceToNat]
      refine ⟨_, rfl, ⟨hi.ax, hi.dx, hi.bx, hi.cx, hi.bp, hi.fp, hi.mem⟩, rfl, ?_⟩
      intro i hi16
      simp only [Function.update_self]
      exact splat s 3 i hi16
    obtain ⟨s6, g6, i6⟩ := b6
    have r6 : Reach e prog 52 _ 56 s6 := reach_blk b52 h52 g6
    exact ⟨s6, .inl ⟨r5.trans r6, i6⟩⟩
  · rw [Bool.not_eq_true] at c
    rw [c] at r5
    simp only [Bool.not_false, if_true] at r5
    have b6 : ∃ s', blk e b100 { s with g := { s.g with si := BitVec.ofNat 64 m }, fl := ⟨some false, none, none, none⟩ } = some s' ∧
        Top e m0 ib ob n f0 bp 4 m k s' := by
      xs [Int.reduceToNat]
      refine ⟨_, rfl, ⟨hi.ax, hi.dx, hi.bx, hi.cx, hi.bp, hi.fp, hi.mem⟩, rfl, ?_⟩
      intro i hi16
      simp only [Function.update_self]
      exact splat s 4 i hi16
    obtain ⟨s6, g6, i6⟩ := b6
    have r6 : Reach e prog 100 _ 105 s6 := reach_blk b100 h100 g6
    exact ⟨s6, .inr ⟨r5.trans r6, i6⟩⟩

/-- From the label `ui8tof32_aligned`, when everything can be accessed. -/
theorem aligned (h : Io e ib ob N (4 * N)) (h32 : 32 < n) (hnN : n ≤ N) {k : Nat} (hk : k < 4) (hN : n - n % 16 + k ≤ N)
    (ha : (ob.toNat + 4 * k) % 16 = 0) {s : St} (hi : Inv e m0 ib ob n f0 bp k (4 * k) s) :
    ∃ s', Returns e prog 45 s s' ∧ Inv e m0 ib ob n f0 bp (max n (n - n % 16 + k)) (4 * max n (n - n % 16 + k)) s' := by
  have hn := h.nin_lt
  obtain ⟨s6, ⟨r6, i6⟩ | ⟨r6, i6⟩⟩ := setup (by omega) h32 hk hi
  · obtain ⟨s7, i7, r7⟩ := sse4_loop h hN (by omega) (by omega) (by omega) ha i6
    obtain ⟨s8, r8, i8⟩ := stepper h hnN hN i7
    exact ⟨s8, (r6.trans r7).returns r8, i8⟩
  · obtain ⟨s7, i7, r7⟩ := sse2_loop h hN (by omega) (by omega) (by omega) ha i6
    obtain ⟨s8, r8, i8⟩ := stepper h hnN hN i7
    exact ⟨s8, (r6.trans r7).returns r8, i8⟩

/-- From the label `ui8tof32_aligned`, when the last block goes past the readable input. -/
theorem aligned_fault (h : Io e ib ob n (4 * n)) (hrd : e.rd (ib + BitVec.ofNat 64 n) = false) (h32 : 32 < n) {k : Nat} (hk : k < 4)
    (hN : n < n - n % 16 + k) (ha : (ob.toNat + 4 * k) % 16 = 0) {s : St} (hi : Inv e m0 ib ob n f0 bp k (4 * k) s) : Faults e prog 45 s := by
  have hn := h.nin_lt
  obtain ⟨s6, ⟨r6, i6⟩ | ⟨r6, i6⟩⟩ := setup (by omega) h32 hk hi
  · exact r6.faults (sse4_fault h hrd hN (by omega) (by omega) (by omega) (by omega) ha i6)
  · exact r6.faults (sse2_fault h hrd hN (by omega) (by omega) (by omega) (by omega) ha i6)

theorem and15 (a : BitVec 64) : (a &&& imm32 0xf) >>> 2 = BitVec.ofNat 64 (a.toNat % 16 / 4) := by
  apply BitVec.eq_of_toNat_eq
  have e1 : (imm32 0xf).toNat = 2 ^ 4 - 1 := by decide +kernel
  rw [BitVec.toNat_ushiftRight, BitVec.toNat_and, e1, Nat.and_two_pow_sub_one_eq_mod, Nat.shiftRight_eq_div_pow, BitVec.toNat_ofNat]
  omega

/-- Before the jump in line 24. -/
theorem first (hn : n < 2 ^ 63) {s : St} (hax : s.g.ax = ib) (hdx : s.g.dx = ob)
    (hcx : s.g.cx = BitVec.ofNat 64 n) (hbp : s.g.bp = bp) (hfp : s.fp = f0) (hmem : s.mem = m0) :
    ∃ s', Reach e prog 18 s (if n ≤ 32 then 147 else 25) s' ∧ Inv e m0 ib ob n f0 bp 0 (4 * 0) s' := by
  have i0 : imm32 0 = BitVec.ofNat 64 0 := rfl
  have i32 : imm32 0x20 = BitVec.ofNat 64 32 := rfl
  have b1 : ∃ s', blk e b18 s = some s' ∧ Inv e m0 ib ob n f0 bp 0 (4 * 0) s' ∧ s'.fl = subFlags (BitVec.ofNat 64 32) (BitVec.ofNat 64 n) := by
    xs [hcx, i0, i32]
    refine ⟨_, rfl, ⟨?_, ?_, rfl, rfl, hbp, hfp, ?_⟩, rfl⟩
    · rw [adv0]; exact hax
    · rw [Nat.mul_zero, adv0]; exact hdx
    · rw [Nat.mul_zero, fill_zero]; exact hmem
  obtain ⟨s1, g1, i1, f1⟩ := b1
  have r1 : Reach e prog 18 s 24 s1 := reach_blk b18 h18 g1
  have hfl : s1.fl.taken .JGE = some (decide (n ≤ 32)) := by rw [f1]; exact taken_jge_nat (by omega) (by omega)
  have r2 := reach_branch (e := e) (p := prog) (pc := 24) .JGE .ui8tof32_stepper (by decide +kernel) (t := 147) (by decide +kernel) hfl
  simp only [decide_eq_true_eq] at r2
  exact ⟨s1, r1.trans r2, i1⟩

/-- Up to the 16-byte boundary. -/
theorem to_aligned (h : Io e ib ob N (4 * N)) (hN : 3 ≤ N) (h4 : ob.toNat % 4 = 0) {s1 : St} (i1 : Inv e m0 ib ob n f0 bp 0 (4 * 0) s1) :
    ∃ s', Reach e prog 25 s1 45 s' ∧ Inv e m0 ib ob n f0 bp (lead ob) (4 * lead ob) s' := by
  have b3 : ∃ s', blk e b25 s1 = some s' ∧ Inv e m0 ib ob n f0 bp 0 (4 * 0) s' ∧ s'.fl = shiftFlags (BitVec.ofNat 64 (ob.toNat % 16 / 4)) ∧
      s'.g.si = BitVec.ofNat 64 (ob.toNat % 16 / 4) := by
    have hd : s1.g.dx = ob := by have := i1.dx; rwa [Nat.mul_zero, adv0] at this
    xs [hd, Int.reduceToNat, and15]
    exact ⟨_, rfl, ⟨i1.ax, by rw [Nat.mul_zero, adv0], i1.bx, i1.cx, i1.bp, i1.fp, i1.mem⟩, rfl, rfl⟩
  obtain ⟨s3, g3, i3, f3, e3⟩ := b3
  have r3 : Reach e prog 25 s1 30 s3 := reach_blk b25 h25 g3
  have hfl3 : s3.fl.taken .JZ = some (decide (ob.toNat % 16 / 4 = 0)) := by
    rw [f3]
    have : ob.toNat % 16 / 4 < 4 := by omega
    generalize ob.toNat % 16 / 4 = j at *
    obtain rfl | rfl | rfl | rfl : j = 0 ∨ j = 1 ∨ j = 2 ∨ j = 3 := by omega
    all_goals decide +kernel
  have r4 := reach_branch (e := e) (p := prog) (pc := 30) .JZ .ui8tof32_aligned (by decide +kernel) (t := 45) (by decide +kernel) hfl3
  simp only [decide_eq_true_eq] at r4
  by_cases c4 : ob.toNat % 16 / 4 = 0
  · rw [if_pos c4] at r4
    have hl : lead ob = 0 := by unfold lead; rw [c4]
    rw [hl]
    exact ⟨s3, r3.trans r4, i3⟩
  · rw [if_neg c4] at r4
    have hl : lead ob = 4 - ob.toNat % 16 / 4 := by unfold lead; omega
    have b5 : ∃ s', blk e b31 s3 = some s' ∧ Inv e m0 ib ob n f0 bp 0 (4 * 0) s' ∧ s'.g.di = BitVec.ofNat 64 (lead ob) := by
      have i4 : BitVec.ofInt 64 0x4 = BitVec.ofNat 64 4 := rfl
      xs [e3, i4]
      exact ⟨_, rfl, ⟨i3.ax, i3.dx, i3.bx, i3.cx, i3.bp, i3.fp, i3.mem⟩, by rw [hl]; exact sub_ofNat (by omega) (by decide)⟩
    obtain ⟨s5, g5, i5, e5⟩ := b5
    have r5 : Reach e prog 31 s3 34 s5 := reach_blk b31 h31 g5
    obtain ⟨s6, i6, r6⟩ := align_loop h (d := lead ob) (by omega) (k := 0) (by omega) i5 e5
    have r7 : Reach e prog 44 s6 45 s6 := reach_blk b44 h44 rfl
    exact ⟨s6, (r3.trans r4).trans (r5.trans (r6.trans r7)), i6⟩

theorem lead_lt (ob : BitVec 64) : lead ob < 4 := by unfold lead; omega

theorem lead_al {ob : BitVec 64} (h4 : ob.toNat % 4 = 0) : (ob.toNat + 4 * lead ob) % 16 = 0 := by unfold lead; omega

/-- The registers at the jump in line 15; `CX` holds `c`. -/
def entry (s : St) (ib ob : BitVec 64) (nin nout c : Nat) : St :=
  ⟨⟨ib, BitVec.ofNat 64 nout, BitVec.ofNat 64 c, ob, s.g.si, s.g.di, s.g.bp⟩, s.x, subFlags (BitVec.ofNat 64 nout) (BitVec.ofNat 64 nin), s.mem, s.fp⟩

/-- The arguments and the smaller length. -/
theorem args {nin nout : Nat} (hin : nin < 2 ^ 63) (hout : nout < 2 ^ 63) {s : St} (f1 : s.fp 0 = ib) (f2 : s.fp 8 = BitVec.ofNat 64 nin)
    (f3 : s.fp 24 = ob) (f4 : s.fp 32 = BitVec.ofNat 64 nout) : Reach e prog 7 s 18 (entry s ib ob nin nout (min nin nout)) := by
  have b1 : blk e b7 s = some (entry s ib ob nin nout nin) := by
    xs [f1, f2, f3, f4, entry]
  have r1 : Reach e prog 7 s 15 _ := reach_blk b7 h7 b1
  have r2 := reach_branch (e := e) (p := prog) (pc := 15) .JGE .ui8tof32_min_len (by decide +kernel) (t := 18) (by decide +kernel)
    (s := entry s ib ob nin nout nin) (taken_jge_nat hout hin)
  simp only [decide_eq_true_eq] at r2
  by_cases c : nin ≤ nout
  · rw [if_pos c] at r2
    rw [Nat.min_eq_left c]
    exact r1.trans r2
  · rw [if_neg c] at r2
    rw [Nat.min_eq_right (by omega)]
    have b2 : blk e b16 (entry s ib ob nin nout nin) = some (entry s ib ob nin nout nout) := by
      xs [entry]
    have r3 : Reach e prog 16 _ 18 _ := reach_blk b16 h16 b2
    exact (r1.trans r2).trans r3

/-- The whole routine, when everything it touches can be accessed. -/
theorem routine {nin nout : Nat} (hin : nin < 2 ^ 63) (hout : nout < 2 ^ 63) (hN : N = total (min nin nout) ob) (h : Io e ib ob N (4 * N))
    (h4 : ob.toNat % 4 = 0) {s : St} (f1 : s.fp 0 = ib) (f2 : s.fp 8 = BitVec.ofNat 64 nin) (f3 : s.fp 24 = ob) (f4 : s.fp 32 = BitVec.ofNat 64 nout) :
    ∃ s', Returns e prog 7 s s' ∧ Inv e s.mem ib ob (min nin nout) s.fp s.g.bp N (4 * N) s' := by
  have hl := lead_lt ob
  have hn := h.nin_lt
  have r0 := args (e := e) hin hout f1 f2 f3 f4
  generalize hm : min nin nout = n at *
  have hnN : n ≤ N := by rw [hN]; unfold total; split <;> omega
  obtain ⟨s1, r1, i1⟩ := first (e := e) (n := n) (m0 := s.mem) (bp := s.g.bp) (f0 := s.fp) (ib := ib) (ob := ob) (by omega) (s := entry s ib ob nin nout n) rfl rfl rfl rfl rfl rfl
  by_cases c : n ≤ 32
  · rw [if_pos c] at r1
    obtain ⟨s8, r8, i8⟩ := stepper h hnN (Nat.zero_le _) i1
    have e8 : N = max n 0 := by rw [hN]; unfold total; rw [if_pos c]; omega
    rw [← e8] at i8
    exact ⟨s8, (r0.trans r1).returns r8, i8⟩
  · rw [if_neg c] at r1
    have hN' : N = max n (n - n % 16 + lead ob) := by rw [hN]; unfold total; rw [if_neg c]
    obtain ⟨s2, r2, i2⟩ := to_aligned h (by omega) h4 i1
    obtain ⟨s8, r8, i8⟩ := aligned h (by omega) hnN hl (by omega) (lead_al h4) i2
    rw [← hN'] at i8
    exact ⟨s8, ((r0.trans r1).trans r2).returns r8, i8⟩

/-- The whole routine, when the input cannot be read past the smaller length. -/
theorem routine_fault {nin nout : Nat} (hin : nin < 2 ^ 63) (hout : nout < 2 ^ 63) (hn : n = min nin nout) (h : Io e ib ob n (4 * n))
    (hrd : e.rd (ib + BitVec.ofNat 64 n) = false) (h32 : 32 < n) (hov : n % 16 < lead ob)
    (h4 : ob.toNat % 4 = 0) {s : St} (f1 : s.fp 0 = ib) (f2 : s.fp 8 = BitVec.ofNat 64 nin) (f3 : s.fp 24 = ob) (f4 : s.fp 32 = BitVec.ofNat 64 nout) :
    Faults e prog 7 s := by
  have hl := lead_lt ob
  have hn' := h.nin_lt
  have r0 := args (e := e) hin hout f1 f2 f3 f4
  rw [← hn] at r0
  obtain ⟨s1, r1, i1⟩ := first (e := e) (n := n) (m0 := s.mem) (bp := s.g.bp) (f0 := s.fp) (ib := ib) (ob := ob) (by omega) (s := entry s ib ob nin nout n) rfl rfl rfl rfl rfl rfl
  rw [if_neg (by omega)] at r1
  obtain ⟨s2, r2, i2⟩ := to_aligned h (by omega) h4 i1
  exact ((r0.trans r1).trans r2).faults (aligned_fault h hrd h32 hl (by omega) (lead_al h4) i2)

end Verif.X86.Avo
