import Verif.X86.X86Lanes
import Verif.X86.ConvModel

/-!
# The runs of `I16bleToF32` on amd64, instruction by instruction
-/

namespace Verif.X86.Conv.I32
open Verif.X86

/-! ### Basic blocks -/

/-- dsp/conversion_amd64.s:633-642. -/
abbrev b633 : List (Line Lbl Reg Nat) :=
  [.label .I16bleToF32,
    .ins .MOVQ [.fp 0, .r .SI],
    .ins .MOVQ [.fp 8, .r .CX],
    .ins .MOVQ [.fp 24, .r .DI],
    .ins .MOVQ [.fp 32, .r .AX],
    .ins .MOVSS [.fp 48, .x 0],
    .ins .PSHUFD [.i 0, .x 0, .x 0], .nop,
    .ins .SARQ [.i 1, .r .CX],
    .ins .CMPQ [.r .CX, .r .AX]]

theorem h633 : (prog.drop 633).take b633.length = b633 := by decide +kernel

/-- dsp/conversion_amd64.s:644-645. -/
abbrev b644 : List (Line Lbl Reg Nat) :=
  [.ins .MOVQ [.r .AX, .r .CX], .nop]

theorem h644 : (prog.drop 644).take b644.length = b644 := by decide +kernel

/-- dsp/conversion_amd64.s:646-653. -/
abbrev b646 : List (Line Lbl Reg Nat) :=
  [.label .i16bleToF32_min_len, .nop, .nop,
    .ins .MOVQ [.i 0, .r .BX],
    .ins .MOVQ [.r .CX, .r .DX], .nop, .nop,
    .ins .CMPB [.sb .useSSE4, .i 1]]

theorem h646 : (prog.drop 646).take b646.length = b646 := by decide +kernel

/-- dsp/conversion_amd64.s:655-657. -/
abbrev b655 : List (Line Lbl Reg Nat) :=
  [.nop,
    .ins .ANDQ [.i (-8), .r .DX], .nop]

theorem h655 : (prog.drop 655).take b655.length = b655 := by decide +kernel

/-- dsp/conversion_amd64.s:658-659. -/
abbrev b658 : List (Line Lbl Reg Nat) :=
  [.label .i16bleToF32_sse4_loop,
    .ins .CMPQ [.r .BX, .r .DX]]

theorem h658 : (prog.drop 658).take b658.length = b658 := by decide +kernel

/-- dsp/conversion_amd64.s:661-663. -/
abbrev b661 : List (Line Lbl Reg Nat) :=
  [.ins .MOVOU [.m .SI 0, .x 1],
    .ins .PMOVSXWD [.x 1, .x 2],
    .ins .CVTPL2PS [.x 2, .x 2]]

theorem h661 : (prog.drop 661).take b661.length = b661 := by decide +kernel

/-- dsp/conversion_amd64.s:664-666. -/
abbrev b664 : List (Line Lbl Reg Nat) :=
  [.ins .MOVHLPS [.x 1, .x 1],
    .ins .PMOVSXWD [.x 1, .x 1],
    .ins .CVTPL2PS [.x 1, .x 1]]

theorem h664 : (prog.drop 664).take b664.length = b664 := by decide +kernel

/-- dsp/conversion_amd64.s:667-668. -/
abbrev b667 : List (Line Lbl Reg Nat) :=
  [.ins .MULPS [.x 0, .x 2],
    .ins .MULPS [.x 0, .x 1]]

theorem h667 : (prog.drop 667).take b667.length = b667 := by decide +kernel

/-- dsp/conversion_amd64.s:669-669. -/
abbrev b669 : List (Line Lbl Reg Nat) :=
  [.ins .MOVUPS [.x 2, .m .DI 0]]

theorem h669 : (prog.drop 669).take b669.length = b669 := by decide +kernel

/-- dsp/conversion_amd64.s:670-670. -/
abbrev b670 : List (Line Lbl Reg Nat) :=
  [.ins .MOVUPS [.x 1, .m .DI 16]]

theorem h670 : (prog.drop 670).take b670.length = b670 := by decide +kernel

/-- dsp/conversion_amd64.s:671-673. -/
abbrev b671 : List (Line Lbl Reg Nat) :=
  [.ins .ADDQ [.i 16, .r .SI],
    .ins .ADDQ [.i 32, .r .DI],
    .ins .ADDQ [.i 8, .r .BX]]

theorem h671 : (prog.drop 671).take b671.length = b671 := by decide +kernel

/-- dsp/conversion_amd64.s:675-678. -/
abbrev b675 : List (Line Lbl Reg Nat) :=
  [.nop, .label .i16bleToF32_nosse4,
    .ins .ANDQ [.i (-8), .r .DX], .nop]

theorem h675 : (prog.drop 675).take b675.length = b675 := by decide +kernel

/-- dsp/conversion_amd64.s:679-680. -/
abbrev b679 : List (Line Lbl Reg Nat) :=
  [.label .i16bleToF32_sse2_loop,
    .ins .CMPQ [.r .BX, .r .DX]]

theorem h679 : (prog.drop 679).take b679.length = b679 := by decide +kernel

/-- dsp/conversion_amd64.s:682-686. -/
abbrev b682 : List (Line Lbl Reg Nat) :=
  [.ins .MOVOU [.m .SI 0, .x 2],
    .ins .MOVO [.x 2, .x 1],
    .ins .PUNPCKLWL [.x 1, .x 1],
    .ins .PSRAL [.i 16, .x 1],
    .ins .CVTPL2PS [.x 1, .x 1]]

theorem h682 : (prog.drop 682).take b682.length = b682 := by decide +kernel

/-- dsp/conversion_amd64.s:687-690. -/
abbrev b687 : List (Line Lbl Reg Nat) :=
  [.ins .MOVHLPS [.x 2, .x 2],
    .ins .PUNPCKLWL [.x 2, .x 2],
    .ins .PSRAL [.i 16, .x 2],
    .ins .CVTPL2PS [.x 2, .x 2]]

theorem h687 : (prog.drop 687).take b687.length = b687 := by decide +kernel

/-- dsp/conversion_amd64.s:691-692. -/
abbrev b691 : List (Line Lbl Reg Nat) :=
  [.ins .MULPS [.x 0, .x 1],
    .ins .MULPS [.x 0, .x 2]]

theorem h691 : (prog.drop 691).take b691.length = b691 := by decide +kernel

/-- dsp/conversion_amd64.s:693-693. -/
abbrev b693 : List (Line Lbl Reg Nat) :=
  [.ins .MOVUPS [.x 1, .m .DI 0]]

theorem h693 : (prog.drop 693).take b693.length = b693 := by decide +kernel

/-- dsp/conversion_amd64.s:694-694. -/
abbrev b694 : List (Line Lbl Reg Nat) :=
  [.ins .MOVUPS [.x 2, .m .DI 16]]

theorem h694 : (prog.drop 694).take b694.length = b694 := by decide +kernel

/-- dsp/conversion_amd64.s:695-697. -/
abbrev b695 : List (Line Lbl Reg Nat) :=
  [.ins .ADDQ [.i 16, .r .SI],
    .ins .ADDQ [.i 32, .r .DI],
    .ins .ADDQ [.i 8, .r .BX]]

theorem h695 : (prog.drop 695).take b695.length = b695 := by decide +kernel

/-- dsp/conversion_amd64.s:699-699. -/
abbrev b699 : List (Line Lbl Reg Nat) :=
  [.nop]

theorem h699 : (prog.drop 699).take b699.length = b699 := by decide +kernel

/-- dsp/conversion_amd64.s:700-701. -/
abbrev b700 : List (Line Lbl Reg Nat) :=
  [.label .i16bleToF32_scalar_loop,
    .ins .CMPQ [.r .BX, .r .CX]]

theorem h700 : (prog.drop 700).take b700.length = b700 := by decide +kernel

/-- dsp/conversion_amd64.s:703-707. -/
abbrev b703 : List (Line Lbl Reg Nat) :=
  [.ins .MOVWLSX [.m .SI 0, .r .DX],
    .ins .XORPS [.x 1, .x 1],
    .ins .CVTSL2SS [.r .DX, .x 1],
    .ins .MULSS [.x 0, .x 1],
    .ins .MOVSS [.x 1, .m .DI 0]]

theorem h703 : (prog.drop 703).take b703.length = b703 := by decide +kernel

/-- dsp/conversion_amd64.s:708-710. -/
abbrev b708 : List (Line Lbl Reg Nat) :=
  [.ins .ADDQ [.i 2, .r .SI],
    .ins .ADDQ [.i 4, .r .DI],
    .ins .INCQ [.r .BX]]

theorem h708 : (prog.drop 708).take b708.length = b708 := by decide +kernel

/-- dsp/conversion_amd64.s:713-713. -/
abbrev b713 : List (Line Lbl Reg Nat) :=
  [.label .i16bleToF32_done]

theorem h713 : (prog.drop 713).take b713.length = b713 := by decide +kernel



/-! ### Invariant -/

/-- Sample `i` of the input. -/
def smp (m0 : BitVec 64 → BitVec 8) (ib : BitVec 64) (i : Nat) : BitVec 16 :=
  m0 (ib + BitVec.ofNat 64 (2 * i + 1)) ++ m0 (ib + BitVec.ofNat 64 (2 * i))

theorem w16_inp (m0 : BitVec 64 → BitVec 8) (ib : BitVec 64) (k len l : Nat) (h : 2 * l + 2 ≤ len) :
    w16 (inp m0 ib (2 * k) len) l = smp m0 ib (k + l) := by
  unfold w16 inp smp
  rw [if_pos (by omega), if_pos (by omega), show 2 * k + (2 * l + 1) = 2 * (k + l) + 1 by omega, show 2 * k + 2 * l = 2 * (k + l) by omega]

/-- Sample `i` as a float32. -/
def cv (e : Env) (m0 : BitVec 64 → BitVec 8) (ib : BitVec 64) (i : Nat) : BitVec 32 := e.o.cvt32 (smp m0 ib i).toInt

/-- The float32 for sample `i`. -/
def elem (e : Env) (m0 : BitVec 64 → BitVec 8) (ib : BitVec 64) (sc : BitVec 32) (i : Nat) : BitVec 32 := e.o.mul32 (cv e m0 ib i) sc

/-- The output bytes. -/
def want (e : Env) (m0 : BitVec 64 → BitVec 8) (ib : BitVec 64) (sc : BitVec 32) (j : Nat) : BitVec 8 := byte (elem e m0 ib sc (j / 4)) (j % 4)

/-- After `k` samples with `w` bytes written. -/
structure Inv (e : Env) (m0 : BitVec 64 → BitVec 8) (ib ob : BitVec 64) (sc : BitVec 32) (n : Nat) (f0 : Nat → BitVec 64) (bp : BitVec 64) (k w : Nat)
    (s : St) : Prop where
  si : s.g.si = ib + BitVec.ofNat 64 (2 * k)
  di : s.g.di = ob + BitVec.ofNat 64 (4 * k)
  bx : s.g.bx = BitVec.ofNat 64 k
  cx : s.g.cx = BitVec.ofNat 64 n
  x0 : ∀ l < 4, d32 (s.x 0) l = sc
  bp : s.g.bp = bp
  fp : s.fp = f0
  mem : s.mem = fill m0 ob w (want e m0 ib sc)

variable {e : Env} {m0 : BitVec 64 → BitVec 8} {ib ob : BitVec 64} {sc : BitVec 32} {n : Nat} {f0 : Nat → BitVec 64} {bp : BitVec 64}

theorem one64 : (1 : BitVec 64) = BitVec.ofNat 64 1 := rfl

theorem imm2 : imm32 2 = BitVec.ofNat 64 2 := rfl

theorem imm4 : imm32 4 = BitVec.ofNat 64 4 := rfl

theorem imm8 : imm32 8 = BitVec.ofNat 64 8 := rfl

theorem imm16 : imm32 16 = BitVec.ofNat 64 16 := rfl

theorem imm32' : imm32 32 = BitVec.ofNat 64 32 := rfl

theorem imm64 : imm32 64 = BitVec.ofNat 64 64 := rfl

theorem d32_bytes32 (v : BitVec 32) (y : Vec) : d32 (low 4 (bytes32 v) y) 0 = v := by
  rw [d32_low _ _ _ (by omega)]
  exact d32_of_bytes v _ 0 fun i hi => by unfold bytes32; rw [if_pos (by omega), Nat.mul_zero, Nat.zero_add]

/-- Storing four products. -/
theorem put (h : Io e ib ob (2 * n) (4 * n)) {k d : Nat} {s : St} (hd : d % 16 = 0) (hk : k + d / 4 + 4 ≤ n)
    (hi : Inv e m0 ib ob sc n f0 bp k (4 * k + d) s) {r : Nat}
    (hx : ∀ i < 16, s.x r i = byte (elem e m0 ib sc (k + d / 4 + i / 4)) (i % 4)) :
    e.store s (ob + BitVec.ofNat 64 (4 * k + d)) 16 (s.x r) = some { s with mem := fill m0 ob (4 * k + d + 16) (want e m0 ib sc) } := by
  rw [h.store (w := 4 * k + d) (g := want e m0 ib sc) (m0 := m0) hi.mem rfl (by omega) ?_]
  intro i h16
  rw [hx i h16, want, show (4 * k + d + i) / 4 = k + d / 4 + i / 4 by omega, show (4 * k + d + i) % 4 = i % 4 by omega]

/-- A product register. -/
def Has (e : Env) (m0 : BitVec 64 → BitVec 8) (ib : BitVec 64) (sc : BitVec 32) (k : Nat) (x : Vec) : Prop :=
  ∀ i < 16, x i = byte (elem e m0 ib sc (k + i / 4)) (i % 4)

theorem has_mul {k : Nat} {x y : Vec} (h0 : ∀ l < 4, d32 y l = sc) (hx : ∀ l < 4, d32 x l = cv e m0 ib (k + l)) :
    Has e m0 ib sc k (low 16 (of32 fun l => e.o.mul32 (d32 x l) (d32 y l)) x) := by
  intro i hi
  rw [low_lt hi]
  unfold of32
  beta_reduce
  rw [h0 _ (by omega), hx _ (by omega)]
  rfl

/-! ### Eight samples with SSE4.1 -/

theorem p1 (h : Io e ib ob (2 * n) (4 * n)) {k : Nat} (hk : k + 8 ≤ n) {s : St} (hi : Inv e m0 ib ob sc n f0 bp k (4 * k) s) :
    ∃ s', blk e b661 s = some s' ∧ Inv e m0 ib ob sc n f0 bp k (4 * k) s' ∧ s'.g.dx = s.g.dx ∧ (∀ l < 8, w16 (s'.x 1) l = smp m0 ib (k + l)) ∧
      ∀ l < 4, d32 (s'.x 2) l = cv e m0 ib (k + l) := by
  xs [hi.si, h.load hi.mem (by omega) rfl (show 2 * k + 16 ≤ 2 * n by omega)]
  refine ⟨_, rfl, ⟨hi.si, hi.di, hi.bx, hi.cx, ?_, hi.bp, hi.fp, hi.mem⟩, rfl, ?_, ?_⟩
  · intro l hl
    simpa using hi.x0 l hl
  · intro l hl
    have := w16_inp m0 ib k 16 l (by omega)
    simpa [w16_low (n := 16) _ _ l (show 2 * l + 1 < 16 by omega)] using this
  · intro l hl
    have := w16_inp m0 ib k 16 l (by omega)
    simp [d32_low_of32 _ _ l hl, w16_low (n := 16) _ _ l (show 2 * l + 1 < 16 by omega), this, toInt_sx16, cv]

theorem p2 {k w : Nat} {s : St} (hi : Inv e m0 ib ob sc n f0 bp k w s) (h1 : ∀ l < 8, w16 (s.x 1) l = smp m0 ib (k + l))
    (h2 : ∀ l < 4, d32 (s.x 2) l = cv e m0 ib (k + l)) :
    ∃ s', blk e b664 s = some s' ∧ Inv e m0 ib ob sc n f0 bp k w s' ∧ s'.g.dx = s.g.dx ∧
      (∀ l < 4, d32 (s'.x 2) l = cv e m0 ib (k + l)) ∧ ∀ l < 4, d32 (s'.x 1) l = cv e m0 ib (k + 4 + l) := by
  xs []
  refine ⟨_, rfl, ⟨hi.si, hi.di, hi.bx, hi.cx, ?_, hi.bp, hi.fp, hi.mem⟩, rfl, ?_, ?_⟩
  · intro l hl
    simpa using hi.x0 l hl
  · intro l hl
    simpa using h2 l hl
  · intro l hl
    simp [d32_low_of32 _ _ l hl, w16_hl _ _ _ l hl, h1 (l + 4) (by omega), toInt_sx16, cv, Nat.add_assoc, Nat.add_comm 4 l]

theorem p4 {k w : Nat} {s : St} (hi : Inv e m0 ib ob sc n f0 bp k w s)
    (h2 : ∀ l < 4, d32 (s.x 2) l = cv e m0 ib (k + l)) (h1 : ∀ l < 4, d32 (s.x 1) l = cv e m0 ib (k + 4 + l)) :
    ∃ s', blk e b667 s = some s' ∧ Inv e m0 ib ob sc n f0 bp k w s' ∧ s'.g.dx = s.g.dx ∧
      Has e m0 ib sc k (s'.x 2) ∧ Has e m0 ib sc (k + 4) (s'.x 1) := by
  xs []
  refine ⟨_, rfl, ⟨hi.si, hi.di, hi.bx, hi.cx, ?_, hi.bp, hi.fp, hi.mem⟩, rfl, ?_, ?_⟩
  · intro l hl
    simpa using hi.x0 l hl
  · simpa using has_mul hi.x0 h2
  · simpa using has_mul hi.x0 h1

theorem put_inv {k w w' : Nat} {s : St} (hi : Inv e m0 ib ob sc n f0 bp k w s) :
    Inv e m0 ib ob sc n f0 bp k w' { s with mem := fill m0 ob w' (want e m0 ib sc) } :=
  ⟨hi.si, hi.di, hi.bx, hi.cx, hi.x0, hi.bp, hi.fp, rfl⟩

theorem p5 (h : Io e ib ob (2 * n) (4 * n)) {k : Nat} (hk : k + 8 ≤ n) {s : St} (hi : Inv e m0 ib ob sc n f0 bp k (4 * k) s)
    (h2 : Has e m0 ib sc k (s.x 2)) (h1 : Has e m0 ib sc (k + 4) (s.x 1)) :
    ∃ s1 s2, blk e b669 s = some s1 ∧ blk e b670 s1 = some s2 ∧ Inv e m0 ib ob sc n f0 bp k (4 * (k + 8)) s2 ∧ s2.g.dx = s.g.dx := by
  refine ⟨{ s with mem := fill m0 ob (4 * k + 0 + 16) (want e m0 ib sc) }, { s with mem := fill m0 ob (4 * k + 16 + 16) (want e m0 ib sc) }, ?_, ?_, ?_, rfl⟩
  · xs [hi.di]
    rw [show 4 * k = 4 * k + 0 from rfl, put h (d := 0) (r := 2) (by omega) (by omega) hi h2]
    rfl
  · xs [hi.di, adv]
    rw [put h (d := 16) (r := 1) (by omega) (by omega) (put_inv hi) h1]
    rfl
  · rw [Nat.mul_add]
    exact put_inv hi

theorem p6 {k : Nat} {s : St} (hi : Inv e m0 ib ob sc n f0 bp k (4 * (k + 8)) s) :
    ∃ s', blk e b671 s = some s' ∧ Inv e m0 ib ob sc n f0 bp (k + 8) (4 * (k + 8)) s' ∧ s'.g.dx = s.g.dx := by
  xs [hi.si, hi.di, hi.bx, imm8, imm16, imm32', adv]
  refine ⟨_, rfl, ⟨?_, ?_, ?_, hi.cx, hi.x0, hi.bp, hi.fp, hi.mem⟩, rfl⟩
  · rw [Nat.mul_add]
  · rw [Nat.mul_add]
  · exact BitVec.ofNat_add_ofNat _ _

theorem p0 {k d w : Nat} {s : St} (hi : Inv e m0 ib ob sc n f0 bp k w s) (hd : s.g.dx = BitVec.ofNat 64 d) :
    ∃ s', blk e b658 s = some s' ∧ Inv e m0 ib ob sc n f0 bp k w s' ∧ s'.g.dx = BitVec.ofNat 64 d ∧ s'.fl = subFlags (BitVec.ofNat 64 k) (BitVec.ofNat 64 d) := by
  xs [hi.bx, hd]
  exact ⟨_, rfl, ⟨hi.si, hi.di, hi.bx, hi.cx, hi.x0, hi.bp, hi.fp, hi.mem⟩, hd, rfl⟩

theorem sse4 (h : Io e ib ob (2 * n) (4 * n)) {s : St} (hi : Inv e m0 ib ob sc n f0 bp 0 (4 * 0) s) (hd : s.g.dx = BitVec.ofNat 64 (n - n % 8)) :
    ∃ s', Inv e m0 ib ob sc n f0 bp (n - n % 8) (4 * (n - n % 8)) s' ∧ Reach e prog 658 s 700 s' := by
  have hn := h.nout_lt
  obtain ⟨s', ⟨h1, -⟩, h2⟩ := wloop (e := e) (p := prog) (a := 658) (b := 700)
    (fun k s => Inv e m0 ib ob sc n f0 bp k (4 * k) s ∧ s.g.dx = BitVec.ofNat 64 (n - n % 8)) (n - n % 8) 8 (by omega)
    (by
      rintro s ⟨hi, hd⟩
      obtain ⟨s1, g1, i1, d1, f1⟩ := p0 (e := e) hi hd
      have r1 : Reach e prog 658 s 660 s1 := reach_blk b658 h658 g1
      have r2 : Reach e prog 660 s1 700 s1 := reach_jump (c := .JGE) (l := .i16bleToF32_scalar_loop) (by decide +kernel)
        (by rw [f1, taken_jge_nat (by omega) (by omega), decide_eq_true (le_refl _)]) (by decide +kernel)
      exact ⟨s1, ⟨i1, d1⟩, r1.trans r2⟩)
    (by
      rintro k s hk ⟨hi, hd⟩
      obtain ⟨s1, g1, i1, d1, f1⟩ := p0 (e := e) hi hd
      have r1 : Reach e prog 658 s 660 s1 := reach_blk b658 h658 g1
      have r2 : Reach e prog 660 s1 661 s1 := reach_fall (c := .JGE) (l := .i16bleToF32_scalar_loop) (by decide +kernel)
        (by rw [f1, taken_jge_nat (by omega) (by omega), decide_eq_false (by omega)])
      obtain ⟨s2, g2, i2, d2, x2, y2⟩ := p1 h (by omega) i1
      obtain ⟨s3, g3, i3, d3, x3, y3⟩ := p2 i2 x2 y2
      obtain ⟨s4, g4, i4, d4, x4, y4⟩ := p4 i3 x3 y3
      obtain ⟨s5, s6, g5, g6, i6, d6⟩ := p5 h (by omega) i4 x4 y4
      obtain ⟨s7, g7, i7, d7⟩ := p6 (e := e) i6
      have r3 : Reach e prog 661 s1 664 s2 := reach_blk b661 h661 g2
      have r4 : Reach e prog 664 s2 667 s3 := reach_blk b664 h664 g3
      have r5 : Reach e prog 667 s3 669 s4 := reach_blk b667 h667 g4
      have r6 : Reach e prog 669 s4 670 s5 := reach_blk b669 h669 g5
      have r7 : Reach e prog 670 s5 671 s6 := reach_blk b670 h670 g6
      have r8 : Reach e prog 671 s6 674 s7 := reach_blk b671 h671 g7
      have r9 : Reach e prog 674 s7 658 s7 := reach_jump (l := .i16bleToF32_sse4_loop) (c := .JMP) (by decide +kernel) rfl (by decide +kernel)
      exact ⟨s7, ⟨i7, by rw [d7, d6, d4, d3, d2, d1]⟩,
        r1.trans (r2.trans (r3.trans (r4.trans (r5.trans (r6.trans (r7.trans (r8.trans r9)))))))⟩)
    0 s (by omega) (by omega) (by omega) ⟨hi, hd⟩
  exact ⟨s', h1, h2⟩

/-! ### Eight samples without SSE4.1 -/

theorem t1 (h : Io e ib ob (2 * n) (4 * n)) {k : Nat} (hk : k + 8 ≤ n) {s : St} (hi : Inv e m0 ib ob sc n f0 bp k (4 * k) s) :
    ∃ s', blk e b682 s = some s' ∧ Inv e m0 ib ob sc n f0 bp k (4 * k) s' ∧ s'.g.dx = s.g.dx ∧
      (∀ l < 8, w16 (s'.x 2) l = smp m0 ib (k + l)) ∧ ∀ l < 4, d32 (s'.x 1) l = cv e m0 ib (k + l) := by
  xs [hi.si, h.load hi.mem (by omega) rfl (show 2 * k + 16 ≤ 2 * n by omega)]
  refine ⟨_, rfl, ⟨hi.si, hi.di, hi.bx, hi.cx, ?_, hi.bp, hi.fp, hi.mem⟩, rfl, ?_, ?_⟩
  · intro l hl
    simpa using hi.x0 l hl
  · intro l hl
    have := w16_inp m0 ib k 16 l (by omega)
    simpa [w16_low (n := 16) _ _ l (show 2 * l + 1 < 16 by omega)] using this
  · intro l hl
    have := w16_inp m0 ib k 16 l (by omega)
    simp only [Function.update_self, d32_low_of32 _ _ l hl, Int.reduceToNat, unpack_sar _ _ l hl]
    rw [w16_low _ _ _ (by omega), w16_low _ _ _ (by omega), this, toInt_sx16, cv]

theorem t2 {k w : Nat} {s : St} (hi : Inv e m0 ib ob sc n f0 bp k w s) (h2 : ∀ l < 8, w16 (s.x 2) l = smp m0 ib (k + l))
    (h1 : ∀ l < 4, d32 (s.x 1) l = cv e m0 ib (k + l)) :
    ∃ s', blk e b687 s = some s' ∧ Inv e m0 ib ob sc n f0 bp k w s' ∧ s'.g.dx = s.g.dx ∧
      (∀ l < 4, d32 (s'.x 1) l = cv e m0 ib (k + l)) ∧ ∀ l < 4, d32 (s'.x 2) l = cv e m0 ib (k + 4 + l) := by
  xs []
  refine ⟨_, rfl, ⟨hi.si, hi.di, hi.bx, hi.cx, ?_, hi.bp, hi.fp, hi.mem⟩, rfl, ?_, ?_⟩
  · intro l hl
    simpa using hi.x0 l hl
  · intro l hl
    simpa using h1 l hl
  · intro l hl
    simp only [Function.update_self, d32_low_of32 _ _ l hl, Int.reduceToNat, unpack_sar _ _ l hl]
    rw [w16_hl _ _ _ l hl, h2 (l + 4) (by omega), toInt_sx16, cv, Nat.add_assoc k 4 l, Nat.add_comm 4 l]

theorem t3 {k w : Nat} {s : St} (hi : Inv e m0 ib ob sc n f0 bp k w s)
    (h1 : ∀ l < 4, d32 (s.x 1) l = cv e m0 ib (k + l)) (h2 : ∀ l < 4, d32 (s.x 2) l = cv e m0 ib (k + 4 + l)) :
    ∃ s', blk e b691 s = some s' ∧ Inv e m0 ib ob sc n f0 bp k w s' ∧ s'.g.dx = s.g.dx ∧
      Has e m0 ib sc k (s'.x 1) ∧ Has e m0 ib sc (k + 4) (s'.x 2) := by
  xs []
  refine ⟨_, rfl, ⟨hi.si, hi.di, hi.bx, hi.cx, ?_, hi.bp, hi.fp, hi.mem⟩, rfl, ?_, ?_⟩
  · intro l hl
    simpa using hi.x0 l hl
  · simpa using has_mul hi.x0 h1
  · simpa using has_mul hi.x0 h2

theorem t4 (h : Io e ib ob (2 * n) (4 * n)) {k : Nat} (hk : k + 8 ≤ n) {s : St} (hi : Inv e m0 ib ob sc n f0 bp k (4 * k) s)
    (h1 : Has e m0 ib sc k (s.x 1)) (h2 : Has e m0 ib sc (k + 4) (s.x 2)) :
    ∃ s1 s2, blk e b693 s = some s1 ∧ blk e b694 s1 = some s2 ∧ Inv e m0 ib ob sc n f0 bp k (4 * (k + 8)) s2 ∧ s2.g.dx = s.g.dx := by
  refine ⟨{ s with mem := fill m0 ob (4 * k + 0 + 16) (want e m0 ib sc) }, { s with mem := fill m0 ob (4 * k + 16 + 16) (want e m0 ib sc) }, ?_, ?_, ?_, rfl⟩
  · xs [hi.di]
    rw [show 4 * k = 4 * k + 0 from rfl, put h (d := 0) (r := 1) (by omega) (by omega) hi h1]
    rfl
  · xs [hi.di, adv]
    rw [put h (d := 16) (r := 2) (by omega) (by omega) (put_inv hi) h2]
    rfl
  · rw [Nat.mul_add]
    exact put_inv hi

theorem t5 {k : Nat} {s : St} (hi : Inv e m0 ib ob sc n f0 bp k (4 * (k + 8)) s) :
    ∃ s', blk e b695 s = some s' ∧ Inv e m0 ib ob sc n f0 bp (k + 8) (4 * (k + 8)) s' ∧ s'.g.dx = s.g.dx := by
  xs [hi.si, hi.di, hi.bx, imm8, imm16, imm32', adv]
  refine ⟨_, rfl, ⟨?_, ?_, ?_, hi.cx, hi.x0, hi.bp, hi.fp, hi.mem⟩, rfl⟩
  · rw [Nat.mul_add]
  · rw [Nat.mul_add]
  · exact BitVec.ofNat_add_ofNat _ _

theorem t0 {k d w : Nat} {s : St} (hi : Inv e m0 ib ob sc n f0 bp k w s) (hd : s.g.dx = BitVec.ofNat 64 d) :
    ∃ s', blk e b679 s = some s' ∧ Inv e m0 ib ob sc n f0 bp k w s' ∧ s'.g.dx = BitVec.ofNat 64 d ∧ s'.fl = subFlags (BitVec.ofNat 64 k) (BitVec.ofNat 64 d) := by
  xs [hi.bx, hd]
  exact ⟨_, rfl, ⟨hi.si, hi.di, hi.bx, hi.cx, hi.x0, hi.bp, hi.fp, hi.mem⟩, hd, rfl⟩

theorem sse2 (h : Io e ib ob (2 * n) (4 * n)) {s : St} (hi : Inv e m0 ib ob sc n f0 bp 0 (4 * 0) s) (hd : s.g.dx = BitVec.ofNat 64 (n - n % 8)) :
    ∃ s', Inv e m0 ib ob sc n f0 bp (n - n % 8) (4 * (n - n % 8)) s' ∧ Reach e prog 679 s 700 s' := by
  have hn := h.nout_lt
  obtain ⟨s', ⟨h1, -⟩, h2⟩ := wloop (e := e) (p := prog) (a := 679) (b := 700)
    (fun k s => Inv e m0 ib ob sc n f0 bp k (4 * k) s ∧ s.g.dx = BitVec.ofNat 64 (n - n % 8)) (n - n % 8) 8 (by omega)
    (by
      rintro s ⟨hi, hd⟩
      obtain ⟨s1, g1, i1, d1, f1⟩ := t0 (e := e) hi hd
      have r1 : Reach e prog 679 s 681 s1 := reach_blk b679 h679 g1
      have r2 : Reach e prog 681 s1 700 s1 := reach_jump (c := .JGE) (l := .i16bleToF32_scalar_loop) (by decide +kernel)
        (by rw [f1, taken_jge_nat (by omega) (by omega), decide_eq_true (le_refl _)]) (by decide +kernel)
      exact ⟨s1, ⟨i1, d1⟩, r1.trans r2⟩)
    (by
      rintro k s hk ⟨hi, hd⟩
      obtain ⟨s1, g1, i1, d1, f1⟩ := t0 (e := e) hi hd
      have r1 : Reach e prog 679 s 681 s1 := reach_blk b679 h679 g1
      have r2 : Reach e prog 681 s1 682 s1 := reach_fall (c := .JGE) (l := .i16bleToF32_scalar_loop) (by decide +kernel)
        (by rw [f1, taken_jge_nat (by omega) (by omega), decide_eq_false (by omega)])
      obtain ⟨s2, g2, i2, d2, x2, y2⟩ := t1 h (by omega) i1
      obtain ⟨s3, g3, i3, d3, x3, y3⟩ := t2 i2 x2 y2
      obtain ⟨s4, g4, i4, d4, x4, y4⟩ := t3 i3 x3 y3
      obtain ⟨s5, s6, g5, g6, i6, d6⟩ := t4 h (by omega) i4 x4 y4
      obtain ⟨s7, g7, i7, d7⟩ := t5 (e := e) i6
      have r3 : Reach e prog 682 s1 687 s2 := reach_blk b682 h682 g2
      have r4 : Reach e prog 687 s2 691 s3 := reach_blk b687 h687 g3
      have r5 : Reach e prog 691 s3 693 s4 := reach_blk b691 h691 g4
      have r6 : Reach e prog 693 s4 694 s5 := reach_blk b693 h693 g5
      have r7 : Reach e prog 694 s5 695 s6 := reach_blk b694 h694 g6
      have r8 : Reach e prog 695 s6 698 s7 := reach_blk b695 h695 g7
      have r9 : Reach e prog 698 s7 679 s7 := reach_jump (l := .i16bleToF32_sse2_loop) (c := .JMP) (by decide +kernel) rfl (by decide +kernel)
      exact ⟨s7, ⟨i7, by rw [d7, d6, d4, d3, d2, d1]⟩,
        r1.trans (r2.trans (r3.trans (r4.trans (r5.trans (r6.trans (r7.trans (r8.trans r9)))))))⟩)
    0 s (by omega) (by omega) (by omega) ⟨hi, hd⟩
  exact ⟨s', h1, h2⟩

/-! ### Single samples -/

theorem u1 (h : Io e ib ob (2 * n) (4 * n)) {k : Nat} (hk : k + 1 ≤ n) {s : St} (hi : Inv e m0 ib ob sc n f0 bp k (4 * k) s) :
    ∃ s', blk e b703 s = some s' ∧ Inv e m0 ib ob sc n f0 bp k (4 * (k + 1)) s' := by
  have a0 := w16_inp m0 ib k 2 0 (by omega)
  have b0 := hi.x0 0 (by omega)
  have e32 : ∀ v : BitVec 32, (v.setWidth 64).setWidth 32 = v := fun v => by rw [BitVec.setWidth_setWidth_of_le _ (by decide), BitVec.setWidth_eq]
  xs [hi.si, h.load hi.mem (by omega) rfl (show 2 * k + 2 ≤ 2 * n by omega), hi.di]
  simp only [Function.update_self, Function.update_of_ne (show (0 : Nat) ≠ 1 by decide), d32_bytes32, a0, b0, e32, toInt_sx16]
  rw [h.store (w := 4 * k) (g := want e m0 ib sc) (m0 := m0) ?_ rfl ?_ ?_]
  rotate_left
  · exact hi.mem
  · omega
  · intro i h4
    rw [low_lt (by omega), low_lt h4, bytes32, if_pos h4, want, show (4 * k + i) / 4 = k by omega, show (4 * k + i) % 4 = i by omega]
    rfl
  refine ⟨_, rfl, ⟨rfl, rfl, hi.bx, hi.cx, ?_, hi.bp, hi.fp, rfl⟩⟩
  intro l hl
  simpa using hi.x0 l hl

theorem u2 {k : Nat} {s : St} (hi : Inv e m0 ib ob sc n f0 bp k (4 * (k + 1)) s) :
    ∃ s', blk e b708 s = some s' ∧ Inv e m0 ib ob sc n f0 bp (k + 1) (4 * (k + 1)) s' := by
  xs [hi.si, hi.di, hi.bx, imm2, imm4, one64, adv]
  refine ⟨_, rfl, ⟨?_, ?_, ?_, hi.cx, hi.x0, hi.bp, hi.fp, hi.mem⟩⟩
  · rw [Nat.mul_add]
  · rw [Nat.mul_add]
  · exact BitVec.ofNat_add_ofNat _ _

theorem u0 {k w : Nat} {s : St} (hi : Inv e m0 ib ob sc n f0 bp k w s) :
    ∃ s', blk e b700 s = some s' ∧ Inv e m0 ib ob sc n f0 bp k w s' ∧ s'.fl = subFlags (BitVec.ofNat 64 k) (BitVec.ofNat 64 n) := by
  xs [hi.bx, hi.cx]
  exact ⟨_, rfl, ⟨hi.si, hi.di, hi.bx, hi.cx, hi.x0, hi.bp, hi.fp, hi.mem⟩, rfl⟩

/-- From the label `i16bleToF32_scalar_loop`. -/
theorem scalar (h : Io e ib ob (2 * n) (4 * n)) {k : Nat} (hk : k ≤ n) {s : St} (hi : Inv e m0 ib ob sc n f0 bp k (4 * k) s) :
    ∃ s', Inv e m0 ib ob sc n f0 bp n (4 * n) s' ∧ Returns e prog 700 s s' := by
  have hn := h.nout_lt
  obtain ⟨s', h1, h2⟩ := wloop (e := e) (p := prog) (a := 700) (b := 713)
    (fun k s => Inv e m0 ib ob sc n f0 bp k (4 * k) s) n 1 (by omega)
    (by
      intro s hi
      obtain ⟨s1, g1, i1, f1⟩ := u0 (e := e) hi
      have r1 : Reach e prog 700 s 702 s1 := reach_blk b700 h700 g1
      have r2 : Reach e prog 702 s1 713 s1 := reach_jump (c := .JGE) (l := .i16bleToF32_done) (by decide +kernel)
        (by rw [f1, taken_jge_nat (by omega) (by omega), decide_eq_true (le_refl _)]) (by decide +kernel)
      exact ⟨s1, i1, r1.trans r2⟩)
    (by
      intro k s hk hi
      obtain ⟨s1, g1, i1, f1⟩ := u0 (e := e) hi
      have r1 : Reach e prog 700 s 702 s1 := reach_blk b700 h700 g1
      have r2 : Reach e prog 702 s1 703 s1 := reach_fall (c := .JGE) (l := .i16bleToF32_done) (by decide +kernel)
        (by rw [f1, taken_jge_nat (by omega) (by omega), decide_eq_false (by omega)])
      obtain ⟨s2, g2, i2⟩ := u1 h hk i1
      obtain ⟨s3, g3, i3⟩ := u2 (e := e) i2
      have r3 : Reach e prog 703 s1 708 s2 := reach_blk b703 h703 g2
      have r4 : Reach e prog 708 s2 711 s3 := reach_blk b708 h708 g3
      have r5 : Reach e prog 711 s3 700 s3 := reach_jump (l := .i16bleToF32_scalar_loop) (c := .JMP) (by decide +kernel) rfl (by decide +kernel)
      exact ⟨s3, i3, r1.trans (r2.trans (r3.trans (r4.trans r5)))⟩)
    k s (by omega) (by omega) hk hi
  have r3 : Reach e prog 713 s' 714 s' := reach_blk b713 h713 rfl
  exact ⟨s', h1, (h2.trans r3).returns (returns_ret (by decide +kernel))⟩

/-! ### The routine -/

/-- The vector registers with the scale in every lane of `X0`. -/
def spread (s : St) (sc : BitVec 32) : Nat → Vec :=
  Function.update (Function.update s.x 0 (low 16 (bytes32 sc) (s.x 0))) 0
    (low 16 (fun i => low 16 (bytes32 sc) (s.x 0) (i % 4)) (low 16 (bytes32 sc) (s.x 0)))

theorem spread_x0 (s : St) (sc : BitVec 32) (l : Nat) (hl : l < 4) : d32 (spread s sc 0) l = sc := by
  refine d32_of_bytes sc _ l fun i hi => ?_
  unfold spread
  rw [Function.update_self, low_lt (by omega), low_lt (by omega), show (4 * l + i) % 4 = i by omega]
  unfold bytes32
  rw [if_pos hi]

/-- The registers at the jump in line 643; `CX` holds `c`. -/
def entry (s : St) (ib ob : BitVec 64) (sc : BitVec 32) (nin nout c : Nat) : St :=
  ⟨⟨BitVec.ofNat 64 nout, s.g.bx, BitVec.ofNat 64 c, s.g.dx, ib, ob, s.g.bp⟩, spread s sc, subFlags (BitVec.ofNat 64 (nin / 2)) (BitVec.ofNat 64 nout), s.mem, s.fp⟩

theorem args {nin nout : Nat} (hin : nin < 2 ^ 63) (hout : nout < 2 ^ 63) {s : St} (f1 : s.fp 0 = ib) (f2 : s.fp 8 = BitVec.ofNat 64 nin)
    (f3 : s.fp 24 = ob) (f4 : s.fp 32 = BitVec.ofNat 64 nout) (f5 : (s.fp 48).setWidth 32 = sc) :
    Reach e prog 633 s 646 (entry s ib ob sc nin nout (min (nin / 2) nout)) := by
  have b1 : blk e b633 s = some (entry s ib ob sc nin nout (nin / 2)) := by
    have z : ∀ i : Nat, 4 * (0 / 4 ^ (i / 4) % 4) + i % 4 = i % 4 := by intro i; simp
    xs [f1, f2, f3, f4, f5, entry, spread, Int.toNat_zero, z, Int.reduceToNat, sar_ofNat hin, Nat.pow_one, Function.update_self]
  have r1 : Reach e prog 633 s 643 _ := reach_blk b633 h633 b1
  have r2 := reach_branch (e := e) (p := prog) (pc := 643) .JLT .i16bleToF32_min_len (by decide +kernel) (t := 646) (by decide +kernel)
    (s := entry s ib ob sc nin nout (nin / 2)) (taken_jlt_nat (by omega) hout)
  simp only [decide_eq_true_eq] at r2
  by_cases c : nin / 2 < nout
  · rw [if_pos c] at r2
    rw [Nat.min_eq_left (by omega)]
    exact r1.trans r2
  · rw [if_neg c] at r2
    rw [Nat.min_eq_right (by omega)]
    have b2 : blk e b644 (entry s ib ob sc nin nout (nin / 2)) = some (entry s ib ob sc nin nout nout) := by
      xs [entry]
    have r3 : Reach e prog 644 _ 646 _ := reach_blk b644 h644 b2
    exact (r1.trans r2).trans r3

theorem mask8 (n : Nat) : BitVec.ofNat 64 n &&& imm32 (-8) = BitVec.ofNat 64 (n - n % 8) := and_mask 3 (by decide +kernel)

/-- The whole of `I16bleToF32`; `nin` is in bytes. -/
theorem routine {nin nout : Nat} (hin : nin < 2 ^ 63) (hout : nout < 2 ^ 63) (hn : n = min (nin / 2) nout) (h : Io e ib ob (2 * n) (4 * n))
    {s : St} (f1 : s.fp 0 = ib) (f2 : s.fp 8 = BitVec.ofNat 64 nin) (f3 : s.fp 24 = ob) (f4 : s.fp 32 = BitVec.ofNat 64 nout)
    (f5 : (s.fp 48).setWidth 32 = sc) :
    ∃ s', Returns e prog 633 s s' ∧ Inv e s.mem ib ob sc n s.fp s.g.bp n (4 * n) s' := by
  have r0 := args (e := e) hin hout f1 f2 f3 f4 f5
  rw [← hn] at r0
  have b1 : ∃ s', blk e b646 (entry s ib ob sc nin nout n) = some s' ∧ Inv e s.mem ib ob sc n s.fp s.g.bp 0 (4 * 0) s' ∧ s'.g.dx = BitVec.ofNat 64 n ∧
      s'.fl = ⟨some ((e.sym .useSSE4).signExtend 64 == (BitVec.ofInt 8 1).signExtend 64), none, none, none⟩ := by
    xs [entry]
    exact ⟨_, rfl, ⟨(adv0 _).symm, (adv0 _).symm, rfl, rfl, spread_x0 s sc, rfl, rfl, (fill_zero _ _ _).symm⟩, rfl, rfl⟩
  obtain ⟨s1, g1, i1, d1, e1⟩ := b1
  have r1 : Reach e prog 646 _ 654 s1 := reach_blk b646 h646 g1
  have r2 := reach_branch (e := e) (p := prog) (pc := 654) .JNE .i16bleToF32_nosse4 (by decide +kernel) (t := 676) (by decide +kernel)
    (s := s1) (by rw [e1]; rfl)
  simp only [Bool.not_eq_true'] at r2
  cases c : ((e.sym .useSSE4).signExtend 64 == (BitVec.ofInt 8 1).signExtend 64 : Bool)
  · rw [if_pos c] at r2
    have b3 : ∃ s', blk e ([.label .i16bleToF32_nosse4, .ins .ANDQ [.i (-8), .r .DX], .nop] : List (Line Lbl Reg Nat)) s1 = some s' ∧
        Inv e s.mem ib ob sc n s.fp s.g.bp 0 (4 * 0) s' ∧ s'.g.dx = BitVec.ofNat 64 (n - n % 8) := by
      xs [d1, mask8]
      exact ⟨_, rfl, ⟨i1.si, i1.di, i1.bx, i1.cx, i1.x0, i1.bp, i1.fp, i1.mem⟩, rfl⟩
    obtain ⟨s3, g3, i3, d3⟩ := b3
    have r3 : Reach e prog 676 s1 679 s3 := reach_blk _ (by decide +kernel) g3
    obtain ⟨s4, i4, r4⟩ := sse2 h i3 d3
    obtain ⟨s5, i5, r5⟩ := scalar h (by omega) i4
    exact ⟨s5, (r0.trans (r1.trans (r2.trans (r3.trans r4)))).returns r5, i5⟩
  · rw [if_neg (by rw [c]; decide)] at r2
    have b3 : ∃ s', blk e b655 s1 = some s' ∧
        Inv e s.mem ib ob sc n s.fp s.g.bp 0 (4 * 0) s' ∧ s'.g.dx = BitVec.ofNat 64 (n - n % 8) := by
      xs [d1, mask8]
      exact ⟨_, rfl, ⟨i1.si, i1.di, i1.bx, i1.cx, i1.x0, i1.bp, i1.fp, i1.mem⟩, rfl⟩
    obtain ⟨s3, g3, i3, d3⟩ := b3
    have r3 : Reach e prog 655 s1 658 s3 := reach_blk b655 h655 g3
    obtain ⟨s4, i4, r4⟩ := sse4 h i3 d3
    obtain ⟨s5, i5, r5⟩ := scalar h (by omega) i4
    exact ⟨s5, (r0.trans (r1.trans (r2.trans (r3.trans r4)))).returns r5, i5⟩

end Verif.X86.Conv.I32
