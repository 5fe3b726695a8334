import Verif.X86.X86Lanes
import Verif.X86.ConvModel

/-!
# The runs of `I16bleToF64` on amd64, instruction by instruction
-/

namespace Verif.X86.Conv.I64
open Verif.X86

/-! ### Basic blocks -/

/-- dsp/conversion_amd64.s:543-554. -/
abbrev b543 : List (Line Lbl Reg Nat) :=
  [.label .I16bleToF64,
    .ins .MOVQ [.fp 0, .r .SI],
    .ins .MOVQ [.fp 8, .r .CX],
    .ins .MOVQ [.fp 24, .r .DI],
    .ins .MOVQ [.fp 32, .r .AX], .nop, .nop,
    .ins .MOVQ [.fp 48, .x 0],
    .ins .MOVHPS [.x 0, .x 0], .nop,
    .ins .SARQ [.i 1, .r .CX],
    .ins .CMPQ [.r .CX, .r .AX]]

theorem h543 : (prog.drop 543).take b543.length = b543 := by decide +kernel

/-- dsp/conversion_amd64.s:556-557. -/
abbrev b556 : List (Line Lbl Reg Nat) :=
  [.ins .MOVQ [.r .AX, .r .CX], .nop]

theorem h556 : (prog.drop 556).take b556.length = b556 := by decide +kernel

/-- dsp/conversion_amd64.s:558-565. -/
abbrev b558 : List (Line Lbl Reg Nat) :=
  [.label .i16bleToF64_min_len, .nop, .nop,
    .ins .MOVQ [.i 0, .r .BX],
    .ins .MOVQ [.r .CX, .r .DX], .nop, .nop,
    .ins .CMPB [.sb .useSSE4, .i 1]]

theorem h558 : (prog.drop 558).take b558.length = b558 := by decide +kernel

/-- dsp/conversion_amd64.s:567-569. -/
abbrev b567 : List (Line Lbl Reg Nat) :=
  [.nop,
    .ins .ANDQ [.i (-8), .r .DX], .nop]

theorem h567 : (prog.drop 567).take b567.length = b567 := by decide +kernel

/-- dsp/conversion_amd64.s:570-571. -/
abbrev b570 : List (Line Lbl Reg Nat) :=
  [.label .i16bleToF64_sse4_loop,
    .ins .CMPQ [.r .BX, .r .DX]]

theorem h570 : (prog.drop 570).take b570.length = b570 := by decide +kernel

/-- dsp/conversion_amd64.s:573-574. -/
abbrev b573 : List (Line Lbl Reg Nat) :=
  [.ins .MOVOU [.m .SI 0, .x 1],
    .ins .PMOVSXWD [.x 1, .x 2]]

theorem h573 : (prog.drop 573).take b573.length = b573 := by decide +kernel

/-- dsp/conversion_amd64.s:575-577. -/
abbrev b575 : List (Line Lbl Reg Nat) :=
  [.ins .CVTPL2PD [.x 2, .x 3],
    .ins .MOVHLPS [.x 2, .x 2],
    .ins .CVTPL2PD [.x 2, .x 2]]

theorem h575 : (prog.drop 575).take b575.length = b575 := by decide +kernel

/-- dsp/conversion_amd64.s:578-582. -/
abbrev b578 : List (Line Lbl Reg Nat) :=
  [.ins .MOVHLPS [.x 1, .x 1],
    .ins .PMOVSXWD [.x 1, .x 4],
    .ins .CVTPL2PD [.x 4, .x 5],
    .ins .MOVHLPS [.x 4, .x 4],
    .ins .CVTPL2PD [.x 4, .x 4]]

theorem h578 : (prog.drop 578).take b578.length = b578 := by decide +kernel

/-- dsp/conversion_amd64.s:583-586. -/
abbrev b583 : List (Line Lbl Reg Nat) :=
  [.ins .MULPD [.x 0, .x 3],
    .ins .MULPD [.x 0, .x 2],
    .ins .MULPD [.x 0, .x 4],
    .ins .MULPD [.x 0, .x 5]]

theorem h583 : (prog.drop 583).take b583.length = b583 := by decide +kernel

/-- dsp/conversion_amd64.s:587-587. -/
abbrev b587 : List (Line Lbl Reg Nat) :=
  [.ins .MOVUPD [.x 3, .m .DI 0]]

theorem h587 : (prog.drop 587).take b587.length = b587 := by decide +kernel

/-- dsp/conversion_amd64.s:588-588. -/
abbrev b588 : List (Line Lbl Reg Nat) :=
  [.ins .MOVUPD [.x 2, .m .DI 16]]

theorem h588 : (prog.drop 588).take b588.length = b588 := by decide +kernel

/-- dsp/conversion_amd64.s:589-589. -/
abbrev b589 : List (Line Lbl Reg Nat) :=
  [.ins .MOVUPD [.x 5, .m .DI 32]]

theorem h589 : (prog.drop 589).take b589.length = b589 := by decide +kernel

/-- dsp/conversion_amd64.s:590-590. -/
abbrev b590 : List (Line Lbl Reg Nat) :=
  [.ins .MOVUPD [.x 4, .m .DI 48]]

theorem h590 : (prog.drop 590).take b590.length = b590 := by decide +kernel

/-- dsp/conversion_amd64.s:591-593. -/
abbrev b591 : List (Line Lbl Reg Nat) :=
  [.ins .ADDQ [.i 16, .r .SI],
    .ins .ADDQ [.i 64, .r .DI],
    .ins .ADDQ [.i 8, .r .BX]]

theorem h591 : (prog.drop 591).take b591.length = b591 := by decide +kernel

/-- dsp/conversion_amd64.s:595-598. -/
abbrev b595 : List (Line Lbl Reg Nat) :=
  [.nop, .label .i16bleToF64_nosse4,
    .ins .ANDQ [.i (-4), .r .DX], .nop]

theorem h595 : (prog.drop 595).take b595.length = b595 := by decide +kernel

/-- dsp/conversion_amd64.s:599-600. -/
abbrev b599 : List (Line Lbl Reg Nat) :=
  [.label .i16bleToF64_sse2_loop,
    .ins .CMPQ [.r .BX, .r .DX]]

theorem h599 : (prog.drop 599).take b599.length = b599 := by decide +kernel

/-- dsp/conversion_amd64.s:602-604. -/
abbrev b602 : List (Line Lbl Reg Nat) :=
  [.ins .MOVQ [.m .SI 0, .x 1],
    .ins .PUNPCKLWL [.x 1, .x 1],
    .ins .PSRAL [.i 16, .x 1]]

theorem h602 : (prog.drop 602).take b602.length = b602 := by decide +kernel

/-- dsp/conversion_amd64.s:605-607. -/
abbrev b605 : List (Line Lbl Reg Nat) :=
  [.ins .CVTPL2PD [.x 1, .x 3],
    .ins .MOVHLPS [.x 1, .x 1],
    .ins .CVTPL2PD [.x 1, .x 1]]

theorem h605 : (prog.drop 605).take b605.length = b605 := by decide +kernel

/-- dsp/conversion_amd64.s:608-609. -/
abbrev b608 : List (Line Lbl Reg Nat) :=
  [.ins .MULPD [.x 0, .x 3],
    .ins .MULPD [.x 0, .x 1]]

theorem h608 : (prog.drop 608).take b608.length = b608 := by decide +kernel

/-- dsp/conversion_amd64.s:610-610. -/
abbrev b610 : List (Line Lbl Reg Nat) :=
  [.ins .MOVUPD [.x 3, .m .DI 0]]

theorem h610 : (prog.drop 610).take b610.length = b610 := by decide +kernel

/-- dsp/conversion_amd64.s:611-611. -/
abbrev b611 : List (Line Lbl Reg Nat) :=
  [.ins .MOVUPD [.x 1, .m .DI 16]]

theorem h611 : (prog.drop 611).take b611.length = b611 := by decide +kernel

/-- dsp/conversion_amd64.s:612-614. -/
abbrev b612 : List (Line Lbl Reg Nat) :=
  [.ins .ADDQ [.i 8, .r .SI],
    .ins .ADDQ [.i 32, .r .DI],
    .ins .ADDQ [.i 4, .r .BX]]

theorem h612 : (prog.drop 612).take b612.length = b612 := by decide +kernel

/-- dsp/conversion_amd64.s:616-616. -/
abbrev b616 : List (Line Lbl Reg Nat) :=
  [.nop]

theorem h616 : (prog.drop 616).take b616.length = b616 := by decide +kernel

/-- dsp/conversion_amd64.s:617-618. -/
abbrev b617 : List (Line Lbl Reg Nat) :=
  [.label .i16bleToF64_scalar_loop,
    .ins .CMPQ [.r .BX, .r .CX]]

theorem h617 : (prog.drop 617).take b617.length = b617 := by decide +kernel

/-- dsp/conversion_amd64.s:620-624. -/
abbrev b620 : List (Line Lbl Reg Nat) :=
  [.ins .MOVWLSX [.m .SI 0, .r .DX],
    .ins .XORPS [.x 1, .x 1],
    .ins .CVTSL2SD [.r .DX, .x 1],
    .ins .MULSD [.x 0, .x 1],
    .ins .MOVSD [.x 1, .m .DI 0]]

theorem h620 : (prog.drop 620).take b620.length = b620 := by decide +kernel

/-- dsp/conversion_amd64.s:625-627. -/
abbrev b625 : List (Line Lbl Reg Nat) :=
  [.ins .ADDQ [.i 2, .r .SI],
    .ins .ADDQ [.i 8, .r .DI],
    .ins .INCQ [.r .BX]]

theorem h625 : (prog.drop 625).take b625.length = b625 := by decide +kernel

/-- dsp/conversion_amd64.s:630-630. -/
abbrev b630 : List (Line Lbl Reg Nat) :=
  [.label .i16bleToF64_done]

theorem h630 : (prog.drop 630).take b630.length = b630 := by decide +kernel



/-! ### Invariant -/

/-- Sample `i` of the input. -/
def smp (m0 : BitVec 64 → BitVec 8) (ib : BitVec 64) (i : Nat) : BitVec 16 :=
  m0 (ib + BitVec.ofNat 64 (2 * i + 1)) ++ m0 (ib + BitVec.ofNat 64 (2 * i))

theorem w16_inp (m0 : BitVec 64 → BitVec 8) (ib : BitVec 64) (k len l : Nat) (h : 2 * l + 2 ≤ len) :
    w16 (inp m0 ib (2 * k) len) l = smp m0 ib (k + l) := by
  unfold w16 inp smp
  rw [if_pos (by omega), if_pos (by omega), show 2 * k + (2 * l + 1) = 2 * (k + l) + 1 by omega, show 2 * k + 2 * l = 2 * (k + l) by omega]

/-- Sample `i` as a float64. -/
def cv (e : Env) (m0 : BitVec 64 → BitVec 8) (ib : BitVec 64) (i : Nat) : BitVec 64 := e.o.cvt64 (smp m0 ib i).toInt

/-- The float64 for sample `i`. -/
def elem (e : Env) (m0 : BitVec 64 → BitVec 8) (ib : BitVec 64) (sc : BitVec 64) (i : Nat) : BitVec 64 := e.o.mul64 (cv e m0 ib i) sc

/-- The output bytes. -/
def want (e : Env) (m0 : BitVec 64 → BitVec 8) (ib : BitVec 64) (sc : BitVec 64) (j : Nat) : BitVec 8 := byte (elem e m0 ib sc (j / 8)) (j % 8)

/-- After `k` samples with `w` bytes written. -/
structure Inv (e : Env) (m0 : BitVec 64 → BitVec 8) (ib ob : BitVec 64) (sc : BitVec 64) (n : Nat) (f0 : Nat → BitVec 64) (bp : BitVec 64) (k w : Nat)
    (s : St) : Prop where
  si : s.g.si = ib + BitVec.ofNat 64 (2 * k)
  di : s.g.di = ob + BitVec.ofNat 64 (8 * k)
  bx : s.g.bx = BitVec.ofNat 64 k
  cx : s.g.cx = BitVec.ofNat 64 n
  x0 : ∀ l < 2, q64 (s.x 0) l = sc
  bp : s.g.bp = bp
  fp : s.fp = f0
  mem : s.mem = fill m0 ob w (want e m0 ib sc)

variable {e : Env} {m0 : BitVec 64 → BitVec 8} {ib ob : BitVec 64} {sc : BitVec 64} {n : Nat} {f0 : Nat → BitVec 64} {bp : BitVec 64}

theorem one64 : (1 : BitVec 64) = BitVec.ofNat 64 1 := rfl

theorem imm2 : imm32 2 = BitVec.ofNat 64 2 := rfl

theorem imm4 : imm32 4 = BitVec.ofNat 64 4 := rfl

theorem imm8 : imm32 8 = BitVec.ofNat 64 8 := rfl

theorem imm16 : imm32 16 = BitVec.ofNat 64 16 := rfl

theorem imm32' : imm32 32 = BitVec.ofNat 64 32 := rfl

theorem imm64 : imm32 64 = BitVec.ofNat 64 64 := rfl

/-- Storing two products. -/
theorem put (h : Io e ib ob (2 * n) (8 * n)) {k d : Nat} {s : St} (hd : d % 16 = 0) (hk : k + d / 8 + 2 ≤ n)
    (hi : Inv e m0 ib ob sc n f0 bp k (8 * k + d) s) {r : Nat}
    (hx : ∀ i < 16, s.x r i = byte (elem e m0 ib sc (k + d / 8 + i / 8)) (i % 8)) :
    e.store s (ob + BitVec.ofNat 64 (8 * k + d)) 16 (s.x r) = some { s with mem := fill m0 ob (8 * k + d + 16) (want e m0 ib sc) } := by
  rw [h.store (w := 8 * k + d) (g := want e m0 ib sc) (m0 := m0) hi.mem rfl (by omega) ?_]
  intro i h16
  rw [hx i h16, want, show (8 * k + d + i) / 8 = k + d / 8 + i / 8 by omega, show (8 * k + d + i) % 8 = i % 8 by omega]

/-- A product register. -/
def Has (e : Env) (m0 : BitVec 64 → BitVec 8) (ib : BitVec 64) (sc : BitVec 64) (k : Nat) (x : Vec) : Prop :=
  ∀ i < 16, x i = byte (elem e m0 ib sc (k + i / 8)) (i % 8)

theorem has_mul {k : Nat} {x y : Vec} (h0 : ∀ l < 2, q64 y l = sc) (hx : ∀ l < 2, q64 x l = cv e m0 ib (k + l)) :
    Has e m0 ib sc k (low 16 (of64 fun l => e.o.mul64 (q64 x l) (q64 y l)) x) := by
  intro i hi
  rw [low_lt hi]
  unfold of64
  beta_reduce
  rw [h0 _ (by omega), hx _ (by omega)]
  rfl

/-! ### Eight samples with SSE4.1 -/

theorem p1 (h : Io e ib ob (2 * n) (8 * n)) {k : Nat} (hk : k + 8 ≤ n) {s : St} (hi : Inv e m0 ib ob sc n f0 bp k (8 * k) s) :
    ∃ s', blk e b573 s = some s' ∧ Inv e m0 ib ob sc n f0 bp k (8 * k) s' ∧ s'.g.dx = s.g.dx ∧ (∀ l < 8, w16 (s'.x 1) l = smp m0 ib (k + l)) ∧
      ∀ l < 4, (d32 (s'.x 2) l).toInt = (smp m0 ib (k + l)).toInt := by
  xs [hi.si, h.load hi.mem (by omega) rfl (show 2 * k + 16 ≤ 2 * n by omega)]
  refine ⟨_, rfl, ⟨hi.si, hi.di, hi.bx, hi.cx, ?_, hi.bp, hi.fp, hi.mem⟩, rfl, ?_, ?_⟩
  · intro l hl
    simpa using hi.x0 l hl
  · intro l hl
    have := w16_inp m0 ib k 16 l (by omega)
    simpa [w16_low (n := 16) _ _ l (show 2 * l + 1 < 16 by omega)] using this
  · intro l hl
    have := w16_inp m0 ib k 16 l (by omega)
    simp [d32_low_of32 _ _ l hl, w16_low (n := 16) _ _ l (show 2 * l + 1 < 16 by omega), this, toInt_sx16]

theorem p2 {k w : Nat} {s : St} (hi : Inv e m0 ib ob sc n f0 bp k w s) (h1 : ∀ l < 8, w16 (s.x 1) l = smp m0 ib (k + l))
    (h2 : ∀ l < 4, (d32 (s.x 2) l).toInt = (smp m0 ib (k + l)).toInt) :
    ∃ s', blk e b575 s = some s' ∧ Inv e m0 ib ob sc n f0 bp k w s' ∧ s'.g.dx = s.g.dx ∧ (∀ l < 8, w16 (s'.x 1) l = smp m0 ib (k + l)) ∧
      (∀ l < 2, q64 (s'.x 3) l = cv e m0 ib (k + l)) ∧ ∀ l < 2, q64 (s'.x 2) l = cv e m0 ib (k + 2 + l) := by
  xs []
  refine ⟨_, rfl, ⟨hi.si, hi.di, hi.bx, hi.cx, ?_, hi.bp, hi.fp, hi.mem⟩, rfl, ?_, ?_, ?_⟩
  · intro l hl
    simpa using hi.x0 l hl
  · intro l hl
    simpa using h1 l hl
  · intro l hl
    simp [q64_of64 _ _ l hl, h2 l (by omega), cv]
  · intro l hl
    simp [q64_of64 _ _ l hl, d32_hl _ _ _ l hl, h2 (l + 2) (by omega), cv, Nat.add_assoc, Nat.add_comm 2 l]

theorem p3 {k w : Nat} {s : St} (hi : Inv e m0 ib ob sc n f0 bp k w s) (h1 : ∀ l < 8, w16 (s.x 1) l = smp m0 ib (k + l))
    (h3 : ∀ l < 2, q64 (s.x 3) l = cv e m0 ib (k + l)) (h2 : ∀ l < 2, q64 (s.x 2) l = cv e m0 ib (k + 2 + l)) :
    ∃ s', blk e b578 s = some s' ∧ Inv e m0 ib ob sc n f0 bp k w s' ∧ s'.g.dx = s.g.dx ∧
      (∀ l < 2, q64 (s'.x 3) l = cv e m0 ib (k + l)) ∧ (∀ l < 2, q64 (s'.x 2) l = cv e m0 ib (k + 2 + l)) ∧
      (∀ l < 2, q64 (s'.x 5) l = cv e m0 ib (k + 4 + l)) ∧ ∀ l < 2, q64 (s'.x 4) l = cv e m0 ib (k + 6 + l) := by
  xs []
  refine ⟨_, rfl, ⟨hi.si, hi.di, hi.bx, hi.cx, ?_, hi.bp, hi.fp, hi.mem⟩, rfl, ?_, ?_, ?_, ?_⟩
  · intro l hl
    simpa using hi.x0 l hl
  · intro l hl
    simpa using h3 l hl
  · intro l hl
    simpa using h2 l hl
  · intro l hl
    simp [q64_of64 _ _ l hl, d32_low_of32 _ _ l (show l < 4 by omega), w16_hl _ _ _ l (show l < 4 by omega), h1 (l + 4) (by omega), toInt_sx16, cv,
      Nat.add_assoc, Nat.add_comm 4 l]
  · intro l hl
    simp [q64_of64 _ _ l hl, d32_hl _ _ _ l hl, d32_low_of32 _ _ (l + 2) (show l + 2 < 4 by omega), w16_hl _ _ _ (l + 2) (show l + 2 < 4 by omega),
      h1 (l + 2 + 4) (by omega), toInt_sx16, cv, Nat.add_assoc, Nat.add_comm 6 l]

theorem p4 {k w : Nat} {s : St} (hi : Inv e m0 ib ob sc n f0 bp k w s)
    (h3 : ∀ l < 2, q64 (s.x 3) l = cv e m0 ib (k + l)) (h2 : ∀ l < 2, q64 (s.x 2) l = cv e m0 ib (k + 2 + l))
    (h5 : ∀ l < 2, q64 (s.x 5) l = cv e m0 ib (k + 4 + l)) (h4 : ∀ l < 2, q64 (s.x 4) l = cv e m0 ib (k + 6 + l)) :
    ∃ s', blk e b583 s = some s' ∧ Inv e m0 ib ob sc n f0 bp k w s' ∧ s'.g.dx = s.g.dx ∧
      Has e m0 ib sc k (s'.x 3) ∧ Has e m0 ib sc (k + 2) (s'.x 2) ∧ Has e m0 ib sc (k + 4) (s'.x 5) ∧ Has e m0 ib sc (k + 6) (s'.x 4) := by
  xs []
  refine ⟨_, rfl, ⟨hi.si, hi.di, hi.bx, hi.cx, ?_, hi.bp, hi.fp, hi.mem⟩, rfl, ?_, ?_, ?_, ?_⟩
  · intro l hl
    simpa using hi.x0 l hl
  · simpa using has_mul hi.x0 h3
  · simpa using has_mul hi.x0 h2
  · simpa using has_mul hi.x0 h5
  · simpa using has_mul hi.x0 h4

theorem put_inv {k w w' : Nat} {s : St} (hi : Inv e m0 ib ob sc n f0 bp k w s) :
    Inv e m0 ib ob sc n f0 bp k w' { s with mem := fill m0 ob w' (want e m0 ib sc) } :=
  ⟨hi.si, hi.di, hi.bx, hi.cx, hi.x0, hi.bp, hi.fp, rfl⟩

theorem p5 (h : Io e ib ob (2 * n) (8 * n)) {k : Nat} (hk : k + 8 ≤ n) {s : St} (hi : Inv e m0 ib ob sc n f0 bp k (8 * k) s)
    (h3 : Has e m0 ib sc k (s.x 3)) (h2 : Has e m0 ib sc (k + 2) (s.x 2)) (h5 : Has e m0 ib sc (k + 4) (s.x 5)) (h4 : Has e m0 ib sc (k + 6) (s.x 4)) :
    ∃ s1 s2 s3 s4, blk e b587 s = some s1 ∧ blk e b588 s1 = some s2 ∧ blk e b589 s2 = some s3 ∧ blk e b590 s3 = some s4 ∧
      Inv e m0 ib ob sc n f0 bp k (8 * (k + 8)) s4 ∧ s4.g.dx = s.g.dx := by
  refine ⟨{ s with mem := fill m0 ob (8 * k + 0 + 16) (want e m0 ib sc) }, { s with mem := fill m0 ob (8 * k + 16 + 16) (want e m0 ib sc) },
    { s with mem := fill m0 ob (8 * k + 32 + 16) (want e m0 ib sc) }, { s with mem := fill m0 ob (8 * k + 48 + 16) (want e m0 ib sc) }, ?_, ?_, ?_, ?_, ?_, rfl⟩
  · xs [hi.di]
    rw [show 8 * k = 8 * k + 0 from rfl, put h (d := 0) (r := 3) (by omega) (by omega) hi h3]
    rfl
  · xs [hi.di, adv]
    rw [put h (d := 16) (r := 2) (by omega) (by omega) (put_inv hi) h2]
    rfl
  · xs [hi.di, adv]
    rw [put h (d := 32) (r := 5) (by omega) (by omega) (put_inv hi) h5]
    rfl
  · xs [hi.di, adv]
    rw [put h (d := 48) (r := 4) (by omega) (by omega) (put_inv hi) h4]
    rfl
  · rw [Nat.mul_add]
    exact put_inv hi

theorem p6 {k : Nat} {s : St} (hi : Inv e m0 ib ob sc n f0 bp k (8 * (k + 8)) s) :
    ∃ s', blk e b591 s = some s' ∧ Inv e m0 ib ob sc n f0 bp (k + 8) (8 * (k + 8)) s' ∧ s'.g.dx = s.g.dx := by
  xs [hi.si, hi.di, hi.bx, imm8, imm16, imm64, adv]
  refine ⟨_, rfl, ⟨?_, ?_, ?_, hi.cx, hi.x0, hi.bp, hi.fp, hi.mem⟩, rfl⟩
  · rw [Nat.mul_add]
  · rw [Nat.mul_add]
  · exact BitVec.ofNat_add_ofNat _ _

theorem p0 {k d w : Nat} {s : St} (hi : Inv e m0 ib ob sc n f0 bp k w s) (hd : s.g.dx = BitVec.ofNat 64 d) :
    ∃ s', blk e b570 s = some s' ∧ Inv e m0 ib ob sc n f0 bp k w s' ∧ s'.g.dx = BitVec.ofNat 64 d ∧ s'.fl = subFlags (BitVec.ofNat 64 k) (BitVec.ofNat 64 d) := by
  xs [hi.bx, hd]
  exact ⟨_, rfl, ⟨hi.si, hi.di, hi.bx, hi.cx, hi.x0, hi.bp, hi.fp, hi.mem⟩, hd, rfl⟩

theorem sse4 (h : Io e ib ob (2 * n) (8 * n)) {s : St} (hi : Inv e m0 ib ob sc n f0 bp 0 (8 * 0) s) (hd : s.g.dx = BitVec.ofNat 64 (n - n % 8)) :
    ∃ s', Inv e m0 ib ob sc n f0 bp (n - n % 8) (8 * (n - n % 8)) s' ∧ Reach e prog 570 s 617 s' := by
  have hn := h.nout_lt
  obtain ⟨s', ⟨h1, -⟩, h2⟩ := wloop (e := e) (p := prog) (a := 570) (b := 617)
    (fun k s => Inv e m0 ib ob sc n f0 bp k (8 * k) s ∧ s.g.dx = BitVec.ofNat 64 (n - n % 8)) (n - n % 8) 8 (by omega)
    (by
      rintro s ⟨hi, hd⟩
      obtain ⟨s1, g1, i1, d1, f1⟩ := p0 (e := e) hi hd
      have r1 : Reach e prog 570 s 572 s1 := reach_blk b570 h570 g1
      have r2 : Reach e prog 572 s1 617 s1 := reach_jump (c := .JGE) (l := .i16bleToF64_scalar_loop) (by decide +kernel)
        (by rw [f1, taken_jge_nat (by omega) (by omega), decide_eq_true (le_refl _)]) (by decide +kernel)
      exact ⟨s1, ⟨i1, d1⟩, r1.trans r2⟩)
    (by
      rintro k s hk ⟨hi, hd⟩
      obtain ⟨s1, g1, i1, d1, f1⟩ := p0 (e := e) hi hd
      have r1 : Reach e prog 570 s 572 s1 := reach_blk b570 h570 g1
      have r2 : Reach e prog 572 s1 573 s1 := reach_fall (c := .JGE) (l := .i16bleToF64_scalar_loop) (by decide +kernel)
        (by rw [f1, taken_jge_nat (by omega) (by omega), decide_eq_false (by omega)])
      obtain ⟨s2, g2, i2, d2, x2, y2⟩ := p1 h (by omega) i1
      obtain ⟨s3, g3, i3, d3, x3, y3, z3⟩ := p2 i2 x2 y2
      obtain ⟨s4, g4, i4, d4, x4, y4, z4, w4⟩ := p3 i3 x3 y3 z3
      obtain ⟨s5, g5, i5, d5, x5, y5, z5, w5⟩ := p4 i4 x4 y4 z4 w4
      obtain ⟨s6, s7, s8, s9, g6, g7, g8, g9, i9, d9⟩ := p5 h (by omega) i5 x5 y5 z5 w5
      obtain ⟨s10, g10, i10, d10⟩ := p6 (e := e) i9
      have r3 : Reach e prog 573 s1 575 s2 := reach_blk b573 h573 g2
      have r4 : Reach e prog 575 s2 578 s3 := reach_blk b575 h575 g3
      have r5 : Reach e prog 578 s3 583 s4 := reach_blk b578 h578 g4
      have r6 : Reach e prog 583 s4 587 s5 := reach_blk b583 h583 g5
      have r7 : Reach e prog 587 s5 588 s6 := reach_blk b587 h587 g6
      have r8 : Reach e prog 588 s6 589 s7 := reach_blk b588 h588 g7
      have r9 : Reach e prog 589 s7 590 s8 := reach_blk b589 h589 g8
      have r10 : Reach e prog 590 s8 591 s9 := reach_blk b590 h590 g9
      have r11 : Reach e prog 591 s9 594 s10 := reach_blk b591 h591 g10
      have r12 : Reach e prog 594 s10 570 s10 := reach_jump (l := .i16bleToF64_sse4_loop) (c := .JMP) (by decide +kernel) rfl (by decide +kernel)
      exact ⟨s10, ⟨i10, by rw [d10, d9, d5, d4, d3, d2, d1]⟩,
        r1.trans (r2.trans (r3.trans (r4.trans (r5.trans (r6.trans (r7.trans (r8.trans (r9.trans (r10.trans (r11.trans r12))))))))))⟩)
    0 s (by omega) (by omega) (by omega) ⟨hi, hd⟩
  exact ⟨s', h1, h2⟩

/-! ### Four samples without SSE4.1 -/

theorem t1 (h : Io e ib ob (2 * n) (8 * n)) {k : Nat} (hk : k + 4 ≤ n) {s : St} (hi : Inv e m0 ib ob sc n f0 bp k (8 * k) s) :
    ∃ s', blk e b602 s = some s' ∧ Inv e m0 ib ob sc n f0 bp k (8 * k) s' ∧ s'.g.dx = s.g.dx ∧
      ∀ l < 4, (d32 (s'.x 1) l).toInt = (smp m0 ib (k + l)).toInt := by
  xs [hi.si, h.load hi.mem (by omega) rfl (show 2 * k + 8 ≤ 2 * n by omega)]
  refine ⟨_, rfl, ⟨hi.si, hi.di, hi.bx, hi.cx, ?_, hi.bp, hi.fp, hi.mem⟩, rfl, ?_⟩
  · intro l hl
    simpa using hi.x0 l hl
  · intro l hl
    have := w16_inp m0 ib k 8 l (by omega)
    simp only [Function.update_self, d32_low_of32 _ _ l hl, Int.reduceToNat, unpack_sar _ _ l hl]
    rw [w16_low _ _ _ (by omega), this, toInt_sx16]

theorem t2 {k w : Nat} {s : St} (hi : Inv e m0 ib ob sc n f0 bp k w s) (h1 : ∀ l < 4, (d32 (s.x 1) l).toInt = (smp m0 ib (k + l)).toInt) :
    ∃ s', blk e b605 s = some s' ∧ Inv e m0 ib ob sc n f0 bp k w s' ∧ s'.g.dx = s.g.dx ∧
      (∀ l < 2, q64 (s'.x 3) l = cv e m0 ib (k + l)) ∧ ∀ l < 2, q64 (s'.x 1) l = cv e m0 ib (k + 2 + l) := by
  xs []
  refine ⟨_, rfl, ⟨hi.si, hi.di, hi.bx, hi.cx, ?_, hi.bp, hi.fp, hi.mem⟩, rfl, ?_, ?_⟩
  · intro l hl
    simpa using hi.x0 l hl
  · intro l hl
    simp [q64_of64 _ _ l hl, h1 l (by omega), cv]
  · intro l hl
    simp [q64_of64 _ _ l hl, d32_hl _ _ _ l hl, h1 (l + 2) (by omega), cv, Nat.add_assoc, Nat.add_comm 2 l]

theorem t3 {k w : Nat} {s : St} (hi : Inv e m0 ib ob sc n f0 bp k w s)
    (h3 : ∀ l < 2, q64 (s.x 3) l = cv e m0 ib (k + l)) (h1 : ∀ l < 2, q64 (s.x 1) l = cv e m0 ib (k + 2 + l)) :
    ∃ s', blk e b608 s = some s' ∧ Inv e m0 ib ob sc n f0 bp k w s' ∧ s'.g.dx = s.g.dx ∧
      Has e m0 ib sc k (s'.x 3) ∧ Has e m0 ib sc (k + 2) (s'.x 1) := by
  xs []
  refine ⟨_, rfl, ⟨hi.si, hi.di, hi.bx, hi.cx, ?_, hi.bp, hi.fp, hi.mem⟩, rfl, ?_, ?_⟩
  · intro l hl
    simpa using hi.x0 l hl
  · simpa using has_mul hi.x0 h3
  · simpa using has_mul hi.x0 h1

theorem t4 (h : Io e ib ob (2 * n) (8 * n)) {k : Nat} (hk : k + 4 ≤ n) {s : St} (hi : Inv e m0 ib ob sc n f0 bp k (8 * k) s)
    (h3 : Has e m0 ib sc k (s.x 3)) (h1 : Has e m0 ib sc (k + 2) (s.x 1)) :
    ∃ s1 s2, blk e b610 s = some s1 ∧ blk e b611 s1 = some s2 ∧ Inv e m0 ib ob sc n f0 bp k (8 * (k + 4)) s2 ∧ s2.g.dx = s.g.dx := by
  refine ⟨{ s with mem := fill m0 ob (8 * k + 0 + 16) (want e m0 ib sc) }, { s with mem := fill m0 ob (8 * k + 16 + 16) (want e m0 ib sc) }, ?_, ?_, ?_, rfl⟩
  · xs [hi.di]
    rw [show 8 * k = 8 * k + 0 from rfl, put h (d := 0) (r := 3) (by omega) (by omega) hi h3]
    rfl
  · xs [hi.di, adv]
    rw [put h (d := 16) (r := 1) (by omega) (by omega) (put_inv hi) h1]
    rfl
  · rw [Nat.mul_add]
    exact put_inv hi

theorem t5 {k : Nat} {s : St} (hi : Inv e m0 ib ob sc n f0 bp k (8 * (k + 4)) s) :
    ∃ s', blk e b612 s = some s' ∧ Inv e m0 ib ob sc n f0 bp (k + 4) (8 * (k + 4)) s' ∧ s'.g.dx = s.g.dx := by
  xs [hi.si, hi.di, hi.bx, imm4, imm8, imm32', adv]
  refine ⟨_, rfl, ⟨?_, ?_, ?_, hi.cx, hi.x0, hi.bp, hi.fp, hi.mem⟩, rfl⟩
  · rw [Nat.mul_add]
  · rw [Nat.mul_add]
  · exact BitVec.ofNat_add_ofNat _ _

theorem t0 {k d w : Nat} {s : St} (hi : Inv e m0 ib ob sc n f0 bp k w s) (hd : s.g.dx = BitVec.ofNat 64 d) :
    ∃ s', blk e b599 s = some s' ∧ Inv e m0 ib ob sc n f0 bp k w s' ∧ s'.g.dx = BitVec.ofNat 64 d ∧ s'.fl = subFlags (BitVec.ofNat 64 k) (BitVec.ofNat 64 d) := by
  xs [hi.bx, hd]
  exact ⟨_, rfl, ⟨hi.si, hi.di, hi.bx, hi.cx, hi.x0, hi.bp, hi.fp, hi.mem⟩, hd, rfl⟩

theorem sse2 (h : Io e ib ob (2 * n) (8 * n)) {s : St} (hi : Inv e m0 ib ob sc n f0 bp 0 (8 * 0) s) (hd : s.g.dx = BitVec.ofNat 64 (n - n % 4)) :
    ∃ s', Inv e m0 ib ob sc n f0 bp (n - n % 4) (8 * (n - n % 4)) s' ∧ Reach e prog 599 s 617 s' := by
  have hn := h.nout_lt
  obtain ⟨s', ⟨h1, -⟩, h2⟩ := wloop (e := e) (p := prog) (a := 599) (b := 617)
    (fun k s => Inv e m0 ib ob sc n f0 bp k (8 * k) s ∧ s.g.dx = BitVec.ofNat 64 (n - n % 4)) (n - n % 4) 4 (by omega)
    (by
      rintro s ⟨hi, hd⟩
      obtain ⟨s1, g1, i1, d1, f1⟩ := t0 (e := e) hi hd
      have r1 : Reach e prog 599 s 601 s1 := reach_blk b599 h599 g1
      have r2 : Reach e prog 601 s1 617 s1 := reach_jump (c := .JGE) (l := .i16bleToF64_scalar_loop) (by decide +kernel)
        (by rw [f1, taken_jge_nat (by omega) (by omega), decide_eq_true (le_refl _)]) (by decide +kernel)
      exact ⟨s1, ⟨i1, d1⟩, r1.trans r2⟩)
    (by
      rintro k s hk ⟨hi, hd⟩
      obtain ⟨s1, g1, i1, d1, f1⟩ := t0 (e := e) hi hd
      have r1 : Reach e prog 599 s 601 s1 := reach_blk b599 h599 g1
      have r2 : Reach e prog 601 s1 602 s1 := reach_fall (c := .JGE) (l := .i16bleToF64_scalar_loop) (by decide +kernel)
        (by rw [f1, taken_jge_nat (by omega) (by omega), decide_eq_false (by omega)])
      obtain ⟨s2, g2, i2, d2, x2⟩ := t1 h (by omega) i1
      obtain ⟨s3, g3, i3, d3, x3, y3⟩ := t2 i2 x2
      obtain ⟨s4, g4, i4, d4, x4, y4⟩ := t3 i3 x3 y3
      obtain ⟨s5, s6, g5, g6, i6, d6⟩ := t4 h (by omega) i4 x4 y4
      obtain ⟨s7, g7, i7, d7⟩ := t5 (e := e) i6
      have r3 : Reach e prog 602 s1 605 s2 := reach_blk b602 h602 g2
      have r4 : Reach e prog 605 s2 608 s3 := reach_blk b605 h605 g3
      have r5 : Reach e prog 608 s3 610 s4 := reach_blk b608 h608 g4
      have r6 : Reach e prog 610 s4 611 s5 := reach_blk b610 h610 g5
      have r7 : Reach e prog 611 s5 612 s6 := reach_blk b611 h611 g6
      have r8 : Reach e prog 612 s6 615 s7 := reach_blk b612 h612 g7
      have r9 : Reach e prog 615 s7 599 s7 := reach_jump (l := .i16bleToF64_sse2_loop) (c := .JMP) (by decide +kernel) rfl (by decide +kernel)
      exact ⟨s7, ⟨i7, by rw [d7, d6, d4, d3, d2, d1]⟩,
        r1.trans (r2.trans (r3.trans (r4.trans (r5.trans (r6.trans (r7.trans (r8.trans r9)))))))⟩)
    0 s (by omega) (by omega) (by omega) ⟨hi, hd⟩
  exact ⟨s', h1, h2⟩

/-! ### Single samples -/

theorem u1 (h : Io e ib ob (2 * n) (8 * n)) {k : Nat} (hk : k + 1 ≤ n) {s : St} (hi : Inv e m0 ib ob sc n f0 bp k (8 * k) s) :
    ∃ s', blk e b620 s = some s' ∧ Inv e m0 ib ob sc n f0 bp k (8 * (k + 1)) s' := by
  have a0 := w16_inp m0 ib k 2 0 (by omega)
  have b0 := hi.x0 0 (by omega)
  have e32 : ∀ v : BitVec 32, (v.setWidth 64).setWidth 32 = v := fun v => by rw [BitVec.setWidth_setWidth_of_le _ (by decide), BitVec.setWidth_eq]
  xs [hi.si, h.load hi.mem (by omega) rfl (show 2 * k + 2 ≤ 2 * n by omega), hi.di]
  simp only [Function.update_self, Function.update_of_ne (show (0 : Nat) ≠ 1 by decide), q64_low8, a0, b0, e32, toInt_sx16]
  rw [h.store (w := 8 * k) (g := want e m0 ib sc) (m0 := m0) ?_ rfl ?_ ?_]
  rotate_left
  · exact hi.mem
  · omega
  · intro i h8
    rw [low_lt (by omega), low_lt h8, bytes64, if_pos h8, want, show (8 * k + i) / 8 = k by omega, show (8 * k + i) % 8 = i by omega]
    rfl
  refine ⟨_, rfl, ⟨rfl, rfl, hi.bx, hi.cx, ?_, hi.bp, hi.fp, rfl⟩⟩
  intro l hl
  simpa using hi.x0 l hl

theorem u2 {k : Nat} {s : St} (hi : Inv e m0 ib ob sc n f0 bp k (8 * (k + 1)) s) :
    ∃ s', blk e b625 s = some s' ∧ Inv e m0 ib ob sc n f0 bp (k + 1) (8 * (k + 1)) s' := by
  xs [hi.si, hi.di, hi.bx, imm2, imm8, one64, adv]
  refine ⟨_, rfl, ⟨?_, ?_, ?_, hi.cx, hi.x0, hi.bp, hi.fp, hi.mem⟩⟩
  · rw [Nat.mul_add]
  · rw [Nat.mul_add]
  · exact BitVec.ofNat_add_ofNat _ _

theorem u0 {k w : Nat} {s : St} (hi : Inv e m0 ib ob sc n f0 bp k w s) :
    ∃ s', blk e b617 s = some s' ∧ Inv e m0 ib ob sc n f0 bp k w s' ∧ s'.fl = subFlags (BitVec.ofNat 64 k) (BitVec.ofNat 64 n) := by
  xs [hi.bx, hi.cx]
  exact ⟨_, rfl, ⟨hi.si, hi.di, hi.bx, hi.cx, hi.x0, hi.bp, hi.fp, hi.mem⟩, rfl⟩

/-- From the label `i16bleToF64_scalar_loop`. -/
theorem scalar (h : Io e ib ob (2 * n) (8 * n)) {k : Nat} (hk : k ≤ n) {s : St} (hi : Inv e m0 ib ob sc n f0 bp k (8 * k) s) :
    ∃ s', Inv e m0 ib ob sc n f0 bp n (8 * n) s' ∧ Returns e prog 617 s s' := by
  have hn := h.nout_lt
  obtain ⟨s', h1, h2⟩ := wloop (e := e) (p := prog) (a := 617) (b := 630)
    (fun k s => Inv e m0 ib ob sc n f0 bp k (8 * k) s) n 1 (by omega)
    (by
      intro s hi
      obtain ⟨s1, g1, i1, f1⟩ := u0 (e := e) hi
      have r1 : Reach e prog 617 s 619 s1 := reach_blk b617 h617 g1
      have r2 : Reach e prog 619 s1 630 s1 := reach_jump (c := .JGE) (l := .i16bleToF64_done) (by decide +kernel)
        (by rw [f1, taken_jge_nat (by omega) (by omega), decide_eq_true (le_refl _)]) (by decide +kernel)
      exact ⟨s1, i1, r1.trans r2⟩)
    (by
      intro k s hk hi
      obtain ⟨s1, g1, i1, f1⟩ := u0 (e := e) hi
      have r1 : Reach e prog 617 s 619 s1 := reach_blk b617 h617 g1
      have r2 : Reach e prog 619 s1 620 s1 := reach_fall (c := .JGE) (l := .i16bleToF64_done) (by decide +kernel)
        (by rw [f1, taken_jge_nat (by omega) (by omega), decide_eq_false (by omega)])
      obtain ⟨s2, g2, i2⟩ := u1 h hk i1
      obtain ⟨s3, g3, i3⟩ := u2 (e := e) i2
      have r3 : Reach e prog 620 s1 625 s2 := reach_blk b620 h620 g2
      have r4 : Reach e prog 625 s2 628 s3 := reach_blk b625 h625 g3
      have r5 : Reach e prog 628 s3 617 s3 := reach_jump (l := .i16bleToF64_scalar_loop) (c := .JMP) (by decide +kernel) rfl (by decide +kernel)
      exact ⟨s3, i3, r1.trans (r2.trans (r3.trans (r4.trans r5)))⟩)
    k s (by omega) (by omega) hk hi
  have r3 : Reach e prog 630 s' 631 s' := reach_blk b630 h630 rfl
  exact ⟨s', h1, (h2.trans r3).returns (returns_ret (by decide +kernel))⟩

/-! ### The routine -/

/-- The vector registers with the scale in both lanes of `X0`. -/
def spread (s : St) (sc : BitVec 64) : Nat → Vec :=
  Function.update (Function.update s.x 0 (low 16 (bytes64 sc) (s.x 0))) 0
    (low 16 (fun i => if i < 8 then low 16 (bytes64 sc) (s.x 0) i else low 16 (bytes64 sc) (s.x 0) (i - 8)) (low 16 (bytes64 sc) (s.x 0)))

theorem spread_x0 (s : St) (sc : BitVec 64) (l : Nat) (hl : l < 2) : q64 (spread s sc 0) l = sc := by
  refine q64_of_bytes sc _ l fun i hi => ?_
  unfold spread
  rw [Function.update_self, low_lt (by omega)]
  obtain rfl | rfl : l = 0 ∨ l = 1 := by omega
  · rw [if_pos (by omega), low_lt (by omega), bytes64, if_pos (by omega), Nat.mul_zero, Nat.zero_add]
  · rw [if_neg (by omega), low_lt (by omega), bytes64, if_pos (by omega), show 8 * 1 + i - 8 = i by omega]

/-- The registers at the jump in line 555; `CX` holds `c`. -/
def entry (s : St) (ib ob : BitVec 64) (sc : BitVec 64) (nin nout c : Nat) : St :=
  ⟨⟨BitVec.ofNat 64 nout, s.g.bx, BitVec.ofNat 64 c, s.g.dx, ib, ob, s.g.bp⟩, spread s sc, subFlags (BitVec.ofNat 64 (nin / 2)) (BitVec.ofNat 64 nout), s.mem, s.fp⟩

theorem args {nin nout : Nat} (hin : nin < 2 ^ 63) (hout : nout < 2 ^ 63) {s : St} (f1 : s.fp 0 = ib) (f2 : s.fp 8 = BitVec.ofNat 64 nin)
    (f3 : s.fp 24 = ob) (f4 : s.fp 32 = BitVec.ofNat 64 nout) (f5 : s.fp 48 = sc) :
    Reach e prog 543 s 558 (entry s ib ob sc nin nout (min (nin / 2) nout)) := by
  have b1 : blk e b543 s = some (entry s ib ob sc nin nout (nin / 2)) := by
    xs [f1, f2, f3, f4, f5, entry, spread, Int.reduceToNat, sar_ofNat hin, Nat.pow_one, Function.update_self]
  have r1 : Reach e prog 543 s 555 _ := reach_blk b543 h543 b1
  have r2 := reach_branch (e := e) (p := prog) (pc := 555) .JLT .i16bleToF64_min_len (by decide +kernel) (t := 558) (by decide +kernel)
    (s := entry s ib ob sc nin nout (nin / 2)) (taken_jlt_nat (by omega) hout)
  simp only [decide_eq_true_eq] at r2
  by_cases c : nin / 2 < nout
  · rw [if_pos c] at r2
    rw [Nat.min_eq_left (by omega)]
    exact r1.trans r2
  · rw [if_neg c] at r2
    rw [Nat.min_eq_right (by omega)]
    have b2 : blk e b556 (entry s ib ob sc nin nout (nin / 2)) = some (entry s ib ob sc nin nout nout) := by
      xs [entry]
    have r3 : Reach e prog 556 _ 558 _ := reach_blk b556 h556 b2
    exact (r1.trans r2).trans r3

theorem mask8 (n : Nat) : BitVec.ofNat 64 n &&& imm32 (-8) = BitVec.ofNat 64 (n - n % 8) := and_mask 3 (by decide +kernel)

theorem mask4 (n : Nat) : BitVec.ofNat 64 n &&& imm32 (-4) = BitVec.ofNat 64 (n - n % 4) := and_mask 2 (by decide +kernel)

/-- The whole of `I16bleToF64`; `nin` is in bytes. -/
theorem routine {nin nout : Nat} (hin : nin < 2 ^ 63) (hout : nout < 2 ^ 63) (hn : n = min (nin / 2) nout) (h : Io e ib ob (2 * n) (8 * n))
    {s : St} (f1 : s.fp 0 = ib) (f2 : s.fp 8 = BitVec.ofNat 64 nin) (f3 : s.fp 24 = ob) (f4 : s.fp 32 = BitVec.ofNat 64 nout)
    (f5 : s.fp 48 = sc) :
    ∃ s', Returns e prog 543 s s' ∧ Inv e s.mem ib ob sc n s.fp s.g.bp n (8 * n) s' := by
  have r0 := args (e := e) hin hout f1 f2 f3 f4 f5
  rw [← hn] at r0
  have b1 : ∃ s', blk e b558 (entry s ib ob sc nin nout n) = some s' ∧ Inv e s.mem ib ob sc n s.fp s.g.bp 0 (8 * 0) s' ∧ s'.g.dx = BitVec.ofNat 64 n ∧
      s'.fl = ⟨some ((e.sym .useSSE4).signExtend 64 == (BitVec.ofInt 8 1).signExtend 64), none, none, none⟩ := by
    xs [entry]
    exact ⟨_, rfl, ⟨(adv0 _).symm, (adv0 _).symm, rfl, rfl, spread_x0 s sc, rfl, rfl, (fill_zero _ _ _).symm⟩, rfl, rfl⟩
  obtain ⟨s1, g1, i1, d1, e1⟩ := b1
  have r1 : Reach e prog 558 _ 566 s1 := reach_blk b558 h558 g1
  have r2 := reach_branch (e := e) (p := prog) (pc := 566) .JNE .i16bleToF64_nosse4 (by decide +kernel) (t := 596) (by decide +kernel)
    (s := s1) (by rw [e1]; rfl)
  simp only [Bool.not_eq_true'] at r2
  cases c : ((e.sym .useSSE4).signExtend 64 == (BitVec.ofInt 8 1).signExtend 64 : Bool)
  · rw [if_pos c] at r2
    have b3 : ∃ s', blk e ([.label .i16bleToF64_nosse4, .ins .ANDQ [.i (-4), .r .DX], .nop] : List (Line Lbl Reg Nat)) s1 = some s' ∧
        Inv e s.mem ib ob sc n s.fp s.g.bp 0 (8 * 0) s' ∧ s'.g.dx = BitVec.ofNat 64 (n - n % 4) := by
      xs [d1, mask4]
      exact ⟨_, rfl, ⟨i1.si, i1.di, i1.bx, i1.cx, i1.x0, i1.bp, i1.fp, i1.mem⟩, rfl⟩
    obtain ⟨s3, g3, i3, d3⟩ := b3
    have r3 : Reach e prog 596 s1 599 s3 := reach_blk _ (by decide +kernel) g3
    obtain ⟨s4, i4, r4⟩ := sse2 h i3 d3
    obtain ⟨s5, i5, r5⟩ := scalar h (by omega) i4
    exact ⟨s5, (r0.trans (r1.trans (r2.trans (r3.trans r4)))).returns r5, i5⟩
  · rw [if_neg (by rw [c]; decide)] at r2
    have b3 : ∃ s', blk e b567 s1 = some s' ∧
        Inv e s.mem ib ob sc n s.fp s.g.bp 0 (8 * 0) s' ∧ s'.g.dx = BitVec.ofNat 64 (n - n % 8) := by
      xs [d1, mask8]
      exact ⟨_, rfl, ⟨i1.si, i1.di, i1.bx, i1.cx, i1.x0, i1.bp, i1.fp, i1.mem⟩, rfl⟩
    obtain ⟨s3, g3, i3, d3⟩ := b3
    have r3 : Reach e prog 567 s1 570 s3 := reach_blk b567 h567 g3
    obtain ⟨s4, i4, r4⟩ := sse4 h i3 d3
    obtain ⟨s5, i5, r5⟩ := scalar h (by omega) i4
    exact ⟨s5, (r0.trans (r1.trans (r2.trans (r3.trans r4)))).returns r5, i5⟩

end Verif.X86.Conv.I64
