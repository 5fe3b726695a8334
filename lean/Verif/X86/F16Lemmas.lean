import Verif.X86.X86Lemmas
import Verif.X86.ConvModel

/-!
# The runs of `F32toi16` and `F32toi16ble` on amd64, instruction by instruction
-/

namespace Verif.X86.Conv.F16
open Verif.X86

/-! ### Basic blocks -/

/-- dsp/conversion_amd64.s:472-480. -/
abbrev b472 : List (Line Lbl Reg Nat) :=
  [.label .F32toi16,
    .ins .MOVQ [.fp 0, .r .SI],
    .ins .MOVQ [.fp 8, .r .AX],
    .ins .MOVQ [.fp 24, .r .DI],
    .ins .MOVQ [.fp 32, .r .CX],
    .ins .MOVSS [.fp 48, .x 8],
    .ins .PSHUFD [.i 0, .x 8, .x 8], .nop,
    .ins .CMPQ [.r .AX, .r .CX]]

theorem h472 : (prog.drop 472).take b472.length = b472 := by decide +kernel

/-- dsp/conversion_amd64.s:482-483. -/
abbrev b482 : List (Line Lbl Reg Nat) :=
  [.ins .MOVQ [.r .AX, .r .CX], .nop]

theorem h482 : (prog.drop 482).take b482.length = b482 := by decide +kernel

/-- dsp/conversion_amd64.s:484-490. -/
abbrev b484 : List (Line Lbl Reg Nat) :=
  [.label .f32toi16_min_len, .nop,
    .ins .MOVQ [.r .CX, .r .DX],
    .ins .ANDQ [.i (-32), .r .CX], .nop,
    .ins .MOVQ [.i 0, .r .AX],
    .ins .CMPQ [.r .AX, .r .CX]]

theorem h484 : (prog.drop 484).take b484.length = b484 := by decide +kernel

/-- dsp/conversion_amd64.s:492-492. -/
abbrev b492 : List (Line Lbl Reg Nat) :=
  [.nop]

theorem h492 : (prog.drop 492).take b492.length = b492 := by decide +kernel

/-- dsp/conversion_amd64.s:493-498. -/
abbrev b493 : List (Line Lbl Reg Nat) :=
  [.label .f32toi16_loop,
    .ins .MOVUPS [.m .SI 0, .x 0],
    .ins .MOVUPS [.m .SI 16, .x 1],
    .ins .MOVUPS [.m .SI 32, .x 2],
    .ins .MOVUPS [.m .SI 48, .x 3],
    .ins .LEAQ [.ix .DI .AX 2, .r .BX]]

theorem h493 : (prog.drop 493).take b493.length = b493 := by decide +kernel

/-- dsp/conversion_amd64.s:499-506. -/
abbrev b499 : List (Line Lbl Reg Nat) :=
  [.ins .MULPS [.x 8, .x 0],
    .ins .MULPS [.x 8, .x 1],
    .ins .MULPS [.x 8, .x 2],
    .ins .MULPS [.x 8, .x 3],
    .ins .CVTTPS2PL [.x 0, .x 0],
    .ins .CVTTPS2PL [.x 1, .x 1],
    .ins .CVTTPS2PL [.x 2, .x 2],
    .ins .CVTTPS2PL [.x 3, .x 3]]

theorem h499 : (prog.drop 499).take b499.length = b499 := by decide +kernel

/-- dsp/conversion_amd64.s:507-508. -/
abbrev b507 : List (Line Lbl Reg Nat) :=
  [.ins .PACKSSLW [.x 1, .x 0],
    .ins .PACKSSLW [.x 3, .x 2]]

theorem h507 : (prog.drop 507).take b507.length = b507 := by decide +kernel

/-- dsp/conversion_amd64.s:509-509. -/
abbrev b509 : List (Line Lbl Reg Nat) :=
  [.ins .MOVOU [.x 0, .m .BX 0]]

theorem h509 : (prog.drop 509).take b509.length = b509 := by decide +kernel

/-- dsp/conversion_amd64.s:510-510. -/
abbrev b510 : List (Line Lbl Reg Nat) :=
  [.ins .MOVOU [.x 2, .m .BX 16]]

theorem h510 : (prog.drop 510).take b510.length = b510 := by decide +kernel

/-- dsp/conversion_amd64.s:511-513. -/
abbrev b511 : List (Line Lbl Reg Nat) :=
  [.ins .ADDQ [.i 64, .r .SI],
    .ins .ADDQ [.i 16, .r .AX],
    .ins .CMPQ [.r .AX, .r .CX]]

theorem h511 : (prog.drop 511).take b511.length = b511 := by decide +kernel

/-- dsp/conversion_amd64.s:515-515. -/
abbrev b515 : List (Line Lbl Reg Nat) :=
  [.nop]

theorem h515 : (prog.drop 515).take b515.length = b515 := by decide +kernel

/-- dsp/conversion_amd64.s:516-517. -/
abbrev b516 : List (Line Lbl Reg Nat) :=
  [.label .f32toi16_stepper,
    .ins .CMPQ [.r .AX, .r .DX]]

theorem h516 : (prog.drop 516).take b516.length = b516 := by decide +kernel

/-- dsp/conversion_amd64.s:519-519. -/
abbrev b519 : List (Line Lbl Reg Nat) :=
  [.nop]

theorem h519 : (prog.drop 519).take b519.length = b519 := by decide +kernel

/-- dsp/conversion_amd64.s:520-528. -/
abbrev b520 : List (Line Lbl Reg Nat) :=
  [.label .f32toi16_step,
    .ins .MOVSS [.m .SI 0, .x 0],
    .ins .LEAQ [.ix .DI .AX 2, .r .BX],
    .ins .MULSS [.x 8, .x 0],
    .ins .CVTTSS2SL [.x 0, .r .BP],
    .ins .MOVW [.r .BP, .m .BX 0],
    .ins .ADDQ [.i 4, .r .SI],
    .ins .INCQ [.r .AX],
    .ins .CMPQ [.r .AX, .r .DX]]

theorem h520 : (prog.drop 520).take b520.length = b520 := by decide +kernel

/-- dsp/conversion_amd64.s:530-531. -/
abbrev b530 : List (Line Lbl Reg Nat) :=
  [.nop, .label .f32toi16_done]

theorem h530 : (prog.drop 530).take b530.length = b530 := by decide +kernel

/-- dsp/conversion_amd64.s:534-537. -/
abbrev b534 : List (Line Lbl Reg Nat) :=
  [.label .F32toi16ble,
    .ins .MOVQ [.fp 32, .r .AX],
    .ins .SHRQ [.i 1, .r .AX],
    .ins .MOVQ [.r .AX, .fp 32]]

theorem h534 : (prog.drop 534).take b534.length = b534 := by decide +kernel


/-! ### Lanes -/

/-- The 32-bit number `i` from `ib`. -/
def word (m0 : BitVec 64 → BitVec 8) (ib : BitVec 64) (i : Nat) : BitVec 32 :=
  m0 (ib + BitVec.ofNat 64 (4 * i + 3)) ++ m0 (ib + BitVec.ofNat 64 (4 * i + 2)) ++ m0 (ib + BitVec.ofNat 64 (4 * i + 1)) ++
    m0 (ib + BitVec.ofNat 64 (4 * i))

theorem d32_inp (m0 : BitVec 64 → BitVec 8) (ib : BitVec 64) (k len l : Nat) (h : 4 * l + 4 ≤ len) :
    d32 (inp m0 ib (4 * k) len) l = word m0 ib (k + l) := by
  unfold d32 inp word
  rw [if_pos (by omega), if_pos (by omega), if_pos (by omega), if_pos (by omega), show 4 * k + (4 * l + 3) = 4 * (k + l) + 3 by omega,
    show 4 * k + (4 * l + 2) = 4 * (k + l) + 2 by omega, show 4 * k + (4 * l + 1) = 4 * (k + l) + 1 by omega,
    show 4 * k + 4 * l = 4 * (k + l) by omega]

/-- The product of number `i` and the scale, truncated. -/
def prod (e : Env) (m0 : BitVec 64 → BitVec 8) (ib : BitVec 64) (sc : BitVec 32) (i : Nat) : BitVec 32 :=
  e.o.trunc32 (e.o.mul32 (word m0 ib i) sc)

/-- Sample `i`: saturated in the blocks of 32, the low half afterwards. -/
def res (e : Env) (m0 : BitVec 64 → BitVec 8) (ib : BitVec 64) (sc : BitVec 32) (n i : Nat) : BitVec 16 :=
  if i < n - n % 32 then sat16 (prod e m0 ib sc i) else (prod e m0 ib sc i).setWidth 16

/-- The output bytes. -/
def want (e : Env) (m0 : BitVec 64 → BitVec 8) (ib : BitVec 64) (sc : BitVec 32) (n j : Nat) : BitVec 8 := byte (res e m0 ib sc n (j / 2)) (j % 2)

/-- After `k` samples with `w` bytes written. -/
structure Inv (e : Env) (m0 : BitVec 64 → BitVec 8) (ib ob : BitVec 64) (sc : BitVec 32) (n : Nat) (f0 : Nat → BitVec 64) (bp : BitVec 64) (k w : Nat)
    (s : St) : Prop where
  si : s.g.si = ib + BitVec.ofNat 64 (4 * k)
  di : s.g.di = ob
  ax : s.g.ax = BitVec.ofNat 64 k
  dx : s.g.dx = BitVec.ofNat 64 n
  cx : s.g.cx = BitVec.ofNat 64 (n - n % 32)
  x8 : ∀ l < 4, d32 (s.x 8) l = sc
  bp : s.g.bp = bp
  fp : s.fp = f0
  mem : s.mem = fill m0 ob w (want e m0 ib sc n)

variable {e : Env} {m0 : BitVec 64 → BitVec 8} {ib ob : BitVec 64} {sc : BitVec 32} {n : Nat} {f0 : Nat → BitVec 64} {bp : BitVec 64}

theorem mul2 (k : Nat) : BitVec.ofNat 64 k * BitVec.ofNat 64 2 = BitVec.ofNat 64 (2 * k) := by
  rw [← BitVec.ofNat_mul, Nat.mul_comm]

theorem one64 : (1 : BitVec 64) = BitVec.ofNat 64 1 := rfl

theorem i4 : imm32 4 = BitVec.ofNat 64 4 := rfl

theorem i16 : imm32 16 = BitVec.ofNat 64 16 := rfl

theorem i64 : imm32 64 = BitVec.ofNat 64 64 := rfl

/-! ### Sixteen samples -/

theorem v1 (h : Io e ib ob (4 * n) (2 * n)) {k : Nat} (hk : k + 16 ≤ n) {s : St} (hi : Inv e m0 ib ob sc n f0 bp k (2 * k) s) :
    ∃ s', blk e b493 s = some s' ∧ Inv e m0 ib ob sc n f0 bp k (2 * k) s' ∧ s'.g.bx = ob + BitVec.ofNat 64 (2 * k) ∧
      ∀ q < 4, ∀ l < 4, d32 (s'.x q) l = word m0 ib (k + (4 * q + l)) := by
  xs [hi.si, h.load hi.mem (by omega) rfl (show 4 * k + 16 ≤ 4 * n by omega), adv]
  rw [h.load (k := 4 * k + 16) (g := want e m0 ib sc n) (m0 := m0) (w := 2 * k) ?_ (by omega) rfl (by omega)]
  rotate_left
  · exact hi.mem
  xs [hi.si, adv]
  rw [h.load (k := 4 * k + 32) (g := want e m0 ib sc n) (m0 := m0) (w := 2 * k) ?_ (by omega) rfl (by omega)]
  rotate_left
  · exact hi.mem
  xs [hi.si, adv]
  rw [h.load (k := 4 * k + 48) (g := want e m0 ib sc n) (m0 := m0) (w := 2 * k) ?_ (by omega) rfl (by omega)]
  rotate_left
  · exact hi.mem
  xs [hi.di, hi.ax, mul2]
  refine ⟨_, rfl, ⟨hi.si, rfl, rfl, hi.dx, hi.cx, ?_, hi.bp, hi.fp, hi.mem⟩, rfl, ?_⟩
  · intro l hl
    simpa using hi.x8 l hl
  · intro q hq l hl
    have a0 := d32_inp m0 ib k 16 l (by omega)
    have a1 := d32_inp m0 ib (k + 4) 16 l (by omega)
    have a2 := d32_inp m0 ib (k + 8) 16 l (by omega)
    have a3 := d32_inp m0 ib (k + 12) 16 l (by omega)
    rw [Nat.mul_add] at a1 a2 a3
    obtain rfl | rfl | rfl | rfl : q = 0 ∨ q = 1 ∨ q = 2 ∨ q = 3 := by omega
    · simpa [d32_low (n := 16) _ _ l (show 4 * l + 3 < 16 by omega)] using a0
    · simpa [d32_low (n := 16) _ _ l (show 4 * l + 3 < 16 by omega), Nat.add_assoc] using a1
    · simpa [d32_low (n := 16) _ _ l (show 4 * l + 3 < 16 by omega), Nat.add_assoc] using a2
    · simpa [d32_low (n := 16) _ _ l (show 4 * l + 3 < 16 by omega), Nat.add_assoc] using a3

theorem v2 {k w : Nat} {s : St} (hi : Inv e m0 ib ob sc n f0 bp k w s) (hb : s.g.bx = ob + BitVec.ofNat 64 (2 * k))
    (hx : ∀ q < 4, ∀ l < 4, d32 (s.x q) l = word m0 ib (k + (4 * q + l))) :
    ∃ s', blk e b499 s = some s' ∧ Inv e m0 ib ob sc n f0 bp k w s' ∧ s'.g.bx = ob + BitVec.ofNat 64 (2 * k) ∧
      ∀ q < 4, ∀ l < 4, d32 (s'.x q) l = prod e m0 ib sc (k + (4 * q + l)) := by
  xs []
  refine ⟨_, rfl, ⟨hi.si, hi.di, hi.ax, hi.dx, hi.cx, ?_, hi.bp, hi.fp, hi.mem⟩, hb, ?_⟩
  · intro l hl
    simpa using hi.x8 l hl
  · intro q hq l hl
    have hq' := hx q hq l hl
    obtain rfl | rfl | rfl | rfl : q = 0 ∨ q = 1 ∨ q = 2 ∨ q = 3 := by omega
    all_goals
      simp [d32_low_of32 _ _ l hl, hi.x8 l hl, prod, hq']

theorem of16_byte (f : Nat → BitVec 16) (y : Vec) {i : Nat} (hi : i < 16) : low 16 (of16 f) y i = byte (f (i / 2)) (i % 2) := by
  rw [low_lt hi]
  rfl

theorem v3 {k w : Nat} {s : St} (hi : Inv e m0 ib ob sc n f0 bp k w s) (hb : s.g.bx = ob + BitVec.ofNat 64 (2 * k))
    (hx : ∀ q < 4, ∀ l < 4, d32 (s.x q) l = prod e m0 ib sc (k + (4 * q + l))) :
    ∃ s', blk e b507 s = some s' ∧ Inv e m0 ib ob sc n f0 bp k w s' ∧ s'.g.bx = ob + BitVec.ofNat 64 (2 * k) ∧
      (∀ i < 16, s'.x 0 i = byte (sat16 (prod e m0 ib sc (k + i / 2))) (i % 2)) ∧
      ∀ i < 16, s'.x 2 i = byte (sat16 (prod e m0 ib sc (k + (8 + i / 2)))) (i % 2) := by
  xs []
  refine ⟨_, rfl, ⟨hi.si, hi.di, hi.ax, hi.dx, hi.cx, ?_, hi.bp, hi.fp, hi.mem⟩, hb, ?_, ?_⟩
  · intro l hl
    simpa using hi.x8 l hl
  · intro i hi16
    simp only [Function.update_of_ne (show (0 : Nat) ≠ 2 by decide), Function.update_self, of16_byte _ _ hi16]
    by_cases c : i / 2 < 4
    · rw [if_pos c, hx 0 (by omega) _ c, show 4 * 0 + i / 2 = i / 2 by omega]
    · rw [if_neg c, hx 1 (by omega) _ (by omega), show 4 * 1 + (i / 2 - 4) = i / 2 by omega]
  · intro i hi16
    simp only [Function.update_self, Function.update_of_ne (show (2 : Nat) ≠ 0 by decide), Function.update_of_ne (show (3 : Nat) ≠ 0 by decide), of16_byte _ _ hi16]
    by_cases c : i / 2 < 4
    · rw [if_pos c, hx 2 (by omega) _ c, show 4 * 2 + i / 2 = 8 + i / 2 by omega]
    · rw [if_neg c, hx 3 (by omega) _ (by omega), show 4 * 3 + (i / 2 - 4) = 8 + i / 2 by omega]

theorem v4 (h : Io e ib ob (4 * n) (2 * n)) {k : Nat} (hk : k + 16 ≤ n - n % 32) {s : St} (hi : Inv e m0 ib ob sc n f0 bp k (2 * k) s)
    (hb : s.g.bx = ob + BitVec.ofNat 64 (2 * k)) (h0 : ∀ i < 16, s.x 0 i = byte (sat16 (prod e m0 ib sc (k + i / 2))) (i % 2))
    (h2 : ∀ i < 16, s.x 2 i = byte (sat16 (prod e m0 ib sc (k + (8 + i / 2)))) (i % 2)) :
    ∃ s', blk e b509 s = some s' ∧ Inv e m0 ib ob sc n f0 bp k (2 * k + 16) s' ∧ s'.g.bx = ob + BitVec.ofNat 64 (2 * k) ∧
      ∀ i < 16, s'.x 2 i = byte (sat16 (prod e m0 ib sc (k + (8 + i / 2)))) (i % 2) := by
  xs [hb]
  rw [h.store (w := 2 * k) (g := want e m0 ib sc n) (m0 := m0) ?_ rfl ?_ ?_]
  rotate_left
  · exact hi.mem
  · omega
  · intro i hi16
    rw [h0 i hi16, want, res, if_pos (by omega), show (2 * k + i) / 2 = k + i / 2 by omega, show (2 * k + i) % 2 = i % 2 by omega]
  exact ⟨_, rfl, ⟨hi.si, hi.di, hi.ax, hi.dx, hi.cx, hi.x8, hi.bp, hi.fp, rfl⟩, hb, h2⟩

theorem v5 (h : Io e ib ob (4 * n) (2 * n)) {k : Nat} (hk : k + 16 ≤ n - n % 32) {s : St} (hi : Inv e m0 ib ob sc n f0 bp k (2 * k + 16) s)
    (hb : s.g.bx = ob + BitVec.ofNat 64 (2 * k)) (h2 : ∀ i < 16, s.x 2 i = byte (sat16 (prod e m0 ib sc (k + (8 + i / 2)))) (i % 2)) :
    ∃ s', blk e b510 s = some s' ∧ Inv e m0 ib ob sc n f0 bp k (2 * (k + 16)) s' := by
  xs [hb, adv]
  rw [h.store (w := 2 * k + 16) (g := want e m0 ib sc n) (m0 := m0) ?_ rfl ?_ ?_]
  rotate_left
  · exact hi.mem
  · omega
  · intro i hi16
    rw [h2 i hi16, want, res, if_pos (by omega), show (2 * k + 16 + i) / 2 = k + (8 + i / 2) by omega, show (2 * k + 16 + i) % 2 = i % 2 by omega]
  exact ⟨_, rfl, ⟨hi.si, hi.di, hi.ax, hi.dx, hi.cx, hi.x8, hi.bp, hi.fp, rfl⟩⟩

theorem vloop (h : Io e ib ob (4 * n) (2 * n)) {k : Nat} (hk : k < n - n % 32) (hk16 : k % 16 = 0) {s : St}
    (hi : Inv e m0 ib ob sc n f0 bp k (2 * k) s) :
    ∃ s', Inv e m0 ib ob sc n f0 bp (n - n % 32) (2 * (n - n % 32)) s' ∧ Reach e prog 493 s 515 s' := by
  have hn := h.nin_lt
  obtain ⟨k', s', ⟨h1, h1'⟩, h2, h3, h4, -, h6⟩ := loop (e := e) (p := prog) (a := 493) (b := 515)
    (fun k s => Inv e m0 ib ob sc n f0 bp k (2 * k) s ∧ k % 16 = 0) (n - n % 32) 16 (by omega)
    (by
      rintro k s hk ⟨hi, hk16⟩
      obtain ⟨s1, g1, i1, c1, x1⟩ := v1 h (by omega) hi
      obtain ⟨s2, g2, i2, c2, x2⟩ := v2 i1 c1 x1
      obtain ⟨s3, g3, i3, c3, x3, y3⟩ := v3 i2 c2 x2
      obtain ⟨s4, g4, i4, c4, y4⟩ := v4 h (by omega) i3 c3 x3 y3
      obtain ⟨s5, g5, i5⟩ := v5 h (by omega) i4 c4 y4
      have b6 : ∃ s', blk e b511 s5 = some s' ∧ Inv e m0 ib ob sc n f0 bp (k + 16) (2 * (k + 16)) s' ∧
          s'.fl = subFlags (BitVec.ofNat 64 (k + 16)) (BitVec.ofNat 64 (n - n % 32)) := by
        xs [i5.si, i5.ax, i5.cx, Conv.F16.i64, i16, adv]
        refine ⟨_, rfl, ⟨?_, i5.di, ?_, i5.dx, rfl, i5.x8, i5.bp, i5.fp, i5.mem⟩, ?_⟩
        · rw [Nat.mul_add]
        · exact BitVec.ofNat_add_ofNat _ _
        · rw [BitVec.ofNat_add_ofNat]
      obtain ⟨s6, g6, i6, f6⟩ := b6
      have r1 : Reach e prog 493 s 499 s1 := reach_blk b493 h493 g1
      have r2 : Reach e prog 499 s1 507 s2 := reach_blk b499 h499 g2
      have r3 : Reach e prog 507 s2 509 s3 := reach_blk b507 h507 g3
      have r4 : Reach e prog 509 s3 510 s4 := reach_blk b509 h509 g4
      have r5 : Reach e prog 510 s4 511 s5 := reach_blk b510 h510 g5
      have r6 : Reach e prog 511 s5 514 s6 := reach_blk b511 h511 g6
      have r7 := reach_branch (e := e) (p := prog) (pc := 514) .JLT .f32toi16_loop (by decide +kernel) (t := 493) (by decide +kernel)
        (s := s6) (by rw [f6]; exact taken_jlt_nat (by omega) (by omega))
      simp only [decide_eq_true_eq] at r7
      exact ⟨s6, ⟨i6, by omega⟩, r1.trans (r2.trans (r3.trans (r4.trans (r5.trans (r6.trans r7)))))⟩)
    k s hk ⟨hi, hk16⟩
  obtain rfl : k' = n - n % 32 := by omega
  exact ⟨s', h1, h6⟩

/-! ### Single samples -/

/-- The frame pointer after `k` samples. -/
def bpAt (e : Env) (m0 : BitVec 64 → BitVec 8) (ib : BitVec 64) (sc : BitVec 32) (n : Nat) (bp : BitVec 64) (k : Nat) : BitVec 64 :=
  if k ≤ n - n % 32 then bp else (prod e m0 ib sc (k - 1)).setWidth 64

theorem d32_bytes32 (v : BitVec 32) (y : Vec) : d32 (low 4 (bytes32 v) y) 0 = v := by
  rw [d32_low _ _ _ (by omega)]
  exact d32_of_bytes v _ 0 fun i hi => by unfold bytes32; rw [if_pos (by omega), Nat.mul_zero, Nat.zero_add]

theorem byte_low (v : BitVec 32) {i : Nat} (hi : i < 2) : byte (v.setWidth 64) i = byte (v.setWidth 16) i := by
  apply BitVec.eq_of_getLsbD_eq
  intro j hj
  simp only [getLsb_byte, BitVec.getLsbD_setWidth]
  simp [show 8 * i + j < 64 by omega, show 8 * i + j < 16 by omega]

theorem step_body (h : Io e ib ob (4 * n) (2 * n)) {k : Nat} (hk : k < n) (hkv : n - n % 32 ≤ k) {s : St}
    (hi : Inv e m0 ib ob sc n f0 (bpAt e m0 ib sc n bp k) k (2 * k) s) :
    ∃ s', blk e b520 s = some s' ∧ Inv e m0 ib ob sc n f0 (bpAt e m0 ib sc n bp (k + 1)) (k + 1) (2 * (k + 1)) s' ∧
      s'.fl = subFlags (BitVec.ofNat 64 (k + 1)) (BitVec.ofNat 64 n) := by
  have a0 := d32_inp m0 ib k 4 0 (by omega)
  have a8 := hi.x8 0 (by omega)
  xs [hi.si, h.load hi.mem (by omega) rfl (show 4 * k + 4 ≤ 4 * n by omega), hi.di, hi.ax, mul2]
  simp only [Function.update_self, Function.update_of_ne (show (8 : Nat) ≠ 0 by decide), d32_bytes32, d32_low (n := 16) _ _ 0 (by omega), a0, a8, Nat.add_zero]
  rw [h.store (w := 2 * k) (g := want e m0 ib sc n) (m0 := m0) ?_ rfl ?_ ?_]
  rotate_left
  · exact hi.mem
  · omega
  · intro i hi2
    rw [byte_low _ hi2, want, res, if_neg (by omega), show (2 * k + i) / 2 = k by omega, show (2 * k + i) % 2 = i by omega, prod]
  xs [hi.dx, i4, one64, adv]
  refine ⟨_, rfl, ⟨?_, rfl, ?_, rfl, hi.cx, ?_, ?_, hi.fp, ?_⟩, ?_⟩
  · rw [Nat.mul_add]
  · exact BitVec.ofNat_add_ofNat _ _
  · intro l hl
    simpa using hi.x8 l hl
  · rw [bpAt, if_neg (by omega), Nat.add_sub_cancel, prod]
  · rw [Nat.mul_add]
  · rw [BitVec.ofNat_add_ofNat]

/-- From the label `f32toi16_stepper`. -/
theorem stepper (h : Io e ib ob (4 * n) (2 * n)) {s : St} (hi : Inv e m0 ib ob sc n f0 bp (n - n % 32) (2 * (n - n % 32)) s) :
    ∃ s', Returns e prog 516 s s' ∧ Inv e m0 ib ob sc n f0 (bpAt e m0 ib sc n bp n) n (2 * n) s' := by
  have hn := h.nin_lt
  have b1 : ∃ s', blk e b516 s = some s' ∧ Inv e m0 ib ob sc n f0 (bpAt e m0 ib sc n bp (n - n % 32)) (n - n % 32) (2 * (n - n % 32)) s' ∧
      s'.fl = subFlags (BitVec.ofNat 64 (n - n % 32)) (BitVec.ofNat 64 n) := by
    xs [hi.ax, hi.dx]
    exact ⟨_, rfl, ⟨hi.si, hi.di, hi.ax, hi.dx, hi.cx, hi.x8, by rw [bpAt, if_pos (le_refl _)]; exact hi.bp, hi.fp, hi.mem⟩, rfl⟩
  obtain ⟨s1, g1, i1, f1⟩ := b1
  have r1 : Reach e prog 516 s 518 s1 := reach_blk b516 h516 g1
  have r2 := reach_branch (e := e) (p := prog) (pc := 518) .JGE .f32toi16_done (by decide +kernel) (t := 531) (by decide +kernel)
    (s := s1) (by rw [f1]; exact taken_jge_nat (by omega) (by omega))
  simp only [decide_eq_true_eq] at r2
  by_cases c : n ≤ n - n % 32
  · rw [if_pos c] at r2
    rw [show n - n % 32 = n by omega] at i1
    have r3 : Reach e prog 531 s1 532 s1 := reach_blk [.label .f32toi16_done] (by decide +kernel) rfl
    exact ⟨s1, (r1.trans (r2.trans r3)).returns (returns_ret (by decide +kernel)), i1⟩
  · rw [if_neg c] at r2
    have r3 : Reach e prog 519 s1 520 s1 := reach_blk b519 h519 rfl
    obtain ⟨k', s', ⟨h1, h1'⟩, h2, h3, -, -, h6⟩ := loop (e := e) (p := prog) (a := 520) (b := 530)
      (fun k s => Inv e m0 ib ob sc n f0 (bpAt e m0 ib sc n bp k) k (2 * k) s ∧ n - n % 32 ≤ k) n 1 (by omega)
      (by
        rintro k s hk ⟨hi, hk'⟩
        obtain ⟨s1, g1, i1, f1⟩ := step_body h hk hk' hi
        have r1 : Reach e prog 520 s 529 s1 := reach_blk b520 h520 g1
        have r2 := reach_branch (e := e) (p := prog) (pc := 529) .JLT .f32toi16_step (by decide +kernel) (t := 520) (by decide +kernel)
          (s := s1) (by rw [f1]; exact taken_jlt_nat (by omega) (by omega))
        simp only [decide_eq_true_eq] at r2
        exact ⟨s1, ⟨i1, by omega⟩, r1.trans r2⟩)
      (n - n % 32) s1 (by omega) ⟨i1, le_refl _⟩
    obtain rfl : k' = n := by omega
    have r4 : Reach e prog 530 s' 532 s' := reach_blk b530 h530 rfl
    exact ⟨s', (r1.trans (r2.trans (r3.trans (h6.trans r4)))).returns (returns_ret (by decide +kernel)), h1⟩

/-! ### The routines -/

/-- The vector register with the scale in every lane. -/
def spread (s : St) (sc : BitVec 32) : Nat → Vec :=
  Function.update (Function.update s.x 8 (low 16 (bytes32 sc) (s.x 8))) 8
    (low 16 (fun i => low 16 (bytes32 sc) (s.x 8) (i % 4)) (low 16 (bytes32 sc) (s.x 8)))

theorem spread_x8 (s : St) (sc : BitVec 32) (l : Nat) (hl : l < 4) : d32 (spread s sc 8) l = sc := by
  refine d32_of_bytes sc _ l fun i hi => ?_
  unfold spread
  rw [Function.update_self, low_lt (by omega), low_lt (by omega), show (4 * l + i) % 4 = i by omega]
  unfold bytes32
  rw [if_pos hi]

/-- The registers at the jump in line 481; `CX` holds `c`. -/
def entry (s : St) (ib ob : BitVec 64) (sc : BitVec 32) (nin nout c : Nat) : St :=
  ⟨⟨BitVec.ofNat 64 nin, s.g.bx, BitVec.ofNat 64 c, s.g.dx, ib, ob, s.g.bp⟩, spread s sc, subFlags (BitVec.ofNat 64 nin) (BitVec.ofNat 64 nout), s.mem, s.fp⟩

theorem args {nin nout : Nat} (hin : nin < 2 ^ 63) (hout : nout < 2 ^ 63) {s : St} (f1 : s.fp 0 = ib) (f2 : s.fp 8 = BitVec.ofNat 64 nin)
    (f3 : s.fp 24 = ob) (f4 : s.fp 32 = BitVec.ofNat 64 nout) (f5 : (s.fp 48).setWidth 32 = sc) :
    Reach e prog 472 s 484 (entry s ib ob sc nin nout (min nin nout)) := by
  have b1 : blk e b472 s = some (entry s ib ob sc nin nout nout) := by
    have z : ∀ i : Nat, 4 * (0 / 4 ^ (i / 4) % 4) + i % 4 = i % 4 := by intro i; simp
    xs [f1, f2, f3, f4, f5, entry, spread, Int.toNat_zero, z, Function.update_self]
  have r1 : Reach e prog 472 s 481 _ := reach_blk b472 h472 b1
  have r2 := reach_branch (e := e) (p := prog) (pc := 481) .JGE .f32toi16_min_len (by decide +kernel) (t := 484) (by decide +kernel)
    (s := entry s ib ob sc nin nout nout) (taken_jge_nat hin hout)
  simp only [decide_eq_true_eq] at r2
  by_cases c : nout ≤ nin
  · rw [if_pos c] at r2
    rw [Nat.min_eq_right c]
    exact r1.trans r2
  · rw [if_neg c] at r2
    rw [Nat.min_eq_left (by omega)]
    have b2 : blk e b482 (entry s ib ob sc nin nout nout) = some (entry s ib ob sc nin nout nin) := by
      xs [entry]
    have r3 : Reach e prog 482 _ 484 _ := reach_blk b482 h482 b2
    exact (r1.trans r2).trans r3

theorem mask32 (n : Nat) : BitVec.ofNat 64 n &&& imm32 (-32) = BitVec.ofNat 64 (n - n % 32) := and_mask 5 (by decide +kernel)

/-- The whole of `F32toi16`. -/
theorem routine {nin nout : Nat} (hin : nin < 2 ^ 63) (hout : nout < 2 ^ 63) (hn : n = min nin nout) (h : Io e ib ob (4 * n) (2 * n))
    {s : St} (f1 : s.fp 0 = ib) (f2 : s.fp 8 = BitVec.ofNat 64 nin) (f3 : s.fp 24 = ob) (f4 : s.fp 32 = BitVec.ofNat 64 nout)
    (f5 : (s.fp 48).setWidth 32 = sc) :
    ∃ s', Returns e prog 472 s s' ∧ Inv e s.mem ib ob sc n s.fp (bpAt e s.mem ib sc n s.g.bp n) n (2 * n) s' := by
  have hn63 := h.nin_lt
  have r0 := args (e := e) hin hout f1 f2 f3 f4 f5
  rw [← hn] at r0
  have b1 : ∃ s', blk e b484 (entry s ib ob sc nin nout n) = some s' ∧ Inv e s.mem ib ob sc n s.fp s.g.bp 0 (2 * 0) s' ∧
      s'.fl = subFlags (BitVec.ofNat 64 0) (BitVec.ofNat 64 (n - n % 32)) := by
    xs [entry, mask32]
    exact ⟨_, rfl, ⟨(adv0 _).symm, rfl, rfl, rfl, rfl, spread_x8 s sc, rfl, rfl, (fill_zero _ _ _).symm⟩, rfl⟩
  obtain ⟨s1, g1, i1, e1⟩ := b1
  have r1 : Reach e prog 484 _ 491 s1 := reach_blk b484 h484 g1
  have r2 := reach_branch (e := e) (p := prog) (pc := 491) .JGE .f32toi16_stepper (by decide +kernel) (t := 516) (by decide +kernel)
    (s := s1) (by rw [e1]; exact taken_jge_nat (by decide) (by omega))
  simp only [decide_eq_true_eq] at r2
  by_cases c : n - n % 32 ≤ 0
  · rw [if_pos c] at r2
    rw [show (0 : Nat) = n - n % 32 by omega] at i1
    obtain ⟨s', r', i'⟩ := stepper h i1
    exact ⟨s', (r0.trans (r1.trans r2)).returns r', i'⟩
  · rw [if_neg c] at r2
    have r3 : Reach e prog 492 s1 493 s1 := reach_blk b492 h492 rfl
    obtain ⟨s4, i4, r4⟩ := vloop h (k := 0) (by omega) rfl i1
    have r5 : Reach e prog 515 s4 516 s4 := reach_blk b515 h515 rfl
    obtain ⟨s', r', i'⟩ := stepper h i4
    exact ⟨s', (r0.trans (r1.trans (r2.trans (r3.trans (r4.trans r5))))).returns r', i'⟩

/-- The registers at the jump in line 538. -/
def entryb (s : St) (nout : Nat) : St :=
  ⟨{ s.g with ax := BitVec.ofNat 64 (nout / 2) }, s.x, shiftFlags (BitVec.ofNat 64 (nout / 2)), s.mem, Function.update s.fp 32 (BitVec.ofNat 64 (nout / 2))⟩

/-- The whole of `F32toi16ble`; `nout` is in bytes. -/
theorem routineb {nin nout : Nat} (hin : nin < 2 ^ 63) (hout : nout < 2 ^ 63) (hn : n = min nin (nout / 2)) (h : Io e ib ob (4 * n) (2 * n))
    {s : St} (f1 : s.fp 0 = ib) (f2 : s.fp 8 = BitVec.ofNat 64 nin) (f3 : s.fp 24 = ob) (f4 : s.fp 32 = BitVec.ofNat 64 nout)
    (f5 : (s.fp 48).setWidth 32 = sc) :
    ∃ s', Returns e prog 534 s s' ∧
      Inv e s.mem ib ob sc n (Function.update s.fp 32 (BitVec.ofNat 64 (nout / 2))) (bpAt e s.mem ib sc n s.g.bp n) n (2 * n) s' := by
  have b1 : blk e b534 s = some (entryb s nout) := by
    xs [f4, Int.reduceToNat, shr_ofNat (show nout < 2 ^ 64 by omega), entryb, Nat.pow_one]
  have r1 : Reach e prog 534 s 538 _ := reach_blk b534 h534 b1
  have r2 : Reach e prog 538 (entryb s nout) 472 _ := reach_jump (l := .F32toi16) (c := .JMP) (by decide +kernel) rfl (by decide +kernel)
  obtain ⟨s', r', i'⟩ := routine (e := e) (s := entryb s nout) (ib := ib) (ob := ob) (sc := sc) hin (show nout / 2 < 2 ^ 63 by omega) hn h
    (by simpa [entryb] using f1) (by simpa [entryb] using f2) (by simpa [entryb] using f3) (by simp [entryb]) (by simpa [entryb] using f5)
  exact ⟨s', (r1.trans r2).returns r', i'⟩

end Verif.X86.Conv.F16
