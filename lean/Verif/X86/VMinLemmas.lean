import Verif.X86.VMLemmas

/-!
# The runs of `VMinF32` on amd64, instruction by instruction
-/

namespace Verif.X86.Math.VMin
open Verif.X86 Verif.X86.Math.VM Verif.Asm.Closed
open Verif.X86.Conv.F16 (word d32_inp one64 i4)

/-! ### Basic blocks -/

/-- dsp/math32_amd64.s:119-129. -/
abbrev b119 : List (Line Lbl Reg Nat) :=
  [.label .VMinF32,
    .ins .MOVQ [.fp 0, .r .SI],
    .ins .MOVQ [.fp 8, .r .CX], .nop,
    .ins .MOVL [.i 0x7f800000, .r .AX],
    .ins .MOVL [.r .AX, .x 0], .nop,
    .ins .MOVQ [.i 0, .r .DX], .nop, .nop,
    .ins .CMPB [.sb .useAVX2, .i 1]]

theorem h119 : (prog.drop 119).take b119.length = b119 := by decide +kernel

/-- dsp/math32_amd64.s:131-132. -/
abbrev b131 : List (Line Lbl Reg Nat) :=
  [.nop,
    .ins .CMPB [.sb .useSSE2, .i 1]]

theorem h131 : (prog.drop 131).take b131.length = b131 := by decide +kernel

/-- dsp/math32_amd64.s:136-139. -/
abbrev b136 : List (Line Lbl Reg Nat) :=
  [.label .vminf32_avx2,
    .ins .MOVQ [.r .CX, .r .BX],
    .ins .ANDQ [.i (-32), .r .BX],
    .ins .CMPQ [.r .DX, .r .BX]]

theorem h136 : (prog.drop 136).take b136.length = b136 := by decide +kernel

/-- dsp/math32_amd64.s:141-147. -/
abbrev b141 : List (Line Lbl Reg Nat) :=
  [.nop,
    .ins .VBROADCASTSS [.x 0, .y 0],
    .ins .VMOVUPS [.y 0, .y 1],
    .ins .VMOVUPS [.y 0, .y 2],
    .ins .VMOVUPS [.y 0, .y 3], .nop, .label .vminf32_avx2_loop]

theorem h141 : (prog.drop 141).take b141.length = b141 := by decide +kernel

/-- dsp/math32_amd64.s:148-151. -/
abbrev b148 : List (Line Lbl Reg Nat) :=
  [.ins .VMOVUPS [.m .SI 0, .y 4],
    .ins .VMOVUPS [.m .SI 32, .y 5],
    .ins .VMOVUPS [.m .SI 64, .y 6],
    .ins .VMOVUPS [.m .SI 96, .y 7]]

theorem h148 : (prog.drop 148).take b148.length = b148 := by decide +kernel

/-- dsp/math32_amd64.s:152-155. -/
abbrev b152 : List (Line Lbl Reg Nat) :=
  [.ins .VMINPS [.y 4, .y 0, .y 0],
    .ins .VMINPS [.y 5, .y 1, .y 1],
    .ins .VMINPS [.y 6, .y 2, .y 2],
    .ins .VMINPS [.y 7, .y 3, .y 3]]

theorem h152 : (prog.drop 152).take b152.length = b152 := by decide +kernel

/-- dsp/math32_amd64.s:156-158. -/
abbrev b156 : List (Line Lbl Reg Nat) :=
  [.ins .ADDQ [.i 128, .r .SI],
    .ins .ADDQ [.i 32, .r .DX],
    .ins .CMPQ [.r .DX, .r .BX]]

theorem h156 : (prog.drop 156).take b156.length = b156 := by decide +kernel

/-- dsp/math32_amd64.s:160-163. -/
abbrev b160 : List (Line Lbl Reg Nat) :=
  [.nop,
    .ins .VMINPS [.y 1, .y 0, .y 0],
    .ins .VMINPS [.y 2, .y 0, .y 0],
    .ins .VMINPS [.y 3, .y 0, .y 0]]

theorem h160 : (prog.drop 160).take b160.length = b160 := by decide +kernel

/-- dsp/math32_amd64.s:164-165. -/
abbrev b164 : List (Line Lbl Reg Nat) :=
  [.ins .VEXTRACTF128 [.i 1, .y 0, .x 1],
    .ins .MINPS [.x 1, .x 0]]

theorem h164 : (prog.drop 164).take b164.length = b164 := by decide +kernel

/-- dsp/math32_amd64.s:166-169. -/
abbrev b166 : List (Line Lbl Reg Nat) :=
  [.ins .MOVHLPS [.x 0, .x 1],
    .ins .MINPS [.x 1, .x 0],
    .ins .PSHUFD [.i 0x55, .x 0, .x 1],
    .ins .MINPS [.x 1, .x 0]]

theorem h166 : (prog.drop 166).take b166.length = b166 := by decide +kernel

/-- dsp/math32_amd64.s:172-175. -/
abbrev b172 : List (Line Lbl Reg Nat) :=
  [.label .vminf32_sse2,
    .ins .MOVQ [.r .CX, .r .BX],
    .ins .ANDQ [.i (-16), .r .BX],
    .ins .CMPQ [.r .DX, .r .BX]]

theorem h172 : (prog.drop 172).take b172.length = b172 := by decide +kernel

/-- dsp/math32_amd64.s:177-183. -/
abbrev b177 : List (Line Lbl Reg Nat) :=
  [.nop,
    .ins .PSHUFD [.i 0, .x 0, .x 0],
    .ins .MOVUPS [.x 0, .x 1],
    .ins .MOVUPS [.x 0, .x 2],
    .ins .MOVUPS [.x 0, .x 3], .nop, .label .vminf32_sse_loop]

theorem h177 : (prog.drop 177).take b177.length = b177 := by decide +kernel

/-- dsp/math32_amd64.s:184-187. -/
abbrev b184 : List (Line Lbl Reg Nat) :=
  [.ins .MOVUPS [.m .SI 0, .x 4],
    .ins .MOVUPS [.m .SI 16, .x 5],
    .ins .MOVUPS [.m .SI 32, .x 6],
    .ins .MOVUPS [.m .SI 48, .x 7]]

theorem h184 : (prog.drop 184).take b184.length = b184 := by decide +kernel

/-- dsp/math32_amd64.s:188-191. -/
abbrev b188 : List (Line Lbl Reg Nat) :=
  [.ins .MINPS [.x 4, .x 0],
    .ins .MINPS [.x 5, .x 1],
    .ins .MINPS [.x 6, .x 2],
    .ins .MINPS [.x 7, .x 3]]

theorem h188 : (prog.drop 188).take b188.length = b188 := by decide +kernel

/-- dsp/math32_amd64.s:192-194. -/
abbrev b192 : List (Line Lbl Reg Nat) :=
  [.ins .ADDQ [.i 64, .r .SI],
    .ins .ADDQ [.i 16, .r .DX],
    .ins .CMPQ [.r .DX, .r .BX]]

theorem h192 : (prog.drop 192).take b192.length = b192 := by decide +kernel

/-- dsp/math32_amd64.s:196-199. -/
abbrev b196 : List (Line Lbl Reg Nat) :=
  [.nop,
    .ins .MINPS [.x 1, .x 0],
    .ins .MINPS [.x 2, .x 0],
    .ins .MINPS [.x 3, .x 0]]

theorem h196 : (prog.drop 196).take b196.length = b196 := by decide +kernel

/-- dsp/math32_amd64.s:200-203. -/
abbrev b200 : List (Line Lbl Reg Nat) :=
  [.ins .MOVHLPS [.x 0, .x 1],
    .ins .MINPS [.x 1, .x 0],
    .ins .PSHUFD [.i 0x55, .x 0, .x 1],
    .ins .MINPS [.x 1, .x 0]]

theorem h200 : (prog.drop 200).take b200.length = b200 := by decide +kernel

/-- dsp/math32_amd64.s:208-209. -/
abbrev b208 : List (Line Lbl Reg Nat) :=
  [.nop, .label .vminf32_scalar_loop]

theorem h208 : (prog.drop 208).take b208.length = b208 := by decide +kernel

/-- dsp/math32_amd64.s:210-211. -/
abbrev b210 : List (Line Lbl Reg Nat) :=
  [.ins .MOVSS [.m .SI 0, .x 1],
    .ins .UCOMISS [.x 1, .x 0]]

theorem h210 : (prog.drop 210).take b210.length = b210 := by decide +kernel


variable {e : Env} {m0 : BitVec 64 → BitVec 8} {ib : BitVec 64} {n N : Nat} {f0 : Nat → BitVec 64} {bp : BitVec 64}

/-- The single step. -/
def st (e : Env) (x0 x1 : BitVec 32) : BitVec 32 := if ((e.o.ucom x0 x1).2 || (e.o.ucom x0 x1).1) = true then x0 else x1

/-! ### Blocks of 32 numbers -/

theorem y1 (h : ∀ i < 4 * n, e.rd (ib + BitVec.ofNat 64 i) = true) {k : Nat} (hk : k + 32 ≤ n) {s : St} (hi : Inv m0 ib n f0 bp k s)
    {A : Nat → Nat → BitVec 32} (hA : ∀ q < 4, ∀ l < 8, d32 (s.x q) l = A q l) :
    ∃ s', blk e b148 s = some s' ∧ Inv m0 ib n f0 bp k s' ∧ s'.g.bx = s.g.bx ∧ (∀ q < 4, ∀ l < 8, d32 (s'.x q) l = A q l) ∧
      ∀ q < 4, ∀ l < 8, d32 (s'.x (4 + q)) l = word m0 ib (k + (8 * q + l)) := by
  xs [hi.si, ld h hi.mem rfl (show 4 * k + 32 ≤ 4 * n by omega), adv]
  rw [ld h (k := 4 * k + 32) (m0 := m0) ?_ rfl (by omega)]
  rotate_left
  · exact hi.mem
  xs [hi.si, adv]
  rw [ld h (k := 4 * k + 64) (m0 := m0) ?_ rfl (by omega)]
  rotate_left
  · exact hi.mem
  xs [hi.si, adv]
  rw [ld h (k := 4 * k + 96) (m0 := m0) ?_ rfl (by omega)]
  rotate_left
  · exact hi.mem
  xs []
  refine ⟨_, rfl, ⟨hi.si, hi.dx, hi.cx, hi.bp, hi.fp, hi.mem⟩, rfl, ?_, ?_⟩
  · intro q hq l hl
    have := hA q hq l hl
    simpa [show q ≠ 4 by omega, show q ≠ 5 by omega, show q ≠ 6 by omega, show q ≠ 7 by omega] using this
  · intro q hq l hl
    have a0 := d32_inp m0 ib k 32 l (by omega)
    have a1 := d32_inp m0 ib (k + 8) 32 l (by omega)
    have a2 := d32_inp m0 ib (k + 16) 32 l (by omega)
    have a3 := d32_inp m0 ib (k + 24) 32 l (by omega)
    rw [Nat.mul_add] at a1 a2 a3
    obtain rfl | rfl | rfl | rfl : q = 0 ∨ q = 1 ∨ q = 2 ∨ q = 3 := by omega
    · simpa [d32_low (n := 32) _ _ l (show 4 * l + 3 < 32 by omega)] using a0
    · simpa [d32_low (n := 32) _ _ l (show 4 * l + 3 < 32 by omega), Nat.add_assoc] using a1
    · simpa [d32_low (n := 32) _ _ l (show 4 * l + 3 < 32 by omega), Nat.add_assoc] using a2
    · simpa [d32_low (n := 32) _ _ l (show 4 * l + 3 < 32 by omega), Nat.add_assoc] using a3

theorem y2 {k : Nat} {s : St} (hi : Inv m0 ib n f0 bp k s) {A : Nat → Nat → BitVec 32} (hA : ∀ q < 4, ∀ l < 8, d32 (s.x q) l = A q l)
    (hx : ∀ q < 4, ∀ l < 8, d32 (s.x (4 + q)) l = word m0 ib (k + (8 * q + l))) :
    ∃ s', blk e b152 s = some s' ∧ Inv m0 ib n f0 bp k s' ∧ s'.g.bx = s.g.bx ∧
      ∀ q < 4, ∀ l < 8, d32 (s'.x q) l = e.o.minss (A q l) (word m0 ib (k + (8 * q + l))) := by
  xs []
  refine ⟨_, rfl, ⟨hi.si, hi.dx, hi.cx, hi.bp, hi.fp, hi.mem⟩, rfl, ?_⟩
  intro q hq l hl
  have h1 := hA q hq l hl
  have h2 := hx q hq l hl
  obtain rfl | rfl | rfl | rfl : q = 0 ∨ q = 1 ∨ q = 2 ∨ q = 3 := by omega
  all_goals
    simp at h2
    simp [low32 _ _ hl, h1, h2]

theorem yloop (hn : n < 2 ^ 63) (h : ∀ i < 4 * n, e.rd (ib + BitVec.ofNat 64 i) = true) {init : BitVec 32} {s : St} (hi : Inv m0 ib n f0 bp 0 s)
    (hb : s.g.bx = BitVec.ofNat 64 (n - n % 32)) (hA : ∀ q < 4, ∀ l < 8, d32 (s.x q) l = init) (hpos : 0 < n - n % 32) :
    ∃ s', Inv m0 ib n f0 bp (n - n % 32) s' ∧ Reach e prog 148 s 160 s' ∧
      ∀ q < 4, ∀ l < 8, d32 (s'.x q) l = acc e.o.minss init (word m0 ib) 8 (n / 32) q l := by
  obtain ⟨k', s', ⟨h1, h1', h1'', hd⟩, h2, h3, h4, -, h6⟩ := loop (e := e) (p := prog) (a := 148) (b := 160)
    (fun k s => Inv m0 ib n f0 bp k s ∧ k % 32 = 0 ∧ s.g.bx = BitVec.ofNat 64 (n - n % 32) ∧
      ∀ q < 4, ∀ l < 8, d32 (s.x q) l = acc e.o.minss init (word m0 ib) 8 (k / 32) q l) (n - n % 32) 32 (by omega)
    (by
      rintro k s hk ⟨hi, hkL, hb, hA⟩
      obtain ⟨s1, g1, i1, c1, x1, y1⟩ := y1 h (by omega) hi hA
      obtain ⟨s2, g2, i2, c2, x2⟩ := y2 (e := e) i1 x1 y1
      have b3 : ∃ s', blk e b156 s2 = some s' ∧ Inv m0 ib n f0 bp (k + 32) s' ∧ s'.g.bx = BitVec.ofNat 64 (n - n % 32) ∧
          s'.fl = subFlags (BitVec.ofNat 64 (k + 32)) (BitVec.ofNat 64 (n - n % 32)) ∧ s'.x = s2.x := by
        have hb' : s2.g.bx = BitVec.ofNat 64 (n - n % 32) := by rw [c2, c1, hb]
        xs [i2.si, i2.dx, i2.cx, hb', show imm32 32 = BitVec.ofNat 64 32 from rfl, show imm32 128 = BitVec.ofNat 64 128 from rfl, adv]
        refine ⟨_, rfl, ⟨?_, ?_, rfl, i2.bp, i2.fp, i2.mem⟩, rfl, ?_, rfl⟩
        · rw [Nat.mul_add]
        · exact BitVec.ofNat_add_ofNat _ _
        · rw [BitVec.ofNat_add_ofNat]
      obtain ⟨s3, g3, i3, c3, f3, x3⟩ := b3
      have r1 : Reach e prog 148 s 152 s1 := reach_blk b148 h148 g1
      have r2 : Reach e prog 152 s1 156 s2 := reach_blk b152 h152 g2
      have r3 : Reach e prog 156 s2 159 s3 := reach_blk b156 h156 g3
      have r4 := reach_branch (e := e) (p := prog) (pc := 159) .JLT .vminf32_avx2_loop (by decide +kernel) (t := 147) (by decide +kernel)
        (s := s3) (by rw [f3]; exact taken_jlt_nat (by omega) (by omega))
      simp only [decide_eq_true_eq] at r4
      have r5 : Reach e prog 147 s3 148 s3 := reach_blk [.label .vminf32_avx2_loop] (by decide +kernel) rfl
      refine ⟨s3, ⟨i3, by omega, c3, fun q hq l hl => ?_⟩, r1.trans (r2.trans (r3.trans ?_))⟩
      · rw [x3, x2 q hq l hl, Nat.add_div_right k (by omega), acc, show 32 * (k / 32) = k by omega]
      · by_cases q : k + 32 < n - n % 32
        · rw [if_pos q] at r4 ⊢
          exact r4.trans r5
        · rw [if_neg q] at r4 ⊢
          exact r4)
    0 s hpos ⟨hi, rfl, hb, fun q hq l hl => by rw [hA q hq l hl]; rfl⟩
  obtain rfl : k' = n - n % 32 := by omega
  refine ⟨s', h1, h6, fun q hq l hl => ?_⟩
  rw [hd q hq l hl, show (n - n % 32) / 32 = n / 32 by omega]

/-! ### Blocks of 16 numbers -/

theorem x1 (h : ∀ i < 4 * n, e.rd (ib + BitVec.ofNat 64 i) = true) {k : Nat} (hk : k + 16 ≤ n) {s : St} (hi : Inv m0 ib n f0 bp k s)
    {A : Nat → Nat → BitVec 32} (hA : ∀ q < 4, ∀ l < 4, d32 (s.x q) l = A q l) :
    ∃ s', blk e b184 s = some s' ∧ Inv m0 ib n f0 bp k s' ∧ s'.g.bx = s.g.bx ∧ (∀ q < 4, ∀ l < 4, d32 (s'.x q) l = A q l) ∧
      ∀ q < 4, ∀ l < 4, d32 (s'.x (4 + q)) l = word m0 ib (k + (4 * q + l)) := by
  xs [hi.si, ld h hi.mem rfl (show 4 * k + 16 ≤ 4 * n by omega), adv]
  rw [ld h (k := 4 * k + 16) (m0 := m0) ?_ rfl (by omega)]
  rotate_left
  · exact hi.mem
  xs [hi.si, adv]
  rw [ld h (k := 4 * k + 32) (m0 := m0) ?_ rfl (by omega)]
  rotate_left
  · exact hi.mem
  xs [hi.si, adv]
  rw [ld h (k := 4 * k + 48) (m0 := m0) ?_ rfl (by omega)]
  rotate_left
  · exact hi.mem
  xs []
  refine ⟨_, rfl, ⟨hi.si, hi.dx, hi.cx, hi.bp, hi.fp, hi.mem⟩, rfl, ?_, ?_⟩
  · intro q hq l hl
    have := hA q hq l hl
    simpa [show q ≠ 4 by omega, show q ≠ 5 by omega, show q ≠ 6 by omega, show q ≠ 7 by omega] using this
  · intro q hq l hl
    have a0 := d32_inp m0 ib k 16 l (by omega)
    have a1 := d32_inp m0 ib (k + 4) 16 l (by omega)
    have a2 := d32_inp m0 ib (k + 8) 16 l (by omega)
    have a3 := d32_inp m0 ib (k + 12) 16 l (by omega)
    rw [Nat.mul_add] at a1 a2 a3
    obtain rfl | rfl | rfl | rfl : q = 0 ∨ q = 1 ∨ q = 2 ∨ q = 3 := by omega
    · simpa [d32_low (n := 16) _ _ l (show 4 * l + 3 < 16 by omega)] using a0
    · simpa [d32_low (n := 16) _ _ l (show 4 * l + 3 < 16 by omega), Nat.add_assoc] using a1
    · simpa [d32_low (n := 16) _ _ l (show 4 * l + 3 < 16 by omega), Nat.add_assoc] using a2
    · simpa [d32_low (n := 16) _ _ l (show 4 * l + 3 < 16 by omega), Nat.add_assoc] using a3

theorem x2 {k : Nat} {s : St} (hi : Inv m0 ib n f0 bp k s) {A : Nat → Nat → BitVec 32} (hA : ∀ q < 4, ∀ l < 4, d32 (s.x q) l = A q l)
    (hx : ∀ q < 4, ∀ l < 4, d32 (s.x (4 + q)) l = word m0 ib (k + (4 * q + l))) :
    ∃ s', blk e b188 s = some s' ∧ Inv m0 ib n f0 bp k s' ∧ s'.g.bx = s.g.bx ∧
      ∀ q < 4, ∀ l < 4, d32 (s'.x q) l = e.o.minss (A q l) (word m0 ib (k + (4 * q + l))) := by
  xs []
  refine ⟨_, rfl, ⟨hi.si, hi.dx, hi.cx, hi.bp, hi.fp, hi.mem⟩, rfl, ?_⟩
  intro q hq l hl
  have h1 := hA q hq l hl
  have h2 := hx q hq l hl
  obtain rfl | rfl | rfl | rfl : q = 0 ∨ q = 1 ∨ q = 2 ∨ q = 3 := by omega
  all_goals
    simp at h2
    simp [d32_low_of32 _ _ l hl, h1, h2]

theorem xloop (hn : n < 2 ^ 63) (h : ∀ i < 4 * n, e.rd (ib + BitVec.ofNat 64 i) = true) {init : BitVec 32} {s : St} (hi : Inv m0 ib n f0 bp 0 s)
    (hb : s.g.bx = BitVec.ofNat 64 (n - n % 16)) (hA : ∀ q < 4, ∀ l < 4, d32 (s.x q) l = init) (hpos : 0 < n - n % 16) :
    ∃ s', Inv m0 ib n f0 bp (n - n % 16) s' ∧ Reach e prog 184 s 196 s' ∧
      ∀ q < 4, ∀ l < 4, d32 (s'.x q) l = acc e.o.minss init (word m0 ib) 4 (n / 16) q l := by
  obtain ⟨k', s', ⟨h1, h1', h1'', hd⟩, h2, h3, h4, -, h6⟩ := loop (e := e) (p := prog) (a := 184) (b := 196)
    (fun k s => Inv m0 ib n f0 bp k s ∧ k % 16 = 0 ∧ s.g.bx = BitVec.ofNat 64 (n - n % 16) ∧
      ∀ q < 4, ∀ l < 4, d32 (s.x q) l = acc e.o.minss init (word m0 ib) 4 (k / 16) q l) (n - n % 16) 16 (by omega)
    (by
      rintro k s hk ⟨hi, hkL, hb, hA⟩
      obtain ⟨s1, g1, i1, c1, x1, y1⟩ := x1 h (by omega) hi hA
      obtain ⟨s2, g2, i2, c2, x2⟩ := x2 (e := e) i1 x1 y1
      have b3 : ∃ s', blk e b192 s2 = some s' ∧ Inv m0 ib n f0 bp (k + 16) s' ∧ s'.g.bx = BitVec.ofNat 64 (n - n % 16) ∧
          s'.fl = subFlags (BitVec.ofNat 64 (k + 16)) (BitVec.ofNat 64 (n - n % 16)) ∧ s'.x = s2.x := by
        have hb' : s2.g.bx = BitVec.ofNat 64 (n - n % 16) := by rw [c2, c1, hb]
        xs [i2.si, i2.dx, i2.cx, hb', show imm32 16 = BitVec.ofNat 64 16 from rfl, show imm32 64 = BitVec.ofNat 64 64 from rfl, adv]
        refine ⟨_, rfl, ⟨?_, ?_, rfl, i2.bp, i2.fp, i2.mem⟩, rfl, ?_, rfl⟩
        · rw [Nat.mul_add]
        · exact BitVec.ofNat_add_ofNat _ _
        · rw [BitVec.ofNat_add_ofNat]
      obtain ⟨s3, g3, i3, c3, f3, x3⟩ := b3
      have r1 : Reach e prog 184 s 188 s1 := reach_blk b184 h184 g1
      have r2 : Reach e prog 188 s1 192 s2 := reach_blk b188 h188 g2
      have r3 : Reach e prog 192 s2 195 s3 := reach_blk b192 h192 g3
      have r4 := reach_branch (e := e) (p := prog) (pc := 195) .JLT .vminf32_sse_loop (by decide +kernel) (t := 183) (by decide +kernel)
        (s := s3) (by rw [f3]; exact taken_jlt_nat (by omega) (by omega))
      simp only [decide_eq_true_eq] at r4
      have r5 : Reach e prog 183 s3 184 s3 := reach_blk [.label .vminf32_sse_loop] (by decide +kernel) rfl
      refine ⟨s3, ⟨i3, by omega, c3, fun q hq l hl => ?_⟩, r1.trans (r2.trans (r3.trans ?_))⟩
      · rw [x3, x2 q hq l hl, Nat.add_div_right k (by omega), acc, show 16 * (k / 16) = k by omega]
      · by_cases q : k + 16 < n - n % 16
        · rw [if_pos q] at r4 ⊢
          exact r4.trans r5
        · rw [if_neg q] at r4 ⊢
          exact r4)
    0 s hpos ⟨hi, rfl, hb, fun q hq l hl => by rw [hA q hq l hl]; rfl⟩
  obtain rfl : k' = n - n % 16 := by omega
  refine ⟨s', h1, h6, fun q hq l hl => ?_⟩
  rw [hd q hq l hl, show (n - n % 16) / 16 = n / 16 by omega]

/-! ### Joining the lanes -/

theorem yjoin {k : Nat} {s : St} (hi : Inv m0 ib n f0 bp k s) {A : Nat → Nat → BitVec 32} (hA : ∀ q < 4, ∀ l < 8, d32 (s.x q) l = A q l) :
    ∃ s', blk e b160 s = some s' ∧ Inv m0 ib n f0 bp k s' ∧ ∀ l < 8, d32 (s'.x 0) l = join e.o.minss A l := by
  xs []
  refine ⟨_, rfl, ⟨hi.si, hi.dx, hi.cx, hi.bp, hi.fp, hi.mem⟩, ?_⟩
  intro l hl
  simp [low32 _ _ hl, hA 0 (by omega) l hl, hA 1 (by omega) l hl, hA 2 (by omega) l hl, hA 3 (by omega) l hl, join]

theorem yhalf {k : Nat} {s : St} (hi : Inv m0 ib n f0 bp k s) {J : Nat → BitVec 32} (hJ : ∀ l < 8, d32 (s.x 0) l = J l) :
    ∃ s', blk e b164 s = some s' ∧ Inv m0 ib n f0 bp k s' ∧ ∀ l < 4, d32 (s'.x 0) l = half e.o.minss J l := by
  xs []
  refine ⟨_, rfl, ⟨hi.si, hi.dx, hi.cx, hi.bp, hi.fp, hi.mem⟩, ?_⟩
  intro l hl
  have h1 : d32 (fun i => if i < 16 then s.x 0 (16 + i) else 0) l = J (l + 4) := by
    rw [← hJ (l + 4) (by omega)]
    refine d32_congr fun i hi => ?_
    rw [if_pos (by omega), show 16 + (4 * l + i) = 4 * (l + 4) + i by omega]
  simp only [Function.update_self, Function.update_of_ne (show (0 : Nat) ≠ 1 by decide), d32_low_of32 _ _ l hl, h1, hJ l (by omega), half]

theorem xjoin {k : Nat} {s : St} (hi : Inv m0 ib n f0 bp k s) {A : Nat → Nat → BitVec 32} (hA : ∀ q < 4, ∀ l < 4, d32 (s.x q) l = A q l) :
    ∃ s', blk e b196 s = some s' ∧ Inv m0 ib n f0 bp k s' ∧ ∀ l < 4, d32 (s'.x 0) l = join e.o.minss A l := by
  xs []
  refine ⟨_, rfl, ⟨hi.si, hi.dx, hi.cx, hi.bp, hi.fp, hi.mem⟩, ?_⟩
  intro l hl
  simp [d32_low_of32 _ _ l hl, hA 0 (by omega) l hl, hA 1 (by omega) l hl, hA 2 (by omega) l hl, hA 3 (by omega) l hl, join]

theorem yfold {k : Nat} {s : St} (hi : Inv m0 ib n f0 bp k s) {J : Nat → BitVec 32} (hJ : ∀ l < 4, d32 (s.x 0) l = J l) :
    ∃ s', blk e b166 s = some s' ∧ Inv m0 ib n f0 bp k s' ∧ d32 (s'.x 0) 0 = fold4 e.o.minss J := by
  xs []
  refine ⟨_, rfl, ⟨hi.si, hi.dx, hi.cx, hi.bp, hi.fp, hi.mem⟩, ?_⟩
  have h1 : ∀ y : Vec, ∀ l < 2, d32 (low 16 (fun i => if i < 8 then s.x 0 (8 + i) else s.x 1 i) y) l = J (l + 2) := by
    intro y l hl
    rw [d32_low _ _ _ (by omega), ← hJ (l + 2) (by omega)]
    refine d32_congr fun i hi => ?_
    rw [if_pos (by omega), show 8 + (4 * l + i) = 4 * (l + 2) + i by omega]
  have h2 : ∀ x y : Vec, d32 (low 16 (fun i => x (4 * (Int.toNat 0x55 / 4 ^ (i / 4) % 4) + i % 4)) y) 0 = d32 x 1 := by
    intro x y
    rw [d32_low _ _ _ (by omega)]
    refine d32_congr fun i hi => ?_
    have : i = 0 ∨ i = 1 ∨ i = 2 ∨ i = 3 := by omega
    rcases this with rfl | rfl | rfl | rfl <;> rfl
  simp only [Function.update_self, Function.update_of_ne (show (0 : Nat) ≠ 1 by decide), Function.update_of_ne (show (1 : Nat) ≠ 0 by decide),
    d32_low_of32 _ _ 0 (by decide), d32_low_of32 _ _ 1 (by decide), h1 _ 0 (by decide), h1 _ 1 (by decide), h2, hJ 0 (by decide), hJ 1 (by decide),
    fold4, Nat.zero_add, Nat.reduceAdd]

theorem xfold {k : Nat} {s : St} (hi : Inv m0 ib n f0 bp k s) {J : Nat → BitVec 32} (hJ : ∀ l < 4, d32 (s.x 0) l = J l) :
    ∃ s', blk e b200 s = some s' ∧ Inv m0 ib n f0 bp k s' ∧ d32 (s'.x 0) 0 = fold4 e.o.minss J := by
  xs []
  refine ⟨_, rfl, ⟨hi.si, hi.dx, hi.cx, hi.bp, hi.fp, hi.mem⟩, ?_⟩
  have h1 : ∀ y : Vec, ∀ l < 2, d32 (low 16 (fun i => if i < 8 then s.x 0 (8 + i) else s.x 1 i) y) l = J (l + 2) := by
    intro y l hl
    rw [d32_low _ _ _ (by omega), ← hJ (l + 2) (by omega)]
    refine d32_congr fun i hi => ?_
    rw [if_pos (by omega), show 8 + (4 * l + i) = 4 * (l + 2) + i by omega]
  have h2 : ∀ x y : Vec, d32 (low 16 (fun i => x (4 * (Int.toNat 0x55 / 4 ^ (i / 4) % 4) + i % 4)) y) 0 = d32 x 1 := by
    intro x y
    rw [d32_low _ _ _ (by omega)]
    refine d32_congr fun i hi => ?_
    have : i = 0 ∨ i = 1 ∨ i = 2 ∨ i = 3 := by omega
    rcases this with rfl | rfl | rfl | rfl <;> rfl
  simp only [Function.update_self, Function.update_of_ne (show (0 : Nat) ≠ 1 by decide), Function.update_of_ne (show (1 : Nat) ≠ 0 by decide),
    d32_low_of32 _ _ 0 (by decide), d32_low_of32 _ _ 1 (by decide), h1 _ 0 (by decide), h1 _ 1 (by decide), h2, hJ 0 (by decide), hJ 1 (by decide),
    fold4, Nat.zero_add, Nat.reduceAdd]

/-! ### Single numbers -/

theorem scalar (hn : n < 2 ^ 63) (h : ∀ i < 4 * n, e.rd (ib + BitVec.ofNat 64 i) = true) {k : Nat} (hk : k ≤ n) {x : BitVec 32} {s : St}
    (hi : Inv m0 ib n f0 bp k s) (hx : d32 (s.x 0) 0 = x) :
    ∃ s', Returns e prog 205 s s' ∧ s'.mem = m0 ∧ s'.g.bp = bp ∧
      s'.fp = Function.update f0 24 ((f0 24).extractLsb' 32 32 ++ steps (st e) (word m0 ib) x k (n - k)) := by
  have fin : ∀ y s, Inv m0 ib n f0 bp n s → d32 (s.x 0) 0 = y → ∃ s', Returns e prog 221 s s' ∧ s'.mem = m0 ∧ s'.g.bp = bp ∧
      s'.fp = Function.update f0 24 ((f0 24).extractLsb' 32 32 ++ y) := by
    intro y s hi hx
    have b1 : ∃ s', blk e ([.label .vminf32_done, .ins .MOVSS [.x 0, .fp 24]] : List (Line Lbl Reg Nat)) s = some s' ∧ s'.mem = m0 ∧ s'.g.bp = bp ∧
        s'.fp = Function.update f0 24 ((f0 24).extractLsb' 32 32 ++ y) := by
      xs [hi.fp, hx]
      exact ⟨_, rfl, hi.mem, hi.bp, rfl⟩
    obtain ⟨s1, g1, m1⟩ := b1
    have r1 : Reach e prog 221 s 223 s1 := reach_blk [.label .vminf32_done, .ins .MOVSS [.x 0, .fp 24]] (by decide +kernel) g1
    exact ⟨s1, r1.returns (returns_ret (by decide +kernel)), m1⟩
  have b1 : ∃ s', blk e ([.label .vminf32_scalar, .ins .CMPQ [.r .DX, .r .CX]] : List (Line Lbl Reg Nat)) s = some s' ∧ Inv m0 ib n f0 bp k s' ∧
      s'.fl = subFlags (BitVec.ofNat 64 k) (BitVec.ofNat 64 n) ∧ s'.x = s.x := by
    xs [hi.dx, hi.cx]
    exact ⟨_, rfl, ⟨hi.si, hi.dx, hi.cx, hi.bp, hi.fp, hi.mem⟩, rfl, rfl⟩
  obtain ⟨s1, g1, i1, f1, x1⟩ := b1
  have r1 : Reach e prog 205 s 207 s1 := reach_blk [.label .vminf32_scalar, .ins .CMPQ [.r .DX, .r .CX]] (by decide +kernel) g1
  have r2 := reach_branch (e := e) (p := prog) (pc := 207) .JGE .vminf32_done (by decide +kernel) (t := 221) (by decide +kernel)
    (s := s1) (by rw [f1]; exact taken_jge_nat (by omega) (by omega))
  simp only [decide_eq_true_eq] at r2
  by_cases q : n ≤ k
  · rw [if_pos q] at r2
    obtain rfl : k = n := by omega
    obtain ⟨s', r', m'⟩ := fin x s1 i1 (by rw [x1, hx])
    refine ⟨s', (r1.trans r2).returns r', ?_⟩
    rw [Nat.sub_self]
    exact m'
  · rw [if_neg q] at r2
    have r3 : Reach e prog 208 s1 210 s1 := reach_blk b208 h208 rfl
    obtain ⟨k', s', ⟨h1, h1', h1''⟩, h2, h3, -, -, h6⟩ := loop (e := e) (p := prog) (a := 210) (b := 220)
      (fun j s => Inv m0 ib n f0 bp j s ∧ k ≤ j ∧ d32 (s.x 0) 0 = steps (st e) (word m0 ib) x k (j - k)) n 1 (by omega)
      (by
        rintro j s hj ⟨hi, hkj, hx⟩
        have a0 := d32_inp m0 ib j 4 0 (by omega)
        have b1 : ∃ s', blk e b210 s = some s' ∧ Inv m0 ib n f0 bp j s' ∧ d32 (s'.x 0) 0 = steps (st e) (word m0 ib) x k (j - k) ∧
            d32 (s'.x 1) 0 = word m0 ib j ∧ s'.fl.taken .JLS =
              some ((e.o.ucom (steps (st e) (word m0 ib) x k (j - k)) (word m0 ib j)).2 ||
                (e.o.ucom (steps (st e) (word m0 ib) x k (j - k)) (word m0 ib j)).1) := by
          xs [hi.si, ld h hi.mem rfl (show 4 * j + 4 ≤ 4 * n by omega)]
          refine ⟨_, rfl, ⟨hi.si, hi.dx, hi.cx, hi.bp, hi.fp, hi.mem⟩, ?_, ?_, ?_⟩
          · simpa using hx
          · simpa [d32_low (n := 16) _ _ 0 (show 4 * 0 + 3 < 16 by omega)] using a0
          · simp only [Flags.taken, Function.update_self, Function.update_of_ne (show (0 : Nat) ≠ 1 by decide), hx, d32_low (n := 16) _ _ 0 (show 4 * 0 + 3 < 16 by omega), a0,
              Nat.add_zero, Option.bind_some, Option.map_some]
        obtain ⟨s1, g1, i1, x1, y1, f1⟩ := b1
        have r1 : Reach e prog 210 s 212 s1 := reach_blk b210 h210 g1
        have r2 := reach_branch (e := e) (p := prog) (pc := 212) .JLS .vminf32_not_min (by decide +kernel) (t := 215) (by decide +kernel) (s := s1) f1
        have mid : ∃ s2, Inv m0 ib n f0 bp j s2 ∧ d32 (s2.x 0) 0 = st e (steps (st e) (word m0 ib) x k (j - k)) (word m0 ib j) ∧
            Reach e prog 212 s1 215 s2 := by
          by_cases t : ((e.o.ucom (steps (st e) (word m0 ib) x k (j - k)) (word m0 ib j)).2 ||
                (e.o.ucom (steps (st e) (word m0 ib) x k (j - k)) (word m0 ib j)).1) = true
          · rw [if_pos t] at r2
            refine ⟨s1, i1, ?_, r2⟩
            rw [st, if_pos t, x1]
          · rw [if_neg t] at r2
            have b2 : ∃ s', blk e ([.ins .MOVO [.x 1, .x 0], .nop] : List (Line Lbl Reg Nat)) s1 = some s' ∧ Inv m0 ib n f0 bp j s' ∧ d32 (s'.x 0) 0 = word m0 ib j := by
              xs [if_true]
              refine ⟨_, rfl, ⟨i1.si, i1.dx, i1.cx, i1.bp, i1.fp, i1.mem⟩, ?_⟩
              simp only [Function.update_self, d32_low (n := 16) _ _ 0 (show 4 * 0 + 3 < 16 by omega), y1]
            obtain ⟨s2, g2, i2, x2⟩ := b2
            have r3 : Reach e prog 213 s1 215 s2 := reach_blk [.ins .MOVO [.x 1, .x 0], .nop] (by decide +kernel) g2
            refine ⟨s2, i2, ?_, r2.trans r3⟩
            rw [st, if_neg t, x2]
        obtain ⟨s2, i2, x2, r3⟩ := mid
        have b4 : ∃ s', blk e ([.label .vminf32_not_min, .ins .ADDQ [.i 4, .r .SI], .ins .INCQ [.r .DX], .ins .CMPQ [.r .DX, .r .CX]] : List (Line Lbl Reg Nat)) s2 = some s' ∧
            Inv m0 ib n f0 bp (j + 1) s' ∧ s'.fl = subFlags (BitVec.ofNat 64 (j + 1)) (BitVec.ofNat 64 n) ∧ s'.x = s2.x := by
          xs [i2.si, i2.dx, i2.cx, i4, one64, adv]
          refine ⟨_, rfl, ⟨?_, ?_, rfl, i2.bp, i2.fp, i2.mem⟩, ?_, rfl⟩
          · rw [Nat.mul_add]
          · exact BitVec.ofNat_add_ofNat _ _
          · rw [BitVec.ofNat_add_ofNat]
        obtain ⟨s4, g4, i4, f4, x4⟩ := b4
        have r4 : Reach e prog 215 s2 219 s4 :=
          reach_blk [.label .vminf32_not_min, .ins .ADDQ [.i 4, .r .SI], .ins .INCQ [.r .DX], .ins .CMPQ [.r .DX, .r .CX]] (by decide +kernel) g4
        have r5 := reach_branch (e := e) (p := prog) (pc := 219) .JLT .vminf32_scalar_loop (by decide +kernel) (t := 209) (by decide +kernel)
          (s := s4) (by rw [f4]; exact taken_jlt_nat (by omega) (by omega))
        simp only [decide_eq_true_eq] at r5
        have r6 : Reach e prog 209 s4 210 s4 := reach_blk [.label .vminf32_scalar_loop] (by decide +kernel) rfl
        refine ⟨s4, ⟨i4, by omega, ?_⟩, r1.trans (r3.trans (r4.trans ?_))⟩
        · rw [x4, x2, show j + 1 - k = j - k + 1 by omega, steps, show k + (j - k) = j by omega]
        · by_cases d : j + 1 < n
          · rw [if_pos d] at r5 ⊢
            exact r5.trans r6
          · rw [if_neg d] at r5 ⊢
            exact r5)
      k s1 (by omega) ⟨i1, le_refl _, by rw [Nat.sub_self, x1, hx]; rfl⟩
    obtain rfl : k' = n := by omega
    obtain ⟨s2, r', m'⟩ := fin _ s' h1 h1''
    have r4 : Reach e prog 220 s' 221 s' := reach_blk [.nop] (by decide +kernel) rfl
    exact ⟨s2, (r1.trans (r2.trans (r3.trans (h6.trans r4)))).returns r', m'⟩

/-! ### The routine -/

/-- The whole of `VMinF32`. -/
theorem routine (hn : n < 2 ^ 63) (h : ∀ i < 4 * n, e.rd (ib + BitVec.ofNat 64 i) = true) {s : St} (f1 : s.fp 0 = ib) (f2 : s.fp 8 = BitVec.ofNat 64 n) :
    ∃ s', Returns e prog 119 s s' ∧ s'.mem = s.mem ∧ s'.g.bp = s.g.bp ∧
      s'.fp = Function.update s.fp 24 ((s.fp 24).extractLsb' 32 32 ++
        res e.o.minss (st e) 0x7f800000 (decide (e.sym .useAVX2 = 1)) (decide (e.sym .useSSE2 = 1)) n (word s.mem ib)) := by
  have b1 : ∃ s', blk e b119 s = some s' ∧ Inv s.mem ib n s.fp s.g.bp 0 s' ∧ s'.fl = ⟨some (decide (e.sym .useAVX2 = 1)), none, none, none⟩ ∧
      ∀ i < 4, s'.x 0 i = byte (0x7f800000 : BitVec 32) i := by
    xs [f1, f2, VS.sym_eq]
    refine ⟨_, rfl, ⟨(adv0 _).symm, rfl, rfl, rfl, rfl, rfl⟩, rfl, fun i hi => ?_⟩
    simp only [Function.update_self]
    rw [low_lt (by omega), bytes32, if_pos hi]
    rfl
  obtain ⟨s1, g1, i1, e1, x1⟩ := b1
  have x1' : d32 (s1.x 0) 0 = 0x7f800000 := d32_of_bytes _ _ 0 fun i hi => by rw [Nat.mul_zero, Nat.zero_add]; exact x1 i hi
  have r1 : Reach e prog 119 s 130 s1 := reach_blk b119 h119 g1
  have r2 := reach_branch (e := e) (p := prog) (pc := 130) .JE .vminf32_avx2 (by decide +kernel) (t := 136) (by decide +kernel)
    (s := s1) (by rw [e1]; rfl)
  simp only [decide_eq_true_eq] at r2
  by_cases ca : e.sym .useAVX2 = 1
  · rw [if_pos ca] at r2
    have b3 : ∃ s', blk e b136 s1 = some s' ∧ Inv s.mem ib n s.fp s.g.bp 0 s' ∧ s'.g.bx = BitVec.ofNat 64 (n - n % 32) ∧
        s'.fl = subFlags (BitVec.ofNat 64 0) (BitVec.ofNat 64 (n - n % 32)) ∧ s'.x = s1.x := by
      xs [i1.cx, i1.dx, VS.mask32]
      exact ⟨_, rfl, ⟨i1.si, rfl, rfl, i1.bp, i1.fp, i1.mem⟩, rfl, rfl, rfl⟩
    obtain ⟨s3, g3, i3, c3, e3, x3⟩ := b3
    have r3 : Reach e prog 136 _ 140 s3 := reach_blk b136 h136 g3
    have r4 := reach_branch (e := e) (p := prog) (pc := 140) .JGE .vminf32_scalar (by decide +kernel) (t := 205) (by decide +kernel)
      (s := s3) (by rw [e3]; exact taken_jge_nat (by decide) (by omega))
    simp only [decide_eq_true_eq] at r4
    by_cases cn : n - n % 32 ≤ 0
    · rw [if_pos cn] at r4
      obtain ⟨s', r', m'⟩ := scalar hn h (by omega) i3 (x3 ▸ x1')
      rw [decide_eq_true ca, res, if_neg (by omega), if_neg (by simp)]
      exact ⟨s', (r1.trans (r2.trans (r3.trans r4))).returns r', m'⟩
    · rw [if_neg cn] at r4
      have b5 : ∃ s', blk e b141 s3 = some s' ∧ Inv s.mem ib n s.fp s.g.bp 0 s' ∧ s'.g.bx = BitVec.ofNat 64 (n - n % 32) ∧
          ∀ q < 4, ∀ l < 8, d32 (s'.x q) l = 0x7f800000 := by
        xs []
        refine ⟨_, rfl, ⟨i3.si, i3.dx, i3.cx, i3.bp, i3.fp, i3.mem⟩, c3, ?_⟩
        have z : ∀ y : Vec, ∀ l < 8, d32 (low 32 (fun i => s3.x 0 (i % 4)) y) l = 0x7f800000 := by
          intro y l hl
          refine d32_of_bytes _ _ l fun i hi => ?_
          rw [low_lt (by omega), x3, x1 _ (by omega), show (4 * l + i) % 4 = i by omega]
        intro q hq l hl
        have zz : ∀ (v y : Vec), d32 (low 32 v y) l = d32 v l := fun v y => d32_low _ _ _ (by omega)
        obtain rfl | rfl | rfl | rfl : q = 0 ∨ q = 1 ∨ q = 2 ∨ q = 3 := by omega
        all_goals
          simp only [Function.update_self, ne_eq, OfNat.ofNat_ne_zero, OfNat.ofNat_ne_one, Nat.reduceEqDiff, not_false_eq_true, Function.update_of_ne, zero_ne_one,
            OfNat.one_ne_ofNat, OfNat.zero_ne_ofNat, one_ne_zero, zz _ (s3.x 1), zz _ (s3.x 2), zz _ (s3.x 3)]
          exact z _ l hl
      obtain ⟨s5, g5, i5, c5, x5⟩ := b5
      have r5 : Reach e prog 141 s3 148 s5 := reach_blk b141 h141 g5
      obtain ⟨s6, i6, r6, x6⟩ := yloop hn h i5 c5 x5 (by omega)
      obtain ⟨s7, g7, i7, x7⟩ := yjoin (e := e) i6 x6
      have r7 : Reach e prog 160 s6 164 s7 := reach_blk b160 h160 g7
      obtain ⟨s8, g8, i8, x8⟩ := yhalf (e := e) i7 x7
      have r8 : Reach e prog 164 s7 166 s8 := reach_blk b164 h164 g8
      obtain ⟨s9, g9, i9, x9⟩ := yfold (e := e) i8 x8
      have r9 : Reach e prog 166 s8 170 s9 := reach_blk b166 h166 g9
      have r10 : Reach e prog 170 s9 205 s9 := reach_jump (l := .vminf32_scalar) (c := .JMP) (by decide +kernel) rfl (by decide +kernel)
      obtain ⟨s', r', m'⟩ := scalar hn h (by omega) i9 x9
      rw [decide_eq_true ca, res, if_pos ⟨rfl, by omega⟩]
      rw [show n - (n - n % 32) = n % 32 by omega] at m'
      exact ⟨s', (r1.trans (r2.trans (r3.trans (r4.trans (r5.trans (r6.trans (r7.trans (r8.trans (r9.trans r10))))))))).returns r', m'⟩
  · rw [if_neg ca] at r2
    have b3 : ∃ s', blk e b131 s1 = some s' ∧ Inv s.mem ib n s.fp s.g.bp 0 s' ∧ s'.fl = ⟨some (decide (e.sym .useSSE2 = 1)), none, none, none⟩ ∧
        s'.x = s1.x := by
      xs [VS.sym_eq]
      exact ⟨_, rfl, ⟨i1.si, i1.dx, i1.cx, i1.bp, i1.fp, i1.mem⟩, rfl, rfl⟩
    obtain ⟨s3, g3, i3, e3, x3⟩ := b3
    have r3 : Reach e prog 131 _ 133 s3 := reach_blk b131 h131 g3
    have r4 := reach_branch (e := e) (p := prog) (pc := 133) .JE .vminf32_sse2 (by decide +kernel) (t := 172) (by decide +kernel)
      (s := s3) (by rw [e3]; rfl)
    simp only [decide_eq_true_eq] at r4
    by_cases cs : e.sym .useSSE2 = 1
    · rw [if_pos cs] at r4
      have b5 : ∃ s', blk e b172 s3 = some s' ∧ Inv s.mem ib n s.fp s.g.bp 0 s' ∧ s'.g.bx = BitVec.ofNat 64 (n - n % 16) ∧
          s'.fl = subFlags (BitVec.ofNat 64 0) (BitVec.ofNat 64 (n - n % 16)) ∧ s'.x = s3.x := by
        xs [i3.cx, i3.dx, mask16]
        exact ⟨_, rfl, ⟨i3.si, rfl, rfl, i3.bp, i3.fp, i3.mem⟩, rfl, rfl, rfl⟩
      obtain ⟨s5, g5, i5, c5, e5, x5⟩ := b5
      have r5 : Reach e prog 172 _ 176 s5 := reach_blk b172 h172 g5
      have r6 := reach_branch (e := e) (p := prog) (pc := 176) .JGE .vminf32_scalar (by decide +kernel) (t := 205) (by decide +kernel)
        (s := s5) (by rw [e5]; exact taken_jge_nat (by decide) (by omega))
      simp only [decide_eq_true_eq] at r6
      by_cases cn : n - n % 16 ≤ 0
      · rw [if_pos cn] at r6
        obtain ⟨s', r', m'⟩ := scalar hn h (by omega) i5 (x5 ▸ x3 ▸ x1')
        rw [decide_eq_false ca, res, if_neg (by simp), if_neg (by omega)]
        exact ⟨s', (r1.trans (r2.trans (r3.trans (r4.trans (r5.trans r6))))).returns r', m'⟩
      · rw [if_neg cn] at r6
        have b7 : ∃ s', blk e b177 s5 = some s' ∧ Inv s.mem ib n s.fp s.g.bp 0 s' ∧ s'.g.bx = BitVec.ofNat 64 (n - n % 16) ∧
            ∀ q < 4, ∀ l < 4, d32 (s'.x q) l = 0x7f800000 := by
          have zz : ∀ i : Nat, 4 * (0 / 4 ^ (i / 4) % 4) + i % 4 = i % 4 := by intro i; simp
          xs [Int.toNat_zero, zz]
          refine ⟨_, rfl, ⟨i5.si, i5.dx, i5.cx, i5.bp, i5.fp, i5.mem⟩, c5, ?_⟩
          have z : ∀ y : Vec, ∀ l < 4, d32 (low 16 (fun i => s5.x 0 (i % 4)) y) l = 0x7f800000 := by
            intro y l hl
            refine d32_of_bytes _ _ l fun i hi => ?_
            rw [low_lt (by omega), x5, x3, x1 _ (by omega), show (4 * l + i) % 4 = i by omega]
          intro q hq l hl
          have zz : ∀ (v y : Vec), d32 (low 16 v y) l = d32 v l := fun v y => d32_low _ _ _ (by omega)
          obtain rfl | rfl | rfl | rfl : q = 0 ∨ q = 1 ∨ q = 2 ∨ q = 3 := by omega
          all_goals
            simp only [Function.update_self, ne_eq, OfNat.ofNat_ne_zero, OfNat.ofNat_ne_one, Nat.reduceEqDiff, not_false_eq_true, Function.update_of_ne, zero_ne_one,
              OfNat.one_ne_ofNat, OfNat.zero_ne_ofNat, one_ne_zero, zz _ (s5.x 1), zz _ (s5.x 2), zz _ (s5.x 3)]
            exact z _ l hl
        obtain ⟨s7, g7, i7, c7, x7⟩ := b7
        have r7 : Reach e prog 177 s5 184 s7 := reach_blk b177 h177 g7
        obtain ⟨s8, i8, r8, x8⟩ := xloop hn h i7 c7 x7 (by omega)
        obtain ⟨s9, g9, i9, x9⟩ := xjoin (e := e) i8 x8
        have r9 : Reach e prog 196 s8 200 s9 := reach_blk b196 h196 g9
        obtain ⟨s10, g10, i10, x10⟩ := xfold (e := e) i9 x9
        have r10 : Reach e prog 200 s9 204 s10 := reach_blk b200 h200 g10
        have r11 : Reach e prog 204 s10 205 s10 := reach_blk [.nop] (by decide +kernel) rfl
        obtain ⟨s', r', m'⟩ := scalar hn h (by omega) i10 x10
        rw [decide_eq_false ca, decide_eq_true cs, res, if_neg (by simp), if_pos ⟨by simp, rfl, by omega⟩]
        rw [show n - (n - n % 16) = n % 16 by omega] at m'
        exact ⟨s', (r1.trans (r2.trans (r3.trans (r4.trans (r5.trans (r6.trans (r7.trans (r8.trans (r9.trans (r10.trans r11)))))))))).returns r', m'⟩
    · rw [if_neg cs] at r4
      have r5 : Reach e prog 134 s3 205 s3 := reach_jump (l := .vminf32_scalar) (c := .JMP) (by decide +kernel) rfl (by decide +kernel)
      obtain ⟨s', r', m'⟩ := scalar hn h (by omega) i3 (x3 ▸ x1')
      rw [decide_eq_false ca, decide_eq_false cs, res, if_neg (by simp), if_neg (by simp)]
      exact ⟨s', (r1.trans (r2.trans (r3.trans (r4.trans r5)))).returns r', m'⟩

end Verif.X86.Math.VMin
