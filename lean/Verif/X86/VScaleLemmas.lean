import Verif.X86.F16Lemmas
import Verif.X86.X86Lanes
import Verif.X86.MathModel

/-!
# The runs of `VScaleF32` on amd64, instruction by instruction
-/

namespace Verif.X86.Math.VS
open Verif.X86
open Verif.X86.Conv.F16 (word d32_inp one64 i4)

/-! ### Basic blocks -/

/-- dsp/math32_amd64.s:228-236. -/
abbrev b228 : List (Line Lbl Reg Nat) :=
  [.label .VScaleF32,
    .ins .MOVQ [.fp 0, .r .SI],
    .ins .MOVQ [.fp 8, .r .AX],
    .ins .MOVQ [.fp 24, .r .DI],
    .ins .MOVQ [.fp 32, .r .CX],
    .ins .MOVSS [.fp 48, .x 8],
    .ins .PSHUFD [.i 0, .x 8, .x 8], .nop,
    .ins .CMPQ [.r .AX, .r .CX]]

theorem h228 : (prog.drop 228).take b228.length = b228 := by decide +kernel

/-- dsp/math32_amd64.s:238-238. -/
abbrev b238 : List (Line Lbl Reg Nat) :=
  [.ins .MOVQ [.r .AX, .r .CX]]

theorem h238 : (prog.drop 238).take b238.length = b238 := by decide +kernel

/-- dsp/math32_amd64.s:239-245. -/
abbrev b239 : List (Line Lbl Reg Nat) :=
  [.label .vscalef32_min_len,
    .ins .MOVQ [.r .CX, .r .DX], .nop,
    .ins .MOVQ [.i 0, .r .AX], .nop, .nop,
    .ins .CMPB [.sb .useAVX2, .i 1]]

theorem h239 : (prog.drop 239).take b239.length = b239 := by decide +kernel

/-- dsp/math32_amd64.s:247-248. -/
abbrev b247 : List (Line Lbl Reg Nat) :=
  [.nop,
    .ins .CMPB [.sb .useSSE2, .i 1]]

theorem h247 : (prog.drop 247).take b247.length = b247 := by decide +kernel

/-- dsp/math32_amd64.s:252-255. -/
abbrev b252 : List (Line Lbl Reg Nat) :=
  [.label .vscalef32_avx2,
    .ins .MOVQ [.r .CX, .r .DX],
    .ins .ANDQ [.i (-64), .r .CX],
    .ins .CMPQ [.r .AX, .r .CX]]

theorem h252 : (prog.drop 252).take b252.length = b252 := by decide +kernel

/-- dsp/math32_amd64.s:257-260. -/
abbrev b257 : List (Line Lbl Reg Nat) :=
  [.nop,
    .ins .VBROADCASTSS [.x 8, .y 8], .nop, .label .vscalef32_avx2_loop]

theorem h257 : (prog.drop 257).take b257.length = b257 := by decide +kernel

/-- dsp/math32_amd64.s:261-264. -/
abbrev b261 : List (Line Lbl Reg Nat) :=
  [.ins .VMOVUPS [.m .SI 0, .y 0],
    .ins .VMOVUPS [.m .SI 32, .y 1],
    .ins .VMOVUPS [.m .SI 64, .y 2],
    .ins .VMOVUPS [.m .SI 96, .y 3]]

theorem h261 : (prog.drop 261).take b261.length = b261 := by decide +kernel

/-- dsp/math32_amd64.s:265-268. -/
abbrev b265 : List (Line Lbl Reg Nat) :=
  [.ins .VMULPS [.y 8, .y 0, .y 0],
    .ins .VMULPS [.y 8, .y 1, .y 1],
    .ins .VMULPS [.y 8, .y 2, .y 2],
    .ins .VMULPS [.y 8, .y 3, .y 3]]

theorem h265 : (prog.drop 265).take b265.length = b265 := by decide +kernel

/-- dsp/math32_amd64.s:269-269. -/
abbrev b269 : List (Line Lbl Reg Nat) :=
  [.ins .VMOVUPS [.y 0, .m .DI 0]]

theorem h269 : (prog.drop 269).take b269.length = b269 := by decide +kernel

/-- dsp/math32_amd64.s:270-270. -/
abbrev b270 : List (Line Lbl Reg Nat) :=
  [.ins .VMOVUPS [.y 1, .m .DI 32]]

theorem h270 : (prog.drop 270).take b270.length = b270 := by decide +kernel

/-- dsp/math32_amd64.s:271-271. -/
abbrev b271 : List (Line Lbl Reg Nat) :=
  [.ins .VMOVUPS [.y 2, .m .DI 64]]

theorem h271 : (prog.drop 271).take b271.length = b271 := by decide +kernel

/-- dsp/math32_amd64.s:272-272. -/
abbrev b272 : List (Line Lbl Reg Nat) :=
  [.ins .VMOVUPS [.y 3, .m .DI 96]]

theorem h272 : (prog.drop 272).take b272.length = b272 := by decide +kernel

/-- dsp/math32_amd64.s:273-276. -/
abbrev b273 : List (Line Lbl Reg Nat) :=
  [.ins .ADDQ [.i 32, .r .AX],
    .ins .ADDQ [.i 128, .r .SI],
    .ins .ADDQ [.i 128, .r .DI],
    .ins .CMPQ [.r .AX, .r .CX]]

theorem h273 : (prog.drop 273).take b273.length = b273 := by decide +kernel

/-- dsp/math32_amd64.s:278-278. -/
abbrev b278 : List (Line Lbl Reg Nat) :=
  [.nop]

theorem h278 : (prog.drop 278).take b278.length = b278 := by decide +kernel

/-- dsp/math32_amd64.s:281-284. -/
abbrev b281 : List (Line Lbl Reg Nat) :=
  [.label .vscalef32_sse2,
    .ins .MOVQ [.r .CX, .r .DX],
    .ins .ANDQ [.i (-32), .r .CX],
    .ins .CMPQ [.r .AX, .r .CX]]

theorem h281 : (prog.drop 281).take b281.length = b281 := by decide +kernel

/-- dsp/math32_amd64.s:286-287. -/
abbrev b286 : List (Line Lbl Reg Nat) :=
  [.nop, .label .vscalef32_sse2_loop]

theorem h286 : (prog.drop 286).take b286.length = b286 := by decide +kernel

/-- dsp/math32_amd64.s:288-291. -/
abbrev b288 : List (Line Lbl Reg Nat) :=
  [.ins .MOVUPS [.m .SI 0, .x 0],
    .ins .MOVUPS [.m .SI 16, .x 1],
    .ins .MOVUPS [.m .SI 32, .x 2],
    .ins .MOVUPS [.m .SI 48, .x 3]]

theorem h288 : (prog.drop 288).take b288.length = b288 := by decide +kernel

/-- dsp/math32_amd64.s:292-295. -/
abbrev b292 : List (Line Lbl Reg Nat) :=
  [.ins .MULPS [.x 8, .x 0],
    .ins .MULPS [.x 8, .x 1],
    .ins .MULPS [.x 8, .x 2],
    .ins .MULPS [.x 8, .x 3]]

theorem h292 : (prog.drop 292).take b292.length = b292 := by decide +kernel

/-- dsp/math32_amd64.s:296-296. -/
abbrev b296 : List (Line Lbl Reg Nat) :=
  [.ins .MOVUPS [.x 0, .m .DI 0]]

theorem h296 : (prog.drop 296).take b296.length = b296 := by decide +kernel

/-- dsp/math32_amd64.s:297-297. -/
abbrev b297 : List (Line Lbl Reg Nat) :=
  [.ins .MOVUPS [.x 1, .m .DI 16]]

theorem h297 : (prog.drop 297).take b297.length = b297 := by decide +kernel

/-- dsp/math32_amd64.s:298-298. -/
abbrev b298 : List (Line Lbl Reg Nat) :=
  [.ins .MOVUPS [.x 2, .m .DI 32]]

theorem h298 : (prog.drop 298).take b298.length = b298 := by decide +kernel

/-- dsp/math32_amd64.s:299-299. -/
abbrev b299 : List (Line Lbl Reg Nat) :=
  [.ins .MOVUPS [.x 3, .m .DI 48]]

theorem h299 : (prog.drop 299).take b299.length = b299 := by decide +kernel

/-- dsp/math32_amd64.s:300-303. -/
abbrev b300 : List (Line Lbl Reg Nat) :=
  [.ins .ADDQ [.i 16, .r .AX],
    .ins .ADDQ [.i 64, .r .SI],
    .ins .ADDQ [.i 64, .r .DI],
    .ins .CMPQ [.r .AX, .r .CX]]

theorem h300 : (prog.drop 300).take b300.length = b300 := by decide +kernel

/-- dsp/math32_amd64.s:305-307. -/
abbrev b305 : List (Line Lbl Reg Nat) :=
  [.nop, .label .vscalef32_scalar,
    .ins .CMPQ [.r .AX, .r .DX]]

theorem h305 : (prog.drop 305).take b305.length = b305 := by decide +kernel

/-- dsp/math32_amd64.s:309-310. -/
abbrev b309 : List (Line Lbl Reg Nat) :=
  [.nop, .label .vscalef32_scalar_loop]

theorem h309 : (prog.drop 309).take b309.length = b309 := by decide +kernel

/-- dsp/math32_amd64.s:311-317. -/
abbrev b311 : List (Line Lbl Reg Nat) :=
  [.ins .MOVSS [.m .SI 0, .x 0],
    .ins .MULSS [.x 8, .x 0],
    .ins .MOVSS [.x 0, .m .DI 0],
    .ins .INCQ [.r .AX],
    .ins .ADDQ [.i 4, .r .SI],
    .ins .ADDQ [.i 4, .r .DI],
    .ins .CMPQ [.r .AX, .r .CX]]

theorem h311 : (prog.drop 311).take b311.length = b311 := by decide +kernel

/-- dsp/math32_amd64.s:319-320. -/
abbrev b319 : List (Line Lbl Reg Nat) :=
  [.nop, .label .vscalef32_done]

theorem h319 : (prog.drop 319).take b319.length = b319 := by decide +kernel

/-- dsp/math32_amd64.s:306-307. -/
abbrev b306 : List (Line Lbl Reg Nat) :=
  [.label .vscalef32_scalar,
    .ins .CMPQ [.r .AX, .r .DX]]

theorem h306 : (prog.drop 306).take b306.length = b306 := by decide +kernel



/-! ### Memory -/

/-- `r` bytes from `ib` can be read, `w` bytes from `ob` can be written, and no byte is written before it is read from the same place. -/
structure Ahead (e : Env) (ib ob : BitVec 64) (r w : Nat) : Prop where
  r_lt : r < 2 ^ 63
  w_lt : w < 2 ^ 63
  rd : ∀ i < r, e.rd (ib + BitVec.ofNat 64 i) = true
  wr : ∀ i < w, e.wr (ob + BitVec.ofNat 64 i) = true
  apart : ∀ i < r, i ≤ (ib + BitVec.ofNat 64 i - ob).toNat

theorem Ahead.load {e : Env} {ib ob : BitVec 64} {r w : Nat} (h : Ahead e ib ob r w) {m0 : BitVec 64 → BitVec 8} {g : Nat → BitVec 8} {v : Nat} {s : St}
    (hm : s.mem = fill m0 ob v g) {a : BitVec 64} {k len : Nat} (hv : v ≤ k) (ha : a = ib + BitVec.ofNat 64 k) (hk : k + len ≤ r) :
    e.load s a len = some (inp m0 ib k len) := by
  unfold Env.load inp
  rw [ha, if_pos (allBytes_of fun i hi => h.rd _ (by omega))]
  congr 1
  funext i
  split
  · rw [adv, hm, fill_out]
    have := h.apart (k + i) (by omega)
    omega
  · rfl

theorem Ahead.store {e : Env} {ib ob : BitVec 64} {r w : Nat} (h : Ahead e ib ob r w) {m0 : BitVec 64 → BitVec 8} {g : Nat → BitVec 8} {v : Nat} {s : St}
    (hm : s.mem = fill m0 ob v g) {a : BitVec 64} {len : Nat} {x : Vec} (ha : a = ob + BitVec.ofNat 64 v) (hk : v + len ≤ w)
    (hx : ∀ i < len, x i = g (v + i)) : e.store s a len x = some { s with mem := fill m0 ob (v + len) g } := by
  unfold Env.store
  rw [ha, if_pos (allBytes_of fun i hi => h.wr _ (by omega)), hm, fill_fill _ _ _ _ _ _ (by have := h.w_lt; omega) hx]

/-! ### Invariant -/

/-- The product of number `i` and the scale. -/
def prod (e : Env) (m0 : BitVec 64 → BitVec 8) (ib : BitVec 64) (sc : BitVec 32) (i : Nat) : BitVec 32 := e.o.mul32 (word m0 ib i) sc

/-- The output bytes. -/
def want (e : Env) (m0 : BitVec 64 → BitVec 8) (ib : BitVec 64) (sc : BitVec 32) (j : Nat) : BitVec 8 := byte (prod e m0 ib sc (j / 4)) (j % 4)

/-- After `k` numbers with `w` bytes written; `c` is the limit in `CX`, `L` lanes hold the scale. -/
structure Inv (e : Env) (m0 : BitVec 64 → BitVec 8) (ib ob : BitVec 64) (sc : BitVec 32) (n c L : Nat) (f0 : Nat → BitVec 64) (bp : BitVec 64) (k w : Nat)
    (s : St) : Prop where
  si : s.g.si = ib + BitVec.ofNat 64 (4 * k)
  di : s.g.di = ob + BitVec.ofNat 64 (4 * k)
  ax : s.g.ax = BitVec.ofNat 64 k
  dx : s.g.dx = BitVec.ofNat 64 n
  cx : s.g.cx = BitVec.ofNat 64 c
  x8 : ∀ l < L, d32 (s.x 8) l = sc
  bp : s.g.bp = bp
  fp : s.fp = f0
  mem : s.mem = fill m0 ob w (want e m0 ib sc)

variable {e : Env} {m0 : BitVec 64 → BitVec 8} {ib ob : BitVec 64} {sc : BitVec 32} {n N c L : Nat} {f0 : Nat → BitVec 64} {bp : BitVec 64}

theorem Inv.less {k w : Nat} {s : St} (h : Inv e m0 ib ob sc n c L f0 bp k w s) {L' : Nat} (hl : L' ≤ L) : Inv e m0 ib ob sc n c L' f0 bp k w s :=
  ⟨h.si, h.di, h.ax, h.dx, h.cx, fun l h' => h.x8 l (by omega), h.bp, h.fp, h.mem⟩

/-! ### 32 numbers -/

theorem y1 (h : Ahead e ib ob (4 * N) (4 * N)) {k : Nat} (hk : k + 32 ≤ N) {s : St} (hi : Inv e m0 ib ob sc n c 8 f0 bp k (4 * k) s) :
    ∃ s', blk e b261 s = some s' ∧ Inv e m0 ib ob sc n c 8 f0 bp k (4 * k) s' ∧ ∀ q < 4, ∀ l < 8, d32 (s'.x q) l = word m0 ib (k + (8 * q + l)) := by
  xs [hi.si, h.load hi.mem (le_refl _) rfl (show 4 * k + 32 ≤ 4 * N by omega), adv]
  rw [h.load (k := 4 * k + 32) (g := want e m0 ib sc) (m0 := m0) (v := 4 * k) ?_ (by omega) rfl (by omega)]
  rotate_left
  · exact hi.mem
  xs [hi.si, adv]
  rw [h.load (k := 4 * k + 64) (g := want e m0 ib sc) (m0 := m0) (v := 4 * k) ?_ (by omega) rfl (by omega)]
  rotate_left
  · exact hi.mem
  xs [hi.si, adv]
  rw [h.load (k := 4 * k + 96) (g := want e m0 ib sc) (m0 := m0) (v := 4 * k) ?_ (by omega) rfl (by omega)]
  rotate_left
  · exact hi.mem
  xs []
  refine ⟨_, rfl, ⟨hi.si, hi.di, hi.ax, hi.dx, hi.cx, ?_, hi.bp, hi.fp, hi.mem⟩, ?_⟩
  · intro l hl
    simpa using hi.x8 l hl
  · intro q hq l hl
    have a0 := d32_inp m0 ib k 32 l (by omega)
    have a1 := d32_inp m0 ib (k + 8) 32 l (by omega)
    have a2 := d32_inp m0 ib (k + 16) 32 l (by omega)
    have a3 := d32_inp m0 ib (k + 24) 32 l (by omega)
    rw [Nat.mul_add] at a1 a2 a3
    obtain rfl | rfl | rfl | rfl : q = 0 ∨ q = 1 ∨ q = 2 ∨ q = 3 := by omega
    · simpa [d32_low (n := 32) _ _ l (show 4 * l + 3 < 32 by omega)] using a0
    · simpa [d32_low (n := 32) _ _ l (show 4 * l + 3 < 32 by omega), Nat.add_assoc] using a1
    · simpa [d32_low (n := 32) _ _ l (show 4 * l + 3 < 32 by omega), Nat.add_assoc] using a2
    · simpa [d32_low (n := 32) _ _ l (show 4 * l + 3 < 32 by omega), Nat.add_assoc] using a3

theorem ylow (f : Nat → BitVec 32) (y : Vec) (k : Nat) (h : k < 8) : d32 (low 32 (of32 f) y) k = f k := by
  rw [d32_low _ _ _ (by omega), d32_of32]

theorem y2 {k w : Nat} {s : St} (hi : Inv e m0 ib ob sc n c 8 f0 bp k w s)
    (hx : ∀ q < 4, ∀ l < 8, d32 (s.x q) l = word m0 ib (k + (8 * q + l))) :
    ∃ s', blk e b265 s = some s' ∧ Inv e m0 ib ob sc n c 8 f0 bp k w s' ∧
      ∀ q < 4, ∀ i < 32, s'.x q i = byte (prod e m0 ib sc (k + (8 * q + i / 4))) (i % 4) := by
  xs []
  refine ⟨_, rfl, ⟨hi.si, hi.di, hi.ax, hi.dx, hi.cx, ?_, hi.bp, hi.fp, hi.mem⟩, ?_⟩
  · intro l hl
    simpa using hi.x8 l hl
  · intro q hq i hl
    have hq' := hx q hq (i / 4) (by omega)
    have h8 := hi.x8 (i / 4) (by omega)
    obtain rfl | rfl | rfl | rfl : q = 0 ∨ q = 1 ∨ q = 2 ∨ q = 3 := by omega
    all_goals
      simp [low_lt hl, of32, h8, prod, hq']

theorem ys0 (h : Ahead e ib ob (4 * N) (4 * N)) {k : Nat} (hk : k + 32 ≤ N) {s : St} (hi : Inv e m0 ib ob sc n c 8 f0 bp k (4 * k) s)
    (hx : ∀ q < 4, ∀ i < 32, s.x q i = byte (prod e m0 ib sc (k + (8 * q + i / 4))) (i % 4)) :
    ∃ s', blk e b269 s = some s' ∧ Inv e m0 ib ob sc n c 8 f0 bp k (4 * k + 32) s' ∧
      ∀ q < 4, ∀ i < 32, s'.x q i = byte (prod e m0 ib sc (k + (8 * q + i / 4))) (i % 4) := by
  xs [hi.di, adv]
  rw [h.store (v := 4 * k) (g := want e m0 ib sc) (m0 := m0) ?_ rfl ?_ ?_]
  rotate_left
  · exact hi.mem
  · omega
  · intro i hi'
    rw [hx 0 (by omega) i hi', want, show (4 * k + i) / 4 = k + (8 * 0 + i / 4) by omega, show (4 * k + i) % 4 = i % 4 by omega]
  exact ⟨_, rfl, ⟨hi.si, hi.di, hi.ax, hi.dx, hi.cx, hi.x8, hi.bp, hi.fp, rfl⟩, hx⟩

theorem ys1 (h : Ahead e ib ob (4 * N) (4 * N)) {k : Nat} (hk : k + 32 ≤ N) {s : St} (hi : Inv e m0 ib ob sc n c 8 f0 bp k (4 * k + 32) s)
    (hx : ∀ q < 4, ∀ i < 32, s.x q i = byte (prod e m0 ib sc (k + (8 * q + i / 4))) (i % 4)) :
    ∃ s', blk e b270 s = some s' ∧ Inv e m0 ib ob sc n c 8 f0 bp k (4 * k + 64) s' ∧
      ∀ q < 4, ∀ i < 32, s'.x q i = byte (prod e m0 ib sc (k + (8 * q + i / 4))) (i % 4) := by
  xs [hi.di, adv]
  rw [h.store (v := 4 * k + 32) (g := want e m0 ib sc) (m0 := m0) ?_ rfl ?_ ?_]
  rotate_left
  · exact hi.mem
  · omega
  · intro i hi'
    rw [hx 1 (by omega) i hi', want, show (4 * k + 32 + i) / 4 = k + (8 * 1 + i / 4) by omega, show (4 * k + 32 + i) % 4 = i % 4 by omega]
  exact ⟨_, rfl, ⟨hi.si, hi.di, hi.ax, hi.dx, hi.cx, hi.x8, hi.bp, hi.fp, rfl⟩, hx⟩

theorem ys2 (h : Ahead e ib ob (4 * N) (4 * N)) {k : Nat} (hk : k + 32 ≤ N) {s : St} (hi : Inv e m0 ib ob sc n c 8 f0 bp k (4 * k + 64) s)
    (hx : ∀ q < 4, ∀ i < 32, s.x q i = byte (prod e m0 ib sc (k + (8 * q + i / 4))) (i % 4)) :
    ∃ s', blk e b271 s = some s' ∧ Inv e m0 ib ob sc n c 8 f0 bp k (4 * k + 96) s' ∧
      ∀ q < 4, ∀ i < 32, s'.x q i = byte (prod e m0 ib sc (k + (8 * q + i / 4))) (i % 4) := by
  xs [hi.di, adv]
  rw [h.store (v := 4 * k + 64) (g := want e m0 ib sc) (m0 := m0) ?_ rfl ?_ ?_]
  rotate_left
  · exact hi.mem
  · omega
  · intro i hi'
    rw [hx 2 (by omega) i hi', want, show (4 * k + 64 + i) / 4 = k + (8 * 2 + i / 4) by omega, show (4 * k + 64 + i) % 4 = i % 4 by omega]
  exact ⟨_, rfl, ⟨hi.si, hi.di, hi.ax, hi.dx, hi.cx, hi.x8, hi.bp, hi.fp, rfl⟩, hx⟩

theorem ys3 (h : Ahead e ib ob (4 * N) (4 * N)) {k : Nat} (hk : k + 32 ≤ N) {s : St} (hi : Inv e m0 ib ob sc n c 8 f0 bp k (4 * k + 96) s)
    (hx : ∀ q < 4, ∀ i < 32, s.x q i = byte (prod e m0 ib sc (k + (8 * q + i / 4))) (i % 4)) :
    ∃ s', blk e b272 s = some s' ∧ Inv e m0 ib ob sc n c 8 f0 bp k (4 * (k + 32)) s' ∧
      ∀ q < 4, ∀ i < 32, s'.x q i = byte (prod e m0 ib sc (k + (8 * q + i / 4))) (i % 4) := by
  xs [hi.di, adv]
  rw [h.store (v := 4 * k + 96) (g := want e m0 ib sc) (m0 := m0) ?_ rfl ?_ ?_]
  rotate_left
  · exact hi.mem
  · omega
  · intro i hi'
    rw [hx 3 (by omega) i hi', want, show (4 * k + 96 + i) / 4 = k + (8 * 3 + i / 4) by omega, show (4 * k + 96 + i) % 4 = i % 4 by omega]
  exact ⟨_, rfl, ⟨hi.si, hi.di, hi.ax, hi.dx, hi.cx, hi.x8, hi.bp, hi.fp, rfl⟩, hx⟩

theorem yloop (h : Ahead e ib ob (4 * N) (4 * N)) {k : Nat} (hk : k < c) (hkL : k % 32 = 0) (hc : c % 32 = 0) (hcN : c ≤ N) {s : St}
    (hi : Inv e m0 ib ob sc n c 8 f0 bp k (4 * k) s) :
    ∃ s', Inv e m0 ib ob sc n c 8 f0 bp c (4 * c) s' ∧ Reach e prog 261 s 278 s' := by
  have hn := h.r_lt
  obtain ⟨k', s', ⟨h1, h1'⟩, h2, h3, h4, -, h6⟩ := loop (e := e) (p := prog) (a := 261) (b := 278)
    (fun k s => Inv e m0 ib ob sc n c 8 f0 bp k (4 * k) s ∧ k % 32 = 0) c 32 (by omega)
    (by
      rintro k s hk ⟨hi, hkL⟩
      obtain ⟨s1, g1, i1, x1⟩ := y1 h (by omega) hi
      obtain ⟨s2, g2, i2, x2⟩ := y2 i1 x1
      obtain ⟨s3, g3, i3, x3⟩ := ys0 h (by omega) i2 x2
      obtain ⟨s4, g4, i4, x4⟩ := ys1 h (by omega) i3 x3
      obtain ⟨s5, g5, i5, x5⟩ := ys2 h (by omega) i4 x4
      obtain ⟨s6, g6, i6, x6⟩ := ys3 h (by omega) i5 x5
      have b7 : ∃ s', blk e b273 s6 = some s' ∧ Inv e m0 ib ob sc n c 8 f0 bp (k + 32) (4 * (k + 32)) s' ∧
          s'.fl = subFlags (BitVec.ofNat 64 (k + 32)) (BitVec.ofNat 64 c) := by
        xs [i6.si, i6.di, i6.ax, i6.cx, show imm32 32 = BitVec.ofNat 64 32 from rfl, show imm32 128 = BitVec.ofNat 64 128 from rfl, adv]
        refine ⟨_, rfl, ⟨?_, ?_, ?_, i6.dx, rfl, i6.x8, i6.bp, i6.fp, i6.mem⟩, ?_⟩
        · rw [Nat.mul_add]
        · rw [Nat.mul_add]
        · exact BitVec.ofNat_add_ofNat _ _
        · rw [BitVec.ofNat_add_ofNat]
      obtain ⟨s7, g7, i7, f7⟩ := b7
      have r1 : Reach e prog 261 s 265 s1 := reach_blk b261 h261 g1
      have r2 : Reach e prog 265 s1 269 s2 := reach_blk b265 h265 g2
      have r3 : Reach e prog 269 s2 270 s3 := reach_blk b269 h269 g3
      have r4 : Reach e prog 270 s3 271 s4 := reach_blk b270 h270 g4
      have r5 : Reach e prog 271 s4 272 s5 := reach_blk b271 h271 g5
      have r6 : Reach e prog 272 s5 273 s6 := reach_blk b272 h272 g6
      have r7 : Reach e prog 273 s6 277 s7 := reach_blk b273 h273 g7
      have r8 := reach_branch (e := e) (p := prog) (pc := 277) .JLT .vscalef32_avx2_loop (by decide +kernel) (t := 260) (by decide +kernel)
        (s := s7) (by rw [f7]; exact taken_jlt_nat (by omega) (by omega))
      simp only [decide_eq_true_eq] at r8
      have r9 : Reach e prog 260 s7 261 s7 := reach_blk [.label .vscalef32_avx2_loop] (by decide +kernel) rfl
      refine ⟨s7, ⟨i7, by omega⟩, r1.trans (r2.trans (r3.trans (r4.trans (r5.trans (r6.trans (r7.trans ?_))))))⟩
      by_cases q : k + 32 < c
      · rw [if_pos q] at r8 ⊢
        exact r8.trans r9
      · rw [if_neg q] at r8 ⊢
        exact r8)
    k s hk ⟨hi, hkL⟩
  obtain rfl : k' = c := by omega
  exact ⟨s', h1, h6⟩

/-! ### 16 numbers -/

theorem x1 (h : Ahead e ib ob (4 * N) (4 * N)) {k : Nat} (hk : k + 16 ≤ N) {s : St} (hi : Inv e m0 ib ob sc n c 4 f0 bp k (4 * k) s) :
    ∃ s', blk e b288 s = some s' ∧ Inv e m0 ib ob sc n c 4 f0 bp k (4 * k) s' ∧ ∀ q < 4, ∀ l < 4, d32 (s'.x q) l = word m0 ib (k + (4 * q + l)) := by
  xs [hi.si, h.load hi.mem (le_refl _) rfl (show 4 * k + 16 ≤ 4 * N by omega), adv]
  rw [h.load (k := 4 * k + 16) (g := want e m0 ib sc) (m0 := m0) (v := 4 * k) ?_ (by omega) rfl (by omega)]
  rotate_left
  · exact hi.mem
  xs [hi.si, adv]
  rw [h.load (k := 4 * k + 32) (g := want e m0 ib sc) (m0 := m0) (v := 4 * k) ?_ (by omega) rfl (by omega)]
  rotate_left
  · exact hi.mem
  xs [hi.si, adv]
  rw [h.load (k := 4 * k + 48) (g := want e m0 ib sc) (m0 := m0) (v := 4 * k) ?_ (by omega) rfl (by omega)]
  rotate_left
  · exact hi.mem
  xs []
  refine ⟨_, rfl, ⟨hi.si, hi.di, hi.ax, hi.dx, hi.cx, ?_, hi.bp, hi.fp, hi.mem⟩, ?_⟩
  · intro l hl
    simpa using hi.x8 l hl
  · intro q hq l hl
    have a0 := d32_inp m0 ib k 16 l (by omega)
    have a1 := d32_inp m0 ib (k + 4) 16 l (by omega)
    have a2 := d32_inp m0 ib (k + 8) 16 l (by omega)
    have a3 := d32_inp m0 ib (k + 12) 16 l (by omega)
    rw [Nat.mul_add] at a1 a2 a3
    obtain rfl | rfl | rfl | rfl : q = 0 ∨ q = 1 ∨ q = 2 ∨ q = 3 := by omega
    · simpa [d32_low (n := 16) _ _ l (show 4 * l + 3 < 16 by omega)] using a0
    · simpa [d32_low (n := 16) _ _ l (show 4 * l + 3 < 16 by omega), Nat.add_assoc] using a1
    · simpa [d32_low (n := 16) _ _ l (show 4 * l + 3 < 16 by omega), Nat.add_assoc] using a2
    · simpa [d32_low (n := 16) _ _ l (show 4 * l + 3 < 16 by omega), Nat.add_assoc] using a3

theorem xlow (f : Nat → BitVec 32) (y : Vec) (k : Nat) (h : k < 4) : d32 (low 16 (of32 f) y) k = f k := by
  rw [d32_low _ _ _ (by omega), d32_of32]

theorem x2 {k w : Nat} {s : St} (hi : Inv e m0 ib ob sc n c 4 f0 bp k w s)
    (hx : ∀ q < 4, ∀ l < 4, d32 (s.x q) l = word m0 ib (k + (4 * q + l))) :
    ∃ s', blk e b292 s = some s' ∧ Inv e m0 ib ob sc n c 4 f0 bp k w s' ∧
      ∀ q < 4, ∀ i < 16, s'.x q i = byte (prod e m0 ib sc (k + (4 * q + i / 4))) (i % 4) := by
  xs []
  refine ⟨_, rfl, ⟨hi.si, hi.di, hi.ax, hi.dx, hi.cx, ?_, hi.bp, hi.fp, hi.mem⟩, ?_⟩
  · intro l hl
    simpa using hi.x8 l hl
  · intro q hq i hl
    have hq' := hx q hq (i / 4) (by omega)
    have h8 := hi.x8 (i / 4) (by omega)
    obtain rfl | rfl | rfl | rfl : q = 0 ∨ q = 1 ∨ q = 2 ∨ q = 3 := by omega
    all_goals
      simp [low_lt hl, of32, h8, prod, hq']

theorem xs0 (h : Ahead e ib ob (4 * N) (4 * N)) {k : Nat} (hk : k + 16 ≤ N) {s : St} (hi : Inv e m0 ib ob sc n c 4 f0 bp k (4 * k) s)
    (hx : ∀ q < 4, ∀ i < 16, s.x q i = byte (prod e m0 ib sc (k + (4 * q + i / 4))) (i % 4)) :
    ∃ s', blk e b296 s = some s' ∧ Inv e m0 ib ob sc n c 4 f0 bp k (4 * k + 16) s' ∧
      ∀ q < 4, ∀ i < 16, s'.x q i = byte (prod e m0 ib sc (k + (4 * q + i / 4))) (i % 4) := by
  xs [hi.di, adv]
  rw [h.store (v := 4 * k) (g := want e m0 ib sc) (m0 := m0) ?_ rfl ?_ ?_]
  rotate_left
  · exact hi.mem
  · omega
  · intro i hi'
    rw [hx 0 (by omega) i hi', want, show (4 * k + i) / 4 = k + (4 * 0 + i / 4) by omega, show (4 * k + i) % 4 = i % 4 by omega]
  exact ⟨_, rfl, ⟨hi.si, hi.di, hi.ax, hi.dx, hi.cx, hi.x8, hi.bp, hi.fp, rfl⟩, hx⟩

theorem xs1 (h : Ahead e ib ob (4 * N) (4 * N)) {k : Nat} (hk : k + 16 ≤ N) {s : St} (hi : Inv e m0 ib ob sc n c 4 f0 bp k (4 * k + 16) s)
    (hx : ∀ q < 4, ∀ i < 16, s.x q i = byte (prod e m0 ib sc (k + (4 * q + i / 4))) (i % 4)) :
    ∃ s', blk e b297 s = some s' ∧ Inv e m0 ib ob sc n c 4 f0 bp k (4 * k + 32) s' ∧
      ∀ q < 4, ∀ i < 16, s'.x q i = byte (prod e m0 ib sc (k + (4 * q + i / 4))) (i % 4) := by
  xs [hi.di, adv]
  rw [h.store (v := 4 * k + 16) (g := want e m0 ib sc) (m0 := m0) ?_ rfl ?_ ?_]
  rotate_left
  · exact hi.mem
  · omega
  · intro i hi'
    rw [hx 1 (by omega) i hi', want, show (4 * k + 16 + i) / 4 = k + (4 * 1 + i / 4) by omega, show (4 * k + 16 + i) % 4 = i % 4 by omega]
  exact ⟨_, rfl, ⟨hi.si, hi.di, hi.ax, hi.dx, hi.cx, hi.x8, hi.bp, hi.fp, rfl⟩, hx⟩

theorem xs2 (h : Ahead e ib ob (4 * N) (4 * N)) {k : Nat} (hk : k + 16 ≤ N) {s : St} (hi : Inv e m0 ib ob sc n c 4 f0 bp k (4 * k + 32) s)
    (hx : ∀ q < 4, ∀ i < 16, s.x q i = byte (prod e m0 ib sc (k + (4 * q + i / 4))) (i % 4)) :
    ∃ s', blk e b298 s = some s' ∧ Inv e m0 ib ob sc n c 4 f0 bp k (4 * k + 48) s' ∧
      ∀ q < 4, ∀ i < 16, s'.x q i = byte (prod e m0 ib sc (k + (4 * q + i / 4))) (i % 4) := by
  xs [hi.di, adv]
  rw [h.store (v := 4 * k + 32) (g := want e m0 ib sc) (m0 := m0) ?_ rfl ?_ ?_]
  rotate_left
  · exact hi.mem
  · omega
  · intro i hi'
    rw [hx 2 (by omega) i hi', want, show (4 * k + 32 + i) / 4 = k + (4 * 2 + i / 4) by omega, show (4 * k + 32 + i) % 4 = i % 4 by omega]
  exact ⟨_, rfl, ⟨hi.si, hi.di, hi.ax, hi.dx, hi.cx, hi.x8, hi.bp, hi.fp, rfl⟩, hx⟩

theorem xs3 (h : Ahead e ib ob (4 * N) (4 * N)) {k : Nat} (hk : k + 16 ≤ N) {s : St} (hi : Inv e m0 ib ob sc n c 4 f0 bp k (4 * k + 48) s)
    (hx : ∀ q < 4, ∀ i < 16, s.x q i = byte (prod e m0 ib sc (k + (4 * q + i / 4))) (i % 4)) :
    ∃ s', blk e b299 s = some s' ∧ Inv e m0 ib ob sc n c 4 f0 bp k (4 * (k + 16)) s' ∧
      ∀ q < 4, ∀ i < 16, s'.x q i = byte (prod e m0 ib sc (k + (4 * q + i / 4))) (i % 4) := by
  xs [hi.di, adv]
  rw [h.store (v := 4 * k + 48) (g := want e m0 ib sc) (m0 := m0) ?_ rfl ?_ ?_]
  rotate_left
  · exact hi.mem
  · omega
  · intro i hi'
    rw [hx 3 (by omega) i hi', want, show (4 * k + 48 + i) / 4 = k + (4 * 3 + i / 4) by omega, show (4 * k + 48 + i) % 4 = i % 4 by omega]
  exact ⟨_, rfl, ⟨hi.si, hi.di, hi.ax, hi.dx, hi.cx, hi.x8, hi.bp, hi.fp, rfl⟩, hx⟩

theorem xloop (h : Ahead e ib ob (4 * N) (4 * N)) {k : Nat} (hk : k < c) (hkL : k % 16 = 0) (hc : c % 16 = 0) (hcN : c ≤ N) {s : St}
    (hi : Inv e m0 ib ob sc n c 4 f0 bp k (4 * k) s) :
    ∃ s', Inv e m0 ib ob sc n c 4 f0 bp c (4 * c) s' ∧ Reach e prog 288 s 305 s' := by
  have hn := h.r_lt
  obtain ⟨k', s', ⟨h1, h1'⟩, h2, h3, h4, -, h6⟩ := loop (e := e) (p := prog) (a := 288) (b := 305)
    (fun k s => Inv e m0 ib ob sc n c 4 f0 bp k (4 * k) s ∧ k % 16 = 0) c 16 (by omega)
    (by
      rintro k s hk ⟨hi, hkL⟩
      obtain ⟨s1, g1, i1, x1⟩ := x1 h (by omega) hi
      obtain ⟨s2, g2, i2, x2⟩ := x2 i1 x1
      obtain ⟨s3, g3, i3, x3⟩ := xs0 h (by omega) i2 x2
      obtain ⟨s4, g4, i4, x4⟩ := xs1 h (by omega) i3 x3
      obtain ⟨s5, g5, i5, x5⟩ := xs2 h (by omega) i4 x4
      obtain ⟨s6, g6, i6, x6⟩ := xs3 h (by omega) i5 x5
      have b7 : ∃ s', blk e b300 s6 = some s' ∧ Inv e m0 ib ob sc n c 4 f0 bp (k + 16) (4 * (k + 16)) s' ∧
          s'.fl = subFlags (BitVec.ofNat 64 (k + 16)) (BitVec.ofNat 64 c) := by
        xs [i6.si, i6.di, i6.ax, i6.cx, show imm32 16 = BitVec.ofNat 64 16 from rfl, show imm32 64 = BitVec.ofNat 64 64 from rfl, adv]
        refine ⟨_, rfl, ⟨?_, ?_, ?_, i6.dx, rfl, i6.x8, i6.bp, i6.fp, i6.mem⟩, ?_⟩
        · rw [Nat.mul_add]
        · rw [Nat.mul_add]
        · exact BitVec.ofNat_add_ofNat _ _
        · rw [BitVec.ofNat_add_ofNat]
      obtain ⟨s7, g7, i7, f7⟩ := b7
      have r1 : Reach e prog 288 s 292 s1 := reach_blk b288 h288 g1
      have r2 : Reach e prog 292 s1 296 s2 := reach_blk b292 h292 g2
      have r3 : Reach e prog 296 s2 297 s3 := reach_blk b296 h296 g3
      have r4 : Reach e prog 297 s3 298 s4 := reach_blk b297 h297 g4
      have r5 : Reach e prog 298 s4 299 s5 := reach_blk b298 h298 g5
      have r6 : Reach e prog 299 s5 300 s6 := reach_blk b299 h299 g6
      have r7 : Reach e prog 300 s6 304 s7 := reach_blk b300 h300 g7
      have r8 := reach_branch (e := e) (p := prog) (pc := 304) .JLT .vscalef32_sse2_loop (by decide +kernel) (t := 287) (by decide +kernel)
        (s := s7) (by rw [f7]; exact taken_jlt_nat (by omega) (by omega))
      simp only [decide_eq_true_eq] at r8
      have r9 : Reach e prog 287 s7 288 s7 := reach_blk [.label .vscalef32_sse2_loop] (by decide +kernel) rfl
      refine ⟨s7, ⟨i7, by omega⟩, r1.trans (r2.trans (r3.trans (r4.trans (r5.trans (r6.trans (r7.trans ?_))))))⟩
      by_cases q : k + 16 < c
      · rw [if_pos q] at r8 ⊢
        exact r8.trans r9
      · rw [if_neg q] at r8 ⊢
        exact r8)
    k s hk ⟨hi, hkL⟩
  obtain rfl : k' = c := by omega
  exact ⟨s', h1, h6⟩

/-! ### Single numbers -/

theorem step_body (h : Ahead e ib ob (4 * N) (4 * N)) {k : Nat} (hk : k < N) {s : St} (hi : Inv e m0 ib ob sc n c 1 f0 bp k (4 * k) s) :
    ∃ s', blk e b311 s = some s' ∧ Inv e m0 ib ob sc n c 1 f0 bp (k + 1) (4 * (k + 1)) s' ∧
      s'.fl = subFlags (BitVec.ofNat 64 (k + 1)) (BitVec.ofNat 64 c) := by
  have a0 := d32_inp m0 ib k 4 0 (by omega)
  have a8 := hi.x8 0 (by omega)
  xs [hi.si, h.load hi.mem (le_refl _) rfl (show 4 * k + 4 ≤ 4 * N by omega), hi.di]
  simp only [Function.update_self, Function.update_of_ne (show (8 : Nat) ≠ 0 by decide), d32_low (n := 16) _ _ 0 (by omega), a0, a8, Nat.add_zero]
  rw [h.store (v := 4 * k) (g := want e m0 ib sc) (m0 := m0) ?_ rfl ?_ ?_]
  rotate_left
  · exact hi.mem
  · omega
  · intro i hi4
    rw [low_lt (by omega), low_lt (by omega), bytes32, if_pos (by omega), want, show (4 * k + i) / 4 = k by omega, show (4 * k + i) % 4 = i by omega, prod]
  xs [hi.si, hi.di, hi.ax, hi.cx, i4, one64, adv]
  refine ⟨_, rfl, ⟨?_, ?_, ?_, hi.dx, rfl, ?_, hi.bp, hi.fp, ?_⟩, ?_⟩
  · rw [Nat.mul_add]
  · rw [Nat.mul_add]
  · exact BitVec.ofNat_add_ofNat _ _
  · intro l hl
    simpa using hi.x8 l hl
  · rw [Nat.mul_add]
  · rw [BitVec.ofNat_add_ofNat]

/-- The number of products stored from the label `vscalef32_scalar` on, at `k` of `n` numbers with the limit `c`. -/
def upto (n c k : Nat) : Nat := if n ≤ k then k else max (k + 1) c

/-- From the label `vscalef32_scalar`. -/
theorem scalar (hn : n < 2 ^ 63) (hc : c ≤ n) {k : Nat} (hk : k ≤ n) (h : Ahead e ib ob (4 * upto n c k) (4 * upto n c k)) {s : St}
    (hi : Inv e m0 ib ob sc n c 1 f0 bp k (4 * k) s) :
    ∃ s', Returns e prog 306 s s' ∧ Inv e m0 ib ob sc n c 1 f0 bp (upto n c k) (4 * upto n c k) s' := by
  have b1 : ∃ s', blk e b306 s = some s' ∧ Inv e m0 ib ob sc n c 1 f0 bp k (4 * k) s' ∧
      s'.fl = subFlags (BitVec.ofNat 64 k) (BitVec.ofNat 64 n) := by
    xs [hi.ax, hi.dx]
    exact ⟨_, rfl, ⟨hi.si, hi.di, hi.ax, hi.dx, hi.cx, hi.x8, hi.bp, hi.fp, hi.mem⟩, rfl⟩
  obtain ⟨s1, g1, i1, f1⟩ := b1
  have r1 : Reach e prog 306 s 308 s1 := reach_blk b306 h306 g1
  have r2 := reach_branch (e := e) (p := prog) (pc := 308) .JGE .vscalef32_done (by decide +kernel) (t := 320) (by decide +kernel)
    (s := s1) (by rw [f1]; exact taken_jge_nat (by omega) (by omega))
  simp only [decide_eq_true_eq] at r2
  by_cases q : n ≤ k
  · rw [if_pos q] at r2
    have r3 : Reach e prog 320 s1 321 s1 := reach_blk [.label .vscalef32_done] (by decide +kernel) rfl
    rw [upto, if_pos q]
    exact ⟨s1, (r1.trans (r2.trans r3)).returns (returns_ret (by decide +kernel)), i1⟩
  · rw [if_neg q] at r2
    have hu : upto n c k = max (k + 1) c := if_neg q
    have r3 : Reach e prog 309 s1 311 s1 := reach_blk b309 h309 rfl
    obtain ⟨k', s', ⟨h1, -⟩, h2, h3, -, -, h6⟩ := loop (e := e) (p := prog) (a := 311) (b := 319)
      (fun j s => Inv e m0 ib ob sc n c 1 f0 bp j (4 * j) s ∧ k ≤ j) (upto n c k) 1 (by omega)
      (by
        rintro j s hj ⟨hi, hkj⟩
        obtain ⟨s1, g1, i1, f1⟩ := step_body h hj hi
        have r1 : Reach e prog 311 s 318 s1 := reach_blk b311 h311 g1
        have r2 := reach_branch (e := e) (p := prog) (pc := 318) .JLT .vscalef32_scalar_loop (by decide +kernel) (t := 310) (by decide +kernel)
          (s := s1) (by rw [f1]; exact taken_jlt_nat (by omega) (by omega))
        simp only [decide_eq_true_eq] at r2
        have r3 : Reach e prog 310 s1 311 s1 := reach_blk [.label .vscalef32_scalar_loop] (by decide +kernel) rfl
        refine ⟨s1, ⟨i1, by omega⟩, r1.trans ?_⟩
        by_cases d : j + 1 < c
        · rw [if_pos d] at r2
          rw [if_pos (by omega)]
          exact r2.trans r3
        · rw [if_neg d] at r2
          rw [if_neg (by omega)]
          exact r2)
      k s1 (by omega) ⟨i1, le_refl _⟩
    obtain rfl : k' = upto n c k := by omega
    have r4 : Reach e prog 319 s' 321 s' := reach_blk b319 h319 rfl
    exact ⟨s', (r1.trans (r2.trans (r3.trans (h6.trans r4)))).returns (returns_ret (by decide +kernel)), h1⟩

/-! ### The routine -/

/-- The vector register with the scale in every lane. -/
def spread (s : St) (sc : BitVec 32) : Nat → Vec :=
  Function.update (Function.update s.x 8 (low 16 (bytes32 sc) (s.x 8))) 8
    (low 16 (fun i => low 16 (bytes32 sc) (s.x 8) (i % 4)) (low 16 (bytes32 sc) (s.x 8)))

theorem spread_byte (s : St) (sc : BitVec 32) {i : Nat} (hi : i < 16) : spread s sc 8 i = byte sc (i % 4) := by
  unfold spread
  rw [Function.update_self, low_lt hi, low_lt (by omega), bytes32, if_pos (by omega)]

theorem spread_x8 (s : St) (sc : BitVec 32) (l : Nat) (hl : l < 4) : d32 (spread s sc 8) l = sc := by
  refine d32_of_bytes sc _ l fun i hi => ?_
  rw [spread_byte _ _ (by omega), show (4 * l + i) % 4 = i by omega]

/-- The registers at the jump in line 237; `CX` holds `c`. -/
def entry (s : St) (ib ob : BitVec 64) (sc : BitVec 32) (nin nout c : Nat) : St :=
  ⟨⟨BitVec.ofNat 64 nin, s.g.bx, BitVec.ofNat 64 c, s.g.dx, ib, ob, s.g.bp⟩, spread s sc, subFlags (BitVec.ofNat 64 nin) (BitVec.ofNat 64 nout), s.mem, s.fp⟩

theorem args {nin nout : Nat} (hin : nin < 2 ^ 63) (hout : nout < 2 ^ 63) {s : St} (f1 : s.fp 0 = ib) (f2 : s.fp 8 = BitVec.ofNat 64 nin)
    (f3 : s.fp 24 = ob) (f4 : s.fp 32 = BitVec.ofNat 64 nout) (f5 : (s.fp 48).setWidth 32 = sc) :
    Reach e prog 228 s 239 (entry s ib ob sc nin nout (min nin nout)) := by
  have b1 : blk e b228 s = some (entry s ib ob sc nin nout nout) := by
    have z : ∀ i : Nat, 4 * (0 / 4 ^ (i / 4) % 4) + i % 4 = i % 4 := by intro i; simp
    xs [f1, f2, f3, f4, f5, entry, spread, Int.toNat_zero, z, Function.update_self]
  have r1 : Reach e prog 228 s 237 _ := reach_blk b228 h228 b1
  have r2 := reach_branch (e := e) (p := prog) (pc := 237) .JGE .vscalef32_min_len (by decide +kernel) (t := 239) (by decide +kernel)
    (s := entry s ib ob sc nin nout nout) (taken_jge_nat hin hout)
  simp only [decide_eq_true_eq] at r2
  by_cases c : nout ≤ nin
  · rw [if_pos c] at r2
    rw [Nat.min_eq_right c]
    exact r1.trans r2
  · rw [if_neg c] at r2
    rw [Nat.min_eq_left (by omega)]
    have b2 : blk e b238 (entry s ib ob sc nin nout nout) = some (entry s ib ob sc nin nout nin) := by
      xs [entry]
    have r3 : Reach e prog 238 _ 239 _ := reach_blk b238 h238 b2
    exact (r1.trans r2).trans r3

theorem mask32 (n : Nat) : BitVec.ofNat 64 n &&& imm32 (-32) = BitVec.ofNat 64 (n - n % 32) := and_mask 5 (by decide +kernel)

theorem mask64 (n : Nat) : BitVec.ofNat 64 n &&& imm32 (-64) = BitVec.ofNat 64 (n - n % 64) := and_mask 6 (by decide +kernel)

/-- The limit in `CX`: the multiple of 64 with AVX2, of 32 with SSE2, otherwise the count. -/
def lim (e : Env) (n : Nat) : Nat := if e.sym .useAVX2 = 1 then n - n % 64 else if e.sym .useSSE2 = 1 then n - n % 32 else n

theorem lim_le (e : Env) (n : Nat) : lim e n ≤ n := by
  unfold lim
  split
  · omega
  · split <;> omega

/-- The number of products the routine stores. -/
def cnt (e : Env) (n : Nat) : Nat := if lim e n = n then n else lim e n + 1

theorem sym_eq (v : BitVec 8) : (v.signExtend 64 == (BitVec.ofInt 8 1).signExtend 64) = decide (v = 1) := by
  rw [Bool.eq_iff_iff, beq_iff_eq, decide_eq_true_eq]
  refine ⟨fun h => ?_, fun h => by rw [h]; rfl⟩
  have := congrArg (BitVec.setWidth 8) h
  rw [show ((BitVec.ofInt 8 1).signExtend 64).setWidth 8 = 1 from rfl] at this
  rw [← this]
  apply BitVec.eq_of_getLsbD_eq
  intro i hi
  simp only [BitVec.getLsbD_setWidth, BitVec.getLsbD_signExtend]
  simp [hi, show i < 64 by omega]

theorem Ahead.mono {r w r' w' : Nat} (h : Ahead e ib ob r w) (hr : r' ≤ r) (hw : w' ≤ w) : Ahead e ib ob r' w' :=
  ⟨by have := h.r_lt; omega, by have := h.w_lt; omega, fun i hi => h.rd i (by omega), fun i hi => h.wr i (by omega), fun i hi => h.apart i (by omega)⟩

/-- The whole of `VScaleF32`. -/
theorem routine {nin nout : Nat} (hin : nin < 2 ^ 63) (hout : nout < 2 ^ 63) (hn : n = min nin nout) (h : Ahead e ib ob (4 * cnt e n) (4 * cnt e n))
    {s : St} (f1 : s.fp 0 = ib) (f2 : s.fp 8 = BitVec.ofNat 64 nin) (f3 : s.fp 24 = ob) (f4 : s.fp 32 = BitVec.ofNat 64 nout)
    (f5 : (s.fp 48).setWidth 32 = sc) :
    ∃ s', Returns e prog 228 s s' ∧ Inv e s.mem ib ob sc n (lim e n) 1 s.fp s.g.bp (cnt e n) (4 * cnt e n) s' := by
  have hn63 : n < 2 ^ 63 := by omega
  have r0 := args (e := e) hin hout f1 f2 f3 f4 f5
  rw [← hn] at r0
  have b1 : ∃ s', blk e b239 (entry s ib ob sc nin nout n) = some s' ∧ Inv e s.mem ib ob sc n n 4 s.fp s.g.bp 0 (4 * 0) s' ∧
      s'.fl = ⟨some (decide (e.sym .useAVX2 = 1)), none, none, none⟩ ∧ ∀ i < 16, s'.x 8 i = byte sc (i % 4) := by
    xs [entry, sym_eq]
    exact ⟨_, rfl, ⟨(adv0 _).symm, (adv0 _).symm, rfl, rfl, rfl, spread_x8 s sc, rfl, rfl, (fill_zero _ _ _).symm⟩, rfl, fun i hi => spread_byte s sc hi⟩
  obtain ⟨s1, g1, i1, e1, x1⟩ := b1
  have r1 : Reach e prog 239 _ 246 s1 := reach_blk b239 h239 g1
  have r2 := reach_branch (e := e) (p := prog) (pc := 246) .JE .vscalef32_avx2 (by decide +kernel) (t := 252) (by decide +kernel)
    (s := s1) (by rw [e1]; rfl)
  simp only [decide_eq_true_eq] at r2
  by_cases ca : e.sym .useAVX2 = 1
  · rw [if_pos ca] at r2
    have hl : lim e n = n - n % 64 := if_pos ca
    have b3 : ∃ s', blk e b252 s1 = some s' ∧ Inv e s.mem ib ob sc n (n - n % 64) 4 s.fp s.g.bp 0 (4 * 0) s' ∧
        s'.fl = subFlags (BitVec.ofNat 64 0) (BitVec.ofNat 64 (n - n % 64)) ∧ ∀ i < 16, s'.x 8 i = byte sc (i % 4) := by
      xs [i1.cx, i1.ax, mask64]
      exact ⟨_, rfl, ⟨i1.si, i1.di, rfl, rfl, rfl, i1.x8, i1.bp, i1.fp, i1.mem⟩, rfl, x1⟩
    obtain ⟨s3, g3, i3, e3, x3⟩ := b3
    have r3 : Reach e prog 252 _ 256 s3 := reach_blk b252 h252 g3
    have r4 := reach_branch (e := e) (p := prog) (pc := 256) .JGE .vscalef32_scalar (by decide +kernel) (t := 306) (by decide +kernel)
      (s := s3) (by rw [e3]; exact taken_jge_nat (by decide) (by omega))
    simp only [decide_eq_true_eq] at r4
    by_cases cn : n - n % 64 ≤ 0
    · rw [if_pos cn] at r4
      have hu : upto n (n - n % 64) 0 = cnt e n := by
        rw [cnt, hl, upto]
        split <;> split <;> omega
      rw [← hu] at h
      obtain ⟨s', r', i'⟩ := scalar (k := 0) hn63 (by omega) (by omega) h (i3.less (by omega))
      rw [hu] at i'
      rw [hl]
      exact ⟨s', (r0.trans (r1.trans (r2.trans (r3.trans r4)))).returns r', i'⟩
    · rw [if_neg cn] at r4
      have b5 : ∃ s', blk e b257 s3 = some s' ∧ Inv e s.mem ib ob sc n (n - n % 64) 8 s.fp s.g.bp 0 (4 * 0) s' := by
        xs []
        refine ⟨_, rfl, ⟨i3.si, i3.di, i3.ax, i3.dx, i3.cx, ?_, i3.bp, i3.fp, i3.mem⟩⟩
        intro l hl
        refine d32_of_bytes sc _ l fun i hi => ?_
        simp only [Function.update_self]
        rw [low_lt (by omega), x3 _ (by omega), show (4 * l + i) % 4 % 4 = i by omega]
      obtain ⟨s5, g5, i5⟩ := b5
      have r5 : Reach e prog 257 s3 261 s5 := reach_blk b257 h257 g5
      have hu : upto n (n - n % 64) (n - n % 64) = cnt e n := by
        rw [cnt, hl, upto]
        split <;> split <;> omega
      have hcl : n - n % 64 ≤ cnt e n := by
        rw [← hu, upto]
        split <;> omega
      obtain ⟨s6, i6, r6⟩ := yloop h (k := 0) (by omega) rfl (by omega) hcl i5
      have r7 : Reach e prog 278 s6 279 s6 := reach_blk b278 h278 rfl
      have r8 : Reach e prog 279 s6 306 s6 := reach_jump (l := .vscalef32_scalar) (c := .JMP) (by decide +kernel) rfl (by decide +kernel)
      rw [← hu] at h
      obtain ⟨s', r', i'⟩ := scalar (k := n - n % 64) hn63 (by omega) (by omega) h (i6.less (by omega))
      rw [hu] at i'
      rw [hl]
      exact ⟨s', (r0.trans (r1.trans (r2.trans (r3.trans (r4.trans (r5.trans (r6.trans (r7.trans r8)))))))).returns r', i'⟩
  · rw [if_neg ca] at r2
    have b3 : ∃ s', blk e b247 s1 = some s' ∧ Inv e s.mem ib ob sc n n 4 s.fp s.g.bp 0 (4 * 0) s' ∧
        s'.fl = ⟨some (decide (e.sym .useSSE2 = 1)), none, none, none⟩ := by
      xs [sym_eq]
      exact ⟨_, rfl, ⟨i1.si, i1.di, i1.ax, i1.dx, i1.cx, i1.x8, i1.bp, i1.fp, i1.mem⟩, rfl⟩
    obtain ⟨s3, g3, i3, e3⟩ := b3
    have r3 : Reach e prog 247 _ 249 s3 := reach_blk b247 h247 g3
    have r4 := reach_branch (e := e) (p := prog) (pc := 249) .JE .vscalef32_sse2 (by decide +kernel) (t := 281) (by decide +kernel)
      (s := s3) (by rw [e3]; rfl)
    simp only [decide_eq_true_eq] at r4
    by_cases cs : e.sym .useSSE2 = 1
    · rw [if_pos cs] at r4
      have hl : lim e n = n - n % 32 := by rw [lim, if_neg ca, if_pos cs]
      have b5 : ∃ s', blk e b281 s3 = some s' ∧ Inv e s.mem ib ob sc n (n - n % 32) 4 s.fp s.g.bp 0 (4 * 0) s' ∧
          s'.fl = subFlags (BitVec.ofNat 64 0) (BitVec.ofNat 64 (n - n % 32)) := by
        xs [i3.cx, i3.ax, mask32]
        exact ⟨_, rfl, ⟨i3.si, i3.di, rfl, rfl, rfl, i3.x8, i3.bp, i3.fp, i3.mem⟩, rfl⟩
      obtain ⟨s5, g5, i5, e5⟩ := b5
      have r5 : Reach e prog 281 _ 285 s5 := reach_blk b281 h281 g5
      have r6 := reach_branch (e := e) (p := prog) (pc := 285) .JGE .vscalef32_scalar (by decide +kernel) (t := 306) (by decide +kernel)
        (s := s5) (by rw [e5]; exact taken_jge_nat (by decide) (by omega))
      simp only [decide_eq_true_eq] at r6
      by_cases cn : n - n % 32 ≤ 0
      · rw [if_pos cn] at r6
        have hu : upto n (n - n % 32) 0 = cnt e n := by
          rw [cnt, hl, upto]
          split <;> split <;> omega
        rw [← hu] at h
        obtain ⟨s', r', i'⟩ := scalar (k := 0) hn63 (by omega) (by omega) h (i5.less (by omega))
        rw [hu] at i'
        rw [hl]
        exact ⟨s', (r0.trans (r1.trans (r2.trans (r3.trans (r4.trans (r5.trans r6)))))).returns r', i'⟩
      · rw [if_neg cn] at r6
        have r7 : Reach e prog 286 s5 288 s5 := reach_blk b286 h286 rfl
        have hu : upto n (n - n % 32) (n - n % 32) = cnt e n := by
          rw [cnt, hl, upto]
          split <;> split <;> omega
        have hcl : n - n % 32 ≤ cnt e n := by
          rw [← hu, upto]
          split <;> omega
        obtain ⟨s8, i8, r8⟩ := xloop h (k := 0) (by omega) rfl (by omega) hcl i5
        have r9 : Reach e prog 305 s8 306 s8 := reach_blk [.nop] (by decide +kernel) rfl
        rw [← hu] at h
        obtain ⟨s', r', i'⟩ := scalar (k := n - n % 32) hn63 (by omega) (by omega) h (i8.less (by omega))
        rw [hu] at i'
        rw [hl]
        exact ⟨s', (r0.trans (r1.trans (r2.trans (r3.trans (r4.trans (r5.trans (r6.trans (r7.trans (r8.trans r9))))))))).returns r', i'⟩
    · rw [if_neg cs] at r4
      have hl : lim e n = n := by rw [lim, if_neg ca, if_neg cs]
      have r5 : Reach e prog 250 s3 306 s3 := reach_jump (l := .vscalef32_scalar) (c := .JMP) (by decide +kernel) rfl (by decide +kernel)
      have hu : upto n n 0 = cnt e n := by
        rw [cnt, hl, upto]
        split <;> split <;> omega
      rw [← hu] at h
      obtain ⟨s', r', i'⟩ := scalar (k := 0) hn63 (le_refl _) (by omega) h (i3.less (by omega))
      rw [hu] at i'
      rw [hl]
      exact ⟨s', (r0.trans (r1.trans (r2.trans (r3.trans (r4.trans r5))))).returns r', i'⟩

end Verif.X86.Math.VS
