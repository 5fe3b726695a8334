import Verif.X86.X86Lemmas
import Verif.X86.ConvModel

/-!
# The run of `I8tof32` on amd64, instruction by instruction
-/

namespace Verif.X86.Conv.I8
open Verif.X86

/-! ### Basic blocks -/

/-- dsp/conversion_amd64.s:317-323. -/
abbrev b317 : List (Line Lbl Reg Nat) :=
  [.label .I8tof32,
    .ins .MOVQ [.fp 0, .r .SI],
    .ins .MOVQ [.fp 8, .r .AX],
    .ins .MOVQ [.fp 24, .r .DI],
    .ins .MOVQ [.fp 32, .r .CX], .nop,
    .ins .CMPQ [.r .AX, .r .CX]]

theorem h317 : (prog.drop 317).take b317.length = b317 := by decide +kernel

/-- dsp/conversion_amd64.s:325-326. -/
abbrev b325 : List (Line Lbl Reg Nat) :=
  [.ins .MOVQ [.r .AX, .r .CX], .nop]

theorem h325 : (prog.drop 325).take b325.length = b325 := by decide +kernel

/-- dsp/conversion_amd64.s:327-333. -/
abbrev b327 : List (Line Lbl Reg Nat) :=
  [.label .i8tof32_min_len, .nop,
    .ins .MOVQ [.i 0, .r .AX], .nop, .nop,
    .ins .MOVQ [.i 32, .r .BX],
    .ins .CMPQ [.r .BX, .r .CX]]

theorem h327 : (prog.drop 327).take b327.length = b327 := by decide +kernel

/-- dsp/conversion_amd64.s:335-339. -/
abbrev b335 : List (Line Lbl Reg Nat) :=
  [.nop, .nop,
    .ins .MOVQ [.r .DI, .r .BP],
    .ins .ANDQ [.i 15, .r .BP],
    .ins .SHRQ [.i 2, .r .BP]]

theorem h335 : (prog.drop 335).take b335.length = b335 := by decide +kernel

/-- dsp/conversion_amd64.s:341-343. -/
abbrev b341 : List (Line Lbl Reg Nat) :=
  [.ins .MOVQ [.i 16, .r .DX],
    .ins .SUBQ [.r .BP, .r .DX], .nop]

theorem h341 : (prog.drop 341).take b341.length = b341 := by decide +kernel

/-- dsp/conversion_amd64.s:344-351. -/
abbrev b344 : List (Line Lbl Reg Nat) :=
  [.label .i8tof32_align,
    .ins .MOVBQSX [.m .SI 0, .r .BX],
    .ins .INCQ [.r .SI],
    .ins .CVTSQ2SS [.r .BX, .x 0],
    .ins .MOVSS [.x 0, .m .DI 0],
    .ins .ADDQ [.i 4, .r .DI],
    .ins .INCQ [.r .AX],
    .ins .DECQ [.r .DX]]

theorem h344 : (prog.drop 344).take b344.length = b344 := by decide +kernel

/-- dsp/conversion_amd64.s:353-353. -/
abbrev b353 : List (Line Lbl Reg Nat) :=
  [.nop]

theorem h353 : (prog.drop 353).take b353.length = b353 := by decide +kernel

/-- dsp/conversion_amd64.s:354-358. -/
abbrev b354 : List (Line Lbl Reg Nat) :=
  [.label .i8tof32_aligned, .nop,
    .ins .MOVQ [.r .CX, .r .DX],
    .ins .ANDQ [.i (-16), .r .DX],
    .ins .CMPQ [.r .AX, .r .DX]]

theorem h354 : (prog.drop 354).take b354.length = b354 := by decide +kernel

/-- dsp/conversion_amd64.s:360-362. -/
abbrev b360 : List (Line Lbl Reg Nat) :=
  [.nop, .nop,
    .ins .CMPB [.sb .useSSE4, .i 1]]

theorem h360 : (prog.drop 360).take b360.length = b360 := by decide +kernel

/-- dsp/conversion_amd64.s:364-367. -/
abbrev b364 : List (Line Lbl Reg Nat) :=
  [.nop,
    .ins .MOVQ [.i 0, .r .BP],
    .ins .MOVQ [.r .BP, .x 9], .nop]

theorem h364 : (prog.drop 364).take b364.length = b364 := by decide +kernel

/-- dsp/conversion_amd64.s:368-370. -/
abbrev b368 : List (Line Lbl Reg Nat) :=
  [.label .i8tof32_sse4_loop,
    .ins .MOVOU [.m .SI 0, .x 0], .nop]

theorem h368 : (prog.drop 368).take b368.length = b368 := by decide +kernel

/-- dsp/conversion_amd64.s:371-375. -/
abbrev b371 : List (Line Lbl Reg Nat) :=
  [.nop,
    .ins .PMOVSXBD [.x 0, .x 2],
    .ins .CVTPL2PS [.x 2, .x 2],
    .ins .MOVAPS [.x 2, .m .DI 0], .nop]

theorem h371 : (prog.drop 371).take b371.length = b371 := by decide +kernel

/-- dsp/conversion_amd64.s:376-381. -/
abbrev b376 : List (Line Lbl Reg Nat) :=
  [.nop,
    .ins .PSHUFL [.i 1, .x 0, .x 2],
    .ins .PMOVSXBD [.x 2, .x 2],
    .ins .CVTPL2PS [.x 2, .x 2],
    .ins .MOVAPS [.x 2, .m .DI 16], .nop]

theorem h376 : (prog.drop 376).take b376.length = b376 := by decide +kernel

/-- dsp/conversion_amd64.s:382-387. -/
abbrev b382 : List (Line Lbl Reg Nat) :=
  [.nop,
    .ins .PSHUFL [.i 2, .x 0, .x 2],
    .ins .PMOVSXBD [.x 2, .x 2],
    .ins .CVTPL2PS [.x 2, .x 2],
    .ins .MOVAPS [.x 2, .m .DI 32], .nop]

theorem h382 : (prog.drop 382).take b382.length = b382 := by decide +kernel

/-- dsp/conversion_amd64.s:388-393. -/
abbrev b388 : List (Line Lbl Reg Nat) :=
  [.nop,
    .ins .PSHUFL [.i 3, .x 0, .x 2],
    .ins .PMOVSXBD [.x 2, .x 2],
    .ins .CVTPL2PS [.x 2, .x 2],
    .ins .MOVAPS [.x 2, .m .DI 48], .nop]

theorem h388 : (prog.drop 388).take b388.length = b388 := by decide +kernel

/-- dsp/conversion_amd64.s:394-397. -/
abbrev b394 : List (Line Lbl Reg Nat) :=
  [.ins .ADDQ [.i 16, .r .AX],
    .ins .ADDQ [.i 16, .r .SI],
    .ins .ADDQ [.i 64, .r .DI],
    .ins .CMPQ [.r .AX, .r .DX]]

theorem h394 : (prog.drop 394).take b394.length = b394 := by decide +kernel

/-- dsp/conversion_amd64.s:400-400. -/
abbrev b400 : List (Line Lbl Reg Nat) :=
  [.nop]

theorem h400 : (prog.drop 400).take b400.length = b400 := by decide +kernel

/-- dsp/conversion_amd64.s:401-404. -/
abbrev b401 : List (Line Lbl Reg Nat) :=
  [.label .i8tof32_nosse4,
    .ins .MOVQ [.i 0, .r .BP],
    .ins .MOVQ [.r .BP, .x 9], .nop]

theorem h401 : (prog.drop 401).take b401.length = b401 := by decide +kernel

/-- dsp/conversion_amd64.s:405-408. -/
abbrev b405 : List (Line Lbl Reg Nat) :=
  [.label .i8tof32_sse2_loop,
    .ins .MOVOU [.m .SI 0, .x 0],
    .ins .MOVO [.x 0, .x 1], .nop]

theorem h405 : (prog.drop 405).take b405.length = b405 := by decide +kernel

/-- dsp/conversion_amd64.s:409-416. -/
abbrev b409 : List (Line Lbl Reg Nat) :=
  [.nop,
    .ins .PUNPCKLBW [.x 1, .x 1],
    .ins .MOVO [.x 1, .x 2],
    .ins .PUNPCKLWL [.x 1, .x 1],
    .ins .PSRAL [.i 24, .x 1],
    .ins .CVTPL2PS [.x 1, .x 1],
    .ins .MOVAPS [.x 1, .m .DI 0], .nop]

theorem h409 : (prog.drop 409).take b409.length = b409 := by decide +kernel

/-- dsp/conversion_amd64.s:417-422. -/
abbrev b417 : List (Line Lbl Reg Nat) :=
  [.nop,
    .ins .PUNPCKHWL [.x 2, .x 2],
    .ins .PSRAL [.i 24, .x 2],
    .ins .CVTPL2PS [.x 2, .x 2],
    .ins .MOVAPS [.x 2, .m .DI 16], .nop]

theorem h417 : (prog.drop 417).take b417.length = b417 := by decide +kernel

/-- dsp/conversion_amd64.s:423-430. -/
abbrev b423 : List (Line Lbl Reg Nat) :=
  [.nop,
    .ins .PUNPCKHBW [.x 0, .x 0],
    .ins .MOVO [.x 0, .x 2],
    .ins .PUNPCKLWL [.x 0, .x 0],
    .ins .PSRAL [.i 24, .x 0],
    .ins .CVTPL2PS [.x 0, .x 0],
    .ins .MOVAPS [.x 0, .m .DI 32], .nop]

theorem h423 : (prog.drop 423).take b423.length = b423 := by decide +kernel

/-- dsp/conversion_amd64.s:431-436. -/
abbrev b431 : List (Line Lbl Reg Nat) :=
  [.nop,
    .ins .PUNPCKHWL [.x 2, .x 2],
    .ins .PSRAL [.i 24, .x 2],
    .ins .CVTPL2PS [.x 2, .x 2],
    .ins .MOVAPS [.x 2, .m .DI 48], .nop]

theorem h431 : (prog.drop 431).take b431.length = b431 := by decide +kernel

/-- dsp/conversion_amd64.s:437-440. -/
abbrev b437 : List (Line Lbl Reg Nat) :=
  [.ins .ADDQ [.i 16, .r .AX],
    .ins .ADDQ [.i 16, .r .SI],
    .ins .ADDQ [.i 64, .r .DI],
    .ins .CMPQ [.r .AX, .r .DX]]

theorem h437 : (prog.drop 437).take b437.length = b437 := by decide +kernel

/-- dsp/conversion_amd64.s:442-444. -/
abbrev b442 : List (Line Lbl Reg Nat) :=
  [.nop, .nop, .nop]

theorem h442 : (prog.drop 442).take b442.length = b442 := by decide +kernel

/-- dsp/conversion_amd64.s:445-446. -/
abbrev b445 : List (Line Lbl Reg Nat) :=
  [.label .i8tof32_stepper,
    .ins .CMPQ [.r .AX, .r .CX]]

theorem h445 : (prog.drop 445).take b445.length = b445 := by decide +kernel

/-- dsp/conversion_amd64.s:448-448. -/
abbrev b448 : List (Line Lbl Reg Nat) :=
  [.nop]

theorem h448 : (prog.drop 448).take b448.length = b448 := by decide +kernel

/-- dsp/conversion_amd64.s:449-456. -/
abbrev b449 : List (Line Lbl Reg Nat) :=
  [.label .i8tof32_step,
    .ins .MOVBQSX [.m .SI 0, .r .BX],
    .ins .INCQ [.r .SI],
    .ins .CVTSQ2SS [.r .BX, .x 0],
    .ins .MOVSS [.x 0, .m .DI 0],
    .ins .ADDQ [.i 4, .r .DI],
    .ins .INCQ [.r .AX],
    .ins .CMPQ [.r .AX, .r .CX]]

theorem h449 : (prog.drop 449).take b449.length = b449 := by decide +kernel

/-- dsp/conversion_amd64.s:458-459. -/
abbrev b458 : List (Line Lbl Reg Nat) :=
  [.nop, .label .i8tof32_done]

theorem h458 : (prog.drop 458).take b458.length = b458 := by decide +kernel



/-! ### Invariant -/

/-- The float32 for input byte `i`. -/
def elem (e : Env) (m0 : BitVec 64 → BitVec 8) (ib : BitVec 64) (i : Nat) : BitVec 32 := e.o.cvt32 (m0 (ib + BitVec.ofNat 64 i)).toInt

/-- The output bytes. -/
def want (e : Env) (m0 : BitVec 64 → BitVec 8) (ib : BitVec 64) (j : Nat) : BitVec 8 := byte (elem e m0 ib (j / 4)) (j % 4)

/-- After `k` elements, with `w` bytes written. -/
structure Inv (e : Env) (m0 : BitVec 64 → BitVec 8) (ib ob : BitVec 64) (n : Nat) (f0 : Nat → BitVec 64) (bp : BitVec 64) (k w : Nat)
    (s : St) : Prop where
  si : s.g.si = ib + BitVec.ofNat 64 k
  di : s.g.di = ob + BitVec.ofNat 64 (4 * k)
  ax : s.g.ax = BitVec.ofNat 64 k
  cx : s.g.cx = BitVec.ofNat 64 n
  bp : s.g.bp = bp
  fp : s.fp = f0
  mem : s.mem = fill m0 ob w (want e m0 ib)

variable {e : Env} {m0 : BitVec 64 → BitVec 8} {ib ob : BitVec 64} {n N : Nat} {f0 : Nat → BitVec 64} {bp : BitVec 64}

theorem one64 : (1 : BitVec 64) = BitVec.ofNat 64 1 := rfl

theorem sx64 (b : BitVec 8) : (b.signExtend 64).toInt = b.toInt := BitVec.toInt_signExtend_of_le (by omega)

/-- One element, with the instruction `l` that sets the flags. -/
theorem step_inv (h : Io e ib ob N (4 * N)) {k : Nat} (hk : k < N) {s : St} (hi : Inv e m0 ib ob n f0 bp k (4 * k) s) (l : Line Lbl Reg Nat) :
    ∃ s1, blk e ([.ins .MOVBQSX [.m .SI 0, .r .BX], .ins .INCQ [.r .SI], .ins .CVTSQ2SS [.r .BX, .x 0], .ins .MOVSS [.x 0, .m .DI 0],
      .ins .ADDQ [.i 4, .r .DI], .ins .INCQ [.r .AX], l] : List (Line Lbl Reg Nat)) s = blk e [l] s1 ∧
      Inv e m0 ib ob n f0 bp (k + 1) (4 * (k + 1)) s1 ∧ s1.g.dx = s.g.dx := by
  have i4 : imm32 4 = BitVec.ofNat 64 4 := rfl
  xs [hi.si, h.load hi.mem (by omega) rfl (show k + 1 ≤ N by omega), hi.di]
  rw [h.store (w := 4 * k) (g := want e m0 ib) (m0 := m0) ?_ rfl ?_ ?_]
  rotate_left
  · exact hi.mem
  · omega
  · intro i hi4
    simp only [Function.update_self, inp, sx64, low, bytes32, want, elem, hi4, if_true]
    simp [show (4 * k + i) / 4 = k by omega, show (4 * k + i) % 4 = i by omega]
  refine ⟨_, rfl, ⟨?_, ?_, ?_, hi.cx, hi.bp, hi.fp, rfl⟩, rfl⟩
  · simp only [one64, adv]
  · simp only [i4, adv]; rfl
  · simp only [hi.ax, one64, ← BitVec.ofNat_add]

/-! ### The loops over single elements -/

theorem align_loop (h : Io e ib ob N (4 * N)) {d : Nat} (hd : d ≤ N) {k : Nat} (hk : k < d) {s : St} (hi : Inv e m0 ib ob n f0 bp k (4 * k) s)
    (hdx : s.g.dx = BitVec.ofNat 64 (d - k)) : ∃ s', Inv e m0 ib ob n f0 bp d (4 * d) s' ∧ Reach e prog 344 s 353 s' := by
  have hn := h.nin_lt
  obtain ⟨k', s', ⟨h1, h1'⟩, h2, h3, -, -, h6⟩ := loop (e := e) (p := prog) (a := 344) (b := 353)
    (fun k s => Inv e m0 ib ob n f0 bp k (4 * k) s ∧ s.g.dx = BitVec.ofNat 64 (d - k)) d 1 (by omega)
    (by
      rintro k s hk ⟨hi, hdx⟩
      obtain ⟨s1, g1, g2, g3⟩ := step_inv h (show k < N by omega) hi (.ins .DECQ [.r .DX])
      have g4 : blk e ([.ins .DECQ [.r .DX]] : List (Line Lbl Reg Nat)) s1 = some { s1 with g := { s1.g with dx := BitVec.ofNat 64 (d - (k + 1)) }, fl := { subFlags (BitVec.ofNat 64 (d - k)) 1 with cf := s1.fl.cf } } := by
        xs [g3, hdx, one64, sub_ofNat (show 1 ≤ d - k by omega) (by omega)]
        rfl
      have r1 : Reach e prog 344 s 352 _ := reach_blk b344 h344 (g1.trans g4)
      have r2 := reach_branch (e := e) (p := prog) (pc := 352) .JNZ .i8tof32_align (by decide +kernel) (t := 344) (by decide +kernel)
        (s := { s1 with g := { s1.g with dx := BitVec.ofNat 64 (d - (k + 1)) }, fl := { subFlags (BitVec.ofNat 64 (d - k)) 1 with cf := s1.fl.cf } })
        (jnz_dec (show 0 < d - k by omega) (by omega) _)
      have e1 : (d - k ≠ 1) = (k + 1 < d) := by rw [eq_iff_iff]; omega
      simp only [decide_eq_true_eq, e1] at r2
      refine ⟨_, ?_, r1.trans r2⟩
      exact ⟨⟨g2.si, g2.di, g2.ax, g2.cx, g2.bp, g2.fp, g2.mem⟩, rfl⟩)
    k s hk ⟨hi, hdx⟩
  obtain rfl : k' = d := by omega
  exact ⟨s', h1, h6⟩

theorem step_loop (h : Io e ib ob N (4 * N)) (hnN : n ≤ N) {k : Nat} (hk : k < n) {s : St} (hi : Inv e m0 ib ob n f0 bp k (4 * k) s) :
    ∃ s', Inv e m0 ib ob n f0 bp n (4 * n) s' ∧ Reach e prog 449 s 458 s' := by
  have hn := h.nin_lt
  obtain ⟨k', s', h1, h2, h3, -, -, h6⟩ := loop (e := e) (p := prog) (a := 449) (b := 458)
    (fun k s => Inv e m0 ib ob n f0 bp k (4 * k) s) n 1 (by omega)
    (by
      rintro k s hk hi
      obtain ⟨s1, g1, g2, g3⟩ := step_inv h (show k < N by omega) hi (.ins .CMPQ [.r .AX, .r .CX])
      have g4 : blk e ([.ins .CMPQ [.r .AX, .r .CX]] : List (Line Lbl Reg Nat)) s1 =
          some { s1 with fl := subFlags (BitVec.ofNat 64 (k + 1)) (BitVec.ofNat 64 n) } := by
        xs [g2.ax, g2.cx]
      have r1 : Reach e prog 449 s 457 _ := reach_blk b449 h449 (g1.trans g4)
      have r2 := reach_branch (e := e) (p := prog) (pc := 457) .JLT .i8tof32_step (by decide +kernel) (t := 449) (by decide +kernel)
        (s := { s1 with fl := subFlags (BitVec.ofNat 64 (k + 1)) (BitVec.ofNat 64 n) }) (taken_jlt_nat (by omega) (by omega))
      simp only [decide_eq_true_eq] at r2
      refine ⟨_, ?_, r1.trans r2⟩
      exact ⟨g2.si, g2.di, g2.ax, g2.cx, g2.bp, g2.fp, g2.mem⟩)
    k s hk hi
  obtain rfl : k' = n := by omega
  exact ⟨s', h1, h6⟩

/-- From the label `i8tof32_stepper` the routine converts the rest and returns. -/
theorem stepper (h : Io e ib ob N (4 * N)) (hnN : n ≤ N) {k : Nat} (hk : k ≤ N) {s : St} (hi : Inv e m0 ib ob n f0 bp k (4 * k) s) :
    ∃ s', Returns e prog 445 s s' ∧ Inv e m0 ib ob n f0 bp (max n k) (4 * max n k) s' := by
  have hn := h.nin_lt
  have b1 : blk e b445 s = some { s with fl := subFlags (BitVec.ofNat 64 k) (BitVec.ofNat 64 n) } := by
    xs [hi.ax, hi.cx]
  have r1 : Reach e prog 445 s 447 _ := reach_blk b445 h445 b1
  have hi2 : Inv e m0 ib ob n f0 bp k (4 * k) { s with fl := subFlags (BitVec.ofNat 64 k) (BitVec.ofNat 64 n) } :=
    ⟨hi.si, hi.di, hi.ax, hi.cx, hi.bp, hi.fp, hi.mem⟩
  generalize hs1 : ({ s with fl := subFlags (BitVec.ofNat 64 k) (BitVec.ofNat 64 n) } : St) = s1 at *
  have hfl : s1.fl.taken .JGE = some (decide (n ≤ k)) := by rw [← hs1]; exact taken_jge_nat (by omega) (by omega)
  have done : ∀ t, Returns e prog 459 t t := fun t =>
    Reach.returns (reach_blk [.label .i8tof32_done] (by decide +kernel) rfl : Reach e prog 459 t 460 t) (returns_ret (by decide +kernel))
  have r2 := reach_branch (e := e) (p := prog) (pc := 447) .JGE .i8tof32_done (by decide +kernel) (t := 459) (by decide +kernel) hfl
  simp only [decide_eq_true_eq] at r2
  by_cases c : n ≤ k
  · rw [Nat.max_eq_right c]
    rw [if_pos c] at r2
    exact ⟨s1, (r1.trans r2).returns (done s1), hi2⟩
  · rw [Nat.max_eq_left (by omega)]
    rw [if_neg c] at r2
    have r3 : Reach e prog 448 s1 449 s1 := reach_blk b448 h448 rfl
    obtain ⟨s', h1, h2⟩ := step_loop h hnN (by omega) hi2
    have r4 : Reach e prog 458 s' 460 s' := reach_blk b458 h458 rfl
    exact ⟨s', (((r1.trans r2).trans r3).trans (h2.trans r4)).returns (returns_ret (by decide +kernel)), h1⟩

/-! ### Sixteen elements at a time -/

/-- Before an iteration. -/
structure Top (e : Env) (m0 : BitVec 64 → BitVec 8) (ib ob : BitVec 64) (n : Nat) (f0 : Nat → BitVec 64) (bp : BitVec 64) (m k w : Nat)
    (s : St) : Prop where
  inv : Inv e m0 ib ob n f0 bp k w s
  dx : s.g.dx = BitVec.ofNat 64 m

/-- Inside of an iteration: `w` bytes are written, `X0` holds sixteen samples. -/
structure Mid (e : Env) (m0 : BitVec 64 → BitVec 8) (ib ob : BitVec 64) (n : Nat) (f0 : Nat → BitVec 64) (bp : BitVec 64) (m k w : Nat)
    (s : St) : Prop extends Top e m0 ib ob n f0 bp m k w s where
  x0 : ∀ i < 16, s.x 0 i = m0 (ib + BitVec.ofNat 64 (k + i))

theorem i16 : imm32 16 = BitVec.ofNat 64 16 := rfl

theorem i64 : imm32 64 = BitVec.ofNat 64 64 := rfl

theorem sse4_load (h : Io e ib ob N (4 * N)) {m k : Nat} (hk : k + 16 ≤ N) {s : St} (hi : Top e m0 ib ob n f0 bp m k (4 * k) s) :
    ∃ s', blk e b368 s = some s' ∧ Mid e m0 ib ob n f0 bp m k (4 * k) s' := by
  xs [hi.inv.si, h.load hi.inv.mem (by omega) rfl hk]
  refine ⟨_, rfl, ⟨⟨⟨hi.inv.si, hi.inv.di, hi.inv.ax, hi.inv.cx, hi.inv.bp, hi.inv.fp, hi.inv.mem⟩, hi.dx⟩, ?_⟩⟩
  intro i hi16
  simp [low_lt hi16, inp, hi16]

theorem sse4_q0 (h : Io e ib ob N (4 * N)) {m k : Nat} (hk : k + 16 ≤ N) (ha : (ob.toNat + 4 * k) % 16 = 0) {s : St}
    (hi : Mid e m0 ib ob n f0 bp m k (4 * k) s) : ∃ s', blk e b371 s = some s' ∧ Mid e m0 ib ob n f0 bp m k (4 * k + 16) s' := by
  have hal := aligned16 (ob := ob) (j := 4 * k) (d := 0) ha (by norm_num)
  rw [adv] at hal
  simp only [Nat.add_zero] at hal
  xs [hi.inv.di, adv, hal, beq_self_eq_true, if_true]
  rw [h.store (w := 4 * k) (g := want e m0 ib) (m0 := m0) ?_ rfl ?_ ?_]
  rotate_left
  · exact hi.inv.mem
  · omega
  · intro i hi16
    have h4 : i / 4 < 4 := by omega
    have e1 : (4 * k + i) / 4 = k + (i / 4) := by omega
    have e2 : (4 * k + i) % 4 = i % 4 := by omega
    have hq := hi.x0 (i / 4) (by omega)
    have e3 : i / 4 / 4 = 0 := by omega
    have e4 : i / 4 % 4 = i / 4 := by omega
    have e5 : i / 4 < 16 := by omega
    simp only [Function.update_self, low_lt hi16, low_lt e5, of32, d32_low_of32 _ _ _ h4, toInt_d32_sx, e3, e4]
    simp [want, elem, e1, e2, ← hq]
  refine ⟨_, rfl, ⟨⟨⟨hi.inv.si, hi.inv.di, hi.inv.ax, hi.inv.cx, hi.inv.bp, hi.inv.fp, rfl⟩, hi.dx⟩, ?_⟩⟩
  intro i hi16
  simp [hi.x0 i hi16]

theorem sse4_q1 (h : Io e ib ob N (4 * N)) {m k : Nat} (hk : k + 16 ≤ N) (ha : (ob.toNat + 4 * k) % 16 = 0) {s : St}
    (hi : Mid e m0 ib ob n f0 bp m k (4 * k + 16) s) : ∃ s', blk e b376 s = some s' ∧ Mid e m0 ib ob n f0 bp m k (4 * k + 32) s' := by
  have hal := aligned16 (ob := ob) (j := 4 * k) (d := 16) ha (by norm_num)
  rw [adv] at hal
  xs [hi.inv.di, adv, hal, beq_self_eq_true, if_true]
  rw [h.store (w := 4 * k + 16) (g := want e m0 ib) (m0 := m0) ?_ rfl ?_ ?_]
  rotate_left
  · exact hi.inv.mem
  · omega
  · intro i hi16
    have h4 : i / 4 < 4 := by omega
    have e1 : (4 * k + 16 + i) / 4 = k + (4 + i / 4) := by omega
    have e2 : (4 * k + 16 + i) % 4 = i % 4 := by omega
    have hq := hi.x0 (4 + i / 4) (by omega)
    have e3 : i / 4 / 4 = 0 := by omega
    have e4 : i / 4 % 4 = i / 4 := by omega
    have e5 : i / 4 < 16 := by omega
    simp only [Function.update_self, low_lt hi16, low_lt e5, of32, d32_low_of32 _ _ _ h4, toInt_d32_sx, e3, e4]
    simp [want, elem, e1, e2, ← hq]
  refine ⟨_, rfl, ⟨⟨⟨hi.inv.si, hi.inv.di, hi.inv.ax, hi.inv.cx, hi.inv.bp, hi.inv.fp, rfl⟩, hi.dx⟩, ?_⟩⟩
  intro i hi16
  simp [hi.x0 i hi16]

theorem sse4_q2 (h : Io e ib ob N (4 * N)) {m k : Nat} (hk : k + 16 ≤ N) (ha : (ob.toNat + 4 * k) % 16 = 0) {s : St}
    (hi : Mid e m0 ib ob n f0 bp m k (4 * k + 32) s) : ∃ s', blk e b382 s = some s' ∧ Mid e m0 ib ob n f0 bp m k (4 * k + 48) s' := by
  have hal := aligned16 (ob := ob) (j := 4 * k) (d := 32) ha (by norm_num)
  rw [adv] at hal
  xs [hi.inv.di, adv, hal, beq_self_eq_true, if_true]
  rw [h.store (w := 4 * k + 32) (g := want e m0 ib) (m0 := m0) ?_ rfl ?_ ?_]
  rotate_left
  · exact hi.inv.mem
  · omega
  · intro i hi16
    have h4 : i / 4 < 4 := by omega
    have e1 : (4 * k + 32 + i) / 4 = k + (8 + i / 4) := by omega
    have e2 : (4 * k + 32 + i) % 4 = i % 4 := by omega
    have hq := hi.x0 (8 + i / 4) (by omega)
    have e3 : i / 4 / 4 = 0 := by omega
    have e4 : i / 4 % 4 = i / 4 := by omega
    have e5 : i / 4 < 16 := by omega
    simp only [Function.update_self, low_lt hi16, low_lt e5, of32, d32_low_of32 _ _ _ h4, toInt_d32_sx, e3, e4]
    simp [want, elem, e1, e2, ← hq]
  refine ⟨_, rfl, ⟨⟨⟨hi.inv.si, hi.inv.di, hi.inv.ax, hi.inv.cx, hi.inv.bp, hi.inv.fp, rfl⟩, hi.dx⟩, ?_⟩⟩
  intro i hi16
  simp [hi.x0 i hi16]

theorem sse4_q3 (h : Io e ib ob N (4 * N)) {m k : Nat} (hk : k + 16 ≤ N) (ha : (ob.toNat + 4 * k) % 16 = 0) {s : St}
    (hi : Mid e m0 ib ob n f0 bp m k (4 * k + 48) s) : ∃ s', blk e b388 s = some s' ∧ Mid e m0 ib ob n f0 bp m k (4 * k + 64) s' := by
  have hal := aligned16 (ob := ob) (j := 4 * k) (d := 48) ha (by norm_num)
  rw [adv] at hal
  xs [hi.inv.di, adv, hal, beq_self_eq_true, if_true]
  rw [h.store (w := 4 * k + 48) (g := want e m0 ib) (m0 := m0) ?_ rfl ?_ ?_]
  rotate_left
  · exact hi.inv.mem
  · omega
  · intro i hi16
    have h4 : i / 4 < 4 := by omega
    have e1 : (4 * k + 48 + i) / 4 = k + (12 + i / 4) := by omega
    have e2 : (4 * k + 48 + i) % 4 = i % 4 := by omega
    have hq := hi.x0 (12 + i / 4) (by omega)
    have e3 : i / 4 / 4 = 0 := by omega
    have e4 : i / 4 % 4 = i / 4 := by omega
    have e5 : i / 4 < 16 := by omega
    simp only [Function.update_self, low_lt hi16, low_lt e5, of32, d32_low_of32 _ _ _ h4, toInt_d32_sx, e3, e4]
    simp [want, elem, e1, e2, ← hq]
  refine ⟨_, rfl, ⟨⟨⟨hi.inv.si, hi.inv.di, hi.inv.ax, hi.inv.cx, hi.inv.bp, hi.inv.fp, rfl⟩, hi.dx⟩, ?_⟩⟩
  intro i hi16
  simp [hi.x0 i hi16]

theorem sse4_tail {m k : Nat} {s : St} (hi : Top e m0 ib ob n f0 bp m k (4 * k + 64) s) :
    ∃ s', blk e b394 s = some s' ∧ Top e m0 ib ob n f0 bp m (k + 16) (4 * (k + 16)) s' ∧ s'.fl = subFlags (BitVec.ofNat 64 (k + 16)) (BitVec.ofNat 64 m) := by
  xs [hi.inv.si, hi.inv.ax, hi.inv.di, i16, i64, adv, hi.dx]
  refine ⟨_, rfl, ⟨⟨rfl, rfl, ?_, hi.inv.cx, hi.inv.bp, hi.inv.fp, hi.inv.mem⟩, rfl⟩, ?_⟩
  · simp only [← BitVec.ofNat_add]
  · simp only [← BitVec.ofNat_add]

/-- One iteration. -/
theorem sse4_body (h : Io e ib ob N (4 * N)) {m j : Nat} (hm : m < 2 ^ 63) (hj16 : j + 16 ≤ N) (haj : (ob.toNat + 4 * j) % 16 = 0) {s : St}
    (hi : Top e m0 ib ob n f0 bp m j (4 * j) s) :
    ∃ s', Top e m0 ib ob n f0 bp m (j + 16) (4 * (j + 16)) s' ∧ Reach e prog 368 s (if j + 16 < m then 368 else 399) s' := by
  have hn := h.nin_lt
  obtain ⟨s1, g1, i1⟩ := sse4_load h hj16 hi
  obtain ⟨s2, g2, i2⟩ := sse4_q0 h hj16 haj i1
  obtain ⟨s3, g3, i3⟩ := sse4_q1 h hj16 haj i2
  obtain ⟨s4, g4, i4⟩ := sse4_q2 h hj16 haj i3
  obtain ⟨s5, g5, i5⟩ := sse4_q3 h hj16 haj i4
  obtain ⟨s6, g6, i6, f6⟩ := sse4_tail i5.toTop
  have r1 : Reach e prog 368 s 371 s1 := reach_blk b368 h368 g1
  have r2 : Reach e prog 371 s1 376 s2 := reach_blk b371 h371 g2
  have r3 : Reach e prog 376 s2 382 s3 := reach_blk b376 h376 g3
  have r4 : Reach e prog 382 s3 388 s4 := reach_blk b382 h382 g4
  have r5 : Reach e prog 388 s4 394 s5 := reach_blk b388 h388 g5
  have r6 : Reach e prog 394 s5 398 s6 := reach_blk b394 h394 g6
  have hfl : s6.fl.taken .JLT = some (decide (j + 16 < m)) := by
    rw [f6, taken_jlt_nat (by omega) (by omega)]
  have r7 := reach_branch (e := e) (p := prog) (pc := 398) .JLT .i8tof32_sse4_loop (by decide +kernel) (t := 368) (by decide +kernel) hfl
  simp only [decide_eq_true_eq] at r7
  exact ⟨s6, i6, r1.trans (r2.trans (r3.trans (r4.trans (r5.trans (r6.trans r7)))))⟩

theorem sse4_loop (h : Io e ib ob N (4 * N)) {m k : Nat} (hm : m + k ≤ N) (hm16 : m % 16 = 0) (hk : k < m) (hk4 : k < 16)
    (ha : (ob.toNat + 4 * k) % 16 = 0) {s : St} (hi : Top e m0 ib ob n f0 bp m k (4 * k) s) :
    ∃ s', Inv e m0 ib ob n f0 bp (m + k) (4 * (m + k)) s' ∧ Reach e prog 368 s 445 s' := by
  have hn := h.nin_lt
  obtain ⟨k', s', ⟨h1, h0⟩, h2, h3, h4, -, h6⟩ := loop (e := e) (p := prog) (a := 368) (b := 399)
    (fun j s => Top e m0 ib ob n f0 bp m j (4 * j) s ∧ j % 16 = k) m 16 (by omega)
    (by
      rintro j s hj ⟨hi, hjk⟩
      obtain ⟨s', i', r'⟩ := sse4_body h (by omega) (by omega) (by omega) hi
      exact ⟨s', ⟨i', by omega⟩, r'⟩)
    k s hk ⟨hi, by omega⟩
  obtain rfl : k' = m + k := by omega
  refine ⟨s', h1.inv, h6.trans ?_⟩
  exact reach_jump (l := .i8tof32_stepper) (c := .JMP) (by decide +kernel) rfl (by decide +kernel)

/-- Where the last block goes past the readable input the routine faults. -/
theorem sse4_fault (h : Io e ib ob N (4 * N)) (hrd : e.rd (ib + BitVec.ofNat 64 N) = false) {m k : Nat} (hm : N < m + k) (hmN : m ≤ N)
    (hm32 : 32 ≤ m) (hm16 : m % 16 = 0) (hk4 : k < 16) (ha : (ob.toNat + 4 * k) % 16 = 0) {s : St}
    (hi : Top e m0 ib ob n f0 bp m k (4 * k) s) : Faults e prog 368 s := by
  have hn := h.nin_lt
  obtain ⟨k', s', ⟨h1, h0⟩, h2, h3, h4, -, h6⟩ := loop (e := e) (p := prog) (a := 368) (b := 368)
    (fun j s => Top e m0 ib ob n f0 bp m j (4 * j) s ∧ j % 16 = k) (m - 16) 16 (by omega)
    (by
      rintro j s hj ⟨hi, hjk⟩
      obtain ⟨s', i', r'⟩ := sse4_body h (by omega) (by omega) (by omega) hi
      rw [if_pos (by omega)] at r'
      rw [ite_self]
      exact ⟨s', ⟨i', by omega⟩, r'⟩)
    k s (by omega) ⟨hi, by omega⟩
  obtain rfl : k' = m - 16 + k := by omega
  have r : Reach e prog 368 s' 369 s' := reach_blk [.label .i8tof32_sse4_loop] (by decide +kernel) rfl
  refine (h6.trans r).faults (faults_ins (mn := .MOVOU) (ops := [.m .SI 0, .x 0]) (by decide +kernel) ?_)
  have hl : e.load s' (ib + BitVec.ofNat 64 (m - 16 + k)) 16 = none := by
    refine load_none (i := N - (m - 16 + k)) (by omega) ?_
    rw [adv, show m - 16 + k + (N - (m - 16 + k)) = N by omega]
    exact hrd
  xs [h1.inv.si, hl]
  rfl

/-! #### With SSE2 only -/

theorem sse2_load (h : Io e ib ob N (4 * N)) {m k : Nat} (hk : k + 16 ≤ N) {s : St} (hi : Top e m0 ib ob n f0 bp m k (4 * k) s) :
    ∃ s', blk e b405 s = some s' ∧ Mid e m0 ib ob n f0 bp m k (4 * k) s' ∧
      ∀ i < 16, s'.x 1 i = m0 (ib + BitVec.ofNat 64 (k + i)) := by
  xs [hi.inv.si, h.load hi.inv.mem (by omega) rfl hk]
  refine ⟨_, rfl, ⟨⟨⟨hi.inv.si, hi.inv.di, hi.inv.ax, hi.inv.cx, hi.inv.bp, hi.inv.fp, hi.inv.mem⟩, hi.dx⟩, ?_⟩, ?_⟩
  · intro i hi16
    simp [low_lt hi16, inp, hi16]
  · intro i hi16
    simp [low_lt hi16, inp, hi16]

theorem sse2_q0 (h : Io e ib ob N (4 * N)) {m k : Nat} (hk : k + 16 ≤ N) (ha : (ob.toNat + 4 * k) % 16 = 0) {s : St}
    (hi : Mid e m0 ib ob n f0 bp m k (4 * k) s) (h2 : ∀ i < 16, s.x 1 i = m0 (ib + BitVec.ofNat 64 (k + i))) :
    ∃ s', blk e b409 s = some s' ∧ Mid e m0 ib ob n f0 bp m k (4 * k + 16) s' ∧
      ∀ i < 16, s'.x 2 i = m0 (ib + BitVec.ofNat 64 (k + i / 2)) := by
  have hal := aligned16 (ob := ob) (j := 4 * k) (d := 0) ha (by norm_num)
  rw [adv] at hal
  simp only [Nat.add_zero] at hal
  xs [hi.inv.di, adv, hal, beq_self_eq_true, if_true]
  rw [h.store (w := 4 * k) (g := want e m0 ib) (m0 := m0) ?_ rfl ?_ ?_]
  rotate_left
  · exact hi.inv.mem
  · omega
  · intro i hi16
    have h4 : i / 4 < 4 := by omega
    have e1 : (4 * k + i) / 4 = k + (i / 4) := by omega
    have e2 : (4 * k + i) % 4 = i % 4 := by omega
    have e3 : 4 * (i / 4) + 3 < 16 := by omega
    have e4 : (4 * (i / 4) + 3) / 2 % 2 = 1 := by omega
    have e5 : (4 * (i / 4) + 3) / 4 = i / 4 := by omega
    have e6 : (4 * (i / 4) + 3) % 2 = 1 := by omega
    have e7 : 2 * (i / 4) + 1 < 16 := by omega
    have e9 : (2 * (i / 4) + 1) / 2 = i / 4 := by omega
    have hq := h2 (i / 4) (by omega)
    simp only [Function.update_self, low_lt hi16, of32, d32_low_of32 _ _ _ h4, Int.reduceToNat, sar_d32, low_lt e3, toInt_d32_sx, e4, e5, e6, one_ne_zero, if_false]
    simp [want, elem, e1, e2, ← hq, low_lt e7, e9]
  refine ⟨_, rfl, ⟨⟨⟨hi.inv.si, hi.inv.di, hi.inv.ax, hi.inv.cx, hi.inv.bp, hi.inv.fp, rfl⟩, hi.dx⟩, ?_⟩, ?_⟩
  · intro i hi16
    simp [hi.x0 i hi16]
  · intro i hi16
    simp [low_lt hi16, h2 (i / 2) (by omega)]

theorem sse2_q1 (h : Io e ib ob N (4 * N)) {m k : Nat} (hk : k + 16 ≤ N) (ha : (ob.toNat + 4 * k) % 16 = 0) {s : St}
    (hi : Mid e m0 ib ob n f0 bp m k (4 * k + 16) s) (h3 : ∀ i < 16, s.x 2 i = m0 (ib + BitVec.ofNat 64 (k + i / 2))) :
    ∃ s', blk e b417 s = some s' ∧ Mid e m0 ib ob n f0 bp m k (4 * k + 32) s' := by
  have hal := aligned16 (ob := ob) (j := 4 * k) (d := 16) ha (by norm_num)
  rw [adv] at hal
  xs [hi.inv.di, adv, hal, beq_self_eq_true, if_true]
  rw [h.store (w := 4 * k + 16) (g := want e m0 ib) (m0 := m0) ?_ rfl ?_ ?_]
  rotate_left
  · exact hi.inv.mem
  · omega
  · intro i hi16
    have h4 : i / 4 < 4 := by omega
    have e1 : (4 * k + 16 + i) / 4 = k + (4 + i / 4) := by omega
    have e2 : (4 * k + 16 + i) % 4 = i % 4 := by omega
    have e3 : 4 * (i / 4) + 3 < 16 := by omega
    have e4 : (4 * (i / 4) + 3) / 2 % 2 = 1 := by omega
    have e5 : (4 * (i / 4) + 3) / 4 = i / 4 := by omega
    have e6 : (4 * (i / 4) + 3) % 2 = 1 := by omega
    have hq := h3 (8 + 2 * (i / 4) + 1) (by omega)
    rw [show (8 + 2 * (i / 4) + 1) / 2 = 4 + i / 4 by omega] at hq
    simp only [Function.update_self, low_lt hi16, of32, d32_low_of32 _ _ _ h4, Int.reduceToNat, sar_d32, low_lt e3, toInt_d32_sx, e4, e5, e6, one_ne_zero, if_false]
    simp [want, elem, e1, e2, ← hq]
  refine ⟨_, rfl, ⟨⟨⟨hi.inv.si, hi.inv.di, hi.inv.ax, hi.inv.cx, hi.inv.bp, hi.inv.fp, rfl⟩, hi.dx⟩, ?_⟩⟩
  intro i hi16
  simp [hi.x0 i hi16]

theorem sse2_q2 (h : Io e ib ob N (4 * N)) {m k : Nat} (hk : k + 16 ≤ N) (ha : (ob.toNat + 4 * k) % 16 = 0) {s : St}
    (hi : Mid e m0 ib ob n f0 bp m k (4 * k + 32) s) :
    ∃ s', blk e b423 s = some s' ∧ Top e m0 ib ob n f0 bp m k (4 * k + 48) s' ∧
      ∀ i < 16, s'.x 2 i = m0 (ib + BitVec.ofNat 64 (k + (8 + i / 2))) := by
  have hal := aligned16 (ob := ob) (j := 4 * k) (d := 32) ha (by norm_num)
  rw [adv] at hal
  xs [hi.inv.di, adv, hal, beq_self_eq_true, if_true]
  rw [h.store (w := 4 * k + 32) (g := want e m0 ib) (m0 := m0) ?_ rfl ?_ ?_]
  rotate_left
  · exact hi.inv.mem
  · omega
  · intro i hi16
    have h4 : i / 4 < 4 := by omega
    have e1 : (4 * k + 32 + i) / 4 = k + (8 + i / 4) := by omega
    have e2 : (4 * k + 32 + i) % 4 = i % 4 := by omega
    have e3 : 4 * (i / 4) + 3 < 16 := by omega
    have e4 : (4 * (i / 4) + 3) / 2 % 2 = 1 := by omega
    have e5 : (4 * (i / 4) + 3) / 4 = i / 4 := by omega
    have e6 : (4 * (i / 4) + 3) % 2 = 1 := by omega
    have e7 : 2 * (i / 4) + 1 < 16 := by omega
    have e9 : (2 * (i / 4) + 1) / 2 = i / 4 := by omega
    have hq := hi.x0 (8 + i / 4) (by omega)
    simp only [Function.update_self, low_lt hi16, of32, d32_low_of32 _ _ _ h4, Int.reduceToNat, sar_d32, low_lt e3, toInt_d32_sx, e4, e5, e6, one_ne_zero, if_false]
    simp [want, elem, e1, e2, ← hq, low_lt e7, e9]
  refine ⟨_, rfl, ⟨⟨hi.inv.si, hi.inv.di, hi.inv.ax, hi.inv.cx, hi.inv.bp, hi.inv.fp, rfl⟩, hi.dx⟩, ?_⟩
  intro i hi16
  simp [low_lt hi16, hi.x0 (8 + i / 2) (by omega)]

theorem sse2_q3 (h : Io e ib ob N (4 * N)) {m k : Nat} (hk : k + 16 ≤ N) (ha : (ob.toNat + 4 * k) % 16 = 0) {s : St}
    (hi : Top e m0 ib ob n f0 bp m k (4 * k + 48) s) (h3 : ∀ i < 16, s.x 2 i = m0 (ib + BitVec.ofNat 64 (k + (8 + i / 2)))) :
    ∃ s', blk e b431 s = some s' ∧ Top e m0 ib ob n f0 bp m k (4 * k + 64) s' := by
  have hal := aligned16 (ob := ob) (j := 4 * k) (d := 48) ha (by norm_num)
  rw [adv] at hal
  xs [hi.inv.di, adv, hal, beq_self_eq_true, if_true]
  rw [h.store (w := 4 * k + 48) (g := want e m0 ib) (m0 := m0) ?_ rfl ?_ ?_]
  rotate_left
  · exact hi.inv.mem
  · omega
  · intro i hi16
    have h4 : i / 4 < 4 := by omega
    have e1 : (4 * k + 48 + i) / 4 = k + (12 + i / 4) := by omega
    have e2 : (4 * k + 48 + i) % 4 = i % 4 := by omega
    have e3 : 4 * (i / 4) + 3 < 16 := by omega
    have e4 : (4 * (i / 4) + 3) / 2 % 2 = 1 := by omega
    have e5 : (4 * (i / 4) + 3) / 4 = i / 4 := by omega
    have e6 : (4 * (i / 4) + 3) % 2 = 1 := by omega
    have hq := h3 (8 + 2 * (i / 4) + 1) (by omega)
    rw [show 8 + (8 + 2 * (i / 4) + 1) / 2 = 12 + i / 4 by omega] at hq
    simp only [Function.update_self, low_lt hi16, of32, d32_low_of32 _ _ _ h4, Int.reduceToNat, sar_d32, low_lt e3, toInt_d32_sx, e4, e5, e6, one_ne_zero, if_false]
    simp [want, elem, e1, e2, ← hq]
  exact ⟨_, rfl, ⟨⟨hi.inv.si, hi.inv.di, hi.inv.ax, hi.inv.cx, hi.inv.bp, hi.inv.fp, rfl⟩, hi.dx⟩⟩

theorem sse2_tail {m k : Nat} {s : St} (hi : Top e m0 ib ob n f0 bp m k (4 * k + 64) s) :
    ∃ s', blk e b437 s = some s' ∧ Top e m0 ib ob n f0 bp m (k + 16) (4 * (k + 16)) s' ∧ s'.fl = subFlags (BitVec.ofNat 64 (k + 16)) (BitVec.ofNat 64 m) := by
  xs [hi.inv.si, hi.inv.ax, hi.inv.di, i16, i64, adv, hi.dx]
  refine ⟨_, rfl, ⟨⟨rfl, rfl, ?_, hi.inv.cx, hi.inv.bp, hi.inv.fp, hi.inv.mem⟩, rfl⟩, ?_⟩
  · simp only [← BitVec.ofNat_add]
  · simp only [← BitVec.ofNat_add]

/-- One iteration. -/
theorem sse2_body (h : Io e ib ob N (4 * N)) {m j : Nat} (hm : m < 2 ^ 63) (hj16 : j + 16 ≤ N) (haj : (ob.toNat + 4 * j) % 16 = 0) {s : St}
    (hi : Top e m0 ib ob n f0 bp m j (4 * j) s) :
    ∃ s', Top e m0 ib ob n f0 bp m (j + 16) (4 * (j + 16)) s' ∧ Reach e prog 405 s (if j + 16 < m then 405 else 442) s' := by
  have hn := h.nin_lt
  obtain ⟨s1, g1, i1, t1⟩ := sse2_load h hj16 hi
  obtain ⟨s2, g2, i2, t2⟩ := sse2_q0 h hj16 haj i1 t1
  obtain ⟨s3, g3, i3⟩ := sse2_q1 h hj16 haj i2 t2
  obtain ⟨s4, g4, i4, t4⟩ := sse2_q2 h hj16 haj i3
  obtain ⟨s5, g5, i5⟩ := sse2_q3 h hj16 haj i4 t4
  obtain ⟨s6, g6, i6, f6⟩ := sse2_tail i5
  have r1 : Reach e prog 405 s 409 s1 := reach_blk b405 h405 g1
  have r2 : Reach e prog 409 s1 417 s2 := reach_blk b409 h409 g2
  have r3 : Reach e prog 417 s2 423 s3 := reach_blk b417 h417 g3
  have r4 : Reach e prog 423 s3 431 s4 := reach_blk b423 h423 g4
  have r5 : Reach e prog 431 s4 437 s5 := reach_blk b431 h431 g5
  have r6 : Reach e prog 437 s5 441 s6 := reach_blk b437 h437 g6
  have hfl : s6.fl.taken .JLT = some (decide (j + 16 < m)) := by
    rw [f6, taken_jlt_nat (by omega) (by omega)]
  have r7 := reach_branch (e := e) (p := prog) (pc := 441) .JLT .i8tof32_sse2_loop (by decide +kernel) (t := 405) (by decide +kernel) hfl
  simp only [decide_eq_true_eq] at r7
  exact ⟨s6, i6, r1.trans (r2.trans (r3.trans (r4.trans (r5.trans (r6.trans r7)))))⟩

theorem sse2_loop (h : Io e ib ob N (4 * N)) {m k : Nat} (hm : m + k ≤ N) (hm16 : m % 16 = 0) (hk : k < m) (hk4 : k < 16)
    (ha : (ob.toNat + 4 * k) % 16 = 0) {s : St} (hi : Top e m0 ib ob n f0 bp m k (4 * k) s) :
    ∃ s', Inv e m0 ib ob n f0 bp (m + k) (4 * (m + k)) s' ∧ Reach e prog 405 s 445 s' := by
  have hn := h.nin_lt
  obtain ⟨k', s', ⟨h1, h0⟩, h2, h3, h4, -, h6⟩ := loop (e := e) (p := prog) (a := 405) (b := 442)
    (fun j s => Top e m0 ib ob n f0 bp m j (4 * j) s ∧ j % 16 = k) m 16 (by omega)
    (by
      rintro j s hj ⟨hi, hjk⟩
      obtain ⟨s', i', r'⟩ := sse2_body h (by omega) (by omega) (by omega) hi
      exact ⟨s', ⟨i', by omega⟩, r'⟩)
    k s hk ⟨hi, by omega⟩
  obtain rfl : k' = m + k := by omega
  refine ⟨s', h1.inv, h6.trans ?_⟩
  exact reach_blk b442 h442 rfl

/-- Where the last block goes past the readable input the routine faults. -/
theorem sse2_fault (h : Io e ib ob N (4 * N)) (hrd : e.rd (ib + BitVec.ofNat 64 N) = false) {m k : Nat} (hm : N < m + k) (hmN : m ≤ N)
    (hm32 : 32 ≤ m) (hm16 : m % 16 = 0) (hk4 : k < 16) (ha : (ob.toNat + 4 * k) % 16 = 0) {s : St}
    (hi : Top e m0 ib ob n f0 bp m k (4 * k) s) : Faults e prog 405 s := by
  have hn := h.nin_lt
  obtain ⟨k', s', ⟨h1, h0⟩, h2, h3, h4, -, h6⟩ := loop (e := e) (p := prog) (a := 405) (b := 405)
    (fun j s => Top e m0 ib ob n f0 bp m j (4 * j) s ∧ j % 16 = k) (m - 16) 16 (by omega)
    (by
      rintro j s hj ⟨hi, hjk⟩
      obtain ⟨s', i', r'⟩ := sse2_body h (by omega) (by omega) (by omega) hi
      rw [if_pos (by omega)] at r'
      rw [ite_self]
      exact ⟨s', ⟨i', by omega⟩, r'⟩)
    k s (by omega) ⟨hi, by omega⟩
  obtain rfl : k' = m - 16 + k := by omega
  have r : Reach e prog 405 s' 406 s' := reach_blk [.label .i8tof32_sse2_loop] (by decide +kernel) rfl
  refine (h6.trans r).faults (faults_ins (mn := .MOVOU) (ops := [.m .SI 0, .x 0]) (by decide +kernel) ?_)
  have hl : e.load s' (ib + BitVec.ofNat 64 (m - 16 + k)) 16 = none := by
    refine load_none (i := N - (m - 16 + k)) (by omega) ?_
    rw [adv, show m - 16 + k + (N - (m - 16 + k)) = N by omega]
    exact hrd
  xs [h1.inv.si, hl]
  rfl

/-! ### The whole routine -/

/-- How many single elements are converted before the vector loop. -/
def lead (ob : BitVec 64) : Nat := (16 - ob.toNat % 16 / 4) % 16

/-- How many elements the routine converts. -/
def total (n : Nat) (ob : BitVec 64) : Nat := if n ≤ 32 then n else max n (n - n % 16 + lead ob)

theorem mask16 {n : Nat} (h : n < 2 ^ 63) : BitVec.ofNat 64 n &&& imm32 (-16) = BitVec.ofNat 64 (n - n % 16) := and_mask16 h

/-- From the label `i8tof32_aligned`. -/
theorem setup (hn : n < 2 ^ 63) (h32 : 32 < n) {k : Nat} (hk : k < 16) {s : St} (hi : Inv e m0 ib ob n f0 bp k (4 * k) s) :
    ∃ s', (Reach e prog 354 s 368 s' ∨ Reach e prog 354 s 405 s') ∧ Top e m0 ib ob n f0 0 (n - n % 16) k (4 * k) s' := by
  obtain ⟨m, hm⟩ : ∃ m, m = n - n % 16 := ⟨_, rfl⟩
  have hm16 : m % 16 = 0 := by omega
  have hkm : k < m := by omega
  have b1 : blk e b354 s = some { s with g := { s.g with dx := BitVec.ofNat 64 m }, fl := subFlags (BitVec.ofNat 64 k) (BitVec.ofNat 64 m) } := by
    xs [hi.ax, hi.cx, mask16 hn, ← hm]
  rw [← hm]
  have r1 : Reach e prog 354 s 359 _ := reach_blk b354 h354 b1
  have hfl : (subFlags (BitVec.ofNat 64 k) (BitVec.ofNat 64 m)).taken .JGE = some (decide (m ≤ k)) := taken_jge_nat (by omega) (by omega)
  have r2 := reach_fall (e := e) (p := prog) (pc := 359) (c := .JGE) (l := .i8tof32_stepper)
    (s := { s with g := { s.g with dx := BitVec.ofNat 64 m }, fl := subFlags (BitVec.ofNat 64 k) (BitVec.ofNat 64 m) })
    (by decide +kernel) (by rw [hfl]; simp; omega)
  have b2 : ∀ t, blk e b360 t = some { t with fl := ⟨some ((e.sym .useSSE4).signExtend 64 == (BitVec.ofInt 8 1).signExtend 64), none, none, none⟩ } := by
    intro t
    xs []
  have r3 := r1.trans (r2.trans (reach_blk (pc := 360) b360 h360 (b2 _)))
  simp only [List.length_cons, List.length_nil, Nat.reduceAdd] at r3
  have r4 := reach_branch (e := e) (p := prog) (pc := 363) .JNE .i8tof32_nosse4 (by decide +kernel) (t := 401) (by decide +kernel)
    (s := { s with g := { s.g with dx := BitVec.ofNat 64 m }, fl := ⟨some ((e.sym .useSSE4).signExtend 64 == (BitVec.ofInt 8 1).signExtend 64), none, none, none⟩ }) rfl
  have r5 := r3.trans r4
  by_cases c : ((e.sym .useSSE4).signExtend 64 == (BitVec.ofInt 8 1).signExtend 64 : Bool) = true
  · rw [c] at r5
    simp only [Bool.not_true, Bool.false_eq_true, if_false] at r5
    have b6 : ∃ s', blk e b364 { s with g := { s.g with dx := BitVec.ofNat 64 m }, fl := ⟨some true, none, none, none⟩ } = some s' ∧
        Top e m0 ib ob n f0 0 m k (4 * k) s' := by
      xs []
      exact ⟨_, rfl, ⟨hi.si, hi.di, hi.ax, hi.cx, rfl, hi.fp, hi.mem⟩, rfl⟩
    obtain ⟨s6, g6, i6⟩ := b6
    have r6 : Reach e prog 364 _ 368 s6 := reach_blk b364 h364 g6
    exact ⟨s6, .inl (r5.trans r6), i6⟩
  · rw [Bool.not_eq_true] at c
    rw [c] at r5
    simp only [Bool.not_false, if_true] at r5
    have b6 : ∃ s', blk e b401 { s with g := { s.g with dx := BitVec.ofNat 64 m }, fl := ⟨some false, none, none, none⟩ } = some s' ∧
        Top e m0 ib ob n f0 0 m k (4 * k) s' := by
      xs []
      exact ⟨_, rfl, ⟨hi.si, hi.di, hi.ax, hi.cx, rfl, hi.fp, hi.mem⟩, rfl⟩
    obtain ⟨s6, g6, i6⟩ := b6
    have r6 : Reach e prog 401 _ 405 s6 := reach_blk b401 h401 g6
    exact ⟨s6, .inr (r5.trans r6), i6⟩

/-- From the label `i8tof32_aligned`, when everything can be accessed. -/
theorem aligned (h : Io e ib ob N (4 * N)) (h32 : 32 < n) (hnN : n ≤ N) {k : Nat} (hk : k < 16) (hN : n - n % 16 + k ≤ N)
    (ha : (ob.toNat + 4 * k) % 16 = 0) {s : St} (hi : Inv e m0 ib ob n f0 bp k (4 * k) s) :
    ∃ s', Returns e prog 354 s s' ∧ Inv e m0 ib ob n f0 0 (max n (n - n % 16 + k)) (4 * max n (n - n % 16 + k)) s' := by
  have hn := h.nin_lt
  obtain ⟨s6, r6 | r6, i6⟩ := setup (by omega) h32 hk hi
  · obtain ⟨s7, i7, r7⟩ := sse4_loop h hN (by omega) (by omega) (by omega) ha i6
    obtain ⟨s8, r8, i8⟩ := stepper h hnN hN i7
    exact ⟨s8, (r6.trans r7).returns r8, i8⟩
  · obtain ⟨s7, i7, r7⟩ := sse2_loop h hN (by omega) (by omega) (by omega) ha i6
    obtain ⟨s8, r8, i8⟩ := stepper h hnN hN i7
    exact ⟨s8, (r6.trans r7).returns r8, i8⟩

/-- From the label `i8tof32_aligned`, when the last block goes past the readable input. -/
theorem aligned_fault (h : Io e ib ob n (4 * n)) (hrd : e.rd (ib + BitVec.ofNat 64 n) = false) (h32 : 32 < n) {k : Nat} (hk : k < 16)
    (hN : n < n - n % 16 + k) (ha : (ob.toNat + 4 * k) % 16 = 0) {s : St} (hi : Inv e m0 ib ob n f0 bp k (4 * k) s) : Faults e prog 354 s := by
  have hn := h.nin_lt
  obtain ⟨s6, r6 | r6, i6⟩ := setup (by omega) h32 hk hi
  · exact r6.faults (sse4_fault h hrd hN (by omega) (by omega) (by omega) (by omega) ha i6)
  · exact r6.faults (sse2_fault h hrd hN (by omega) (by omega) (by omega) (by omega) ha i6)

theorem and15 (a : BitVec 64) : (a &&& imm32 15) >>> 2 = BitVec.ofNat 64 (a.toNat % 16 / 4) := by
  apply BitVec.eq_of_toNat_eq
  have e1 : (imm32 0xf).toNat = 2 ^ 4 - 1 := by decide +kernel
  rw [BitVec.toNat_ushiftRight, BitVec.toNat_and, e1, Nat.and_two_pow_sub_one_eq_mod, Nat.shiftRight_eq_div_pow, BitVec.toNat_ofNat]
  omega

/-- Before the jump in line 334. -/
theorem first (hn : n < 2 ^ 63) {s : St} (hsi : s.g.si = ib) (hdi : s.g.di = ob)
    (hcx : s.g.cx = BitVec.ofNat 64 n) (hbp : s.g.bp = bp) (hfp : s.fp = f0) (hmem : s.mem = m0) :
    ∃ s', Reach e prog 327 s (if n ≤ 32 then 445 else 335) s' ∧ Inv e m0 ib ob n f0 bp 0 (4 * 0) s' := by
  have b1 : ∃ s', blk e b327 s = some s' ∧ Inv e m0 ib ob n f0 bp 0 (4 * 0) s' ∧ s'.fl = subFlags (BitVec.ofNat 64 32) (BitVec.ofNat 64 n) := by
    xs [hcx]
    refine ⟨_, rfl, ⟨?_, ?_, rfl, rfl, hbp, hfp, ?_⟩, rfl⟩
    · rw [adv0]; exact hsi
    · rw [Nat.mul_zero, adv0]; exact hdi
    · rw [Nat.mul_zero, fill_zero]; exact hmem
  obtain ⟨s1, g1, i1, f1⟩ := b1
  have r1 : Reach e prog 327 s 334 s1 := reach_blk b327 h327 g1
  have hfl : s1.fl.taken .JGE = some (decide (n ≤ 32)) := by rw [f1]; exact taken_jge_nat (by omega) (by omega)
  have r2 := reach_branch (e := e) (p := prog) (pc := 334) .JGE .i8tof32_stepper (by decide +kernel) (t := 445) (by decide +kernel) hfl
  simp only [decide_eq_true_eq] at r2
  exact ⟨s1, r1.trans r2, i1⟩

/-- Up to the 16-byte boundary. -/
theorem to_aligned (h : Io e ib ob N (4 * N)) (hN : 15 ≤ N) {s1 : St} (i1 : Inv e m0 ib ob n f0 bp 0 (4 * 0) s1) :
    ∃ s' bp', Reach e prog 335 s1 354 s' ∧ Inv e m0 ib ob n f0 bp' (lead ob) (4 * lead ob) s' := by
  have b3 : ∃ s', blk e b335 s1 = some s' ∧ Inv e m0 ib ob n f0 (BitVec.ofNat 64 (ob.toNat % 16 / 4)) 0 (4 * 0) s' ∧ s'.fl = shiftFlags (BitVec.ofNat 64 (ob.toNat % 16 / 4)) := by
    have hd : s1.g.di = ob := by have := i1.di; rwa [Nat.mul_zero, adv0] at this
    xs [hd, Int.reduceToNat, and15]
    exact ⟨_, rfl, ⟨i1.si, by rw [Nat.mul_zero, adv0], i1.ax, i1.cx, rfl, i1.fp, i1.mem⟩, rfl⟩
  obtain ⟨s3, g3, i3, f3⟩ := b3
  have r3 : Reach e prog 335 s1 340 s3 := reach_blk b335 h335 g3
  have hfl3 : s3.fl.taken .JZ = some (decide (ob.toNat % 16 / 4 = 0)) := by
    rw [f3]
    have : ob.toNat % 16 / 4 < 4 := by omega
    generalize ob.toNat % 16 / 4 = j at *
    obtain rfl | rfl | rfl | rfl : j = 0 ∨ j = 1 ∨ j = 2 ∨ j = 3 := by omega
    all_goals decide +kernel
  have r4 := reach_branch (e := e) (p := prog) (pc := 340) .JZ .i8tof32_aligned (by decide +kernel) (t := 354) (by decide +kernel) hfl3
  simp only [decide_eq_true_eq] at r4
  by_cases c4 : ob.toNat % 16 / 4 = 0
  · rw [if_pos c4] at r4
    have hl : lead ob = 0 := by unfold lead; rw [c4]
    rw [hl]
    exact ⟨s3, _, r3.trans r4, i3⟩
  · rw [if_neg c4] at r4
    have hl : lead ob = 16 - ob.toNat % 16 / 4 := by unfold lead; omega
    have b5 : ∃ s', blk e b341 s3 = some s' ∧ Inv e m0 ib ob n f0 (BitVec.ofNat 64 (ob.toNat % 16 / 4)) 0 (4 * 0) s' ∧ s'.g.dx = BitVec.ofNat 64 (lead ob - 0) := by
      have i4 : BitVec.ofInt 64 16 = BitVec.ofNat 64 16 := rfl
      xs [i3.bp, i4]
      exact ⟨_, rfl, ⟨i3.si, i3.di, i3.ax, i3.cx, rfl, i3.fp, i3.mem⟩, by rw [hl]; exact sub_ofNat (by omega) (by decide)⟩
    obtain ⟨s5, g5, i5, e5⟩ := b5
    have r5 : Reach e prog 341 s3 344 s5 := reach_blk b341 h341 g5
    obtain ⟨s6, i6, r6⟩ := align_loop h (d := lead ob) (by omega) (k := 0) (by omega) i5 e5
    have r7 : Reach e prog 353 s6 354 s6 := reach_blk b353 h353 rfl
    exact ⟨s6, _, (r3.trans r4).trans (r5.trans (r6.trans r7)), i6⟩

theorem lead_lt (ob : BitVec 64) : lead ob < 16 := by unfold lead; omega

theorem lead_al {ob : BitVec 64} (h4 : ob.toNat % 4 = 0) : (ob.toNat + 4 * lead ob) % 16 = 0 := by unfold lead; omega

/-- The registers at the jump in line 324; `CX` holds `c`. -/
def entry (s : St) (ib ob : BitVec 64) (nin nout c : Nat) : St :=
  ⟨⟨BitVec.ofNat 64 nin, s.g.bx, BitVec.ofNat 64 c, s.g.dx, ib, ob, s.g.bp⟩, s.x, subFlags (BitVec.ofNat 64 nin) (BitVec.ofNat 64 nout), s.mem, s.fp⟩

/-- The arguments and the smaller length. -/
theorem args {nin nout : Nat} (hin : nin < 2 ^ 63) (hout : nout < 2 ^ 63) {s : St} (f1 : s.fp 0 = ib) (f2 : s.fp 8 = BitVec.ofNat 64 nin)
    (f3 : s.fp 24 = ob) (f4 : s.fp 32 = BitVec.ofNat 64 nout) : Reach e prog 317 s 327 (entry s ib ob nin nout (min nin nout)) := by
  have b1 : blk e b317 s = some (entry s ib ob nin nout nout) := by
    xs [f1, f2, f3, f4, entry]
  have r1 : Reach e prog 317 s 324 _ := reach_blk b317 h317 b1
  have r2 := reach_branch (e := e) (p := prog) (pc := 324) .JGE .i8tof32_min_len (by decide +kernel) (t := 327) (by decide +kernel)
    (s := entry s ib ob nin nout nout) (taken_jge_nat hin hout)
  simp only [decide_eq_true_eq] at r2
  by_cases c : nout ≤ nin
  · rw [if_pos c] at r2
    rw [Nat.min_eq_right c]
    exact r1.trans r2
  · rw [if_neg c] at r2
    rw [Nat.min_eq_left (by omega)]
    have b2 : blk e b325 (entry s ib ob nin nout nout) = some (entry s ib ob nin nout nin) := by
      xs [entry]
    have r3 : Reach e prog 325 _ 327 _ := reach_blk b325 h325 b2
    exact (r1.trans r2).trans r3

/-- The whole routine, when everything it touches can be accessed. -/
theorem routine {nin nout : Nat} (hin : nin < 2 ^ 63) (hout : nout < 2 ^ 63) (hN : N = total (min nin nout) ob) (h : Io e ib ob N (4 * N))
    (h4 : ob.toNat % 4 = 0) {s : St} (f1 : s.fp 0 = ib) (f2 : s.fp 8 = BitVec.ofNat 64 nin) (f3 : s.fp 24 = ob) (f4 : s.fp 32 = BitVec.ofNat 64 nout) :
    ∃ s', Returns e prog 317 s s' ∧ Inv e s.mem ib ob (min nin nout) s.fp (if min nin nout ≤ 32 then s.g.bp else 0) N (4 * N) s' := by
  have hl := lead_lt ob
  have hn := h.nin_lt
  have r0 := args (e := e) hin hout f1 f2 f3 f4
  generalize hm : min nin nout = n at *
  have hnN : n ≤ N := by rw [hN]; unfold total; split <;> omega
  obtain ⟨s1, r1, i1⟩ := first (e := e) (n := n) (m0 := s.mem) (bp := s.g.bp) (f0 := s.fp) (ib := ib) (ob := ob) (by omega) (s := entry s ib ob nin nout n) rfl rfl rfl rfl rfl rfl
  by_cases c : n ≤ 32
  · rw [if_pos c] at r1 ⊢
    obtain ⟨s8, r8, i8⟩ := stepper h hnN (Nat.zero_le _) i1
    have e8 : N = max n 0 := by rw [hN]; unfold total; rw [if_pos c]; omega
    rw [← e8] at i8
    exact ⟨s8, (r0.trans r1).returns r8, i8⟩
  · rw [if_neg c] at r1 ⊢
    have hN' : N = max n (n - n % 16 + lead ob) := by rw [hN]; unfold total; rw [if_neg c]
    obtain ⟨s2, bp', r2, i2⟩ := to_aligned h (by omega) i1
    obtain ⟨s8, r8, i8⟩ := aligned h (by omega) hnN hl (by omega) (lead_al h4) i2
    rw [← hN'] at i8
    exact ⟨s8, ((r0.trans r1).trans r2).returns r8, i8⟩

/-- The whole routine, when the input cannot be read past the smaller length. -/
theorem routine_fault {nin nout : Nat} (hin : nin < 2 ^ 63) (hout : nout < 2 ^ 63) (hn : n = min nin nout) (h : Io e ib ob n (4 * n))
    (hrd : e.rd (ib + BitVec.ofNat 64 n) = false) (h32 : 32 < n) (hov : n % 16 < lead ob)
    (h4 : ob.toNat % 4 = 0) {s : St} (f1 : s.fp 0 = ib) (f2 : s.fp 8 = BitVec.ofNat 64 nin) (f3 : s.fp 24 = ob) (f4 : s.fp 32 = BitVec.ofNat 64 nout) :
    Faults e prog 317 s := by
  have hl := lead_lt ob
  have hn' := h.nin_lt
  have r0 := args (e := e) hin hout f1 f2 f3 f4
  rw [← hn] at r0
  obtain ⟨s1, r1, i1⟩ := first (e := e) (n := n) (m0 := s.mem) (bp := s.g.bp) (f0 := s.fp) (ib := ib) (ob := ob) (by omega) (s := entry s ib ob nin nout n) rfl rfl rfl rfl rfl rfl
  rw [if_neg (by omega)] at r1
  obtain ⟨s2, bp', r2, i2⟩ := to_aligned h (by omega) i1
  exact ((r0.trans r1).trans r2).faults (aligned_fault h hrd h32 hl (by omega) (lead_al h4) i2)

end Verif.X86.Conv.I8
