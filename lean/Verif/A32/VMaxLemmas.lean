import Verif.A32.A32Spec
import Verif.A32.MathModel
import Verif.Arm.Math32Props

/-!
# The run of `VMaxF32` on 32-bit ARM, instruction by instruction
-/

namespace Verif.A32.Math
open Verif.A32 Verif.Mach
open Verif.X86 (Vec byte d32 of32 bytes32)
open Verif.Arm (takeGt vmFold32 StN StF vmNeon32 vmBatch32 vmScalar32 vmaxF32Arm)
open Verif.Asm (doWhile doWhile_run vExtreme)

namespace VMax

/-! ### What is computed: a closed form of the structured model (C83) -/

section

variable {F : Type}

/-- `j` elements from position `c`, compared one after the other. -/
def scan (gt : F → F → Bool) (im : Nat → F) (y : F) (c : Nat) : Nat → F
  | 0 => y
  | j + 1 => takeGt gt (scan gt im y c j) (im (c + j))

theorem scan_eq (gt : F → F → Bool) (im : Nat → F) (y : F) (c j : Nat) :
    scan gt im y c j = vExtreme gt y ((List.range j).map fun i => im (c + i)) := by
  induction j with
  | zero => rfl
  | succ j ih =>
    rw [scan, ih, List.range_succ, List.map_append]
    unfold vExtreme takeGt
    rw [List.foldl_append]
    rfl

/-- The registers `q4` and `q5` after `j` blocks. -/
def accs (mx : F → F → F) (im : Nat → F) : Nat → (Nat → F) × (Nat → F)
  | 0 => (fun l => im l, fun l => im (4 + l))
  | j + 1 => (fun l => mx ((accs mx im j).1 l) (im (8 + 8 * j + l)), fun l => mx ((accs mx im j).2 l) (im (8 + 8 * j + 4 + l)))

/-- The maximum over `q4` and `q5`. -/
def fold (mx : F → F → F) (q : (Nat → F) × (Nat → F)) : F :=
  mx (mx (mx (q.1 0) (q.2 0)) (mx (q.1 1) (q.2 1))) (mx (mx (q.1 2) (q.2 2)) (mx (q.1 3) (q.2 3)))

/-- The result. -/
def result (gt : F → F → Bool) (mx : F → F → F) (init : F) (neon : Bool) (n : Nat) (im : Nat → F) : F :=
  if neon = true ∧ 16 ≤ n then scan gt im (fold mx (accs mx im ((n - 8) / 8))) (n - n % 8) (n % 8) else scan gt im init 0 n

theorem result_eq (gt : F → F → Bool) (mx : F → F → F) (init : F) (neon : Bool) (n : Nat) (im : Nat → F) :
    vmaxF32Arm gt mx init neon n im = some (result gt mx init neon n im) := by
  unfold result
  by_cases c : neon = true ∧ 16 ≤ n
  · rw [if_pos c]
    obtain ⟨rfl, hn⟩ := c
    have h1 := doWhile_run (body := vmNeon32 mx im) (cond := fun s => decide (s.cnt ≥ 8))
      (fun j => ⟨(accs mx im j).1, (accs mx im j).2, 8 + 8 * j, n - (8 + 8 * j)⟩) ((n - 8) / 8) (n + 1) (by omega) (by omega)
      (fun j _ => by
        unfold vmNeon32
        simp only [Nat.sub_sub]
        rw [show 8 + 8 * (j + 1) = 8 + 8 * j + 8 by omega]
        rfl)
      (fun j _ h => by
        rw [decide_eq_true_eq]
        simp only
        omega)
      (by
        rw [decide_eq_false_iff_not]
        simp only
        omega)
    simp only [Nat.mul_zero, Nat.add_zero] at h1
    unfold vmaxF32Arm
    rw [if_neg (by omega), if_pos ⟨rfl, by omega⟩]
    rw [show (⟨fun k => im k, fun k => im (4 + k), 8, n - 8⟩ : StN F) = ⟨(accs mx im 0).1, (accs mx im 0).2, 8, n - 8⟩ from rfl, h1, Option.bind_some]
    have e : (⟨vmFold32 mx ⟨(accs mx im ((n - 8) / 8)).1, (accs mx im ((n - 8) / 8)).2, 8 + 8 * ((n - 8) / 8), n - (8 + 8 * ((n - 8) / 8))⟩,
        8 + 8 * ((n - 8) / 8), n - (8 + 8 * ((n - 8) / 8))⟩ : StF F) =
        Arm.stF gt im (fold mx (accs mx im ((n - 8) / 8))) (n - n % 8) n (n - n % 8) := by
      rw [Arm.stF_start]
      have : 8 + 8 * ((n - 8) / 8) = n - n % 8 := by omega
      rw [this]
      rfl
    simp only
    rw [e, Arm.rest_run StF.cnt (Arm.stF gt im _ (n - n % 8) n) n (n - n % 8) (by omega) (fun _ => rfl) (vmScalar32 gt im)
      (fun x hx _ => Arm.vmScalar32_st gt im _ _ n x hx), Option.map_some]
    simp only [Arm.stF]
    rw [scan_eq, show n - (n - n % 8) = n % 8 by omega]
  · rw [if_neg c, Arm.C83_max_scalar gt mx init neon n im (by
      rcases Bool.eq_false_or_eq_true neon with h | h
      · exact Or.inr (by by_contra q; exact c ⟨h, by omega⟩)
      · exact Or.inl h), scan_eq]
    simp only [Nat.zero_add]

/-- The result for values from the result for their bits. -/
theorem result_map {G : Type} (f : F → G) {gt : F → F → Bool} {gt' : G → G → Bool} {mx : F → F → F} {mx' : G → G → G} (hg : ∀ a b, gt a b = gt' (f a) (f b))
    (hm : ∀ a b, f (mx a b) = mx' (f a) (f b)) (init : F) (neon : Bool) (n : Nat) (im : Nat → F) :
    f (result gt mx init neon n im) = result gt' mx' (f init) neon n fun i => f (im i) := by
  have hs : ∀ y c j, f (scan gt im y c j) = scan gt' (fun i => f (im i)) (f y) c j := by
    intro y c j
    induction j with
    | zero => rfl
    | succ j ih =>
      rw [scan, scan, ← ih]
      unfold takeGt
      rw [hg]
      split <;> rfl
  have ha : ∀ j l, f ((accs mx im j).1 l) = (accs mx' (fun i => f (im i)) j).1 l ∧ f ((accs mx im j).2 l) = (accs mx' (fun i => f (im i)) j).2 l := by
    intro j
    induction j with
    | zero => exact fun l => ⟨rfl, rfl⟩
    | succ j ih =>
      intro l
      obtain ⟨i1, i2⟩ := ih l
      constructor
      · simp only [accs, hm, i1]
      · simp only [accs, hm, i2]
  unfold result
  split
  · rw [hs]
    unfold fold
    simp only [hm, ha]
  · exact hs _ _ _

end

/-! ### Basic blocks -/

/-- dsp/math32_arm.s:271-278. -/
abbrev b271 : List (Line Lbl Ins Cond) :=
  [.label .VMaxF32,
   .ins (.op .MOVW [.fp 0, .r 0]),
   .ins (.op .MOVW [.fp 4, .r 2]), .nop,
   .ins (.op .MOVW [.i 0xff800000, .r 1]),
   .ins (.op .MOVW [.r 1, .f 4]), .nop,
   .ins (.op .CMP [.i 0, .r 2])]

theorem h271 : (prog.drop 271).take b271.length = b271 := by decide +kernel

/-- dsp/math32_arm.s:281-282. -/
abbrev b281 : List (Line Lbl Ins Cond) :=
  [.ins (.op .MOVBU [.sb .HaveNEON, .r 3]),
   .ins (.op .CMP [.i 0, .r 3])]

theorem h281 : (prog.drop 281).take b281.length = b281 := by decide +kernel

/-- dsp/math32_arm.s:285-285. -/
abbrev b285 : List (Line Lbl Ins Cond) :=
  [.ins (.op .CMP [.i 16, .r 2])]

theorem h285 : (prog.drop 285).take b285.length = b285 := by decide +kernel

/-- dsp/math32_arm.s:288-290. -/
abbrev b288 : List (Line Lbl Ins Cond) :=
  [.ins (.WORD 0xecb08b08),
   .ins (.op .SUB [.i 8, .r 2]), .nop]

theorem h288 : (prog.drop 288).take b288.length = b288 := by decide +kernel

/-- dsp/math32_arm.s:292-298. -/
abbrev b292 : List (Line Lbl Ins Cond) :=
  [.label .vmaxf32_neon_loop, .nop,
   .ins (.WORD 0xecb02b08),
   .ins (.WORD 0xf2088f42),
   .ins (.WORD 0xf20aaf44),
   .ins (.op .SUB [.i 8, .r 2]),
   .ins (.op .CMP [.i 8, .r 2])]

theorem h292 : (prog.drop 292).take b292.length = b292 := by decide +kernel

/-- dsp/math32_arm.s:301-304. -/
abbrev b301 : List (Line Lbl Ins Cond) :=
  [.ins (.WORD 0xf2080f4a),
   .ins (.WORD 0xf3004f01),
   .ins (.WORD 0xf3044f04), .nop]

theorem h301 : (prog.drop 301).take b301.length = b301 := by decide +kernel

/-- dsp/math32_arm.s:307-308. -/
abbrev b307 : List (Line Lbl Ins Cond) :=
  [.label .vmaxf32_batch,
   .ins (.op .CMP [.i 4, .r 2])]

theorem h307 : (prog.drop 307).take b307.length = b307 := by decide +kernel

/-- dsp/math32_arm.s:310-313. -/
abbrev b310 : List (Line Lbl Ins Cond) :=
  [.nop,
   .ins (.op .PLD [.m 0 0]),
   .ins (.op .PLD [.m 0 64]),
   .ins (.op .PLD [.m 0 128])]

theorem h310 : (prog.drop 310).take b310.length = b310 := by decide +kernel

/-- dsp/math32_arm.s:315-317. -/
abbrev b315 : List (Line Lbl Ins Cond) :=
  [.label .vmaxf32_batch_loop,
   .ins (.op .PLD [.m 0 192]),
   .ins (.WORD 0xecb00a04)]

theorem h315 : (prog.drop 315).take b315.length = b315 := by decide +kernel

/-- dsp/math32_arm.s:318-320. -/
abbrev b318 : List (Line Lbl Ins Cond) :=
  [.ins (.WORD 0xeeb40ac4),
   .ins (.WORD 0xeef1fa10),
   .ins (.WORD 0xceb04a40)]

theorem h318 : (prog.drop 318).take b318.length = b318 := by decide +kernel

/-- dsp/math32_arm.s:321-323. -/
abbrev b321 : List (Line Lbl Ins Cond) :=
  [.ins (.WORD 0xeef40ac4),
   .ins (.WORD 0xeef1fa10),
   .ins (.WORD 0xceb04a60)]

theorem h321 : (prog.drop 321).take b321.length = b321 := by decide +kernel

/-- dsp/math32_arm.s:324-326. -/
abbrev b324 : List (Line Lbl Ins Cond) :=
  [.ins (.WORD 0xeeb41ac4),
   .ins (.WORD 0xeef1fa10),
   .ins (.WORD 0xceb04a41)]

theorem h324 : (prog.drop 324).take b324.length = b324 := by decide +kernel

/-- dsp/math32_arm.s:327-329. -/
abbrev b327 : List (Line Lbl Ins Cond) :=
  [.ins (.WORD 0xeef41ac4),
   .ins (.WORD 0xeef1fa10),
   .ins (.WORD 0xceb04a61)]

theorem h327 : (prog.drop 327).take b327.length = b327 := by decide +kernel

/-- dsp/math32_arm.s:330-331. -/
abbrev b330 : List (Line Lbl Ins Cond) :=
  [.ins (.op .SUB [.i 4, .r 2]),
   .ins (.op .CMP [.i 4, .r 2])]

theorem h330 : (prog.drop 330).take b330.length = b330 := by decide +kernel

/-- dsp/math32_arm.s:334-335. -/
abbrev b334 : List (Line Lbl Ins Cond) :=
  [.label .vmaxf32_scalar,
   .ins (.op .TEQ [.i 0, .r 2])]

theorem h334 : (prog.drop 334).take b334.length = b334 := by decide +kernel

/-- dsp/math32_arm.s:338-342. -/
abbrev b338 : List (Line Lbl Ins Cond) :=
  [.label .vmaxf32_scalar_loop,
   .ins (.op .MOVF [.m 0 0, .f 1]),
   .ins (.op .ADD [.i 4, .r 0]), .nop, .nop]

theorem h338 : (prog.drop 338).take b338.length = b338 := by decide +kernel

/-- dsp/math32_arm.s:343-345. -/
abbrev b343 : List (Line Lbl Ins Cond) :=
  [.ins (.WORD 0xeeb41ac4),
   .ins (.WORD 0xeef1fa10),
   .ins (.opc .GT .MOVF [.f 1, .f 4])]

theorem h343 : (prog.drop 343).take b343.length = b343 := by decide +kernel

/-- dsp/math32_arm.s:346-347. -/
abbrev b346 : List (Line Lbl Ins Cond) :=
  [.ins (.op .SUB [.i 1, .r 2]),
   .ins (.op .TEQ [.i 0, .r 2])]

theorem h346 : (prog.drop 346).take b346.length = b346 := by decide +kernel

/-- dsp/math32_arm.s:350-351. -/
abbrev b350 : List (Line Lbl Ins Cond) :=
  [.label .vmaxf32_done,
   .ins (.op .MOVF [.f 4, .fp 12])]

theorem h350 : (prog.drop 350).take b350.length = b350 := by decide +kernel

/-! ### Invariant -/

variable {e : Env} {m0 : BitVec 32 → BitVec 8} {ib : BitVec 32} {n : Nat} {f0 : Nat → BitVec 32}

/-- Number `i` of the slice. -/
def elem (m0 : BitVec 32 → BitVec 8) (ib : BitVec 32) (i : Nat) : BitVec 32 := u32at m0 (ib + BitVec.ofNat 32 (4 * i))

/-- Is `a` greater than `b`? -/
def gt (e : Env) (a b : BitVec 32) : Bool := decide (e.o.cmp a b = .gt)

/-- `a` numbers read, `c` left; LEN is zero. -/
structure At (m0 : BitVec 32 → BitVec 8) (ib : BitVec 32) (f0 : Nat → BitVec 32) (a c : Nat) (s : St) : Prop where
  r0 : s.r 0 = ib + BitVec.ofNat 32 (4 * a)
  r2 : s.r 2 = BitVec.ofNat 32 c
  len : s.fpscr.extractLsb' 16 3 = 0
  fp : s.fp = f0
  mem : s.mem = m0

theorem ld (hr : ∀ i < 4 * n, e.rd (ib + BitVec.ofNat 32 i) = true) (h4 : ib.toNat % 4 = 0) {k j : Nat} (hk : k + j ≤ n) {s : St} (hm : s.mem = m0) :
    e.ldw s (ib + BitVec.ofNat 32 (4 * k)) j = some (inp m0 ib (4 * k) (4 * j)) := by
  unfold Env.ldw Mach.load inp
  rw [if_pos (aligned h4 (by omega)), if_pos (allBytes_of fun i hi => hr _ (by omega)), hm]
  congr 1
  funext i
  split
  · rw [adv]
  · rfl

theorem d32_inp {k l len : Nat} (h : 4 * l + 4 ≤ len) : d32 (inp m0 ib (4 * k) len) l = elem m0 ib (k + l) := by
  rw [elem, u32at_d32]
  unfold d32 inp
  simp only [show 4 * l < len by omega, show 4 * l + 1 < len by omega, show 4 * l + 2 < len by omega, show 4 * l + 3 < len by omega, if_true]
  rw [show 4 * k + (4 * l + 3) = 4 * (k + l) + 3 by omega, show 4 * k + (4 * l + 2) = 4 * (k + l) + 2 by omega,
    show 4 * k + (4 * l + 1) = 4 * (k + l) + 1 by omega, show 4 * k + 4 * l = 4 * (k + l) by omega]

/-! ### A comparison and a conditional move -/

/-- The state after the comparison of `x` with `s8`, and the move. -/
def moved (e : Env) (j : Nat) (s : St) : St :=
  { s with fpscr := (s.setRel (e.o.cmp (s.v j) (s.v 8))).fpscr, fl := (e.o.cmp (s.v j) (s.v 8)).flags,
           v := if e.o.cmp (s.v j) (s.v 8) = .gt then Function.update s.v 8 (s.v j) else s.v }

theorem mov_gt {s t : St} {j : Nat} (hL : s.fpscr.extractLsb' 16 3 = 0)
    (ht : t = { s.setRel (e.o.cmp (s.v j) (s.v 8)) with fl := (s.setRel (e.o.cmp (s.v j) (s.v 8))).fpFlags }) :
    (if t.fl.taken .GT then e.vfp t (fun _ _ y => y) 8 8 j else some t) = some (moved e j s) := by
  have h1 : t.fl = (e.o.cmp (s.v j) (s.v 8)).flags := by rw [ht]; exact fpFlags_setRel _ _
  have h2 : t.fpscr.extractLsb' 16 3 = 0 := by rw [ht]; exact (setRel_bits _ _ 16 3 (by decide)).trans hL
  have h3 : t.v = s.v := by rw [ht]; rfl
  have h4 : t = { s with fpscr := (s.setRel (e.o.cmp (s.v j) (s.v 8))).fpscr, fl := (e.o.cmp (s.v j) (s.v 8)).flags } := by
    rw [ht]
    simp only [fpFlags_setRel]
    rfl
  rw [h1, rel_gt, vfp_one h2]
  unfold moved
  by_cases c : e.o.cmp (s.v j) (s.v 8) = .gt
  · rw [decide_eq_true c, if_pos rfl, if_pos c, h4]
    rfl
  · rw [decide_eq_false c, if_neg (by decide), if_neg c, h4]

theorem moved_at {a c j : Nat} {s : St} (h : At m0 ib f0 a c s) : At m0 ib f0 a c (moved e j s) :=
  ⟨h.r0, h.r2, (setRel_bits _ _ 16 3 (by decide)).trans h.len, h.fp, h.mem⟩

theorem moved_8 (j : Nat) (s : St) : (moved e j s).v 8 = takeGt (gt e) (s.v 8) (s.v j) := by
  unfold moved takeGt gt
  by_cases c : e.o.cmp (s.v j) (s.v 8) = .gt
  · simp [c]
  · simp [c]

theorem moved_ne {j i : Nat} (hi : i ≠ 8) (s : St) : (moved e j s).v i = s.v i := by
  unfold moved
  by_cases c : e.o.cmp (s.v j) (s.v 8) = .gt
  · simp [c, hi]
  · simp [c]

theorem blk318 {s : St} (hL : s.fpscr.extractLsb' 16 3 = 0) : blk (sem e) b318 s = some (moved e 0 s) := by
  ar [weeb40ac4, weef1fa10, wceb04a40, when_gt, mov_gt hL rfl]

theorem blk321 {s : St} (hL : s.fpscr.extractLsb' 16 3 = 0) : blk (sem e) b321 s = some (moved e 1 s) := by
  ar [weef40ac4, weef1fa10, wceb04a60, when_gt, mov_gt hL rfl]

theorem blk324 {s : St} (hL : s.fpscr.extractLsb' 16 3 = 0) : blk (sem e) b324 s = some (moved e 2 s) := by
  ar [weeb41ac4, weef1fa10, wceb04a41, when_gt, mov_gt hL rfl]

theorem blk327 {s : St} (hL : s.fpscr.extractLsb' 16 3 = 0) : blk (sem e) b327 s = some (moved e 3 s) := by
  ar [weef41ac4, weef1fa10, wceb04a61, when_gt, mov_gt hL rfl]

theorem blk343 {s : St} (hL : s.fpscr.extractLsb' 16 3 = 0) : blk (sem e) b343 s = some (moved e 2 s) := by
  ar [weeb41ac4, weef1fa10, St.cond, mov_gt hL rfl]

/-! ### Loops -/

theorem one (hr : ∀ i < 4 * n, e.rd (ib + BitVec.ofNat 32 i) = true) (h4 : ib.toNat % 4 = 0) (hn : n < 2 ^ 31) {k : Nat} (hk : k < n) {s : St}
    (hi : At m0 ib f0 k (n - k) s) :
    ∃ s', Reach (sem e) prog 338 s 348 s' ∧ At m0 ib f0 (k + 1) (n - (k + 1)) s' ∧ s'.v 8 = takeGt (gt e) (s.v 8) (elem m0 ib k) ∧
      s'.fl.z = decide (n - (k + 1) = 0) := by
  obtain ⟨s1, g1, i1, v1, w1⟩ : ∃ s', blk (sem e) b338 s = some s' ∧ At m0 ib f0 (k + 1) (n - k) s' ∧ s'.v 8 = s.v 8 ∧ s'.v 2 = elem m0 ib k := by
    ar [hi.r0, ld hr h4 (show k + 1 ≤ n by omega) hi.mem, adv]
    refine ⟨_, rfl, ⟨?_, ?_, hi.len, hi.fp, hi.mem⟩, ?_, ?_⟩
    · ar []; rfl
    · ar [hi.r2]
    · ar []
    · ar [d32_inp (show 4 * 0 + 4 ≤ 4 by decide)]
      rw [Nat.add_zero]
  have g2 := blk343 (e := e) i1.len
  have i2 := moved_at (e := e) (j := 2) i1
  have v2 := moved_8 (e := e) 2 s1
  rw [v1, w1] at v2
  generalize moved e 2 s1 = s2 at g2 i2 v2
  obtain ⟨s3, g3, i3, v3, z3⟩ : ∃ s', blk (sem e) b346 s2 = some s' ∧ At m0 ib f0 (k + 1) (n - (k + 1)) s' ∧ s'.v 8 = s2.v 8 ∧
      s'.fl.z = decide (n - (k + 1) = 0) := by
    ar [i2.r2, sub32 (show 1 ≤ n - k by omega) (by omega), Nat.sub_sub]
    refine ⟨_, rfl, ⟨?_, ?_, i2.len, i2.fp, i2.mem⟩, rfl, ?_⟩
    · ar [i2.r0]
    · ar []
    · ar []
      exact beq_zero (by omega)
  exact ⟨s3, (reach_blk b338 h338 g1).trans ((reach_blk b343 h343 g2).trans (reach_blk b346 h346 g3)), i3, by rw [v3, v2], z3⟩

/-- From the scalar loop to the end. -/
theorem loop1 (hr : ∀ i < 4 * n, e.rd (ib + BitVec.ofNat 32 i) = true) (h4 : ib.toNat % 4 = 0) (hn : n < 2 ^ 31) {c : Nat} (hc : c < n) {s : St}
    (hi : At m0 ib f0 c (n - c) s) :
    ∃ s', Reach (sem e) prog 338 s 350 s' ∧ At m0 ib f0 n 0 s' ∧ s'.v 8 = scan (gt e) (elem m0 ib) (s.v 8) c (n - c) := by
  have main := dloop (m := sem e) (p := prog) (a := 338) (b := 350)
    (fun x t => c ≤ x ∧ At m0 ib f0 x (n - x) t ∧ t.v 8 = scan (gt e) (elem m0 ib) (s.v 8) c (x - c)) n 1 (by omega) ?_ c s (by omega)
    ⟨Nat.le_refl _, hi, by rw [Nat.sub_self, scan]⟩
  · obtain ⟨k', s', ⟨_, g1, g1'⟩, g2, g3, _, _, g6⟩ := main
    obtain rfl : k' = n := by omega
    rw [Nat.sub_self] at g1
    exact ⟨s', g6, g1, g1'⟩
  · rintro x t hx ⟨hcx, hp, hv⟩
    obtain ⟨t', r1, i1, v1, z1⟩ := one hr h4 hn (by omega) hp
    refine ⟨t', ⟨by omega, i1, ?_⟩, ?_⟩
    · rw [v1, hv, show x + 1 - c = (x - c) + 1 by omega, scan, show c + (x - c) = x by omega]
    · have h2 := r1.trans (reach_branch (m := sem e) (p := prog) (pc := 348) (s := t') (t := 338) .NE .vmaxf32_scalar_loop (by decide +kernel) (by decide +kernel)
        (b := decide (x + 2 * 1 ≤ n)) (by
          show (!t'.fl.z) = _
          rw [z1, ← decide_not]
          congr 1
          exact propext (by omega)))
      by_cases d : x + 2 * 1 ≤ n
      · rw [if_pos d]
        rwa [decide_eq_true d, if_pos rfl] at h2
      · rw [if_neg d]
        rw [decide_eq_false d, if_neg (by decide)] at h2
        exact h2.trans (reach_blk (p := prog) (m := sem e) (pc := 349) [.nop] (by decide +kernel) rfl)

/-- From `vmaxf32_scalar` to the end. -/
theorem rest1 (hr : ∀ i < 4 * n, e.rd (ib + BitVec.ofNat 32 i) = true) (h4 : ib.toNat % 4 = 0) (hn : n < 2 ^ 31) {c : Nat} (hc : c ≤ n) {s : St}
    (hi : At m0 ib f0 c (n - c) s) :
    ∃ s', Reach (sem e) prog 334 s 350 s' ∧ At m0 ib f0 n 0 s' ∧ s'.v 8 = scan (gt e) (elem m0 ib) (s.v 8) c (n - c) := by
  obtain ⟨s1, g1, i1, v1, z1⟩ : ∃ s', blk (sem e) b334 s = some s' ∧ At m0 ib f0 c (n - c) s' ∧ s'.v 8 = s.v 8 ∧ s'.fl.z = decide (n - c = 0) := by
    ar [hi.r2]
    exact ⟨_, rfl, ⟨hi.r0, hi.r2, hi.len, hi.fp, hi.mem⟩, rfl, beq_zero (by omega)⟩
  have hb := (reach_blk b334 h334 g1).trans (reach_branch (m := sem e) (p := prog) (s := s1) (pc := 336) (t := 350) .EQ .vmaxf32_done (by decide +kernel)
    (by decide +kernel) (b := decide (n - c = 0)) z1)
  by_cases d : n - c = 0
  · rw [decide_eq_true d, if_pos rfl] at hb
    obtain rfl : c = n := by omega
    rw [d] at i1
    exact ⟨s1, hb, i1, by rw [d, scan, v1]⟩
  · rw [decide_eq_false d, if_neg (by decide)] at hb
    obtain ⟨s', h1, h2, h3⟩ := loop1 hr h4 hn (by omega) i1
    exact ⟨s', hb.trans ((reach_blk (p := prog) (m := sem e) (pc := 337) [.nop] (by decide +kernel) rfl).trans h1), h2, by rw [h3, v1]⟩

theorem four (hr : ∀ i < 4 * n, e.rd (ib + BitVec.ofNat 32 i) = true) (h4 : ib.toNat % 4 = 0) (hn : n < 2 ^ 31) {k : Nat} (hk : k + 4 ≤ n) {s : St}
    (hi : At m0 ib f0 k (n - k) s) :
    ∃ s', Reach (sem e) prog 315 s 332 s' ∧ At m0 ib f0 (k + 4) (n - (k + 4)) s' ∧ s'.v 8 = scan (gt e) (elem m0 ib) (s.v 8) k 4 ∧
      s'.fl = subFlags (BitVec.ofNat 32 (n - (k + 4))) (BitVec.ofNat 32 4) := by
  obtain ⟨s1, g1, i1, v1, w1⟩ : ∃ s', blk (sem e) b315 s = some s' ∧ At m0 ib f0 (k + 4) (n - k) s' ∧ s'.v 8 = s.v 8 ∧ ∀ l < 4, s'.v l = elem m0 ib (k + l) := by
    ar [wecb00a04, hi.r0, ld hr h4 (show k + 4 ≤ n by omega) hi.mem, adv]
    refine ⟨_, rfl, ⟨?_, ?_, hi.len, hi.fp, hi.mem⟩, ?_, ?_⟩
    · ar []; rfl
    · ar [hi.r2, setVs_r]
    · exact setVs_out (s := s) (r := 0) (k := 4) (j := 8) (a := d32 (inp m0 ib (4 * k) 16)) (by omega)
    · intro l hl
      refine (setVs_in (r := 0) (k := 4) (by omega) (by omega)).trans ?_
      rw [d32_inp (by omega)]
      rfl
  have m0' := w1 0 (by omega)
  have m1' := w1 1 (by omega)
  have m2' := w1 2 (by omega)
  have m3' := w1 3 (by omega)
  have g2 := blk318 (e := e) i1.len
  have i2 := moved_at (e := e) (j := 0) i1
  have v2 := moved_8 (e := e) 0 s1
  rw [m0', v1] at v2
  rw [← moved_ne (e := e) (j := 0) (by decide) s1] at m1' m2' m3'
  generalize moved e 0 s1 = s2 at g2 i2 v2 m1' m2' m3'
  have g3 := blk321 (e := e) i2.len
  have i3 := moved_at (e := e) (j := 1) i2
  have v3 := moved_8 (e := e) 1 s2
  rw [m1', v2] at v3
  rw [← moved_ne (e := e) (j := 1) (by decide) s2] at m2' m3'
  generalize moved e 1 s2 = s3 at g3 i3 v3 m2' m3'
  have g4 := blk324 (e := e) i3.len
  have i4 := moved_at (e := e) (j := 2) i3
  have v4 := moved_8 (e := e) 2 s3
  rw [m2', v3] at v4
  rw [← moved_ne (e := e) (j := 2) (by decide) s3] at m3'
  generalize moved e 2 s3 = s4 at g4 i4 v4 m3'
  have g5 := blk327 (e := e) i4.len
  have i5 := moved_at (e := e) (j := 3) i4
  have v5 := moved_8 (e := e) 3 s4
  rw [m3', v4] at v5
  generalize moved e 3 s4 = s5 at g5 i5 v5
  obtain ⟨s6, g6, i6, v6, f6⟩ : ∃ s', blk (sem e) b330 s5 = some s' ∧ At m0 ib f0 (k + 4) (n - (k + 4)) s' ∧ s'.v 8 = s5.v 8 ∧
      s'.fl = subFlags (BitVec.ofNat 32 (n - (k + 4))) (BitVec.ofNat 32 4) := by
    ar [i5.r2, sub32 (show 4 ≤ n - k by omega) (by omega), Nat.sub_sub]
    refine ⟨_, rfl, ⟨?_, ?_, i5.len, i5.fp, i5.mem⟩, rfl, rfl⟩
    · ar [i5.r0]
    · ar []
  refine ⟨s6, (reach_blk b315 h315 g1).trans ((reach_blk b318 h318 g2).trans ((reach_blk b321 h321 g3).trans ((reach_blk b324 h324 g4).trans
    ((reach_blk b327 h327 g5).trans (reach_blk b330 h330 g6))))), i6, ?_, f6⟩
  rw [v6, v5]
  rfl

theorem scan_add {F : Type} (gt : F → F → Bool) (im : Nat → F) (y : F) (c i j : Nat) : scan gt im y c (i + j) = scan gt im (scan gt im y c i) (c + i) j := by
  induction j with
  | zero => rfl
  | succ j ih => rw [← Nat.add_assoc, scan, ih, scan, Nat.add_assoc]

/-- In batches of four, then one by one. -/
theorem loop4 (hr : ∀ i < 4 * n, e.rd (ib + BitVec.ofNat 32 i) = true) (h4 : ib.toNat % 4 = 0) (hn : n < 2 ^ 31) (h0 : 0 < n) {s : St}
    (hi : At m0 ib f0 0 n s) :
    ∃ s', Reach (sem e) prog 307 s 350 s' ∧ At m0 ib f0 n 0 s' ∧ s'.v 8 = scan (gt e) (elem m0 ib) (s.v 8) 0 n := by
  obtain ⟨s1, g1, i1, v1, f1⟩ : ∃ s', blk (sem e) b307 s = some s' ∧ At m0 ib f0 0 n s' ∧ s'.v 8 = s.v 8 ∧
      s'.fl = subFlags (BitVec.ofNat 32 n) (BitVec.ofNat 32 4) := by
    ar [hi.r2]
    exact ⟨_, rfl, ⟨hi.r0, hi.r2, hi.len, hi.fp, hi.mem⟩, rfl, rfl⟩
  have hb := (reach_blk b307 h307 g1).trans (reach_branch (m := sem e) (p := prog) (s := s1) (pc := 309) (t := 338) .LT .vmaxf32_scalar_loop (by decide +kernel)
    (by decide +kernel) (b := decide (n < 4)) (by
      show s1.fl.taken .LT = _
      rw [f1, taken_lt hn (by decide)]))
  by_cases d : n < 4
  · rw [decide_eq_true d, if_pos rfl] at hb
    obtain ⟨s', h1, h2, h3⟩ := loop1 hr h4 hn h0 i1
    exact ⟨s', hb.trans h1, h2, by rw [h3, v1, Nat.sub_zero]⟩
  · rw [decide_eq_false d, if_neg (by decide)] at hb
    replace hb := hb.trans (reach_blk (m := sem e) b310 h310 (s := s1) rfl)
    replace hb := hb.trans (reach_blk (p := prog) (m := sem e) (pc := 314) (s := s1) [.nop] (by decide +kernel) rfl)
    have main := dloop (m := sem e) (p := prog) (a := 315) (b := 334)
      (fun x t => At m0 ib f0 x (n - x) t ∧ t.v 8 = scan (gt e) (elem m0 ib) (s.v 8) 0 x) n 4 (by omega) ?_ 0 s1 (by omega) ⟨i1, v1⟩
    · obtain ⟨k', s2, ⟨g1, g1'⟩, g2, g3, _, _, g6⟩ := main
      obtain ⟨s', h1, h2, h3⟩ := rest1 hr h4 hn g2 g1
      refine ⟨s', hb.trans (g6.trans h1), h2, ?_⟩
      rw [h3, g1']
      have := (scan_add (gt e) (elem m0 ib) (s.v 8) 0 k' (n - k')).symm
      rwa [Nat.zero_add, show k' + (n - k') = n by omega] at this
    · rintro x t hx ⟨hp, hv⟩
      obtain ⟨t', r1, i1, v1, z1⟩ := four hr h4 hn hx hp
      refine ⟨t', ⟨i1, ?_⟩, ?_⟩
      · rw [v1, hv, scan_add, Nat.zero_add]
      · have h2 := r1.trans (reach_branch (m := sem e) (p := prog) (pc := 332) (s := t') (t := 315) .GE .vmaxf32_batch_loop (by decide +kernel) (by decide +kernel)
          (b := decide (x + 2 * 4 ≤ n)) (by
            show t'.fl.taken .GE = _
            rw [z1, taken_ge (by omega) (by decide)]
            congr 1
            exact propext (by omega)))
        by_cases d : x + 2 * 4 ≤ n
        · rw [if_pos d]
          rwa [decide_eq_true d, if_pos rfl] at h2
        · rw [if_neg d]
          rw [decide_eq_false d, if_neg (by decide)] at h2
          exact h2.trans (reach_blk (p := prog) (m := sem e) (pc := 333) [.nop] (by decide +kernel) rfl)

/-! ### NEON -/

/-- The registers `q4` and `q5`. -/
def Acc (q : (Nat → BitVec 32) × (Nat → BitVec 32)) (s : St) : Prop := ∀ l < 4, s.v (16 + l) = q.1 l ∧ s.v (20 + l) = q.2 l

theorem eight (hr : ∀ i < 4 * n, e.rd (ib + BitVec.ofNat 32 i) = true) (h4 : ib.toNat % 4 = 0) {j : Nat} (hk : 8 + 8 * j + 8 ≤ n) {s : St} (hn : n < 2 ^ 31)
    (hi : At m0 ib f0 (8 + 8 * j) (n - (8 + 8 * j)) s) (hq : Acc (accs e.o.nmax (elem m0 ib) j) s) :
    ∃ s', blk (sem e) b292 s = some s' ∧ At m0 ib f0 (8 + 8 * j + 8) (n - (8 + 8 * j + 8)) s' ∧ Acc (accs e.o.nmax (elem m0 ib) (j + 1)) s' ∧
      s'.fl = subFlags (BitVec.ofNat 32 (n - (8 + 8 * j + 8))) (BitVec.ofNat 32 8) := by
  ar [wecb02b08, wf2088f42, wf20aaf44, hi.r0, ld hr h4 hk hi.mem, adv, or_self, setVs_r, hi.r2,
    sub32 (show 8 ≤ n - (8 + 8 * j) by omega) (show n - (8 + 8 * j) < 2 ^ 32 by omega), Nat.sub_sub]
  refine ⟨_, rfl, ⟨?_, ?_, hi.len, hi.fp, hi.mem⟩, ?_, rfl⟩
  · ar []; rfl
  · ar []
  · intro l hl
    obtain ⟨q1, q2⟩ := hq l hl
    simp only [accs]
    rw [← q1, ← q2, ← d32_inp (k := 8 + 8 * j) (len := 32) (by omega), Nat.add_assoc (8 + 8 * j), ← d32_inp (k := 8 + 8 * j) (len := 32) (by omega)]
    constructor
    · simp (disch := omega) only [setVs_out, setVs_in]
      congr 2 <;> omega
    · simp (disch := omega) only [setVs_out, setVs_in]
      congr 2 <;> omega

theorem folded {q : (Nat → BitVec 32) × (Nat → BitVec 32)} {a c : Nat} {s : St} (hi : At m0 ib f0 a c s) (hq : Acc q s) :
    ∃ s', blk (sem e) b301 s = some s' ∧ At m0 ib f0 a c s' ∧ s'.v 8 = fold e.o.nmax q := by
  ar [wf2080f4a, wf3004f01, wf3044f04, or_self]
  refine ⟨_, rfl, ⟨hi.r0, hi.r2, hi.len, hi.fp, hi.mem⟩, ?_⟩
  have a0 := hq 0 (by omega)
  have a1 := hq 1 (by omega)
  have a2 := hq 2 (by omega)
  have a3 := hq 3 (by omega)
  simp only [Nat.add_zero, Nat.reduceAdd] at a0 a1 a2 a3
  ar [St.setVs, and_self, and_true, true_and, Nat.reduceLeDiff, Nat.reduceLT, Nat.reduceSub, Nat.zero_le, Nat.sub_zero, a0.1, a0.2, a1.1, a1.2, a2.1, a2.2, a3.1, a3.2]
  rfl

theorem start (hr : ∀ i < 4 * n, e.rd (ib + BitVec.ofNat 32 i) = true) (h4 : ib.toNat % 4 = 0) (hn : n < 2 ^ 31) {k : Nat} (hk : k + 8 ≤ n) {s : St}
    (hi : At m0 ib f0 k (n - k) s) :
    ∃ s', blk (sem e) b288 s = some s' ∧ At m0 ib f0 (k + 8) (n - (k + 8)) s' ∧
      Acc (fun l => elem m0 ib (k + l), fun l => elem m0 ib (k + (4 + l))) s' := by
  ar [wecb08b08, hi.r0, ld hr h4 hk hi.mem, adv, hi.r2, setVs_r, sub32 (show 8 ≤ n - k by omega) (show n - k < 2 ^ 32 by omega), Nat.sub_sub]
  refine ⟨_, rfl, ⟨?_, ?_, hi.len, hi.fp, hi.mem⟩, ?_⟩
  · ar []; rfl
  · ar []
  · intro l hl
    constructor
    · refine (setVs_in (r := 16) (k := 8) (by omega) (by omega)).trans ?_
      rw [d32_inp (by omega)]
      congr 1
      omega
    · refine (setVs_in (r := 16) (k := 8) (by omega) (by omega)).trans ?_
      rw [d32_inp (by omega)]
      congr 1
      omega

theorem neon (hr : ∀ i < 4 * n, e.rd (ib + BitVec.ofNat 32 i) = true) (h4 : ib.toNat % 4 = 0) (hn : n < 2 ^ 31) (h16 : 16 ≤ n) {s : St}
    (hi : At m0 ib f0 0 n s) :
    ∃ s', Reach (sem e) prog 288 s 350 s' ∧ At m0 ib f0 n 0 s' ∧
      s'.v 8 = scan (gt e) (elem m0 ib) (fold e.o.nmax (accs e.o.nmax (elem m0 ib) ((n - 8) / 8))) (n - n % 8) (n % 8) := by
  obtain ⟨s1, g1, i1, q1⟩ := start (k := 0) hr h4 hn (by omega) hi
  replace q1 : Acc (accs e.o.nmax (elem m0 ib) 0) s1 := by
    simp only [Nat.zero_add] at q1
    exact q1
  have main := dloop (m := sem e) (p := prog) (a := 292) (b := 300)
    (fun x t => x % 8 = 0 ∧ 8 ≤ x ∧ At m0 ib f0 x (n - x) t ∧ Acc (accs e.o.nmax (elem m0 ib) ((x - 8) / 8)) t) n 8 (by omega) ?_ 8 s1 (by omega)
    ⟨rfl, Nat.le_refl _, i1, by rwa [show (8 - 8) / 8 = 0 from rfl]⟩
  · obtain ⟨k', s2, ⟨p0, p1, p2, p3⟩, g2, g3, _, _, g6⟩ := main
    obtain ⟨s3, g3', i3, v3⟩ := folded (e := e) p2 p3
    obtain ⟨s', h1, h2, h3⟩ := rest1 hr h4 hn g2 i3
    refine ⟨s', (reach_blk b288 h288 g1).trans ((reach_blk (p := prog) (m := sem e) (pc := 291) (s := s1) [.nop] (by decide +kernel) rfl).trans (g6.trans
      ((reach_blk (p := prog) (m := sem e) (pc := 300) (s := s2) [.nop] (by decide +kernel) rfl).trans ((reach_blk b301 h301 g3').trans
      ((reach_jump .vmaxf32_scalar (by decide +kernel) (by decide +kernel)).trans h1))))), h2, ?_⟩
    rw [h3, v3, show (k' - 8) / 8 = (n - 8) / 8 by omega, show n - k' = n % 8 by omega, show k' = n - n % 8 by omega]
  · rintro x t hx ⟨p0, p1, p2, p3⟩
    obtain ⟨j, rfl⟩ : ∃ j, x = 8 + 8 * j := ⟨(x - 8) / 8, by omega⟩
    rw [show (8 + 8 * j - 8) / 8 = j by omega] at p3
    obtain ⟨t', r1, i1, v1, z1⟩ := eight hr h4 hx hn p2 p3
    refine ⟨t', ⟨by omega, by omega, i1, ?_⟩, ?_⟩
    · rwa [show (8 + 8 * j + 8 - 8) / 8 = j + 1 by omega]
    · have h2 := (reach_blk b292 h292 r1).trans (reach_branch (m := sem e) (p := prog) (pc := 299) (s := t') (t := 292) .GE .vmaxf32_neon_loop (by decide +kernel)
        (by decide +kernel) (b := decide (8 + 8 * j + 2 * 8 ≤ n)) (by
          show t'.fl.taken .GE = _
          rw [z1, taken_ge (by omega) (by decide)]
          congr 1
          exact propext (by omega)))
      by_cases d : 8 + 8 * j + 2 * 8 ≤ n
      · rw [if_pos d]
        rwa [decide_eq_true d, if_pos rfl] at h2
      · rw [if_neg d]
        rwa [decide_eq_false d, if_neg (by decide)] at h2

/-! ### The routine -/

theorem routine {s : St} (hn : n < 2 ^ 31) (h1 : s.fp 0 = ib) (h2 : s.fp 4 = BitVec.ofNat 32 n) (hr : ∀ i < 4 * n, e.rd (ib + BitVec.ofNat 32 i) = true)
    (h4 : ib.toNat % 4 = 0) (hL : s.fpscr.extractLsb' 16 3 = 0) (b : Bool) (hb : (e.var .HaveNEON == 0) = !b) :
    ∃ s', Returns (sem e) prog 271 s s' ∧ s'.mem = s.mem ∧ s'.fpscr.extractLsb' 16 3 = 0 ∧
      s'.fp = Function.update s.fp 12 (result (gt e) e.o.nmax 0xff800000 b n (elem s.mem ib)) := by
  obtain ⟨s1, e1, i1, v1, f1⟩ : ∃ s', blk (sem e) b271 s = some s' ∧ At s.mem ib s.fp 0 n s' ∧ s'.v 8 = 0xff800000 ∧
      s'.fl = subFlags (BitVec.ofNat 32 n) (BitVec.ofNat 32 0) := by
    ar [h1, h2]
    refine ⟨_, rfl, ⟨?_, ?_, hL, rfl, rfl⟩, ?_, rfl⟩
    · ar []
    · ar []
    · ar []
      rfl
  have done : ∀ s', At s.mem ib s.fp n 0 s' → s'.v 8 = result (gt e) e.o.nmax 0xff800000 b n (elem s.mem ib) → Reach (sem e) prog 271 s 350 s' →
      ∃ s', Returns (sem e) prog 271 s s' ∧ s'.mem = s.mem ∧ s'.fpscr.extractLsb' 16 3 = 0 ∧
      s'.fp = Function.update s.fp 12 (result (gt e) e.o.nmax 0xff800000 b n (elem s.mem ib)) := by
    intro s' i v h3
    have g : blk (sem e) b350 s' = some { s' with fp := Function.update s'.fp 12 (s'.v 8) } := by ar []
    exact ⟨_, (h3.trans (reach_blk b350 h350 g)).returns (returns_ret (by decide +kernel)), i.mem, i.len, by simp only [i.fp, v]⟩
  have r1 := (reach_blk b271 h271 e1).trans (reach_branch (m := sem e) (p := prog) (s := s1) (pc := 279) (t := 350) .EQ .vmaxf32_done (by decide +kernel)
    (by decide +kernel) (b := decide (n = 0)) (by
      show s1.fl.taken .EQ = _
      rw [f1, taken_eq (by omega) (by decide)]))
  by_cases c0 : n = 0
  · rw [decide_eq_true c0, if_pos rfl] at r1
    subst c0
    refine done s1 i1 ?_ r1
    rw [v1, result, if_neg (by omega), scan]
  rw [decide_eq_false c0, if_neg (by decide)] at r1
  replace r1 := r1.trans (reach_blk (p := prog) (m := sem e) (pc := 280) [.nop] (by decide +kernel) rfl)
  obtain ⟨s2, e2, i2, v2, f2⟩ : ∃ s', blk (sem e) b281 s1 = some s' ∧ At s.mem ib s.fp 0 n s' ∧ s'.v 8 = 0xff800000 ∧
      s'.fl = subFlags ((e.var .HaveNEON).setWidth 32) 0#32 := by
    ar []
    refine ⟨_, rfl, ⟨?_, ?_, i1.len, i1.fp, i1.mem⟩, v1, rfl⟩
    · ar [i1.r0]
    · ar [i1.r2]
  replace r1 := r1.trans ((reach_blk b281 h281 e2).trans (reach_branch (m := sem e) (p := prog) (s := s2) (pc := 283) (t := 307) .EQ .vmaxf32_batch
    (by decide +kernel) (by decide +kernel) (b := !b) (by
      show s2.fl.taken .EQ = _
      rw [f2, taken_seq, ← hb]
      generalize e.var .HaveNEON = x
      revert x
      decide +kernel)))
  cases b with
  | false =>
    rw [Bool.not_false, if_pos rfl] at r1
    obtain ⟨s', h1, h2, h3⟩ := loop4 hr h4 hn (by omega) i2
    refine done s' h2 ?_ (r1.trans h1)
    rw [h3, v2, result, if_neg (by simp)]
  | true =>
    rw [Bool.not_true, if_neg (by decide)] at r1
    replace r1 := r1.trans (reach_blk (p := prog) (m := sem e) (pc := 284) [.nop] (by decide +kernel) rfl)
    obtain ⟨s3, e3, i3, v3, f3⟩ : ∃ s', blk (sem e) b285 s2 = some s' ∧ At s.mem ib s.fp 0 n s' ∧ s'.v 8 = 0xff800000 ∧
        s'.fl = subFlags (BitVec.ofNat 32 n) (BitVec.ofNat 32 16) := by
      ar [i2.r2]
      exact ⟨_, rfl, ⟨i2.r0, i2.r2, i2.len, i2.fp, i2.mem⟩, v2, rfl⟩
    replace r1 := r1.trans ((reach_blk b285 h285 e3).trans (reach_branch (m := sem e) (p := prog) (s := s3) (pc := 286) (t := 307) .LT .vmaxf32_batch
      (by decide +kernel) (by decide +kernel) (b := decide (n < 16)) (by
        show s3.fl.taken .LT = _
        rw [f3, taken_lt hn (by decide)])))
    by_cases c : n < 16
    · rw [decide_eq_true c, if_pos rfl] at r1
      obtain ⟨s', h1, h2, h3⟩ := loop4 hr h4 hn (by omega) i3
      refine done s' h2 ?_ (r1.trans h1)
      rw [h3, v3, result, if_neg (by omega)]
    · rw [decide_eq_false c, if_neg (by decide)] at r1
      replace r1 := r1.trans (reach_blk (p := prog) (m := sem e) (pc := 287) [.nop] (by decide +kernel) rfl)
      obtain ⟨s', h1, h2, h3⟩ := neon hr h4 hn (by omega) i3
      refine done s' h2 ?_ (r1.trans h1)
      rw [h3, result, if_pos ⟨rfl, by omega⟩]

end VMax
end Verif.A32.Math
