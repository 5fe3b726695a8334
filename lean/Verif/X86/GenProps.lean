import Verif.X86.GenModel
import Verif.X86.GenSpec

/-!
# The checked-in assembly is what its generator describes
-/

namespace Verif.X86.Gen
open Verif.X86.Avo

/-! ## Renaming registers by an allocation without interference -/

variable {L R X R' X' : Type} [DecidableEq L] [DecidableEq R] [DecidableEq X] [DecidableEq R'] [DecidableEq X']

/-- An allocation of registers. -/
def ren (f : R → R') (h : X → X') : Any R X → Any R' X'
  | .gp a => .gp (f a)
  | .xm a => .xm (h a)

omit [DecidableEq L] [DecidableEq R] [DecidableEq X] [DecidableEq R'] [DecidableEq X'] in
theorem srcs_map (f : R → R') (h : X → X') (o : Op R X) : srcs (mapOp f h o) = (srcs o).map (ren f h) := by
  cases o <;> rfl

omit [DecidableEq L] [DecidableEq R] [DecidableEq X] [DecidableEq R'] [DecidableEq X'] in
theorem bases_map (f : R → R') (h : X → X') (o : Op R X) : bases (mapOp f h o) = (bases o).map (ren f h) := by
  cases o <;> rfl

omit [DecidableEq L] [DecidableEq R] [DecidableEq X] [DecidableEq R'] [DecidableEq X'] in
theorem dst_map (f : R → R') (h : X → X') (o : Op R X) : dst (mapOp f h o) = (dst o).map (ren f h) := by
  cases o <;> rfl

omit [DecidableEq L] [DecidableEq R] [DecidableEq X] [DecidableEq R'] [DecidableEq X'] in
theorem reads_map (f : R → R') (h : X → X') (l : Line L R X) : reads (mapLine f h l) = (reads l).map (ren f h) := by
  cases l with
  | ins mn ops =>
    simp only [mapLine, reads]
    have e : ∀ o : List (Op R X), (o.map (mapOp f h)).flatMap srcs = (o.flatMap srcs).map (ren f h) := by
      intro o
      rw [List.flatMap_map, List.map_flatMap]
      simp only [srcs_map]
    split
    · rw [e]
    · rw [List.map_append, ← e, List.map_dropLast, List.getLast?_map]
      cases ops.getLast? with
      | none => rfl
      | some d =>
        simp only [Option.map_some, Option.getD_some]
        split
        · rw [bases_map]
        · rw [srcs_map]
  | _ => rfl

omit [DecidableEq L] [DecidableEq R] [DecidableEq X] [DecidableEq R'] [DecidableEq X'] in
theorem writes_map (f : R → R') (h : X → X') (l : Line L R X) : writes (mapLine f h l) = (writes l).map (ren f h) := by
  cases l with
  | ins mn ops =>
    simp only [mapLine, writes]
    split
    · rfl
    · rw [List.getLast?_map]
      cases ops.getLast? with
      | none => rfl
      | some d => exact dst_map f h d
  | _ => rfl

omit [DecidableEq L] [DecidableEq R] [DecidableEq X] [DecidableEq R'] [DecidableEq X'] in
theorem shape_map (f : R → R') (h : X → X') (l : Line L R X) : shape (mapLine f h l) = shape l := by
  cases l with
  | ins mn ops =>
    simp only [mapLine, shape, List.map_map]
    congr 1
    refine List.map_congr_left fun o _ => ?_
    cases o <;> rfl
  | _ => rfl

omit [DecidableEq R] [DecidableEq X] [DecidableEq R'] [DecidableEq X'] in
theorem target_map (f : R → R') (h : X → X') (p : List (Line L R X)) (l : L) : target (p.map (mapLine f h)) l = target p l := by
  unfold target
  rw [List.findIdx?_map]
  congr 1
  funext x
  cases x <;> rfl

/-- Two registers needed at the same time have different places, and a register that is written has another place than all that are
needed afterwards. -/
def Free (f : R → R') (h : X → X') (p : List (Line L R X)) : Prop :=
  (∀ pc u v, Live p u pc → Live p v pc → ren f h u = ren f h v → u = v) ∧
  ∀ pc ln q d u, p[pc]? = some ln → writes ln = some d → q ∈ succ p pc → Live p u q → ren f h u = ren f h d → u = d

/-- The state of the program with virtual registers and of the one with their places. -/
def Same {V M : Type} (f : R → R') (h : X → X') (p : List (Line L R X)) (s : Pos × (Any R X → V) × M) (t : Pos × (Any R' X' → V) × M) : Prop :=
  s.1 = t.1 ∧ s.2.2 = t.2.2 ∧ ∀ pc, s.1 = .at pc → ∀ v, Live p v pc → s.2.1 v = t.2.1 (ren f h v)

theorem step_same {V M : Type} {f : R → R'} {h : X → X'} {p : List (Line L R X)} (fr : Free f h p) (sem : Sem L V M) (pc : Nat)
    (σ : Any R X → V) (ρ : Any R' X' → V) (m : M) (hl : ∀ v, Live p v pc → σ v = ρ (ren f h v)) :
    Same f h p (step sem p pc σ m) (step sem (p.map (mapLine f h)) pc ρ m) := by
  unfold step
  rw [List.getElem?_map]
  cases e : p[pc]? with
  | none => exact ⟨rfl, rfl, fun _ h => nomatch h⟩
  | some ln =>
    have hr : ((reads (mapLine f h ln)).map ρ) = (reads ln).map σ := by
      rw [reads_map, List.map_map]
      refine List.map_congr_left fun v hv => ?_
      exact (hl v (.here e hv)).symm
    -- the registers after the step
    have hw : ∀ (x : V) (q : Nat), q ∈ succ p pc → ∀ v, Live p v q →
        (match writes ln with | some d => Function.update σ d x | none => σ) v =
        (match writes (mapLine f h ln) with | some d => Function.update ρ d x | none => ρ) (ren f h v) := by
      intro x q hq v hv
      rw [writes_map]
      cases c : writes ln with
      | none => exact hl v (.next e (by rw [c]; exact nofun) hq hv)
      | some d =>
        simp only [Option.map_some]
        by_cases hd : v = d
        · subst hd
          rw [Function.update_self, Function.update_self]
        · rw [Function.update_of_ne hd, Function.update_of_ne fun k => hd (fr.2 pc ln q d v e c hq hv k)]
          exact hl v (.next e (by rw [c]; exact fun k => hd (Option.some.inj k).symm) hq hv)
    have hs := shape_map f h ln
    cases ln with
    | RET => exact ⟨rfl, rfl, fun _ h => nomatch h⟩
    | j c l =>
      simp only [Option.map_some, mapLine] at hr hs hw ⊢
      rw [hr, hs, target_map]
      cases sem (shape (.j c l)) ((reads (.j c l : Line L R X)).map σ) m with
      | none => exact ⟨rfl, rfl, fun _ h => nomatch h⟩
      | some r =>
        obtain ⟨x, m', taken⟩ := r
        simp only
        by_cases ht : (taken || c == .JMP) = true
        · rw [if_pos ht, if_pos ht]
          cases et : target p l with
          | none => exact ⟨rfl, rfl, fun _ h => nomatch h⟩
          | some q =>
            refine ⟨rfl, rfl, ?_⟩
            rintro _ ⟨⟩ v hv
            exact hw x q (by simp [succ, e, et]) v hv
        · rw [if_neg ht, if_neg ht]
          refine ⟨rfl, rfl, ?_⟩
          rintro _ ⟨⟩ v hv
          refine hw x (pc + 1) ?_ v hv
          have : ¬ (c == Jc.JMP) = true := fun k => ht (by rw [k, Bool.or_true])
          simp only [succ, e, if_neg this]
          simp
    | nop =>
      simp only [Option.map_some, mapLine] at hr hs hw ⊢
      rw [hr, hs]
      cases sem _ _ m with
      | none => exact ⟨rfl, rfl, fun _ h => nomatch h⟩
      | some r =>
        refine ⟨rfl, rfl, ?_⟩
        rintro _ ⟨⟩ v hv
        exact hw r.1 (pc + 1) (by simp [succ, e]) v hv
    | label l =>
      simp only [Option.map_some, mapLine] at hr hs hw ⊢
      rw [hr, hs]
      cases sem _ _ m with
      | none => exact ⟨rfl, rfl, fun _ h => nomatch h⟩
      | some r =>
        refine ⟨rfl, rfl, ?_⟩
        rintro _ ⟨⟩ v hv
        exact hw r.1 (pc + 1) (by simp [succ, e]) v hv
    | ins mn ops =>
      simp only [Option.map_some, mapLine] at hr hs hw ⊢
      rw [hr, hs]
      cases sem _ _ m with
      | none => exact ⟨rfl, rfl, fun _ h => nomatch h⟩
      | some r =>
        refine ⟨rfl, rfl, ?_⟩
        rintro _ ⟨⟩ v hv
        exact hw r.1 (pc + 1) (by simp [succ, e]) v hv

theorem run_same {V M : Type} {f : R → R'} {h : X → X'} {p : List (Line L R X)} (fr : Free f h p) (sem : Sem L V M) (n : Nat)
    (s : Pos × (Any R X → V) × M) (t : Pos × (Any R' X' → V) × M) (hst : Same f h p s t) :
    Same f h p (run sem p n s) (run sem (p.map (mapLine f h)) n t) := by
  induction n generalizing s t with
  | zero => exact hst
  | succ n ih =>
    obtain ⟨ps, σ, m⟩ := s
    obtain ⟨pt, ρ, m'⟩ := t
    obtain ⟨rfl, h2, h3⟩ := hst
    simp only at h2 h3
    subst h2
    cases ps with
    | «at» pc => exact ih _ _ (step_same fr sem pc σ ρ m fun v hv => h3 pc rfl v hv)
    | done => exact ⟨rfl, rfl, fun _ h => nomatch h⟩
    | fault => exact ⟨rfl, rfl, fun _ h => nomatch h⟩

/-! ## Computing what is live -/

/-- One pass from the last line to the first: what is read, and what is live at a following line and not written. -/
def pass (p : List (Line L R X)) (t : List (List (Any R X))) : List (List (Any R X)) :=
  (List.range p.length).reverse.foldl (fun t pc => match p[pc]? with
    | none => t
    | some ln => t.set pc (reads ln ++ ((succ p pc).flatMap fun q => t.getD q []).filter fun v => writes ln != some v).eraseDups) t

/-- `t` is closed: it contains everything that is live. -/
def Closed (p : List (Line L R X)) (t : List (List (Any R X))) : Prop :=
  ∀ pc, pc < p.length → ∀ ln ∈ p[pc]?.toList, (∀ v ∈ reads ln, v ∈ t.getD pc []) ∧
    ∀ q ∈ succ p pc, ∀ v ∈ t.getD q [], writes ln ≠ some v → v ∈ t.getD pc []

omit [DecidableEq R] [DecidableEq X] in
theorem live_mem {p : List (Line L R X)} {t : List (List (Any R X))} (c : Closed p t) {v : Any R X} {pc : Nat} (h : Live p v pc) :
    v ∈ t.getD pc [] := by
  induction h with
  | here e hv => exact (c _ (List.getElem?_eq_some_iff.1 e).1 _ (Option.mem_toList.2 e)).1 _ hv
  | next e hw hq _ ih => exact (c _ (List.getElem?_eq_some_iff.1 e).1 _ (Option.mem_toList.2 e)).2 _ hq _ ih hw

/-- Allocation of the general registers, by the order in which they are made. -/
def gpr (n : Nat) : Reg := ([.AX, .CX, .DX, .BX, .BX, .SI, .DI, .SI, .SI, .DI, .DI, .SI] : List Reg).getD n .BP

/-- Allocation of the vector registers. -/
def xmm (n : Nat) : Nat := [0, 0, 2, 3, 0, 2, 3, 4, 1].getD n 9

/-- What is live at every line. -/
def table : List (List (Any Nat Nat)) := pass lines (pass lines (pass lines (List.replicate lines.length [])))

theorem table_closed : Closed lines table := by
  have h : ((List.range lines.length).all fun pc => lines[pc]?.toList.all fun ln =>
      ((reads ln).all fun v => decide (v ∈ table.getD pc [])) &&
      (succ lines pc).all fun q => (table.getD q []).all fun v => writes ln == some v || decide (v ∈ table.getD pc [])) = true := by
    decide +kernel
  simp only [List.all_eq_true, List.mem_range, Bool.and_eq_true, Bool.or_eq_true, decide_eq_true_eq, beq_iff_eq] at h
  intro pc hp ln hl
  obtain ⟨a, b⟩ := h pc hp ln hl
  exact ⟨a, fun q hq v hv hw => (b q hq v hv).resolve_left hw⟩

theorem table_free : (∀ pc, pc < lines.length → ∀ u ∈ table.getD pc [], ∀ v ∈ table.getD pc [], ren gpr xmm u = ren gpr xmm v → u = v) ∧
    ∀ pc, pc < lines.length → ∀ ln ∈ lines[pc]?.toList, ∀ d ∈ (writes ln).toList, ∀ q ∈ succ lines pc, ∀ u ∈ table.getD q [],
      ren gpr xmm u = ren gpr xmm d → u = d := by
  have h : ((List.range lines.length).all fun pc =>
      ((table.getD pc []).all fun u => (table.getD pc []).all fun v => !decide (ren gpr xmm u = ren gpr xmm v) || decide (u = v)) &&
      lines[pc]?.toList.all fun ln => (writes ln).toList.all fun d => (succ lines pc).all fun q => (table.getD q []).all fun u =>
        !decide (ren gpr xmm u = ren gpr xmm d) || decide (u = d)) = true := by
    decide +kernel
  simp only [List.all_eq_true, List.mem_range, Bool.and_eq_true, Bool.or_eq_true, Bool.not_eq_true', decide_eq_true_eq,
    decide_eq_false_iff_not] at h
  exact ⟨fun pc hp u hu v hv e => ((h pc hp).1 u hu v hv).resolve_left (not_not.2 e),
    fun pc hp ln hl d hd q hq u hu e => ((h pc hp).2 ln hl d hd q hq u hu).resolve_left (not_not.2 e)⟩

omit [DecidableEq R] [DecidableEq X] in
theorem live_lt {p : List (Line L R X)} {v : Any R X} {pc : Nat} (h : Live p v pc) : pc < p.length := by
  cases h with
  | here e _ => exact (List.getElem?_eq_some_iff.1 e).1
  | next e _ _ _ => exact (List.getElem?_eq_some_iff.1 e).1

theorem alloc_free : Free gpr xmm lines := by
  refine ⟨fun pc u v hu hv => table_free.1 pc (live_lt hu) u (live_mem table_closed hu) v (live_mem table_closed hv), ?_⟩
  intro pc ln q d u e w hq hu
  exact table_free.2 pc (List.getElem?_eq_some_iff.1 e).1 ln (Option.mem_toList.2 e) d (Option.mem_toList.2 w) q hq u (live_mem table_closed hu)

/-- **C118.** The instructions, labels and jumps of the checked-in `dsp/conversion_avo_amd64.s` are those which
`dsp/conversion_avo_amd64.go` writes, with physical registers in the places of the virtual ones; and whatever the instructions do, the
checked-in program does the same as the one of the generator: after every number of steps both stand at the same line (or have returned,
or have faulted) with the same memory, flags and frame. The two vector registers which the program reads before it has written them (the
destinations of `CVTSQ2SS`, which leaves their upper part as it is) are assumed to begin with the same values. -/
theorem C118_generated : ∃ (f : Nat → Reg) (h : Nat → Nat),
    lines.map (mapLine f h) = prog.filter (· ≠ .nop) ∧
    ∀ (V M : Type) (sem : Sem Lbl V M) (σ : Any Nat Nat → V) (ρ : Any Reg Nat → V) (m : M),
      σ (.xm 0) = ρ (.xm (h 0)) → σ (.xm 8) = ρ (.xm (h 8)) → ∀ n,
        (run sem lines n (.at 0, σ, m)).1 = (run sem (prog.filter (· ≠ .nop)) n (.at 0, ρ, m)).1 ∧
        (run sem lines n (.at 0, σ, m)).2.2 = (run sem (prog.filter (· ≠ .nop)) n (.at 0, ρ, m)).2.2 := by
  have e : lines.map (mapLine gpr xmm) = prog.filter (· ≠ .nop) := by decide +kernel
  refine ⟨gpr, xmm, e, fun V M sem σ ρ m h0 h8 n => ?_⟩
  have hs : Same gpr xmm lines (.at 0, σ, m) (.at 0, ρ, m) := by
    refine ⟨rfl, rfl, ?_⟩
    rintro _ ⟨⟩ v hv
    have := live_mem table_closed hv
    have c : ∀ v ∈ table.getD 0 [], v = .xm 0 ∨ v = .xm 8 := by decide +kernel
    rcases c v this with rfl | rfl
    · exact h0
    · exact h8
  have := run_same alloc_free sem n _ _ hs
  rw [e] at this
  exact ⟨this.1, this.2.1⟩

/-- The program has 111 lines; with `t2` (virtual register 6) in the place of `t64` (5) it would be wrong: both are needed at once. -/
example : lines.length = 111 ∧ Live lines (.gp 5) 18 ∧ Live lines (.gp 6) 18 := by
  refine ⟨by decide +kernel, ?_, ?_⟩
  · exact .here (ln := .ins .SUBQ [.r 5, .r 6]) (by decide +kernel) (by decide)
  · exact .here (ln := .ins .SUBQ [.r 5, .r 6]) (by decide +kernel) (by decide)

end Verif.X86.Gen
