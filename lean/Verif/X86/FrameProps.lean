import Verif.X86.GenSpec
import Verif.X86.I8Props
import Verif.X86.F16Props
import Verif.X86.MathModel

/-!
# Which routines keep the frame pointer
-/

namespace Verif.X86
open Verif.X86.Gen (writes dst)

/-! ## An instruction changes no general register but the one it names as its destination -/

theorem get_set_ne {g : Gpr} {r d : Reg} (v : BitVec 64) (h : r ≠ d) : (g.set d v).get r = g.get r := by
  cases d <;> cases r <;> first | rfl | exact absurd rfl h

theorem setR_g {s : St} {r d : Reg} {v : BitVec 64} (h : r ≠ d) : (s.setR d v).g.get r = s.g.get r := get_set_ne v h

theorem load_g {e : Env} {s s' : St} {a : BitVec 64} {n : Nat} {f : Vec → St} (hf : ∀ v, (f v).g = s.g) (h : (e.load s a n).map f = some s') :
    s'.g = s.g := by
  obtain ⟨v, _, rfl⟩ := Option.map_eq_some_iff.1 h
  exact hf v

theorem store_g {e : Env} {s s' : St} {a : BitVec 64} {n : Nat} {v : Vec} (h : e.store s a n v = some s') : s'.g = s.g := by
  unfold Env.store at h
  split at h
  · cases h; rfl
  · exact nomatch h

theorem vmove_g {e : Env} {s s' : St} {n : Nat} {ops : List POp} (h : e.vmove s n ops = some s') : s'.g = s.g := by
  unfold Env.vmove at h
  split at h
  · cases h; rfl
  · cases h; rfl
  · exact load_g (fun _ => by rfl) h
  · exact load_g (fun _ => by rfl) h
  · exact store_g h
  · exact store_g h
  · exact nomatch h

theorem vop2_g {s s' : St} {ops : List POp} {f : Vec → Vec → Vec} (h : s.vop2 ops f = some s') : s'.g = s.g := by
  unfold St.vop2 at h
  split at h
  · cases h; rfl
  · exact nomatch h

theorem vop3_g {s s' : St} {ops : List POp} {f : Vec → Vec → Vec} (h : s.vop3 ops f = some s') : s'.g = s.g := by
  unfold St.vop3 at h
  split at h
  · cases h; rfl
  · exact nomatch h

theorem exec_keeps {e : Env} {s s' : St} {mn : Mn} {ops : List POp} {r : Reg} (h : e.exec s mn ops = some s')
    (hw : writes (.ins mn ops : Line Unit Reg Nat) ≠ some (.gp r)) : s'.g.get r = s.g.get r := by
  have hd : ∀ d, ops.getLast? = some (.r d) → mn.compares = false → r ≠ d := by
    rintro d hl hc rfl
    apply hw
    simp [writes, hc, hl, dst]
  cases mn <;> simp only [Env.exec] at h
  all_goals first
    | exact congrArg (Gpr.get · r) (vop2_g h)
    | exact congrArg (Gpr.get · r) (vop3_g h)
    | exact congrArg (Gpr.get · r) (vmove_g h)
    | skip
  all_goals try split at h
  all_goals try split at h
  all_goals first
    | (cases h; done)
    | (cases h; rfl)
    | (cases h; exact setR_g (hd _ rfl rfl))
    | exact congrArg (Gpr.get · r) (store_g h)
    | exact congrArg (Gpr.get · r) (vmove_g h)
    | exact congrArg (Gpr.get · r) (load_g (fun _ => by rfl) h)
    | (obtain ⟨v, _, rfl⟩ := Option.map_eq_some_iff.1 h; exact setR_g (hd _ rfl rfl))
    | skip

/-! ## Runs -/

variable {L : Type} [DecidableEq L]

/-- The lines that can follow. -/
def nexts (p : Prog L) (pc : Nat) : List Nat :=
  match p[pc]? with
  | none => []
  | some .RET => []
  | some (.j c l) => (p.line l).toList ++ if c = .JMP then [] else [pc + 1]
  | some _ => [pc + 1]

/-- A set of lines that no run leaves, in which no line has register `r` as its destination. -/
def Keeps (p : Prog L) (r : Reg) (t : List Nat) : Prop :=
  ∀ pc ∈ t, (∀ q ∈ nexts p pc, q ∈ t) ∧ ∀ ln ∈ p[pc]?.toList, writes ln ≠ some (.gp r)

/-- Where a run stands, if it has not faulted. -/
def Out.state : Out L → Option St
  | .done s => some s
  | .tail _ s => some s
  | .fault => none
  | .more _ s => some s

theorem step_keeps {e : Env} {p : Prog L} {r : Reg} {t : List Nat} (k : Keeps p r t) {pc : Nat} (hp : pc ∈ t) (s : St) :
    (∀ s', (step e p pc s).state = some s' → s'.g.get r = s.g.get r) ∧ ∀ q s', step e p pc s = .more q s' → q ∈ t := by
  obtain ⟨kn, kw⟩ := k pc hp
  unfold nexts at kn
  unfold step
  cases c : p[pc]? with
  | none => exact ⟨fun _ h => (nomatch h), fun _ _ h => nomatch h⟩
  | some ln =>
    rw [c] at kn kw
    have kw := kw ln (by simp)
    cases ln with
    | nop => exact ⟨fun _ h => by cases h; rfl, fun q s' h => by cases h; exact kn _ (by simp)⟩
    | label l => exact ⟨fun _ h => by cases h; rfl, fun q s' h => by cases h; exact kn _ (by simp)⟩
    | RET => exact ⟨fun _ h => by cases h; rfl, fun q s' h => nomatch h⟩
    | ins mn ops =>
      simp only
      cases x : e.exec s mn ops with
      | none => exact ⟨fun _ h => (nomatch h), fun _ _ h => nomatch h⟩
      | some s1 =>
        refine ⟨fun _ h => ?_, fun q s' h => by cases h; exact kn _ (by simp)⟩
        cases h
        exact exec_keeps x kw
    | j jc l =>
      simp only at kn ⊢
      cases x : s.fl.taken jc with
      | none => exact ⟨fun _ h => (nomatch h), fun _ _ h => nomatch h⟩
      | some b =>
        cases b with
        | true =>
          simp only
          cases y : p.line l with
          | none => exact ⟨fun _ h => by cases h; rfl, fun q s' h => nomatch h⟩
          | some q =>
            refine ⟨fun _ h => by cases h; rfl, fun q s' h => ?_⟩
            cases h
            exact kn _ (by simp [y])
        | false =>
          refine ⟨fun _ h => by cases h; rfl, fun q s' h => ?_⟩
          cases h
          have hj : jc ≠ .JMP := by rintro rfl; exact nomatch x
          exact kn _ (by simp [hj])

theorem run_keeps {e : Env} {p : Prog L} {r : Reg} {t : List Nat} (k : Keeps p r t) (n : Nat) {pc : Nat} (hp : pc ∈ t) (s s' : St)
    (h : (run e p n pc s).state = some s') : s'.g.get r = s.g.get r := by
  induction n generalizing pc s with
  | zero => cases h; rfl
  | succ n ih =>
    obtain ⟨a, b⟩ := step_keeps k hp s (e := e)
    unfold run at h
    cases c : step e p pc s with
    | more q s1 =>
      rw [c] at h
      exact (ih (b q s1 c) s1 h).trans (a s1 (by rw [c]; rfl))
    | done s1 => rw [c] at h; exact a s' (by rw [c]; exact h)
    | tail l s1 => rw [c] at h; exact a s' (by rw [c]; exact h)
    | fault => rw [c] at h; exact nomatch h

/-- The lines of a set of routines. -/
def between (l : List (Nat × Nat)) : List Nat := l.flatMap fun ab => (List.range (ab.2 - ab.1)).map (ab.1 + ·)

/-- The check of `Keeps`. -/
def keepsB (p : Prog L) (r : Reg) (t : List Nat) : Bool :=
  t.all fun pc => ((nexts p pc).all fun q => decide (q ∈ t)) && p[pc]?.toList.all fun ln => decide (writes ln ≠ some (.gp r))

theorem keeps_of {p : Prog L} {r : Reg} {t : List Nat} (h : keepsB p r t = true) : Keeps p r t := by
  simp only [keepsB, List.all_eq_true, Bool.and_eq_true, decide_eq_true_eq] at h
  exact fun pc hp => h pc hp

/-! ## The property -/

/-- On every run from line `pc`, whatever the arguments, the memory and the processor, the frame pointer is the one at the start: at
every moment, when the routine returns, and when it jumps to a routine of another file. -/
def KeepsBP (p : Prog L) (pc : Nat) : Prop := ∀ (e : Env) (n : Nat) (s s' : St), (run e p n pc s).state = some s' → s'.g.bp = s.g.bp

theorem keepsBP {p : Prog L} {pc : Nat} (t : List Nat) (ht : pc ∈ t) (h : keepsB p .BP t = true) : KeepsBP p pc :=
  fun _ n s s' hs => run_keeps (keeps_of h) n ht s s' hs

/-- One element, for the routines with a scale. -/
def callOne : St := ⟨⟨0, 0, 0, 0, 0, 0, 7⟩, fun _ _ => 0, ⟨none, none, none, none⟩, fun _ => 0,
  fun k => if k = 0 then 0x1000 else if k = 24 then 0x2000 else if k = 8 then 1 else if k = 32 then 2 else 0⟩

/-- A machine on which all floating-point results are zero. -/
def zeroMachine : Env := ⟨⟨fun _ => 0, fun _ => 0, fun _ => 0, fun _ _ => 0, fun _ _ => 0, fun _ _ => 0, fun _ _ => 0, fun _ _ => (false, false)⟩,
  fun _ => true, fun _ => true, fun _ => 1⟩

/-- **C119.** Of the amd64 routines exactly `I8tof32` (line 317), `F32toi16` (472) and `F32toi16ble` (534) of `conversion_amd64.s` do not
keep the frame pointer. The first conjuncts list the routines by their first lines; for all others nothing about the arguments is assumed. -/
theorem C119_conversion : ∀ pc ∈ [4, 91, 317, 463, 472, 534, 540, 543, 633], KeepsBP Conv.prog pc ↔ pc ∉ [317, 472, 534] := by
  have k1 : keepsB Conv.prog .BP (between [(4, 164)]) = true := by decide +kernel
  have k2 : keepsB Conv.prog .BP (between [(463, 471), (540, 715)]) = true := by decide +kernel
  have n1 : ¬ KeepsBP Conv.prog 317 := by
    intro h
    have h1 : Args (Avo.call 0x2004 47 60) 0x1000 0x2004 47 60 := ⟨by decide, by decide, rfl, rfl, rfl, rfl⟩
    have h2 : Area (Avo.machine true) 0x1000 0x2004 47 (4 * 47) := ⟨by decide, by decide, fun _ _ => rfl, fun _ _ => rfl, by decide +kernel⟩
    obtain ⟨s', h3, -, -⟩ := Conv.C111_converts_partial (n := 47) (by decide) h1 (by decide) h2 (Or.inr (by decide +kernel))
    have h5 := Conv.C111_violated_bp (n := 47) (by decide) h1 (by decide) (Or.inr (by decide +kernel)) h2 h3
    obtain ⟨k, h3⟩ := h3
    have h6 := h _ k _ s' (by rw [h3]; rfl)
    rw [h5] at h6
    exact absurd h6 (by decide)
  have n2 : ¬ KeepsBP Conv.prog 472 := by
    intro h
    have h0 : ((run zeroMachine Conv.prog 100 472 callOne).state.map fun s => s.g.bp) = some 0 := by decide +kernel
    obtain ⟨s', h1, h2⟩ := Option.map_eq_some_iff.1 h0
    have := h _ _ _ _ h1
    rw [h2] at this
    exact absurd this (by decide)
  have n3 : ¬ KeepsBP Conv.prog 534 := by
    intro h
    have h0 : ((run zeroMachine Conv.prog 100 534 callOne).state.map fun s => s.g.bp) = some 0 := by decide +kernel
    obtain ⟨s', h1, h2⟩ := Option.map_eq_some_iff.1 h0
    have := h _ _ _ _ h1
    rw [h2] at this
    exact absurd this (by decide)
  intro pc hpc
  simp only [List.mem_cons, List.not_mem_nil, or_false] at hpc
  rcases hpc with rfl | rfl | rfl | rfl | rfl | rfl | rfl | rfl | rfl
  · exact ⟨fun _ => by decide, fun _ => keepsBP _ (by decide) k1⟩
  · exact ⟨fun _ => by decide, fun _ => keepsBP _ (by decide +kernel) k1⟩
  · exact ⟨fun h => absurd h n1, fun h => absurd (by decide) h⟩
  · exact ⟨fun _ => by decide, fun _ => keepsBP _ (by decide +kernel) k2⟩
  · exact ⟨fun h => absurd h n2, fun h => absurd (by decide) h⟩
  · exact ⟨fun h => absurd h n3, fun h => absurd (by decide) h⟩
  · exact ⟨fun _ => by decide, fun _ => keepsBP _ (by decide +kernel) k2⟩
  · exact ⟨fun _ => by decide, fun _ => keepsBP _ (by decide +kernel) k2⟩
  · exact ⟨fun _ => by decide, fun _ => keepsBP _ (by decide +kernel) k2⟩

/-- **C119.** `Ui8tof32` and all routines of `math32_amd64.s` keep the frame pointer. -/
theorem C119_others_partial : KeepsBP Avo.prog 7 ∧ ∀ pc ∈ [4, 7, 10, 13, 119, 225, 228], KeepsBP Math.prog pc := by
  have k1 : keepsB Avo.prog .BP (between [(7, 164)]) = true := by decide +kernel
  have k2 : keepsB Math.prog .BP (between [(4, 322)]) = true := by decide +kernel
  refine ⟨keepsBP _ (by decide +kernel) k1, fun pc hpc => keepsBP _ ?_ k2⟩
  revert pc
  decide +kernel

/-- **C119, violated.** Not all routines keep the frame pointer. -/
theorem C119_violated : ¬ ∀ pc ∈ [4, 91, 317, 463, 472, 534, 540, 543, 633], KeepsBP Conv.prog pc := fun h =>
  (C119_conversion 472 (by decide)).1 (h 472 (by decide)) (by decide)

/-- The call of `F32toi16` with one element returns with `BP` zero, it was 7. -/
example : ((run zeroMachine Conv.prog 100 472 callOne).state.map fun s => s.g.bp) = some 0 ∧ callOne.g.bp = 7 := by decide +kernel

end Verif.X86
