import Verif.Borip.ServerModel
import Mathlib.Data.List.Basic

/-!
# Properties C66 and C67 of the server's connections
-/

namespace Verif.Borip

/-! ## Specification of C66 on the log of openings and closings -/

/-- Between two openings of a device there is a closing by the connection that opened it first. -/
def Exclusive (log : List Event) : Prop :=
  ∀ pre mid post c c' d, log = pre ++ .opened c d :: (mid ++ .opened c' d :: post) → .closed c d ∈ mid

/-- The connection has opened the device and not closed it since. -/
def Unclosed (log : List Event) (c d : Nat) : Prop := ∃ pre post, log = pre ++ .opened c d :: post ∧ .closed c d ∉ post

/-! ## Invariant -/

/-- The connection has the device. -/
def Holds (x : Conn) (d : Nat) : Prop := x.phase = .opened d ∨ (x.dev = some d ∧ x.phase ≠ .gone)

/-- Where `cli.dev` is nil. -/
def Placed (x : Conn) : Prop :=
  match x.phase with
  | .absent | .listing | .opening _ | .opened _ => x.dev = none
  | _ => True

structure Inv (s : Server) : Prop where
  placed : ∀ c, Placed (s.conns c)
  log : ∀ c d, Unclosed s.log c d ↔ Holds (s.conns c) d
  unique : ∀ c c' d, Holds (s.conns c) d → Holds (s.conns c') d → c = c'
  inUse : ∀ d, (s.devs d).inUse = true ↔ ∃ c, Holds (s.conns c) d
  rtl : ∀ d, (s.devs d).rtlDev = (s.devs d).inUse
  excl : Exclusive s.log

theorem inv_init : Inv Server.init where
  placed := fun _ => rfl
  log := by
    intro c d
    simp [Server.init, Unclosed, Holds]
  unique := by
    intro c c' d h
    simp [Server.init, Holds] at h
  inUse := by
    intro d
    simp [Server.init, Holds]
  rtl := fun _ => rfl
  excl := by
    intro pre mid post c c' d h
    simp [Server.init] at h

theorem holds_set {s : Server} {c : Nat} {x : Conn} (h : ∀ d, Holds x d ↔ Holds (s.conns c) d) (c' d : Nat) :
    Holds ((s.setConn c x).conns c') d ↔ Holds (s.conns c') d := by
  simp only [Server.setConn]
  by_cases hc : c' = c
  · subst hc; rw [Function.update_self]; exact h d
  · rw [Function.update_of_ne hc]

theorem inv_setConn {s : Server} (hi : Inv s) {c : Nat} {x : Conn} (hp : Placed x) (h : ∀ d, Holds x d ↔ Holds (s.conns c) d) :
    Inv (s.setConn c x) where
  placed := by
    intro c'
    simp only [Server.setConn]
    by_cases hc : c' = c
    · subst hc; rw [Function.update_self]; exact hp
    · rw [Function.update_of_ne hc]; exact hi.placed c'
  log := by
    intro c' d
    rw [holds_set h]
    exact hi.log c' d
  unique := by
    intro c1 c2 d h1 h2
    rw [holds_set h] at h1 h2
    exact hi.unique c1 c2 d h1 h2
  inUse := by
    intro d
    simp only [holds_set h]
    exact hi.inUse d
  rtl := hi.rtl
  excl := hi.excl

theorem unclosed_snoc_closed (log : List Event) (c d c' d' : Nat) :
    Unclosed (log ++ [.closed c d]) c' d' ↔ Unclosed log c' d' ∧ ¬(c' = c ∧ d' = d) := by
  constructor
  · rintro ⟨pre, post, h1, h2⟩
    rcases List.eq_nil_or_concat post with rfl | ⟨p, x, rfl⟩
    · have := (List.append_inj' h1 rfl).2
      simp at this
    · rw [List.concat_eq_append] at h1 h2
      rw [← List.cons_append, ← List.append_assoc] at h1
      obtain ⟨h3, h4⟩ := List.append_inj' h1 rfl
      simp only [List.cons.injEq, and_true] at h4
      subst h4
      simp only [List.mem_append, List.mem_singleton, not_or, Event.closed.injEq] at h2
      exact ⟨⟨pre, p, h3, h2.1⟩, h2.2⟩
  · rintro ⟨⟨pre, post, rfl, h2⟩, h3⟩
    refine ⟨pre, post ++ [.closed c d], by simp, ?_⟩
    simp only [List.mem_append, List.mem_singleton, not_or, Event.closed.injEq]
    exact ⟨h2, h3⟩

theorem unclosed_snoc_opened (log : List Event) (c d c' d' : Nat) :
    Unclosed (log ++ [.opened c d]) c' d' ↔ Unclosed log c' d' ∨ (c' = c ∧ d' = d) := by
  constructor
  · rintro ⟨pre, post, h1, h2⟩
    rcases List.eq_nil_or_concat post with rfl | ⟨p, x, rfl⟩
    · have := (List.append_inj' h1 rfl).2
      simp only [List.cons.injEq, and_true, Event.opened.injEq] at this
      exact .inr ⟨this.1.symm, this.2.symm⟩
    · rw [List.concat_eq_append] at h1 h2
      rw [← List.cons_append, ← List.append_assoc] at h1
      obtain ⟨h3, h4⟩ := List.append_inj' h1 rfl
      simp only [List.mem_append, not_or] at h2
      exact .inl ⟨pre, p, h3, h2.1⟩
  · rintro (⟨pre, post, rfl, h2⟩ | ⟨rfl, rfl⟩)
    · refine ⟨pre, post ++ [.opened c d], by simp, ?_⟩
      simp only [List.mem_append, List.mem_singleton, not_or]
      exact ⟨h2, by simp⟩
    · exact ⟨log, [], rfl, by simp⟩

theorem exclusive_snoc_closed {log : List Event} (h : Exclusive log) (c d : Nat) : Exclusive (log ++ [.closed c d]) := by
  intro pre mid post a b e he
  rcases List.eq_nil_or_concat post with rfl | ⟨p, x, rfl⟩
  · have h2 : log ++ [.closed c d] = (pre ++ .opened a e :: mid) ++ [.opened b e] := by rw [he]; simp
    have := (List.append_inj' h2 rfl).2
    simp at this
  · rw [List.concat_eq_append] at he
    have h2 : log ++ [.closed c d] = (pre ++ .opened a e :: (mid ++ .opened b e :: p)) ++ [x] := by rw [he]; simp
    exact h pre mid p a b e (List.append_inj' h2 rfl).1

theorem exclusive_snoc_opened {log : List Event} (h : Exclusive log) (c d : Nat) (hn : ∀ c', ¬ Unclosed log c' d) : Exclusive (log ++ [.opened c d]) := by
  intro pre mid post a b e he
  rcases List.eq_nil_or_concat post with rfl | ⟨p, x, rfl⟩
  · have h2 : log ++ [.opened c d] = (pre ++ .opened a e :: mid) ++ [.opened b e] := by rw [he]; simp
    obtain ⟨h3, h4⟩ := List.append_inj' h2 rfl
    simp only [List.cons.injEq, and_true, Event.opened.injEq] at h4
    obtain ⟨-, rfl⟩ := h4
    by_contra hc
    exact hn a ⟨pre, mid, h3, hc⟩
  · rw [List.concat_eq_append] at he
    have h2 : log ++ [.opened c d] = (pre ++ .opened a e :: (mid ++ .opened b e :: p)) ++ [x] := by rw [he]; simp
    exact h pre mid p a b e (List.append_inj' h2 rfl).1

theorem inv_close {s : Server} (hi : Inv s) {c d : Nat} {x : Conn} (hd : Holds (s.conns c) d) (hp : Placed x) (hx : ∀ d', ¬ Holds x d')
    (honly : ∀ d', Holds (s.conns c) d' → d' = d) : Inv ((s.closeDev c d).setConn c x) := by
  have hr : (s.devs d).rtlDev = true := by rw [hi.rtl, hi.inUse]; exact ⟨c, hd⟩
  have e : s.closeDev c d = { s with devs := Function.update s.devs d ⟨false, false⟩, log := s.log ++ [.closed c d] } := by
    unfold Server.closeDev
    rw [if_neg (by rw [hr]; simp)]
  rw [e]
  have hh : ∀ c' d', Holds (Function.update s.conns c x c') d' ↔ Holds (s.conns c') d' ∧ ¬(c' = c ∧ d' = d) := by
    intro c' d'
    by_cases hc : c' = c
    · subst hc
      rw [Function.update_self]
      constructor
      · exact fun h => absurd h (hx d')
      · rintro ⟨h1, h2⟩
        exact absurd ⟨rfl, honly d' h1⟩ h2
    · rw [Function.update_of_ne hc]
      simp [hc]
  refine ⟨?_, ?_, ?_, ?_, ?_, ?_⟩
  · intro c'
    simp only [Server.setConn]
    by_cases hc : c' = c
    · subst hc; rw [Function.update_self]; exact hp
    · rw [Function.update_of_ne hc]; exact hi.placed c'
  · intro c' d'
    simp only [Server.setConn]
    rw [unclosed_snoc_closed, hi.log, hh]
  · intro c1 c2 d' h1 h2
    simp only [Server.setConn] at h1 h2
    rw [hh] at h1 h2
    exact hi.unique c1 c2 d' h1.1 h2.1
  · intro d'
    simp only [Server.setConn, hh]
    by_cases hdd : d' = d
    · subst hdd
      rw [Function.update_self]
      constructor
      · intro h; simp at h
      · rintro ⟨c', h1, h2⟩
        exact absurd ⟨hi.unique c' c d' h1 hd, rfl⟩ h2
    · rw [Function.update_of_ne hdd, hi.inUse]
      simp [hdd]
  · intro d'
    simp only [Server.setConn]
    by_cases hdd : d' = d
    · subst hdd; rw [Function.update_self]
    · rw [Function.update_of_ne hdd]; exact hi.rtl d'
  · exact exclusive_snoc_closed hi.excl c d

theorem inv_open {s : Server} (hi : Inv s) {c d : Nat} {x : Conn} (hfree : (s.devs d).inUse = false) (hnone : ∀ d', ¬ Holds (s.conns c) d')
    (hp : Placed x) (hx : ∀ d', Holds x d' ↔ d' = d) : Inv ((s.openDev c d).setConn c x) := by
  have hno : ∀ c', ¬ Holds (s.conns c') d := by
    intro c' hc
    have := (hi.inUse d).mpr ⟨c', hc⟩
    rw [hfree] at this
    cases this
  have hh : ∀ c' d', Holds (Function.update s.conns c x c') d' ↔ Holds (s.conns c') d' ∨ (c' = c ∧ d' = d) := by
    intro c' d'
    by_cases hc : c' = c
    · subst hc
      rw [Function.update_self, hx]
      simp [hnone d']
    · rw [Function.update_of_ne hc]
      simp [hc]
  refine ⟨?_, ?_, ?_, ?_, ?_, ?_⟩
  · intro c'
    simp only [Server.setConn, Server.openDev]
    by_cases hc : c' = c
    · subst hc; rw [Function.update_self]; exact hp
    · rw [Function.update_of_ne hc]; exact hi.placed c'
  · intro c' d'
    simp only [Server.setConn, Server.openDev]
    rw [unclosed_snoc_opened, hi.log, hh]
  · intro c1 c2 d' h1 h2
    simp only [Server.setConn, Server.openDev] at h1 h2
    rw [hh] at h1 h2
    rcases h1 with h1 | ⟨rfl, rfl⟩
    · rcases h2 with h2 | ⟨rfl, rfl⟩
      · exact hi.unique c1 c2 d' h1 h2
      · exact absurd h1 (hno c1)
    · rcases h2 with h2 | ⟨rfl, -⟩
      · exact absurd h2 (hno c2)
      · rfl
  · intro d'
    simp only [Server.setConn, Server.openDev, hh]
    by_cases hdd : d' = d
    · subst hdd
      rw [Function.update_self]
      exact ⟨fun _ => ⟨c, .inr ⟨rfl, rfl⟩⟩, fun _ => rfl⟩
    · rw [Function.update_of_ne hdd, hi.inUse]
      simp [hdd]
  · intro d'
    simp only [Server.setConn, Server.openDev]
    by_cases hdd : d' = d
    · subst hdd; rw [Function.update_self]
    · rw [Function.update_of_ne hdd]; exact hi.rtl d'
  · exact exclusive_snoc_opened hi.excl c d fun c' hu => hno c' ((hi.log c' d).mp hu)

/-- Changing the place between two places where `cli.dev` may be anything. -/
theorem holds_phase {x : Conn} {p : Phase} {ch : Chan} {as : Bool} (h1 : ∀ d, x.phase ≠ .opened d) (h2 : ∀ d, p ≠ .opened d)
    (h3 : x.phase ≠ .gone) (h4 : p ≠ .gone) (d : Nat) : Holds ⟨p, x.dev, ch, as⟩ d ↔ Holds x d := by
  simp [Holds, h1, h2, h3, h4]

theorem next_free (k : After) : (∀ d, k.next ≠ .opened d) ∧ k.next ≠ .gone ∧ k.next ≠ .absent ∧ k.next ≠ .listing ∧ ∀ l, k.next ≠ .opening l := by
  cases k <;> simp [After.next]

theorem inv_panic {s : Server} (hi : Inv s) (p : Option Panic) : Inv { s with panic := p } := ⟨hi.placed, hi.log, hi.unique, hi.inUse, hi.rtl, hi.excl⟩

theorem placed_of {x : Conn} (h1 : x.phase ≠ .absent) (h2 : x.phase ≠ .listing) (h3 : ∀ l, x.phase ≠ .opening l) (h4 : ∀ d, x.phase ≠ .opened d) : Placed x := by
  unfold Placed
  split
  · exact absurd ‹_› h1
  · exact absurd ‹_› h2
  · exact absurd ‹_› (h3 _)
  · exact absurd ‹_› (h4 _)
  · trivial

theorem inv_command {s s' : Server} (hi : Inv s) {c : Nat} {p : Phase} {ch : Chan} {as : Bool}
    (hp : (∀ d, p ≠ .opened d) ∧ p ≠ .gone ∧ p ≠ .absent ∧ p ≠ .listing ∧ ∀ l, p ≠ .opening l)
    (h : s.command c ⟨p, (s.conns c).dev, ch, as⟩ = some s') : Inv s' := by
  unfold Server.command at h
  split at h
  · rename_i hidle
    rw [Option.some.injEq] at h
    subst h
    refine inv_setConn hi (placed_of hp.2.2.1 hp.2.2.2.1 hp.2.2.2.2 hp.1) fun d => ?_
    exact holds_phase (by simp [hidle]) hp.1 (by simp [hidle]) hp.2.1 d
  · cases h

theorem inv_advance {s s' : Server} (hi : Inv s) (c : Nat) (h : s.advance c = some s') : Inv s' := by
  unfold Server.advance at h
  simp only at h
  split at h
  · rename_i k hk
    rw [Option.some.injEq] at h
    subst h
    obtain ⟨n1, n2, n3, n4, n5⟩ := next_free k
    have hp : ∀ p : Phase, p = (if (s.conns c).closeChan = .nil then k.next else .closing k) →
        (∀ d, p ≠ .opened d) ∧ p ≠ .gone ∧ p ≠ .absent ∧ p ≠ .listing ∧ ∀ l, p ≠ .opening l := by
      intro p hp
      subst hp
      split
      · exact ⟨n1, n2, n3, n4, n5⟩
      · simp
    obtain ⟨m1, m2, m3, m4, m5⟩ := hp _ rfl
    exact inv_setConn hi (placed_of m3 m4 m5 m1) fun d => holds_phase (by simp [hk]) m1 (by simp [hk]) m2 d
  · rename_i k hk
    obtain ⟨n1, n2, n3, n4, n5⟩ := next_free k
    split at h
    · rw [Option.some.injEq] at h
      subst h
      exact inv_setConn hi (placed_of n3 n4 n5 n1) fun d => holds_phase (by simp [hk]) n1 (by simp [hk]) n2 d
    · rw [Option.some.injEq] at h
      subst h
      exact inv_panic hi _
    · rw [Option.some.injEq] at h
      subst h
      exact inv_panic hi _
  · rename_i k hk
    split at h
    · rename_i hd
      rw [Option.some.injEq] at h
      subst h
      refine inv_setConn hi ?_ fun d => ?_
      · cases k <;> simp [Placed, After.closed, hd]
      · cases k <;> simp [Holds, After.closed, hd, hk]
    · rename_i d hd
      rw [Option.some.injEq] at h
      subst h
      refine inv_close hi (.inr ⟨hd, by simp [hk]⟩) ?_ ?_ ?_
      · cases k <;> simp [Placed, After.closed]
      · intro d'
        cases k <;> simp [Holds, After.closed]
      · intro d' h'
        rcases h' with h' | ⟨h', -⟩
        · rw [hk] at h'; cases h'
        · rw [hd] at h'; exact (Option.some.inj h').symm
  · rename_i d hd
    rw [Option.some.injEq] at h
    subst h
    have hn : (s.conns c).dev = none := by
      have := hi.placed c
      unfold Placed at this
      rw [hd] at this
      exact this
    refine inv_setConn hi (by simp [Placed]) fun d' => ?_
    simp [Holds, hd, hn]
  · cases h

theorem inv_tryOpen {s s' : Server} (hi : Inv s) (c : Nat) (ok : Bool) (h : s.tryOpen c ok = some s') : Inv s' := by
  unfold Server.tryOpen at h
  simp only at h
  have hn : ∀ l, (s.conns c).phase = .opening l → (s.conns c).dev = none := by
    intro l hl
    have := hi.placed c
    unfold Placed at this
    rw [hl] at this
    exact this
  split at h
  · rename_i hp
    rw [Option.some.injEq] at h
    subst h
    refine inv_setConn hi (by simp [Placed]) fun d => ?_
    simp [Holds, hp]
  · rename_i d rest hp
    split at h
    · rw [Option.some.injEq] at h
      subst h
      refine inv_setConn hi (by simp [Placed, hn _ hp]) fun d' => ?_
      simp [Holds, hp, hn _ hp]
    · rename_i hno
      rw [Option.some.injEq] at h
      subst h
      rw [not_or] at hno
      refine inv_open hi (by simpa using hno.1) ?_ (by simp [Placed, hn _ hp]) ?_
      · intro d'
        simp [Holds, hp, hn _ hp]
      · intro d'
        simp only [Holds, hn _ hp, Phase.opened.injEq, reduceCtorEq, false_and, or_false]
        exact eq_comm
  · cases h

theorem inv_step {s s' : Server} (hi : Inv s) (a : Action) (h : s.step a = some s') : Inv s' := by
  unfold Server.step at h
  split at h
  · cases h
  cases a with
  | connect c =>
    simp only at h
    split at h
    · rename_i hp
      rw [Option.some.injEq] at h
      subst h
      have hn : (s.conns c).dev = none := by
        have := hi.placed c
        unfold Placed at this
        rw [hp] at this
        exact this
      refine inv_setConn hi (by simp [Placed]) fun d => ?_
      simp [Holds, hp, hn]
    · cases h
  | stop c => exact inv_command hi (by split <;> simp) h
  | go c ok =>
    simp only at h
    split at h
    · unfold Server.command at h
      split at h
      · rename_i hp
        rw [Option.some.injEq] at h
        subst h
        exact inv_setConn hi (by simp [Placed, hp]) fun d => by simp [Holds]
      · cases h
    · unfold Server.command at h
      split at h
      · rename_i hp
        rw [Option.some.injEq] at h
        subst h
        exact inv_setConn hi (hi.placed c) fun d => Iff.rfl
      · cases h
  | select c => exact inv_command hi (by split <;> simp) h
  | release c => exact inv_command hi (by split <;> simp) h
  | disconnect c => exact inv_command hi (by simp) h
  | advance c => exact inv_advance hi c h
  | list c l =>
    simp only at h
    split at h
    · rename_i hp
      rw [Option.some.injEq] at h
      subst h
      have hn : (s.conns c).dev = none := by
        have := hi.placed c
        unfold Placed at this
        rw [hp] at this
        exact this
      refine inv_setConn hi (by simp [Placed, hn]) fun d => ?_
      simp [Holds, hp, hn]
    · cases h
  | tryOpen c ok => exact inv_tryOpen hi c ok h
  | gains c n =>
    simp only at h
    split at h
    · rename_i hp
      split at h
      · rw [Option.some.injEq] at h
        subst h
        exact inv_panic hi _
      · rw [Option.some.injEq] at h
        subst h
        exact inv_setConn hi (by simp [Placed]) fun d => by simp [Holds, hp]
    · cases h
  | callback c b =>
    simp only [Server.callback] at h
    split at h
    · cases h
    · split at h
      · rw [Option.some.injEq] at h
        subst h
        exact inv_setConn hi (hi.placed c) fun d => by simp [Holds]
      · rw [Option.some.injEq] at h
        subst h
        exact hi

theorem inv_run (as : List Action) : ∀ {s s' : Server}, Inv s → s.run as = some s' → Inv s' := by
  induction as with
  | nil =>
    intro s s' hi h
    rw [Server.run, Option.some.injEq] at h
    subst h
    exact hi
  | cons a as ih =>
    intro s s' hi h
    rw [Server.run, Option.bind_eq_some_iff] at h
    obtain ⟨s1, h1, h2⟩ := h
    exact ih (inv_step hi a h1) h2

/-! ## C66 -/

/-- C66: in every execution, a device that is opened again has been closed by the connection that had
opened it before. -/
theorem C66_exclusive (as : List Action) (s : Server) (h : Server.init.run as = some s) : Exclusive s.log :=
  (inv_run as inv_init h).excl

/-- C66: a connection that has ended has closed every device it opened, and these devices are free
unless another connection has opened them since. -/
theorem C66_released (as : List Action) (s : Server) (h : Server.init.run as = some s) (c : Nat) (hc : (s.conns c).phase = .gone) :
    (∀ d, ¬ Unclosed s.log c d) ∧ ∀ d, (s.devs d).inUse = true → ∃ c', c' ≠ c ∧ (s.conns c').phase ≠ .gone ∧ Unclosed s.log c' d := by
  have hi := inv_run as inv_init h
  have hno : ∀ d, ¬ Holds (s.conns c) d := by
    intro d
    simp [Holds, hc]
  refine ⟨fun d hu => hno d ((hi.log c d).mp hu), fun d hd => ?_⟩
  obtain ⟨c', hc'⟩ := (hi.inUse d).mp hd
  refine ⟨c', ?_, ?_, (hi.log c' d).mpr hc'⟩
  · rintro rfl
    exact hno d hc'
  · rcases hc' with h1 | h1
    · rw [h1]; simp
    · exact h1.2

/-- C66: the device of a living connection is open, marked as in use, and no other living connection's. -/
theorem C66_current (as : List Action) (s : Server) (h : Server.init.run as = some s) (c d : Nat) (hd : (s.conns c).dev = some d)
    (hc : (s.conns c).phase ≠ .gone) :
    (s.devs d).rtlDev = true ∧ (s.devs d).inUse = true ∧
      ∀ c', (s.conns c').dev = some d → (s.conns c').phase ≠ .gone → c' = c := by
  have hi := inv_run as inv_init h
  have hh : Holds (s.conns c) d := .inr ⟨hd, hc⟩
  have hu : (s.devs d).inUse = true := (hi.inUse d).mpr ⟨c, hh⟩
  exact ⟨by rw [hi.rtl]; exact hu, hu, fun c' h1 h2 => hi.unique c' c d (.inr ⟨h1, h2⟩) hh⟩

/-- Two connections compete for device 5; the second gets it after the first has left. -/
def competition : List Action :=
  [.connect 1, .connect 2, .select 1, .select 2, .advance 1, .advance 2, .list 1 [5], .list 2 [5], .tryOpen 1 true, .tryOpen 2 true,
    .tryOpen 2 true, .advance 1, .gains 1 (some 3), .disconnect 1, .advance 1, .advance 1, .select 2, .advance 2, .list 2 [5], .tryOpen 2 true]

example : (Server.init.run competition).map (fun s => (s.log, (s.conns 1).phase, (s.conns 2).phase)) =
    some ([.opened 1 5, .closed 1 5, .opened 2 5], .gone, .opened 5) := by
  decide

/-! ## C67 -/

/-- Connect, select device 0, start. -/
def started : List Action :=
  [.connect 0, .select 0, .advance 0, .list 0 [0], .tryOpen 0 true, .advance 0, .gains 0 (some 2), .go 0 true]

/-- C67 does not hold: two STOP commands before the next callback close the channel twice. -/
theorem C67_violated : (Server.init.run (started ++ [.stop 0, .advance 0, .advance 0, .stop 0, .advance 0, .advance 0])).map (·.panic) =
    some (some .closeOfClosed) := by
  decide

/-- C67 does not hold: a client that stops the stream and then disconnects before the next callback
ends the server. -/
theorem C67_violated_disconnect : (Server.init.run (started ++ [.stop 0, .advance 0, .advance 0, .disconnect 0, .advance 0, .advance 0])).map (·.panic) =
    some (some .closeOfClosed) := by
  decide

/-- C67 does not hold: a callback between the test and the close makes the server close a nil channel. -/
theorem C67_violated_race : (Server.init.run (started ++ [.stop 0, .advance 0, .callback 0 true, .advance 0])).map (·.panic) =
    some (some .closeOfNil) := by
  decide

/-- C67 does not hold: a device with fewer than two gains ends the server. -/
theorem C67_violated_gains : (Server.init.run [.connect 0, .select 0, .advance 0, .list 0 [0], .tryOpen 0 true, .advance 0, .gains 0 (some 1)]).map (·.panic) =
    some (some .index) := by
  decide

/-- C67 does not hold, in general: whenever the channel of an idle connection is closed and no callback
comes, a disconnect ends the server. -/
theorem C67_violated_any (s : Server) (hs : s.panic = none) (c : Nat) (hp : (s.conns c).phase = .idle) (hc : (s.conns c).closeChan = .closed) :
    (s.run [.disconnect c, .advance c, .advance c]).map (·.panic) = some (some .closeOfClosed) := by
  simp [Server.run, Server.step, hs, Server.command, hp, Server.advance, Server.setConn, hc]

/-- A step that starts a stop only when an earlier one has been seen by the callback, that has no
callback taking the channel away between test and close, and that gets at least two gains. -/
def Careful (s : Server) : Action → Prop
  | .stop c | .select c | .release c | .disconnect c => (s.conns c).closeChan ≠ .closed
  | .callback c _ => ∀ k, (s.conns c).phase ≠ .testing k ∧ (s.conns c).phase ≠ .closing k
  | .gains _ n => n ≠ some 0 ∧ n ≠ some 1
  | _ => True

/-- An execution made of careful steps. -/
def CarefulRun (s : Server) : List Action → Prop
  | [] => True
  | a :: as => Careful s a ∧ ∀ s', s.step a = some s' → CarefulRun s' as

/-- Between test and close the channel is open. -/
def ChanOk (x : Conn) : Prop :=
  match x.phase with
  | .testing _ => x.closeChan ≠ .closed
  | .closing _ => x.closeChan = .opened
  | _ => True

theorem chanOk_set {s : Server} (h : ∀ c, ChanOk (s.conns c)) {c : Nat} {x : Conn} (hx : ChanOk x) : ∀ c', ChanOk ((s.setConn c x).conns c') := by
  intro c'
  simp only [Server.setConn]
  by_cases hc : c' = c
  · subst hc; rw [Function.update_self]; exact hx
  · rw [Function.update_of_ne hc]; exact h c'

theorem chanOk_next (k : After) (dv : Option Nat) (ch : Chan) (as : Bool) : ChanOk ⟨k.next, dv, ch, as⟩ := by
  cases k <;> simp [ChanOk, After.next]

theorem chanOk_closed (k : After) (dv : Option Nat) (ch : Chan) (as : Bool) : ChanOk ⟨k.closed, dv, ch, as⟩ := by
  cases k <;> simp [ChanOk, After.closed]

theorem careful_step {s s' : Server} (hs : s.panic = none) (hi : ∀ c, ChanOk (s.conns c)) (a : Action) (ha : Careful s a) (h : s.step a = some s') :
    s'.panic = none ∧ ∀ c, ChanOk (s'.conns c) := by
  have hcmd : ∀ (c : Nat) (x : Conn), ChanOk x → s.command c x = some s' → s'.panic = none ∧ ∀ c, ChanOk (s'.conns c) := by
    intro c x hx hc
    unfold Server.command at hc
    split at hc
    · rw [Option.some.injEq] at hc
      subst hc
      exact ⟨hs, chanOk_set hi hx⟩
    · cases hc
  unfold Server.step at h
  rw [hs] at h
  simp only [Option.isSome_none, Bool.false_eq_true, if_false] at h
  cases a with
  | connect c =>
    simp only at h
    split at h
    · rw [Option.some.injEq] at h
      subst h
      exact ⟨hs, chanOk_set hi trivial⟩
    · cases h
  | stop c =>
    refine hcmd c _ ?_ h
    simp only [Careful] at ha
    by_cases hn : (s.conns c).closeChan = .nil
    · rw [if_pos hn]; trivial
    · rw [if_neg hn]; exact ha
  | go c ok =>
    simp only at h
    unfold Server.command at h
    split at h
    · rename_i hp
      rw [Option.some.injEq] at h
      subst h
      refine ⟨hs, chanOk_set hi ?_⟩
      split
      · simp [ChanOk, hp]
      · exact hi c
    · cases h
  | select c =>
    refine hcmd c _ ?_ h
    simp only [Careful] at ha
    by_cases hn : (s.conns c).closeChan = .nil
    · rw [if_pos hn]; trivial
    · rw [if_neg hn]; exact ha
  | release c =>
    refine hcmd c _ ?_ h
    simp only [Careful] at ha
    by_cases hn : (s.conns c).closeChan = .nil
    · rw [if_pos hn]; trivial
    · rw [if_neg hn]; exact ha
  | disconnect c =>
    refine hcmd c _ ?_ h
    simp only [Careful] at ha
    exact ha
  | advance c =>
    simp only [Server.advance] at h
    have hc := hi c
    split at h
    · rename_i k hk
      rw [Option.some.injEq] at h
      subst h
      refine ⟨hs, chanOk_set hi ?_⟩
      unfold ChanOk at hc
      rw [hk] at hc
      simp only at hc
      split
      · exact chanOk_next _ _ _ _
      · simp only [ChanOk]
        cases he : (s.conns c).closeChan <;> simp_all
    · rename_i k hk
      unfold ChanOk at hc
      rw [hk] at hc
      simp only at hc
      rw [hc] at h
      simp only [Option.some.injEq] at h
      subst h
      exact ⟨hs, chanOk_set hi (chanOk_next _ _ _ _)⟩
    · split at h
      · rw [Option.some.injEq] at h
        subst h
        exact ⟨hs, chanOk_set hi (chanOk_closed _ _ _ _)⟩
      · rw [Option.some.injEq] at h
        subst h
        have hcl : (s.closeDev c ‹_›).conns = s.conns ∧ (s.closeDev c ‹_›).panic = s.panic := by
          unfold Server.closeDev
          split <;> exact ⟨rfl, rfl⟩
        refine ⟨hcl.2.trans hs, chanOk_set (fun c' => ?_) (chanOk_closed _ _ _ _)⟩
        rw [hcl.1]
        exact hi c'
    · rw [Option.some.injEq] at h
      subst h
      exact ⟨hs, chanOk_set hi trivial⟩
    · cases h
  | list c l =>
    simp only at h
    split at h
    · rw [Option.some.injEq] at h
      subst h
      exact ⟨hs, chanOk_set hi trivial⟩
    · cases h
  | tryOpen c ok =>
    simp only [Server.tryOpen] at h
    split at h
    · rw [Option.some.injEq] at h
      subst h
      exact ⟨hs, chanOk_set hi trivial⟩
    · split at h
      · rw [Option.some.injEq] at h
        subst h
        exact ⟨hs, chanOk_set hi trivial⟩
      · rw [Option.some.injEq] at h
        subst h
        exact ⟨hs, chanOk_set (s := s.openDev c _) hi trivial⟩
    · cases h
  | gains c n =>
    simp only at h
    split at h
    · rw [if_neg (by simp only [Careful] at ha; rw [not_or]; exact ha), Option.some.injEq] at h
      subst h
      exact ⟨hs, chanOk_set hi trivial⟩
    · cases h
  | callback c b =>
    simp only [Server.callback] at h
    split at h
    · cases h
    · split at h
      · rw [Option.some.injEq] at h
        subst h
        refine ⟨hs, chanOk_set hi ?_⟩
        simp only [Careful] at ha
        unfold ChanOk
        simp only
        split
        · exact absurd ‹_› (ha _).1
        · exact absurd ‹_› (ha _).2
        · trivial
      · rw [Option.some.injEq] at h
        subst h
        exact ⟨hs, hi⟩

/-- C67, the part that holds: an execution of careful steps never panics. -/
theorem C67_careful_partial (as : List Action) (s : Server) (hr : CarefulRun Server.init as) (h : Server.init.run as = some s) : s.panic = none := by
  have key : ∀ (as : List Action) (s0 s : Server), s0.panic = none → (∀ c, ChanOk (s0.conns c)) → CarefulRun s0 as → s0.run as = some s → s.panic = none := by
    intro as
    induction as with
    | nil =>
      intro s0 s h0 _ _ h
      rw [Server.run, Option.some.injEq] at h
      subst h
      exact h0
    | cons a as ih =>
      intro s0 s h0 hi hr h
      rw [Server.run, Option.bind_eq_some_iff] at h
      obtain ⟨s1, h1, h2⟩ := h
      obtain ⟨g1, g2⟩ := careful_step h0 hi a hr.1 h1
      exact ih s1 s g1 g2 (hr.2 s1 h1) h2
  exact key as Server.init s rfl (fun _ => trivial) hr h

/-- Start, stop, callback, start again, disconnect. -/
example : CarefulRun Server.init (started ++ [.stop 0, .advance 0, .advance 0, .callback 0 false, .go 0 true, .disconnect 0, .advance 0, .advance 0, .advance 0]) := by
  simp [started, CarefulRun, Careful, Server.step, Server.init, Server.setConn, Server.command, Server.advance, Server.tryOpen, Server.openDev,
    After.next, After.closed, Server.callback]

end Verif.Borip
