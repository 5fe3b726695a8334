import Verif.Ax25.ClockModel
import Verif.Ax25.FrameLemmas
import Mathlib.Tactic.Linarith
import Mathlib.Tactic.Ring
import Mathlib.Tactic.NormNum
import Mathlib.Data.List.Induction

/-!
# Lemmas about the bit clock of `examples/ax25.go`
-/

namespace Verif.Ax25.Clock

open Verif.Ax25

theorem run_append (d : Dec) (l m : List Int) (d1 d2 : Dec) (os ps : List (Option Frame))
    (h1 : run d l = some (d1, os)) (h2 : run d1 m = some (d2, ps)) :
    run d (l ++ m) = some (d2, os ++ ps) := by
  induction l generalizing d os with
  | nil =>
    simp only [run, Option.some.injEq, Prod.mk.injEq] at h1
    obtain ⟨rfl, rfl⟩ := h1
    simpa using h2
  | cons b l ih =>
    simp only [run, feed_eq] at h1
    rcases hr : run (feedRaw d b).1 l with _ | ⟨e, qs⟩
    · simp [hr] at h1
    · simp only [hr, Option.some.injEq, Prod.mk.injEq] at h1
      obtain ⟨rfl, rfl⟩ := h1
      simp only [List.cons_append, run, feed_eq, ih _ _ hr]

variable {K : Type*}

/-- Between `s` and `s'` the bits `bits` were given to the decoder. -/
def Gave (s s' : Rx K) (bits : List Int) : Prop :=
  ∃ os, run s.dec bits = some (s'.dec, os) ∧ s'.out = s.out ++ os

theorem Gave.nil (s : Rx K) (c : Clk K) : Gave s { s with clk := c } [] := ⟨[], rfl, by simp⟩

theorem Gave.trans {s s' s'' : Rx K} {l m : List Int} (h : Gave s s' l) (h' : Gave s' s'' m) :
    Gave s s'' (l ++ m) := by
  obtain ⟨os, h1, h2⟩ := h
  obtain ⟨ps, h3, h4⟩ := h'
  exact ⟨os ++ ps, run_append _ _ _ _ _ _ _ h1 h3, by rw [h4, h2, List.append_assoc]⟩

theorem run_length (d d' : Dec) (l : List Int) (os : List (Option Frame))
    (h : run d l = some (d', os)) : os.length = l.length := by
  induction l generalizing d os with
  | nil =>
    simp only [run, Option.some.injEq, Prod.mk.injEq] at h
    obtain ⟨rfl, rfl⟩ := h
    rfl
  | cons b l ih =>
    simp only [run, feed_eq] at h
    rcases hr : run (feedRaw d b).1 l with _ | ⟨e, qs⟩
    · simp [hr] at h
    · simp only [hr, Option.some.injEq, Prod.mk.injEq] at h
      obtain ⟨rfl, rfl⟩ := h
      simp [ih _ _ hr]

theorem Gave.length {s s' : Rx K} {l : List Int} (h : Gave s s' l) :
    s'.out.length = s.out.length + l.length := by
  obtain ⟨os, h1, h2⟩ := h
  rw [h2, List.length_append, run_length _ _ _ _ h1]

variable [Field K] [LinearOrder K]

omit [LinearOrder K] in
theorem tick_gave (T : K) (s : Rx K) :
    ∃ s', tick T s = some s' ∧ s'.clk = (tickClk T s.clk).1 ∧ Gave s s' [(tickClk T s.clk).2] := by
  refine ⟨⟨(tickClk T s.clk).1, (feedRaw s.dec (tickClk T s.clk).2).1,
    s.out ++ [(feedRaw s.dec (tickClk T s.clk).2).2.bind frameOf]⟩, ?_, rfl, ?_⟩
  · simp only [tick, feed_eq]
  · exact ⟨[(feedRaw s.dec (tickClk T s.clk).2).2.bind frameOf], by simp only [run, feed_eq], rfl⟩

theorem ticks_none (T : K) (fuel : Nat) (s : Rx K) (h : s.clk.currentTime < T) (hf : 0 < fuel) :
    ticks T fuel s = some s := by
  obtain ⟨n, rfl⟩ : ∃ n, fuel = n + 1 := ⟨fuel - 1, by omega⟩
  simp [ticks, h]

theorem ticks_cons (T : K) (fuel : Nat) (s : Rx K) (h : T ≤ s.clk.currentTime) :
    ∃ s', ticks T (fuel + 1) s = ticks T fuel s' ∧ s'.clk = (tickClk T s.clk).1 ∧
      Gave s s' [(tickClk T s.clk).2] := by
  obtain ⟨s', h1, h2, h3⟩ := tick_gave T s
  exact ⟨s', by simp [ticks, h, h1], h2, h3⟩

omit [LinearOrder K] in
theorem observe_prevBit (T : K) (c : Clk K) (b : Int) :
    (observe T c (some b)).prevBit = b := by
  unfold observe
  dsimp only
  split
  · rfl
  · rename_i h; simpa using h

omit [LinearOrder K] in
theorem observe_currentTime (T : K) (c : Clk K) (l : Option Int) :
    (observe T c l).currentTime = c.currentTime := by
  unfold observe
  split
  · rfl
  · split <;> rfl

omit [LinearOrder K] in
theorem observe_same (T : K) (c : Clk K) (l : Option Int)
    (h : l = none ∨ l = some c.prevBit) : observe T c l = c := by
  rcases h with rfl | rfl <;> simp [observe]

omit [LinearOrder K] in
theorem observe_idem (T : K) (c : Clk K) (l : Option Int) :
    observe T (observe T c l) l = observe T c l := by
  apply observe_same
  cases l with
  | none => left; rfl
  | some b => right; rw [observe_prevBit]

theorem listen_append (θ T w : K) (fuel : Nat) (s : Rx K) (l m : List K) :
    listen θ T w fuel s (l ++ m) =
      (listen θ T w fuel s l).bind (fun s' => listen θ T w fuel s' m) := by
  induction l generalizing s with
  | nil => rfl
  | cons d l ih =>
    simp only [List.cons_append, listen]
    cases window θ T w fuel s d with
    | none => rfl
    | some s' => exact ih s'

theorem listen_append_some {θ T w : K} {fuel : Nat} {s s' : Rx K} {l : List K} (m : List K)
    (h : listen θ T w fuel s l = some s') :
    listen θ T w fuel s (l ++ m) = listen θ T w fuel s' m := by
  rw [listen_append, h]; rfl

theorem listen_snoc {θ T w : K} {fuel : Nat} {s s' : Rx K} {l : List K} (d : K)
    (h : listen θ T w fuel s l = some s') :
    listen θ T w fuel s (l ++ [d]) = window θ T w fuel s' d := by
  rw [listen_append_some _ h]
  simp only [listen]
  cases window θ T w fuel s' d <;> rfl

/-- The first window may be observed beforehand. -/
theorem listen_observe (θ T w : K) (fuel : Nat) (s : Rx K) (d : K) (l : List K) :
    listen θ T w fuel { s with clk := observe T s.clk (level θ d) } (d :: l) =
      listen θ T w fuel s (d :: l) := by
  simp only [listen, window, observe_idem]

variable [IsStrictOrderedRing K]

/-- The clock stays within these bounds. -/
def Inv (T : K) (c : Clk K) : Prop :=
  -(T / 2) < c.currentTime ∧ c.currentTime < T ∧
    (c.transition = true → -(T / 2) < c.timeDelta ∧ c.timeDelta < T)

omit [IsStrictOrderedRing K] in
theorem Inv_observe' {T : K} {c : Clk K} (l : Option Int)
    (h : Inv T c) (h2 : -(T / 2) < T / 2 - c.currentTime ∧ T / 2 - c.currentTime < T) :
    Inv T (observe T c l) := by
  unfold observe
  split
  · exact h
  · split
    · exact ⟨h.1, h.2.1, fun _ => h2⟩
    · exact h

theorem Inv_observe {T : K} {c : Clk K} (l : Option Int) (h : Inv T c) :
    Inv T (observe T c l) :=
  Inv_observe' l h ⟨by linarith [h.2.1], by linarith [h.1]⟩

/-- One window: it ends, keeps the bounds, and gives at most two bits. -/
theorem window_inv {θ T w : K} (hw : 0 < w) (hwT : w ≤ T) {fuel : Nat} (hf : 3 ≤ fuel) (s : Rx K)
    (d : K) (h : Inv T s.clk) :
    ∃ s' bits, window θ T w fuel s d = some s' ∧ Inv T s'.clk ∧ Gave s s' bits ∧
      bits.length ≤ 2 ∧ (∀ b ∈ bits, b = 0 ∨ b = 1) := by
  obtain ⟨n, rfl⟩ : ∃ n, fuel = n + 3 := ⟨fuel - 3, by omega⟩
  unfold window
  have hi := Inv_observe (level θ d) h
  generalize observe T s.clk (level θ d) = c at hi
  obtain ⟨i1, i2, i3⟩ := hi
  rcases lt_or_ge (c.currentTime + w) T with hlt | hge
  · refine ⟨_, [], ticks_none T _ _ hlt (by omega), ⟨?_, hlt, i3⟩, Gave.nil _ _, by simp, by simp⟩
    show -(T / 2) < c.currentTime + w
    linarith
  · obtain ⟨s1, e1, k1, g1⟩ := ticks_cons T (n + 2)
      { s with clk := { c with currentTime := c.currentTime + w } } hge
    dsimp only at e1 k1 g1 ⊢
    rw [e1]
    have g0 := (Gave.nil s { c with currentTime := c.currentTime + w }).trans g1
    rw [List.nil_append] at g0
    cases htr : c.transition with
    | false =>
      simp only [tickClk, htr] at k1 g0
      rw [if_neg (by simp)] at k1 g0
      dsimp only at k1 g0
      have hlt : s1.clk.currentTime < T := by rw [k1]; dsimp only; linarith
      refine ⟨s1, _, ticks_none T _ _ hlt (by omega), ⟨?_, hlt, ?_⟩, g0, by simp, by simp⟩
      · rw [k1]; dsimp only; linarith
      · rw [k1]; simp
    | true =>
      obtain ⟨t1, t2⟩ := i3 htr
      simp only [tickClk, htr] at k1 g0
      rw [if_pos trivial] at k1 g0
      dsimp only at k1 g0
      rcases lt_or_ge s1.clk.currentTime T with hlt | hge2
      · refine ⟨s1, _, ticks_none T _ _ hlt (by omega), ⟨?_, hlt, ?_⟩, g0, by simp, by simp⟩
        · rw [k1]; dsimp only; linarith
        · rw [k1]; simp
      · obtain ⟨s2, e2, k2, g2⟩ := ticks_cons T (n + 1) s1 hge2
        rw [e2]
        rw [k1] at k2 g2 hge2
        dsimp only at hge2
        simp only [tickClk] at k2 g2
        rw [if_neg (by simp)] at k2 g2
        dsimp only at k2 g2
        have hlt : s2.clk.currentTime < T := by rw [k2]; dsimp only; linarith
        refine ⟨s2, _, ticks_none T _ _ hlt (by omega), ⟨?_, hlt, ?_⟩, g0.trans g2, by simp,
          by simp⟩
        · rw [k2]; dsimp only; linarith
        · rw [k2]; simp

theorem listen_inv {θ T w : K} (hw : 0 < w) (hwT : w ≤ T) {fuel : Nat} (hf : 3 ≤ fuel) (s : Rx K)
    (ds : List K) (h : Inv T s.clk) :
    ∃ s' bits, listen θ T w fuel s ds = some s' ∧ Inv T s'.clk ∧ Gave s s' bits ∧
      bits.length ≤ 2 * ds.length ∧ (∀ b ∈ bits, b = 0 ∨ b = 1) := by
  induction ds generalizing s with
  | nil => exact ⟨s, [], rfl, h, Gave.nil s s.clk, by simp, by simp⟩
  | cons d ds ih =>
    obtain ⟨s1, b1, e1, i1, g1, l1, m1⟩ := window_inv (θ := θ) hw hwT hf s d h
    obtain ⟨s2, b2, e2, i2, g2, l2, m2⟩ := ih s1 i1
    refine ⟨s2, b1 ++ b2, by simp [listen, e1, e2], i2, g1.trans g2, ?_, ?_⟩
    · rw [List.length_append, List.length_cons]; omega
    · intro b hb
      rcases List.mem_append.1 hb with hb | hb
      · exact m1 b hb
      · exact m2 b hb

/-- Windows that show no other bit than the one noted last. -/
theorem steady {θ T w : K} (hw : 0 < w) {fuel : Nat} (hf : 3 ≤ fuel)
    (ds : List K) (s : Rx K) (x : K)
    (hd : ∀ d ∈ ds, level θ d = none ∨ level θ d = some s.clk.prevBit)
    (h0 : s.clk.currentTime < T) (hx : x = if s.clk.transition then s.clk.timeDelta else 0)
    (h1 : s.clk.currentTime + ds.length * w - T + x < T) :
    ∃ s', listen θ T w fuel s ds = some s' ∧ s'.clk.prevBit = s.clk.prevBit ∧
      ((s.clk.currentTime + ds.length * w < T ∧
          s'.clk = { s.clk with currentTime := s.clk.currentTime + ds.length * w } ∧
          Gave s s' []) ∨
        (T ≤ s.clk.currentTime + ds.length * w ∧
          s'.clk.currentTime = s.clk.currentTime + ds.length * w - T + x ∧
          s'.clk.transition = false ∧ Gave s s' [if s.clk.transition then 0 else 1])) := by
  induction ds using List.reverseRecOn with
  | nil =>
    refine ⟨s, rfl, rfl, Or.inl ⟨by simpa using h0, ?_, Gave.nil s s.clk⟩⟩
    simp
  | append_singleton ds d ih =>
    have hlen : (((ds ++ [d]).length : Nat) : K) * w = ds.length * w + w := by
      rw [List.length_append]; push_cast [List.length_singleton]; ring
    rw [hlen] at h1 ⊢
    obtain ⟨s1, e1, p1, hc⟩ := ih (fun d' hd' => hd d' (by simp [hd'])) (by linarith)
    rw [listen_snoc d e1]
    have hob : observe T s1.clk (level θ d) = s1.clk := by
      apply observe_same
      rw [p1]
      exact hd d (by simp)
    unfold window
    simp only [hob]
    obtain ⟨n, rfl⟩ : ∃ n, fuel = n + 3 := ⟨fuel - 3, by omega⟩
    rcases hc with ⟨c1, c2, c3⟩ | ⟨c1, c2, c3, c4⟩
    · have hct : s1.clk.currentTime = s.clk.currentTime + ds.length * w := by rw [c2]
      rcases lt_or_ge (s1.clk.currentTime + w) T with hlt | hge
      · refine ⟨_, ticks_none T _ _ hlt (by omega), p1, Or.inl ⟨by linarith, ?_, ?_⟩⟩
        · rw [c2]; dsimp only; congr 1; ring
        · exact c3.trans (Gave.nil s1 _)
      · obtain ⟨s2, f1, k1, g1⟩ := ticks_cons T (n + 2)
          { s1 with clk := { s1.clk with currentTime := s1.clk.currentTime + w } } hge
        rw [f1]
        have g0 := c3.trans ((Gave.nil s1 _).trans g1)
        have htr : s1.clk.transition = s.clk.transition := by rw [c2]
        have htd : s1.clk.timeDelta = s.clk.timeDelta := by rw [c2]
        have hfin : s2.clk.currentTime = s.clk.currentTime + (ds.length * w + w) - T + x := by
          rw [k1]
          simp only [tickClk, htr, htd, hct]
          rw [hx]
          cases s.clk.transition <;> simp <;> ring
        refine ⟨s2, ticks_none T _ _ (by rw [hfin]; linarith) (by omega), ?_,
          Or.inr ⟨by linarith, hfin, ?_, ?_⟩⟩
        · rw [k1, ← p1]
          simp only [tickClk]
          split <;> rfl
        · rw [k1]
          simp only [tickClk]
          split <;> rfl
        · simp only [List.nil_append] at g0
          convert g0 using 2
          simp only [tickClk, htr]
          split <;> rfl
    · have hlt : s1.clk.currentTime + w < T := by rw [c2]; linarith
      refine ⟨_, ticks_none T _ _ hlt (by omega), p1, Or.inr ⟨by linarith, ?_, c3, ?_⟩⟩
      · dsimp only; rw [c2]; ring
      · exact c4.trans (Gave.nil s1 _)

end Verif.Ax25.Clock
