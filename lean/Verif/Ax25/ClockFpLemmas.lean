import Verif.Ax25.ClockFpModel
import Verif.Fp.FpComplex
import Verif.Ax25.ClockLemmas
import Verif.Fp.FpNear

/-!
# Lemmas about the bit clock in double precision
-/

namespace Verif.Ax25.Clock64

open Verif.Ax25 Verif.Ax25.Clock Verif.Fp

/-- A bound for the rounding error of one sum of times of the clock. -/
def ε : ℚ := 1 / 2 ^ 60

theorem tiny64 : tiny binary64 ≤ 1 / 2 ^ 100 := by
  unfold tiny binary64
  rw [show (-1022 : ℤ) = -((1022 : ℕ) : ℤ) by norm_num, zpow_neg, zpow_natCast, one_div]
  apply inv_anti₀ (by positivity)
  exact pow_le_pow_right₀ (by norm_num) (by norm_num)

theorem unit64 : unit binary64 = 1 / 2 ^ 53 := by
  unfold unit binary64
  rw [show (-((53 : ℕ) : ℤ)) = -((53 : ℕ) : ℤ) from rfl, zpow_neg, zpow_natCast, one_div]

theorem top64 : (1 : ℚ) < 2 ^ binary64.emax := by
  unfold binary64
  exact one_lt_zpow₀ (by norm_num) (by norm_num)

/-- Sums of times. -/
theorem add_time {a b : Val} (ha : Finite a) (hb : Finite b) (h1 : |a.toRat| ≤ 1 / 512) (h2 : |b.toRat| ≤ 1 / 512) :
    Finite (add binary64 a b) ∧ |(add binary64 a b).toRat - (a.toRat + b.toRat)| ≤ ε := by
  have h := near_add (φ := binary64) (near_of_is (v := a) ⟨ha, rfl⟩ (1 / 256)) (near_of_is (v := b) ⟨hb, rfl⟩ (1 / 256))
    (by have := tiny64; norm_num at this ⊢; linarith) (by rw [unit64]; norm_num) (by have := top64; linarith)
  refine ⟨h.1, h.2.trans ?_⟩
  rw [unit64, ε]
  norm_num

/-- Differences of times. -/
theorem sub_time {a b : Val} (ha : Finite a) (hb : Finite b) (h1 : |a.toRat| ≤ 1 / 512) (h2 : |b.toRat| ≤ 1 / 512) :
    Finite (sub binary64 a b) ∧ |(sub binary64 a b).toRat - (a.toRat - b.toRat)| ≤ ε := by
  have h := near_sub (φ := binary64) (near_of_is (v := a) ⟨ha, rfl⟩ (1 / 256)) (near_of_is (v := b) ⟨hb, rfl⟩ (1 / 256))
    (by have := tiny64; norm_num at this ⊢; linarith) (by rw [unit64]; norm_num) (by have := top64; linarith)
  refine ⟨h.1, h.2.trans ?_⟩
  rw [unit64, ε]
  norm_num

theorem is_ofInt64 (n : ℕ) (hn : n < 2 ^ 53) : Is (ofInt binary64 n) n := by
  have hg : Grid binary64 (n : ℚ) := grid_small (φ := binary64) (by decide) (n : ℤ) (by rw [abs_of_nonneg (by positivity)]; exact_mod_cast (show n < 2 ^ binary64.p from hn))
  have e := rd_grid binary64 (by decide) hg
  have h0 : (0 : ℚ) ≤ n := Nat.cast_nonneg n
  have hlt : (n : ℚ) < 2 ^ (binary64.emax + 1) := by
    have h1 : (n : ℚ) < 2 ^ 53 := by exact_mod_cast hn
    refine h1.trans_le ?_
    rw [← zpow_natCast]
    exact zpow_le_zpow_right₀ (by norm_num) (by decide)
  unfold ofInt roundRat
  rw [Int.cast_natCast, abs_of_nonneg h0, round_rd binary64 _ h0 (by rw [e]; exact hlt), e]
  refine ⟨⟨_, _, rfl, h0⟩, ?_⟩
  simp only [Val.toRat]
  simp

/-- The length of a bit, of a window and of half a bit as the program has them. -/
def T : ℚ := bitClock.toRat
def W : ℚ := windowTime.toRat
def H : ℚ := halfClock.toRat

theorem bit_clock : Finite bitClock ∧ |T - 1 / 1200| ≤ ε := by
  have h := near_div (φ := binary64) (is_ofInt64 1 (by norm_num)) (is_ofInt64 1200 (by norm_num)) (by norm_num)
    (by rw [unit64]; norm_num) (by have h1 := top64; have h2 := tiny64; norm_num at h2 ⊢; linarith)
  refine ⟨h.1, h.2.trans ?_⟩
  have := tiny64
  rw [unit64, ε]
  norm_num at *
  linarith

theorem window_time : Finite windowTime ∧ |W - 4 / 44100| ≤ ε := by
  have h := near_div (φ := binary64) (is_ofInt64 4 (by norm_num)) (is_ofInt64 44100 (by norm_num)) (by norm_num)
    (by rw [unit64]; norm_num) (by have h1 := top64; have h2 := tiny64; norm_num at h2 ⊢; linarith)
  refine ⟨h.1, h.2.trans ?_⟩
  have := tiny64
  rw [unit64, ε]
  norm_num at *
  linarith

theorem half_clock : Finite halfClock ∧ |H - T / 2| ≤ ε := by
  have hT := bit_clock
  have hb := abs_le.1 hT.2
  have e := (show ε = 1 / 2 ^ 60 from rfl)
  have ht0 : 0 ≤ T / 2 := by rw [e] at hb; norm_num at hb ⊢; linarith
  have ht1 : T / 2 ≤ 1 / 2000 := by rw [e] at hb; norm_num at hb ⊢; linarith
  have h := near_div (φ := binary64) (v := bitClock) (x := T) ⟨hT.1, rfl⟩ (is_ofInt64 2 (by norm_num)) (by norm_num)
    (by rw [unit64]; norm_num) (by
      have h1 := top64; have h2 := tiny64
      push_cast
      rw [abs_of_nonneg ht0]
      norm_num at h2 ⊢; linarith)
  refine ⟨h.1, h.2.trans ?_⟩
  have := tiny64
  push_cast
  rw [abs_of_nonneg ht0, unit64, ε]
  norm_num at *
  linarith

/-- What is needed about the constants. -/
theorem constants : 0 < ε ∧ ε ≤ 1 / 10 ^ 18 ∧ 1 / 1201 ≤ T ∧ T ≤ 1 / 1199 ∧ 1 / 11026 ≤ W ∧ W ≤ 1 / 11024 ∧ T / 2 - ε ≤ H ∧ H ≤ T / 2 + ε := by
  have h1 := abs_le.1 bit_clock.2
  have h2 := abs_le.1 window_time.2
  have h3 := abs_le.1 half_clock.2
  have e := (show ε = 1 / 2 ^ 60 from rfl)
  norm_num at e
  refine ⟨?_, ?_, ?_, ?_, ?_, ?_, ?_, ?_⟩ <;> norm_num <;> linarith

theorem ge_iff {a b : Val} (ha : Finite a) (hb : Finite b) : ge a b = true ↔ b.toRat ≤ a.toRat := by
  obtain ⟨s, q, rfl, hq⟩ := ha
  obtain ⟨t, r, rfl, hr⟩ := hb
  simp [ge, lt]

/-! ### Ticks -/

theorem tick_gave (s : Rx Val) :
    ∃ s', tick s = some s' ∧ s'.clk = (tickClk s.clk).1 ∧ Gave s s' [(tickClk s.clk).2] := by
  refine ⟨⟨(tickClk s.clk).1, (feedRaw s.dec (tickClk s.clk).2).1,
    s.out ++ [(feedRaw s.dec (tickClk s.clk).2).2.bind frameOf]⟩, ?_, rfl, ?_⟩
  · simp only [tick, feed_eq]
  · exact ⟨[(feedRaw s.dec (tickClk s.clk).2).2.bind frameOf], by simp only [run, feed_eq], rfl⟩

theorem ticks_none (fuel : Nat) (s : Rx Val) (hc : Finite s.clk.currentTime) (h : s.clk.currentTime.toRat < T) (hf : 0 < fuel) :
    ticks fuel s = some s := by
  obtain ⟨n, rfl⟩ : ∃ n, fuel = n + 1 := ⟨fuel - 1, by omega⟩
  rw [ticks, if_neg]
  rw [ge_iff hc bit_clock.1]
  exact not_le.2 h

theorem ticks_cons (fuel : Nat) (s : Rx Val) (hc : Finite s.clk.currentTime) (h : T ≤ s.clk.currentTime.toRat) :
    ∃ s', ticks (fuel + 1) s = ticks fuel s' ∧ s'.clk = (tickClk s.clk).1 ∧ Gave s s' [(tickClk s.clk).2] := by
  obtain ⟨s', h1, h2, h3⟩ := tick_gave s
  refine ⟨s', ?_, h2, h3⟩
  rw [ticks, if_pos ((ge_iff hc bit_clock.1).2 h), h1]

theorem observe_prevBit (c : Clk Val) (b : Int) : (observe c (some b)).prevBit = b := by
  unfold observe
  dsimp only
  split
  · rfl
  · rename_i h; simpa using h

theorem observe_currentTime (c : Clk Val) (l : Option Int) : (observe c l).currentTime = c.currentTime := by
  unfold observe
  split
  · rfl
  · split <;> rfl

theorem observe_same (c : Clk Val) (l : Option Int) (h : l = none ∨ l = some c.prevBit) : observe c l = c := by
  rcases h with rfl | rfl <;> simp [observe]

theorem observe_idem (c : Clk Val) (l : Option Int) : observe (observe c l) l = observe c l := by
  apply observe_same
  cases l with
  | none => left; rfl
  | some b => right; rw [observe_prevBit]

theorem hear_append (fuel : Nat) (s : Rx Val) (l m : List (Option Int)) :
    hear fuel s (l ++ m) = (hear fuel s l).bind (fun s' => hear fuel s' m) := by
  induction l generalizing s with
  | nil => rfl
  | cons d l ih =>
    simp only [List.cons_append, hear]
    cases window fuel s d with
    | none => rfl
    | some s' => exact ih s'

theorem hear_append_some {fuel : Nat} {s s' : Rx Val} {l : List (Option Int)} (m : List (Option Int)) (h : hear fuel s l = some s') :
    hear fuel s (l ++ m) = hear fuel s' m := by
  rw [hear_append, h]; rfl

theorem hear_snoc {fuel : Nat} {s s' : Rx Val} {l : List (Option Int)} (d : Option Int) (h : hear fuel s l = some s') :
    hear fuel s (l ++ [d]) = window fuel s' d := by
  rw [hear_append_some _ h]
  simp only [hear]
  cases window fuel s' d <;> rfl

/-- The first window may be observed beforehand. -/
theorem hear_observe (fuel : Nat) (s : Rx Val) (d : Option Int) (l : List (Option Int)) :
    hear fuel { s with clk := observe s.clk d } (d :: l) = hear fuel s (d :: l) := by
  simp only [hear, window, observe_idem]

/-! ### Bounds -/

/-- The clock stays within these bounds. -/
structure Inv (c : Clk Val) : Prop where
  fin : Finite c.currentTime
  lo : -(T / 2) - 4 * ε < c.currentTime.toRat
  hi : c.currentTime.toRat < T
  td : c.transition = true → Finite c.timeDelta ∧ -(T / 2) - 2 * ε < c.timeDelta.toRat ∧ c.timeDelta.toRat < T + 6 * ε

/-- The change of phase that a tone change asks for. -/
theorem delta {c : Clk Val} (h : Inv c) : Finite (sub binary64 halfClock c.currentTime) ∧
    |(sub binary64 halfClock c.currentTime).toRat - (T / 2 - c.currentTime.toRat)| ≤ 2 * ε := by
  obtain ⟨e0, e1, t1, t2, -, -, k1, k2⟩ := constants
  have hl := h.lo
  have hh := h.hi
  norm_num at e1
  obtain ⟨f, d⟩ := sub_time half_clock.1 h.fin (show |H| ≤ 1 / 512 by rw [abs_le]; constructor <;> linarith)
    (by rw [abs_le]; constructor <;> linarith)
  refine ⟨f, ?_⟩
  have d := abs_le.1 d
  change -ε ≤ _ - (H - _) ∧ _ - (H - _) ≤ ε at d
  rw [abs_le]
  constructor <;> linarith [d.1, d.2]

theorem Inv_observe {c : Clk Val} (l : Option Int) (h : Inv c) : Inv (observe c l) := by
  unfold observe
  split
  · exact h
  · split
    · obtain ⟨f, d⟩ := delta h
      have d := abs_le.1 d
      exact ⟨h.fin, h.lo, h.hi, fun _ => ⟨f, by linarith [h.hi, d.1], by linarith [h.lo, d.2]⟩⟩
    · exact h

/-- One more window. -/
theorem add_window {c : Clk Val} (h : Inv c) : Finite (add binary64 c.currentTime windowTime) ∧
    c.currentTime.toRat + W - ε ≤ (add binary64 c.currentTime windowTime).toRat ∧
    (add binary64 c.currentTime windowTime).toRat ≤ c.currentTime.toRat + W + ε := by
  obtain ⟨e0, e1, t1, t2, w1, w2, k1, k2⟩ := constants
  have hl := h.lo
  have hh := h.hi
  norm_num at e1
  obtain ⟨f, d⟩ := add_time h.fin window_time.1 (by rw [abs_le]; constructor <;> linarith)
    (show |W| ≤ 1 / 512 by rw [abs_le]; constructor <;> linarith)
  have d := abs_le.1 d
  change -ε ≤ _ - (_ + W) ∧ _ - (_ + W) ≤ ε at d
  exact ⟨f, by linarith [d.1], by linarith [d.2]⟩

/-- One tick without a change of phase. -/
theorem sub_tick {a : Val} (ha : Finite a) (h1 : T ≤ a.toRat) (h2 : a.toRat ≤ 1 / 512) : Finite (sub binary64 a bitClock) ∧
    a.toRat - T - ε ≤ (sub binary64 a bitClock).toRat ∧ (sub binary64 a bitClock).toRat ≤ a.toRat - T + ε := by
  obtain ⟨e0, e1, t1, t2, w1, w2, k1, k2⟩ := constants
  obtain ⟨f, d⟩ := sub_time ha bit_clock.1 (by rw [abs_le]; constructor <;> linarith)
    (show |T| ≤ 1 / 512 by rw [abs_le]; constructor <;> linarith)
  have d := abs_le.1 d
  change -ε ≤ _ - (_ - T) ∧ _ - (_ - T) ≤ ε at d
  exact ⟨f, by linarith [d.1], by linarith [d.2]⟩

/-- What a tick does to the clock. -/
theorem tick_time {c : Clk Val} (hf : Finite c.currentTime) (h1 : T ≤ c.currentTime.toRat) (h2 : c.currentTime.toRat < T + W + 10 * ε)
    (ht : c.transition = true → Finite c.timeDelta ∧ -(T / 2) - 2 * ε < c.timeDelta.toRat ∧ c.timeDelta.toRat < T + 6 * ε) :
    Finite (tickClk c).1.currentTime ∧ (tickClk c).1.transition = false ∧ (tickClk c).1.prevBit = c.prevBit ∧
    (tickClk c).2 = (if c.transition then 0 else 1) ∧
    |(tickClk c).1.currentTime.toRat - (c.currentTime.toRat - T + if c.transition then c.timeDelta.toRat else 0)| ≤ 2 * ε := by
  obtain ⟨e0, e1, t1, t2, w1, w2, k1, k2⟩ := constants
  norm_num at e1
  obtain ⟨f, d1, d2⟩ := sub_tick hf h1 (by linarith)
  unfold tickClk
  cases htr : c.transition with
  | false =>
    refine ⟨f, rfl, rfl, rfl, ?_⟩
    simp only [Bool.false_eq_true, if_false]
    rw [abs_le]
    constructor <;> linarith
  | true =>
    obtain ⟨g, g1, g2⟩ := ht htr
    obtain ⟨f', d'⟩ := add_time f g (by rw [abs_le]; constructor <;> linarith) (by rw [abs_le]; constructor <;> linarith)
    have d' := abs_le.1 d'
    refine ⟨f', rfl, rfl, rfl, ?_⟩
    simp only [if_true]
    rw [abs_le]
    constructor <;> linarith [d'.1, d'.2]

/-- One window: it ends, keeps the bounds, and gives at most two bits. -/
theorem window_inv {fuel : Nat} (hf : 3 ≤ fuel) (s : Rx Val) (d : Option Int) (h : Inv s.clk) :
    ∃ s' bits, window fuel s d = some s' ∧ Inv s'.clk ∧ Gave s s' bits ∧ bits.length ≤ 2 ∧ (∀ b ∈ bits, b = 0 ∨ b = 1) := by
  obtain ⟨e0, e1, t1, t2, w1, w2, k1, k2⟩ := constants
  norm_num at e1
  obtain ⟨n, rfl⟩ : ∃ n, fuel = n + 3 := ⟨fuel - 3, by omega⟩
  unfold window
  have hi := Inv_observe d h
  generalize observe s.clk d = c at hi
  obtain ⟨fa, a1, a2⟩ := add_window hi
  have hlo := hi.lo
  have hhi := hi.hi
  dsimp only
  rcases lt_or_ge (add binary64 c.currentTime windowTime).toRat T with hlt | hge
  · refine ⟨_, [], ticks_none _ _ fa hlt (by omega), ⟨fa, ?_, hlt, hi.td⟩, Gave.nil _ _, by simp, by simp⟩
    dsimp only
    linarith
  · obtain ⟨s1, f1, c1, g1⟩ := ticks_cons (n + 2) { s with clk := { c with currentTime := add binary64 c.currentTime windowTime } } fa hge
    rw [f1]
    obtain ⟨q1, q2, q3, q4, q5⟩ := tick_time (c := { c with currentTime := add binary64 c.currentTime windowTime }) fa hge
      (by dsimp only; linarith) hi.td
    dsimp only at c1 g1 q1 q2 q3 q4 q5
    rw [← c1] at q1 q2 q3 q5
    have q5 := abs_le.1 q5
    have g0 := (Gave.nil s { c with currentTime := add binary64 c.currentTime windowTime }).trans g1
    rw [List.nil_append, q4] at g0
    have hx : -(T / 2) - 2 * ε < (if c.transition = true then c.timeDelta.toRat else 0) ∧
        (if c.transition = true then c.timeDelta.toRat else 0) < T + 6 * ε := by
      cases htr : c.transition with
      | false => simp only [Bool.false_eq_true, if_false]; constructor <;> linarith
      | true => simp only [if_true]; exact (hi.td htr).2
    have hb : ∀ b ∈ [if c.transition = true then (0 : Int) else 1], b = 0 ∨ b = 1 := by
      intro b hb
      rw [List.mem_singleton] at hb
      rw [hb]
      split <;> simp
    rcases lt_or_ge s1.clk.currentTime.toRat T with hlt | hge2
    · refine ⟨s1, _, ticks_none _ _ q1 hlt (by omega), ⟨q1, by linarith [q5.1, hx.1], hlt, ?_⟩, g0, by simp, hb⟩
      rw [q2]; simp
    · obtain ⟨s2, f2, c2, g2⟩ := ticks_cons (n + 1) s1 q1 hge2
      rw [f2]
      obtain ⟨r1, r2, r3, r4, r5⟩ := tick_time q1 hge2 (by linarith [q5.2, hx.2]) (by rw [q2]; simp)
      rw [← c2] at r1 r2 r3 r5
      rw [q2] at r4 r5
      simp only [Bool.false_eq_true, if_false] at r4 r5
      rw [r4] at g2
      have r5 := abs_le.1 r5
      refine ⟨s2, _, ticks_none _ _ r1 (by linarith [r5.2, q5.2, hx.2]) (by omega), ⟨r1, by linarith [r5.1], by linarith [r5.2, q5.2, hx.2], ?_⟩,
        g0.trans g2, by simp, ?_⟩
      · rw [r2]; simp
      · intro b hb'
        rcases List.mem_append.1 hb' with hb' | hb'
        · exact hb b hb'
        · rw [List.mem_singleton] at hb'; exact Or.inr hb'

theorem hear_inv {fuel : Nat} (hf : 3 ≤ fuel) (s : Rx Val) (ds : List (Option Int)) (h : Inv s.clk) :
    ∃ s' bits, hear fuel s ds = some s' ∧ Inv s'.clk ∧ Gave s s' bits ∧
      bits.length ≤ 2 * ds.length ∧ (∀ b ∈ bits, b = 0 ∨ b = 1) := by
  induction ds generalizing s with
  | nil => exact ⟨s, [], rfl, h, Gave.nil s s.clk, by simp, by simp⟩
  | cons d ds ih =>
    obtain ⟨s1, b1, e1, i1, g1, l1, m1⟩ := window_inv hf s d h
    obtain ⟨s2, b2, e2, i2, g2, l2, m2⟩ := ih s1 i1
    refine ⟨s2, b1 ++ b2, by simp [hear, e1, e2], i2, g1.trans g2, ?_, ?_⟩
    · rw [List.length_append, List.length_cons]; omega
    · intro b hb
      rcases List.mem_append.1 hb with hb | hb
      · exact m1 b hb
      · exact m2 b hb

theorem start_inv : Inv start.clk := by
  obtain ⟨e0, e1, t1, t2, -⟩ := constants
  refine ⟨⟨false, 0, rfl, le_rfl⟩, ?_, ?_, fun h => by simp [start] at h⟩
  · show -(T / 2) - 4 * ε < (Val.fin false 0).toRat
    simp only [Val.toRat, Bool.false_eq_true, if_false]
    linarith
  · show (Val.fin false 0).toRat < T
    simp only [Val.toRat, Bool.false_eq_true, if_false]
    linarith

end Verif.Ax25.Clock64
