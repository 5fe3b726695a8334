import Verif.Ax25.ClockFpLemmas
import Verif.Ax25.ClockProps

/-!
# Lemmas about bits in step with the double precision clock
-/

namespace Verif.Ax25.Clock64

open Verif.Ax25 Verif.Ax25.Spec Verif.Ax25.Clock Verif.Ax25.Clock.Spec Verif.Fp

/-- Windows that show no other bit than the one noted last. -/
theorem steady {fuel : Nat} (hf : 3 ≤ fuel) (ds : List (Option Int)) (s : Rx Val) (x : ℚ)
    (hd : ∀ d ∈ ds, d = none ∨ d = some s.clk.prevBit)
    (h0 : Inv s.clk) (hx : x = if s.clk.transition then s.clk.timeDelta.toRat else 0)
    (h1 : s.clk.currentTime.toRat + ds.length * W - T + x + (ds.length + 2) * ε < T) :
    ∃ s', hear fuel s ds = some s' ∧ s'.clk.prevBit = s.clk.prevBit ∧ Inv s'.clk ∧
      ((|s'.clk.currentTime.toRat - (s.clk.currentTime.toRat + ds.length * W)| ≤ ds.length * ε ∧
          s'.clk.transition = s.clk.transition ∧ s'.clk.timeDelta = s.clk.timeDelta ∧ Gave s s' []) ∨
        (T ≤ s.clk.currentTime.toRat + ds.length * W + ds.length * ε ∧
          |s'.clk.currentTime.toRat - (s.clk.currentTime.toRat + ds.length * W - T + x)| ≤ (ds.length + 2) * ε ∧
          s'.clk.transition = false ∧ Gave s s' [if s.clk.transition then 0 else 1])) := by
  obtain ⟨e0, e1, t1, t2, w1, w2, k1, k2⟩ := constants
  norm_num at e1
  induction ds using List.reverseRecOn with
  | nil =>
    refine ⟨s, rfl, rfl, h0, Or.inl ⟨by simp, rfl, rfl, Gave.nil s s.clk⟩⟩
  | append_singleton ds d ih =>
    have hlen : (((ds ++ [d]).length : Nat) : ℚ) = ds.length + 1 := by
      rw [List.length_append]; push_cast [List.length_singleton]; ring
    rw [hlen] at h1 ⊢
    generalize hm : (ds.length : ℚ) = m at *
    have ea : (m + 1) * W = m * W + W := by ring
    have eb : (m + 1 + 2) * ε = (m + 2) * ε + ε := by ring
    have ec : (m + 1) * ε = m * ε + ε := by ring
    have ed : (m + 2) * ε = m * ε + 2 * ε := by ring
    rw [ea, eb] at h1
    rw [ea, eb, ec]
    obtain ⟨s1, f1, p1, i1, hc⟩ := ih (fun d' hd' => hd d' (by simp [hd'])) (by linarith)
    rw [hear_snoc d f1]
    obtain ⟨s2, -, v1, v2, -⟩ := window_inv hf s1 d i1
    refine ⟨s2, v1, ?_⟩
    have hob : observe s1.clk d = s1.clk := by
      apply observe_same
      rw [p1]
      exact hd d (by simp)
    unfold window at v1
    simp only [hob] at v1
    obtain ⟨n, rfl⟩ : ∃ n, fuel = n + 3 := ⟨fuel - 3, by omega⟩
    obtain ⟨fa, a1, a2⟩ := add_window i1
    rcases hc with ⟨c1, c2, c3, c4⟩ | ⟨c1, c2, c3, c4⟩
    · have c1 := abs_le.1 c1
      rcases lt_or_ge (add binary64 s1.clk.currentTime windowTime).toRat T with hlt | hge
      · rw [ticks_none _ _ fa hlt (by omega)] at v1
        obtain rfl := Option.some.inj v1
        refine ⟨p1, v2, Or.inl ⟨?_, c2, c3, c4.trans (Gave.nil s1 _)⟩⟩
        dsimp only
        rw [abs_le]
        constructor <;> linarith
      · obtain ⟨s3, f3, k3, g3⟩ := ticks_cons (n + 2)
          { s1 with clk := { s1.clk with currentTime := add binary64 s1.clk.currentTime windowTime } } fa hge
        rw [f3] at v1
        obtain ⟨q1, q2, q3, q4, q5⟩ := tick_time (c := { s1.clk with currentTime := add binary64 s1.clk.currentTime windowTime }) fa hge
          (by dsimp only; linarith [i1.hi]) i1.td
        dsimp only at k3 g3 q1 q2 q3 q4 q5
        rw [← k3] at q1 q2 q3 q5
        rw [c2, c3, ← hx] at q5
        have q5 := abs_le.1 q5
        rw [ticks_none _ _ q1 (by linarith [q5.2, c1.2]) (by omega)] at v1
        obtain rfl := Option.some.inj v1
        have g0 := c4.trans ((Gave.nil s1 _).trans g3)
        rw [q4, c2] at g0
        refine ⟨q3.trans p1, v2, Or.inr ⟨by linarith [c1.2], ?_, q2, by simpa using g0⟩⟩
        rw [abs_le]
        constructor <;> linarith [q5.1, q5.2, c1.1, c1.2]
    · have c2 := abs_le.1 c2
      rw [ticks_none _ _ fa (by linarith [c2.2]) (by omega)] at v1
      obtain rfl := Option.some.inj v1
      refine ⟨p1, v2, Or.inr ⟨by linarith, ?_, c3, c4.trans (Gave.nil s1 _)⟩⟩
      dsimp only
      rw [abs_le]
      constructor <;> linarith [c2.1, c2.2]

/-- `Sends` for the bits shown by the windows. -/
def Shows (g : ℕ → Option Int) (B : ℕ → ℕ) (v : ℕ → Bool) (i : ℕ) : Prop :=
  B i < B (i + 1) ∧ (v (i + 1) ≠ v i → g (B i) = some (bitInt (v (i + 1)))) ∧
    ∀ n, B i ≤ n → n < B (i + 1) → g n = none ∨ g n = some (bitInt (v (i + 1)))

theorem shows_levels {g : ℕ → Option Int} {B : ℕ → ℕ} {v : ℕ → Bool} {i : ℕ} (h : Shows g B v i) :
    ∀ d ∈ between g (B i) (B (i + 1)), d = none ∨ d = some (bitInt (v (i + 1))) := by
  intro d hd
  unfold between at hd
  obtain ⟨n, hn, rfl⟩ := List.mem_map.1 hd
  rw [List.mem_range'_1] at hn
  exact h.2.2 n hn.1 (by omega)

theorem shows_mono {g : ℕ → Option Int} {B : ℕ → ℕ} {v : ℕ → Bool} {k0 L : ℕ}
    (hs : ∀ i, k0 ≤ i → i < L → Shows g B v i) : ∀ n, k0 ≤ n → n ≤ L → B k0 ≤ B n := by
  intro n hn
  induction n, hn using Nat.le_induction with
  | base => intro _; exact le_refl _
  | succ n hn ihn =>
    intro hnL
    exact le_trans (ihn (by omega)) (le_of_lt (hs n hn (by omega)).1)

/-- After observing the first window of a bit. -/
theorem observed {g : ℕ → Option Int} {B : ℕ → ℕ} {v : ℕ → Bool} {i : ℕ} (h : Shows g B v i)
    (c : Clk Val) (hp : c.prevBit = bitInt (v i)) :
    observe c (g (B i)) =
      if v (i + 1) = v i then c
      else ⟨c.currentTime, sub binary64 halfClock c.currentTime, bitInt (v (i + 1)), true⟩ := by
  by_cases hv : v (i + 1) = v i
  · rw [if_pos hv]
    apply observe_same
    rw [hp, ← hv]
    exact h.2.2 (B i) (le_refl _) h.1
  · rw [if_neg hv, h.2.1 hv]
    unfold observe
    dsimp only
    rw [if_pos]
    rw [hp]
    intro hb
    exact hv (bitInt_inj.1 hb).symm

theorem between_len (g : ℕ → Option Int) {a b : ℕ} (h : a ≤ b) :
    ((between g a b).length : ℚ) = (b : ℚ) - a := by
  unfold between
  rw [List.length_map, List.length_range', Nat.cast_sub h]

/-- The windows of one bit. -/
theorem one_bit {fuel : ℕ} (hf : 3 ≤ fuel) {g : ℕ → Option Int} {B : ℕ → ℕ}
    {v : ℕ → Bool} {i : ℕ} (h : Shows g B v i) (s : Rx Val) (hp : s.clk.prevBit = bitInt (v i))
    (ht : v (i + 1) = v i → s.clk.transition = false) (h0 : Inv s.clk) (N P : ℚ) (hN : N = (B (i + 1) : ℚ) - B i)
    (hP : P = if v (i + 1) = v i then s.clk.currentTime.toRat + N * W - T else N * W - T / 2)
    (h2 : P + (N + 4) * ε < T) :
    ∃ s', hear fuel s (between g (B i) (B (i + 1))) = some s' ∧
      s'.clk.prevBit = bitInt (v (i + 1)) ∧ Inv s'.clk ∧
      ((|s'.clk.currentTime.toRat - (s.clk.currentTime.toRat + N * W)| ≤ N * ε ∧ Gave s s' []) ∨
        (|s'.clk.currentTime.toRat - P| ≤ (N + 4) * ε ∧
          s'.clk.transition = false ∧ Gave s s' [bitInt (sent v i)])) := by
  obtain ⟨e0, e1, t1, t2, w1, w2, k1, k2⟩ := constants
  have hlen := between_len g (le_of_lt h.1)
  rw [← hN] at hlen
  have hlev := shows_levels h
  have hob := observed h s.clk hp
  rw [between_cons g h.1] at hlen hlev ⊢
  rw [← hear_observe]
  have hpb : (observe s.clk (g (B i))).prevBit = bitInt (v (i + 1)) := by
    rw [hob]
    split
    · rename_i hv; rw [hp, hv]
    · rfl
  have hct := observe_currentTime s.clk (g (B i))
  have key := steady hf (g (B i) :: between g (B i + 1) (B (i + 1)))
    { s with clk := observe s.clk (g (B i)) } _ (by
      intro d hd; dsimp only; rw [hpb]; exact hlev d hd) (Inv_observe _ h0) rfl
  dsimp only at key
  rw [hlen, hct, hpb] at key
  generalize hx : (if (observe s.clk (g (B i))).transition = true
      then (observe s.clk (g (B i))).timeDelta.toRat else 0) = x at key
  have hx' : |s.clk.currentTime.toRat + N * W - T + x - P| ≤ 2 * ε := by
    rw [← hx, hob, hP]
    by_cases hv : v (i + 1) = v i
    · simp [hv, ht hv]
      linarith
    · obtain ⟨-, d⟩ := delta h0
      simp only [if_neg hv, if_true]
      rw [show s.clk.currentTime.toRat + N * W - T + (sub binary64 halfClock s.clk.currentTime).toRat - (N * W - T / 2) =
        (sub binary64 halfClock s.clk.currentTime).toRat - (T / 2 - s.clk.currentTime.toRat) by ring]
      exact d
  have hb : (if (observe s.clk (g (B i))).transition = true then (0 : Int) else 1) =
      bitInt (sent v i) := by
    rw [hob]
    by_cases hv : v (i + 1) = v i
    · simp [hv, ht hv, sent, bitInt]
    · simp [hv, sent, bitInt]
  rw [hb] at key
  have hx' := abs_le.1 hx'
  have ed : (N + 4) * ε = N * ε + 4 * ε := by ring
  have ee : (N + 2) * ε = N * ε + 2 * ε := by ring
  rw [ed] at h2 ⊢
  rw [ee] at key
  obtain ⟨s', e, p, i', c⟩ := key (by linarith [hx'.2])
  have g0 := Gave.nil s (observe s.clk (g (B i)))
  refine ⟨s', e, p, i', ?_⟩
  rcases c with ⟨c1, c2, c3, c4⟩ | ⟨c1, c2, c3, c4⟩
  · exact Or.inl ⟨c1, by simpa using g0.trans c4⟩
  · refine Or.inr ⟨?_, c3, by simpa using g0.trans c4⟩
    have c2 := abs_le.1 c2
    rw [abs_le]
    constructor <;> linarith [c2.1, c2.2, hx'.1, hx'.2]

/-- `InStep` with room for rounding errors. -/
def InStepE (B : ℕ → ℕ) (v : ℕ → Bool) (k0 L : ℕ) : Prop :=
  ∀ j k, k0 ≤ j → j < k → k ≤ L → v (j + 1) ≠ v j → (∀ i, j < i → i + 1 < k → v (i + 1) = v i) →
    -(T / 2) + (((B k : ℚ) - B j) + 4 * ((k : ℚ) - j)) * ε ≤ ((B k : ℚ) - B j) * W - ((k : ℚ) - j) * T ∧
      ((B k : ℚ) - B j) * W - ((k : ℚ) - j) * T < T / 2 - (((B k : ℚ) - B j) + 4 * ((k : ℚ) - j)) * ε

/-- The clock before bit `k`, when the last change of the tone was bit `j`. -/
structure Locked (c : Clk Val) (B : ℕ → ℕ) (v : ℕ → Bool) (j k : ℕ) : Prop where
  inv : Inv c
  bit : c.prevBit = bitInt (v k)
  free : c.transition = false
  lt : j < k
  change : v (j + 1) ≠ v j
  same : ∀ i, j < i → i < k → v (i + 1) = v i
  time : |c.currentTime.toRat - (((B k : ℚ) - B j) * W - ((k : ℚ) - j) * T + T / 2)| ≤ (((B k : ℚ) - B j) + 4 * ((k : ℚ) - j)) * ε

/-- One more bit in step. -/
theorem locked_step {fuel : ℕ} (hf : 3 ≤ fuel) {g : ℕ → Option Int} {B : ℕ → ℕ} {v : ℕ → Bool} {k0 j k L : ℕ} (s : Rx Val)
    (h : Locked s.clk B v j k) (hj : k0 ≤ j) (hk : k < L) (hs : Shows g B v k) (hstep : InStepE B v k0 L) :
    ∃ s' j', k0 ≤ j' ∧ hear fuel s (between g (B k) (B (k + 1))) = some s' ∧ Gave s s' [bitInt (sent v k)] ∧ Locked s'.clk B v j' (k + 1) := by
  have hJ := hstep j (k + 1) hj (by have := h.lt; omega) (by omega) h.change (fun i a b => h.same i a (by omega))
  push_cast at hJ
  have ht := abs_le.1 h.time
  obtain ⟨s', e, p, i', c⟩ := one_bit hf hs s h.bit (fun _ => h.free) h.inv _ _ rfl rfl (by
    split
    · linarith [hJ.2, ht.2]
    · rename_i hv
      have hJ2 := hstep k (k + 1) (by have := h.lt; omega) (by omega) (by omega) hv (by omega)
      push_cast at hJ2
      linarith [hJ2.2])
  rcases c with ⟨c1, c2⟩ | ⟨c1, c2, c3⟩
  · exfalso
    have c1 := abs_le.1 c1
    have e0 := constants.1
    linarith [c1.1, i'.hi, hJ.1, ht.1]
  · by_cases hv : v (k + 1) = v k
    · refine ⟨s', j, hj, e, c3, i', p, c2, by have := h.lt; omega, h.change, ?_, ?_⟩
      · intro i a b
        by_cases hi : i = k
        · rw [hi]; exact hv
        · exact h.same i a (by omega)
      · rw [if_pos hv] at c1
        have c1 := abs_le.1 c1
        push_cast
        rw [abs_le]
        constructor <;> linarith [c1.1, c1.2, ht.1, ht.2]
    · refine ⟨s', k, by have := h.lt; omega, e, c3, i', p, c2, by omega, hv, by omega, ?_⟩
      rw [if_neg hv] at c1
      have c1 := abs_le.1 c1
      push_cast
      rw [abs_le]
      constructor <;> linarith [c1.1, c1.2]

/-- All later bits in step. -/
theorem locked_on {fuel : ℕ} (hf : 3 ≤ fuel) {g : ℕ → Option Int} {B : ℕ → ℕ} {v : ℕ → Bool} {k0 j k : ℕ} (s : Rx Val)
    (h : Locked s.clk B v j k) (hj : k0 ≤ j) (m : ℕ) (hs : ∀ i, k ≤ i → i < k + m → Shows g B v i) (hstep : InStepE B v k0 (k + m)) :
    ∃ s' j', k0 ≤ j' ∧ hear fuel s (between g (B k) (B (k + m))) = some s' ∧ Gave s s' ((sentBits v k (k + m)).map bitInt) ∧
      Locked s'.clk B v j' (k + m) := by
  induction m with
  | zero =>
    refine ⟨s, j, hj, by simp [between, hear], ?_, h⟩
    simpa [sentBits] using Gave.nil s s.clk
  | succ m ih =>
    obtain ⟨s1, j1, a1, a2, a3, a4⟩ := ih (fun i a b => hs i a (by omega)) (fun j k a b c d e => hstep j k a b (by omega) d e)
    obtain ⟨s2, j2, b1, b2, b3, b4⟩ := locked_step hf s1 a4 a1 (show k + m < k + (m + 1) by omega) (hs (k + m) (by omega) (by omega)) hstep
    refine ⟨s2, j2, b1, ?_, ?_, b4⟩
    · rw [← Nat.add_assoc, between_append g (shows_mono (fun i a b => hs i a (by omega)) (k + m) (by omega) (le_refl _))
        (le_of_lt (hs (k + m) (by omega) (by omega)).1), hear_append_some _ a2, b2]
    · rw [← Nat.add_assoc, sentBits_succ v (by omega : k ≤ k + m), List.map_append]
      exact a3.trans b3

/-- Two tone changes in a row: the first may be lost, after that the clock is in step. -/
theorem relock {fuel : ℕ} (hf : 3 ≤ fuel) {g : ℕ → Option Int} {B : ℕ → ℕ}
    {v : ℕ → Bool} {k0 L : ℕ} (hL : k0 + 1 < L) (s : Rx Val) (hp : s.clk.prevBit = bitInt (v k0)) (h0 : Inv s.clk)
    (hv : v (k0 + 1) ≠ v k0) (hv2 : v (k0 + 2) ≠ v (k0 + 1))
    (h2 : 3 / 2 * T + ((B (k0 + 2) : ℚ) - B k0 + 4) * ε ≤ ((B (k0 + 2) : ℚ) - B k0) * W)
    (hs : ∀ i, k0 ≤ i → i < L → Shows g B v i) (hstep : InStepE B v k0 L) :
    ∃ s' pre, hear fuel s (between g (B k0) (B L)) = some s' ∧
      Gave s s' (pre ++ (sentBits v (k0 + 1) L).map bitInt) ∧ (pre = [] ∨ pre = [0]) := by
  have hS := hs k0 (le_refl _) (by omega)
  have hJ := hstep k0 (k0 + 1) (le_refl _) (by omega) (by omega) hv (by omega)
  push_cast at hJ
  obtain ⟨s1, e1, p1, i1, c⟩ := one_bit hf hS s hp (fun h => absurd h hv) h0 _ _ rfl rfl (by rw [if_neg hv]; linarith [hJ.2])
  rcases c with ⟨c1, c2⟩ | ⟨c1, c2, c3⟩
  · have hS2 := hs (k0 + 1) (by omega) (by omega)
    have hJ2 := hstep (k0 + 1) (k0 + 2) (by omega) (by omega) (by omega) hv2 (by omega)
    push_cast at hJ2
    obtain ⟨s2, e2, p2, i2, d⟩ := one_bit hf hS2 s1 p1 (fun h => absurd h hv2) i1 _ _ rfl rfl (by rw [if_neg hv2]; linarith [hJ2.2])
    have c1 := abs_le.1 c1
    rcases d with ⟨d1, -⟩ | ⟨d1, d2, d3⟩
    · exfalso
      have d1 := abs_le.1 d1
      have e0 := constants.1
      change _ ≤ _ - (_ + ((B (k0 + 2) : ℚ) - _) * W) ∧ _ at d1
      linarith [d1.1, c1.1, i2.hi, h0.lo]
    · obtain ⟨m, rfl⟩ : ∃ m, L = k0 + 2 + m := ⟨L - (k0 + 2), by omega⟩
      obtain ⟨s', -, -, e', g', -⟩ := locked_on (k0 := k0) (j := k0 + 1) (k := k0 + 2) hf s2
        ⟨i2, p2, d2, by omega, hv2, by omega, by
          rw [if_neg hv2] at d1
          have d1 := abs_le.1 d1
          push_cast
          rw [abs_le]
          change _ ≤ _ - (((B (k0 + 2) : ℚ) - _) * W - T / 2) ∧ _ - (((B (k0 + 2) : ℚ) - _) * W - T / 2) ≤ ((B (k0 + 2) : ℚ) - _ + 4) * ε at d1
          constructor <;> linarith [d1.1, d1.2]⟩ (by omega) m (fun i a b => hs i (by omega) b) hstep
      refine ⟨s', [], ?_, ?_, Or.inl rfl⟩
      · rw [between_append g (le_of_lt hS.1) (shows_mono (fun i a b => hs i (by omega) b) (k0 + 2 + m) (by omega) (le_refl _)),
          hear_append_some _ e1, between_append g (le_of_lt hS2.1) (shows_mono (k0 := k0 + 2) (fun i a b => hs i (by omega) b) (k0 + 2 + m) (by omega) (le_refl _)),
          hear_append_some _ e2, e']
      · rw [sentBits_cons v (by omega : k0 + 1 < k0 + 2 + m)]
        exact c2.trans (d3.trans g')
  · obtain ⟨m, rfl⟩ : ∃ m, L = k0 + 1 + m := ⟨L - (k0 + 1), by omega⟩
    obtain ⟨s', -, -, e', g', -⟩ := locked_on (k0 := k0) (j := k0) (k := k0 + 1) hf s1
      ⟨i1, p1, c2, by omega, hv, by omega, by
        rw [if_neg hv] at c1
        have c1 := abs_le.1 c1
        push_cast
        rw [abs_le]
        constructor <;> linarith [c1.1, c1.2]⟩ (by omega) m (fun i a b => hs i (by omega) b) hstep
    refine ⟨s', [0], ?_, ?_, Or.inr rfl⟩
    · rw [between_append g (le_of_lt hS.1) (shows_mono (fun i a b => hs i (by omega) b) (k0 + 1 + m) (by omega) (le_refl _)),
          hear_append_some _ e1, e']
    · have c3' : Gave s s1 [0] := by simpa [sent, hv, bitInt] using c3
      exact c3'.trans g'

/-! ### The bit noted last -/

theorem ticks_prevBit (fuel : ℕ) (s s' : Rx Val) (h : ticks fuel s = some s') : s'.clk.prevBit = s.clk.prevBit := by
  induction fuel generalizing s with
  | zero => simp [ticks] at h
  | succ n ih =>
    rw [ticks] at h
    split at h
    · obtain ⟨s1, e1, k1, _⟩ := tick_gave s
      rw [e1] at h
      rw [ih s1 h, k1]
      unfold tickClk
      split <;> rfl
    · rw [Option.some.inj h]

theorem window_prevBit (fuel : ℕ) (s s' : Rx Val) (d : Option Int) (h : window fuel s d = some s') :
    s'.clk.prevBit = (observe s.clk d).prevBit := by
  unfold window at h
  exact ticks_prevBit fuel _ _ h

theorem hear_prevBit (fuel : ℕ) (s s' : Rx Val) (ds : List (Option Int))
    (hd : ∀ d ∈ ds, d = none ∨ d = some s.clk.prevBit)
    (h : hear fuel s ds = some s') : s'.clk.prevBit = s.clk.prevBit := by
  induction ds generalizing s with
  | nil => simp only [hear, Option.some.injEq] at h; rw [h]
  | cons d ds ih =>
    simp only [hear] at h
    rcases hw : window fuel s d with _ | s1
    · simp [hw] at h
    · simp only [hw] at h
      have hp := window_prevBit fuel s s1 d hw
      rw [observe_same _ _ (hd d (by simp))] at hp
      rw [ih s1 (fun x hx => by rw [hp]; exact hd x (by simp [hx])) h, hp]

/-- After the windows of a bit the receiver knows the tone, if it knew the one before or the tone changed. -/
theorem bit_prevBit {fuel : ℕ} {g : ℕ → Option Int} {B : ℕ → ℕ} {v : ℕ → Bool} {i : ℕ}
    (h : Shows g B v i) (s s' : Rx Val) (hk : v (i + 1) ≠ v i ∨ s.clk.prevBit = bitInt (v i))
    (hl : hear fuel s (between g (B i) (B (i + 1))) = some s') :
    s'.clk.prevBit = bitInt (v (i + 1)) := by
  have hlev := shows_levels h
  rw [between_cons g h.1] at hl hlev
  rw [← hear_observe] at hl
  have hp : (observe s.clk (g (B i))).prevBit = bitInt (v (i + 1)) := by
    by_cases hv : v (i + 1) = v i
    · have hp := hk.resolve_left (fun h => h hv)
      rw [observed h _ hp, if_pos hv, hp, hv]
    · rw [h.2.1 hv, observe_prevBit]
  have := hear_prevBit fuel _ s' _ (by dsimp only; rw [hp]; exact hlev) hl
  rw [this]
  exact hp

end Verif.Ax25.Clock64
