import Verif.Ax25.ClockLemmas
import Verif.Ax25.FrameProps
import Mathlib.Tactic.Positivity
import Mathlib.Tactic.IntervalCases

/-!
# C88: the receiver of `examples/ax25.go` recovers the bits that were sent

AX.25 at 1200 baud sends a 0 as a change of the tone and a 1 as no change.
-/

namespace Verif.Ax25.Clock

open Verif.Ax25 Verif.Ax25.Spec

/-! ### Specification -/

namespace Spec

variable {K : Type*} [Field K] [LinearOrder K]

/-- The difference of the two magnitudes is small: no tone is recognised. -/
def Quiet (θ x : K) : Prop := |x| ≤ θ

/-- The difference clearly shows the lower tone (`true`) or the higher one (`false`). -/
def Tone (θ x : K) (b : Bool) : Prop := θ < |x| ∧ (b = true ↔ 0 ≤ x)

/-- The windows `a`, …, `b - 1` of the input. -/
def between (f : ℕ → K) (a b : ℕ) : List K := (List.range' a (b - a)).map f

/-- Bit number `i` of a transmission occupies the windows `B i`, …, `B (i + 1) - 1`; the tone is
`v i` before and `v (i + 1)` during the bit.  No window shows the other tone, and when the tone
changes the first window shows it. -/
def Sends (θ : K) (f : ℕ → K) (B : ℕ → ℕ) (v : ℕ → Bool) (i : ℕ) : Prop :=
  B i < B (i + 1) ∧ (v (i + 1) ≠ v i → Tone θ (f (B i)) (v (i + 1))) ∧
    ∀ n, B i ≤ n → n < B (i + 1) → Quiet θ (f n) ∨ Tone θ (f n) (v (i + 1))

/-- Bit number `i`: 1 when the tone stays, 0 when it changes. -/
def sent (v : ℕ → Bool) (i : ℕ) : Bool := v (i + 1) == v i

/-- The bits number `k`, …, `L - 1`. -/
def sentBits (v : ℕ → Bool) (k L : ℕ) : List Bool := (List.range' k (L - k)).map (sent v)

/-- The windows are of duration `w`, the receiver's bits of duration `T`: counted from the start of a
0 bit, number `j`, with only 1 bits after it, up to the start of bit `k` (where bit `k - 1` may be a
1 or a 0), the sender is less than half a bit away from the receiver's clock. -/
def InStep (T w : K) (B : ℕ → ℕ) (v : ℕ → Bool) (k0 L : ℕ) : Prop :=
  ∀ j k, k0 ≤ j → j < k → k ≤ L → v (j + 1) ≠ v j → (∀ i, j < i → i + 1 < k → v (i + 1) = v i) →
    -(T / 2) ≤ ((B k : K) - B j) * w - ((k : K) - j) * T ∧
      ((B k : K) - B j) * w - ((k : K) - j) * T < T / 2

end Spec

open Spec

variable {K : Type*} [Field K] [LinearOrder K]

/-! ### Helper lemmas -/

theorem level_quiet {θ x : K} (h : Quiet θ x) : level θ x = none := by
  unfold level
  rw [if_neg (not_lt.2 h)]

theorem level_tone {θ x : K} {b : Bool} (h : Tone θ x b) : level θ x = some (bitInt b) := by
  unfold level
  rw [if_pos h.1]
  cases b with
  | true => rw [if_neg (not_lt.2 (h.2.1 rfl))]; rfl
  | false =>
    rw [if_pos]
    · rfl
    · by_contra hx
      exact absurd (h.2.2 (not_lt.1 hx)) (by simp)

theorem bitInt_inj {a b : Bool} : bitInt a = bitInt b ↔ a = b := by
  cases a <;> cases b <;> decide

omit [Field K] [LinearOrder K] in
theorem between_append (f : ℕ → K) {a b c : ℕ} (h1 : a ≤ b) (h2 : b ≤ c) :
    between f a c = between f a b ++ between f b c := by
  unfold between
  rw [← List.map_append]
  congr 1
  have e : c - a = (b - a) + (c - b) := by omega
  rw [e, ← List.range'_append_1]
  congr 2
  omega

omit [Field K] [LinearOrder K] in
theorem between_cons (f : ℕ → K) {a b : ℕ} (h : a < b) :
    between f a b = f a :: between f (a + 1) b := by
  unfold between
  have e : b - a = (b - (a + 1)) + 1 := by omega
  rw [e, List.range'_succ]
  rfl

theorem sentBits_succ (v : ℕ → Bool) {k L : ℕ} (h : k ≤ L) :
    sentBits v k (L + 1) = sentBits v k L ++ [sent v L] := by
  unfold sentBits
  have e : L + 1 - k = (L - k) + 1 := by omega
  rw [e, List.range'_concat, List.map_append]
  simp only [List.map_cons, List.map_nil]
  congr 3
  omega

theorem sentBits_cons (v : ℕ → Bool) {k L : ℕ} (h : k < L) :
    sentBits v k L = sent v k :: sentBits v (k + 1) L := by
  unfold sentBits
  have e : L - k = (L - (k + 1)) + 1 := by omega
  rw [e, List.range'_succ]
  rfl

omit [LinearOrder K] in
theorem between_length (f : ℕ → K) {a b : ℕ} (h : a ≤ b) :
    ((between f a b).length : K) = (b : K) - a := by
  unfold between
  rw [List.length_map, List.length_range', Nat.cast_sub h]

variable [IsStrictOrderedRing K]

omit [IsStrictOrderedRing K] in
theorem sends_levels {θ : K} {f : ℕ → K} {B : ℕ → ℕ} {v : ℕ → Bool} {i : ℕ}
    (h : Sends θ f B v i) :
    ∀ d ∈ between f (B i) (B (i + 1)), level θ d = none ∨ level θ d = some (bitInt (v (i + 1))) := by
  intro d hd
  unfold between at hd
  obtain ⟨n, hn, rfl⟩ := List.mem_map.1 hd
  rw [List.mem_range'_1] at hn
  rcases h.2.2 n hn.1 (by omega) with hq | ht
  · exact Or.inl (level_quiet hq)
  · exact Or.inr (level_tone ht)

omit [IsStrictOrderedRing K] in
/-- After observing the first window of a bit. -/
theorem observed {θ T : K} {f : ℕ → K} {B : ℕ → ℕ} {v : ℕ → Bool} {i : ℕ} (h : Sends θ f B v i)
    (c : Clk K) (hp : c.prevBit = bitInt (v i)) :
    observe T c (level θ (f (B i))) =
      if v (i + 1) = v i then c
      else ⟨c.currentTime, T / 2 - c.currentTime, bitInt (v (i + 1)), true⟩ := by
  by_cases hv : v (i + 1) = v i
  · rw [if_pos hv]
    apply observe_same
    rw [hp, ← hv]
    rcases h.2.2 (B i) (le_refl _) h.1 with hq | ht
    · exact Or.inl (level_quiet hq)
    · exact Or.inr (level_tone ht)
  · rw [if_neg hv, level_tone (h.2.1 hv)]
    unfold observe
    dsimp only
    rw [if_pos]
    rw [hp]
    intro hb
    exact hv (bitInt_inj.1 hb).symm

/-- The windows of one bit. -/
theorem one_bit {θ T w : K} (hw : 0 < w) {fuel : ℕ} (hf : 3 ≤ fuel) {f : ℕ → K} {B : ℕ → ℕ}
    {v : ℕ → Bool} {i : ℕ} (h : Sends θ f B v i) (s : Rx K) (hp : s.clk.prevBit = bitInt (v i))
    (ht : v (i + 1) = v i → s.clk.transition = false) (h0 : s.clk.currentTime < T)
    (h2 : (if v (i + 1) = v i then s.clk.currentTime + ((B (i + 1) : K) - B i) * w - T
      else ((B (i + 1) : K) - B i) * w - T / 2) < T) :
    ∃ s', listen θ T w fuel s (between f (B i) (B (i + 1))) = some s' ∧
      s'.clk.prevBit = bitInt (v (i + 1)) ∧
      ((s.clk.currentTime + ((B (i + 1) : K) - B i) * w < T ∧
          s'.clk.currentTime = s.clk.currentTime + ((B (i + 1) : K) - B i) * w ∧ Gave s s' []) ∨
        (T ≤ s.clk.currentTime + ((B (i + 1) : K) - B i) * w ∧
          s'.clk.currentTime =
            (if v (i + 1) = v i then s.clk.currentTime + ((B (i + 1) : K) - B i) * w - T
              else ((B (i + 1) : K) - B i) * w - T / 2) ∧
          s'.clk.transition = false ∧ Gave s s' [bitInt (sent v i)])) := by
  have hlen := between_length f (le_of_lt h.1)
  have hlev := sends_levels h
  have hob := observed (T := T) h s.clk hp
  rw [between_cons f h.1] at hlen hlev ⊢
  rw [← listen_observe]
  have hpb : (observe T s.clk (level θ (f (B i)))).prevBit = bitInt (v (i + 1)) := by
    rw [hob]
    split
    · rename_i hv; rw [hp, hv]
    · rfl
  have hct := observe_currentTime T s.clk (level θ (f (B i)))
  have key := steady (θ := θ) hw hf (f (B i) :: between f (B i + 1) (B (i + 1)))
    { s with clk := observe T s.clk (level θ (f (B i))) } _ (by
      intro d hd; dsimp only; rw [hpb]; exact hlev d hd) (by dsimp only; rw [hct]; exact h0) rfl
  dsimp only at key
  rw [hlen, hct, hpb] at key
  have hx : (if (observe T s.clk (level θ (f (B i)))).transition = true
      then (observe T s.clk (level θ (f (B i)))).timeDelta else 0) =
      if v (i + 1) = v i then 0 else T / 2 - s.clk.currentTime := by
    rw [hob]
    by_cases hv : v (i + 1) = v i
    · simp [hv, ht hv]
    · simp [hv]
  have hb : (if (observe T s.clk (level θ (f (B i)))).transition = true then (0 : Int) else 1) =
      bitInt (sent v i) := by
    rw [hob]
    by_cases hv : v (i + 1) = v i
    · simp [hv, ht hv, sent, bitInt]
    · simp [hv, sent, bitInt]
  rw [hx, hb] at key
  have hpost : s.clk.currentTime + ((B (i + 1) : K) - B i) * w - T +
      (if v (i + 1) = v i then 0 else T / 2 - s.clk.currentTime) =
      if v (i + 1) = v i then s.clk.currentTime + ((B (i + 1) : K) - B i) * w - T
        else ((B (i + 1) : K) - B i) * w - T / 2 := by
    split <;> ring
  rw [hpost] at key
  obtain ⟨s', e, p, c⟩ := key h2
  have g0 := Gave.nil s (observe T s.clk (level θ (f (B i))))
  refine ⟨s', e, p, ?_⟩
  rcases c with ⟨c1, c2, c3⟩ | ⟨c1, c2, c3, c4⟩
  · exact Or.inl ⟨c1, by rw [c2], by simpa using g0.trans c3⟩
  · exact Or.inr ⟨c1, c2, c3, by simpa using g0.trans c4⟩

/-- The clock after the bits number `k0`, …, `L - 1`. -/
theorem locked {θ T w : K} (hw : 0 < w) {fuel : ℕ} (hf : 3 ≤ fuel) {f : ℕ → K} {B : ℕ → ℕ}
    {v : ℕ → Bool} {k0 : ℕ} (s : Rx K) (hp : s.clk.prevBit = bitInt (v k0))
    (h0 : s.clk.currentTime < T) (hv : v (k0 + 1) ≠ v k0)
    (h1 : T ≤ s.clk.currentTime + ((B (k0 + 1) : K) - B k0) * w) (m : ℕ)
    (hs : ∀ i, k0 ≤ i → i < k0 + 1 + m → Sends θ f B v i) (hstep : InStep T w B v k0 (k0 + 1 + m)) :
    ∃ s', listen θ T w fuel s (between f (B k0) (B (k0 + 1 + m))) = some s' ∧
      Gave s s' ((sentBits v k0 (k0 + 1 + m)).map bitInt) ∧
      s'.clk.prevBit = bitInt (v (k0 + 1 + m)) ∧ s'.clk.transition = false ∧
      ∃ j, k0 ≤ j ∧ j < k0 + 1 + m ∧ v (j + 1) ≠ v j ∧
        (∀ i, j < i → i < k0 + 1 + m → v (i + 1) = v i) ∧
        s'.clk.currentTime =
          ((B (k0 + 1 + m) : K) - B j) * w - (((k0 + 1 + m : ℕ) : K) - j) * T + T / 2 := by
  induction m with
  | zero =>
    have hJ := hstep k0 (k0 + 1) (le_refl _) (by omega) (le_refl _) hv (by omega)
    push_cast at hJ
    obtain ⟨s', e, p, c⟩ := one_bit hw hf (hs k0 (le_refl _) (by omega)) s hp
      (fun h => absurd h hv) h0 (by rw [if_neg hv]; linarith [hJ.2])
    rcases c with ⟨c1, _, _⟩ | ⟨_, c2, c3, c4⟩
    · linarith
    · refine ⟨s', e, ?_, p, c3, k0, le_refl _, by omega, hv, by omega, ?_⟩
      · rw [sentBits_succ v (le_refl k0)]
        simpa [sentBits] using c4
      · rw [c2, if_neg hv]; push_cast; ring
  | succ m ih =>
    obtain ⟨s1, e1, g1, p1, t1, j, j1, j2, j3, j4, j5⟩ := ih
      (fun i a b => hs i a (by omega))
      (fun j k a b c d e => hstep j k a b (by omega) d e)
    generalize hL : k0 + 1 + m = L at *
    have hL' : k0 + 1 + (m + 1) = L + 1 := by omega
    rw [hL'] at hs hstep ⊢
    have hS := hs L (by omega) (by omega)
    have hJL := hstep j L j1 j2 (by omega) j3 (fun i a b => j4 i a (by omega))
    have hJ1 := hstep j (L + 1) j1 (by omega) (le_refl _) j3 (fun i a b => j4 i a (by omega))
    push_cast at hJ1
    have hc0 : s1.clk.currentTime < T := by rw [j5]; linarith [hJL.2]
    have hge : T ≤ s1.clk.currentTime + ((B (L + 1) : K) - B L) * w := by
      rw [j5]; linarith [hJ1.1]
    have hpost : (if v (L + 1) = v L then s1.clk.currentTime + ((B (L + 1) : K) - B L) * w - T
        else ((B (L + 1) : K) - B L) * w - T / 2) < T := by
      split
      · rw [j5]; linarith [hJ1.2]
      · rename_i hv'
        have hJ2 := hstep L (L + 1) (by omega) (by omega) (le_refl _) hv' (by omega)
        push_cast at hJ2
        linarith [hJ2.2]
    obtain ⟨s', e, p, c⟩ := one_bit hw hf hS s1 p1 (fun _ => t1) hc0 hpost
    rcases c with ⟨c1, _, _⟩ | ⟨_, c2, c3, c4⟩
    · linarith
    · have hmono : B k0 ≤ B L := by
        have : ∀ n, k0 ≤ n → n ≤ L → B k0 ≤ B n := by
          intro n hn
          induction n, hn using Nat.le_induction with
          | base => intro _; exact le_refl _
          | succ n hn ihn =>
            intro hnL
            exact le_trans (ihn (by omega)) (le_of_lt (hs n hn (by omega)).1)
        exact this L (by omega) (le_refl _)
      refine ⟨s', ?_, ?_, p, c3, ?_⟩
      · rw [between_append f hmono (le_of_lt hS.1), listen_append_some _ e1, e]
      · rw [sentBits_succ v (by omega : k0 ≤ L), List.map_append]
        exact g1.trans c4
      · by_cases hv' : v (L + 1) = v L
        · refine ⟨j, j1, by omega, j3, ?_, ?_⟩
          · intro i a b
            by_cases hi : i = L
            · rw [hi]; exact hv'
            · exact j4 i a (by omega)
          · rw [c2, if_pos hv', j5]; push_cast; ring
        · refine ⟨L, by omega, by omega, hv', by omega, ?_⟩
          rw [c2, if_neg hv']; push_cast; ring

/-! ### C88 -/

/-- **C88, the clock.** Whatever the input, the inner loop ends, the decoder does not panic, each
window gives at most two bits, only the bits 0 and 1 are given, and the time stays between minus one
half and one bit. -/
theorem C88_bounded {θ T w : K} (hw : 0 < w) (hwT : w ≤ T) {fuel : ℕ} (hf : 3 ≤ fuel)
    (ds : List K) :
    ∃ (s : Rx K) (bits : List Bool), listen θ T w fuel start ds = some s ∧
      -(T / 2) < s.clk.currentTime ∧ s.clk.currentTime < T ∧
      run newDecoder (bits.map bitInt) = some (s.dec, s.out) ∧ bits.length ≤ 2 * ds.length := by
  have hi : Inv T (start : Rx K).clk := by
    refine ⟨?_, ?_, ?_⟩
    · show -(T / 2) < 0
      linarith
    · show 0 < T
      linarith
    · intro h; simp [start] at h
  obtain ⟨s, bits, e, i, ⟨os, g1, g2⟩, l, m⟩ := listen_inv (θ := θ) hw hwT hf start ds hi
  have hb : (bits.map (fun b => decide (b = 1))).map bitInt = bits := by
    rw [List.map_map]
    conv_rhs => rw [← List.map_id bits]
    apply List.map_congr_left
    intro b hb
    rcases m b hb with rfl | rfl <;> rfl
  refine ⟨s, bits.map (fun b => decide (b = 1)), e, i.1, i.2.1, ?_, by simpa using l⟩
  rw [hb, g2]
  exact g1

/-- Non-vacuity: the values of the program. -/
example : (0 : ℚ) < 4 / 44100 ∧ (4 / 44100 : ℚ) ≤ 1 / 1200 := by norm_num

/-- **C88, free running.** While no tone change is seen the bits given are all 1, and there are as many
as whole bit times have passed. -/
theorem C88_idle {θ T w : K} (hw : 0 < w) (hwT : w ≤ T) {fuel : ℕ} (hf : 3 ≤ fuel) (ds : List K)
    (hd : ∀ d ∈ ds, Quiet θ d ∨ Tone θ d false) :
    ∃ (s : Rx K) (n : ℕ), listen θ T w fuel start ds = some s ∧
      run newDecoder (List.replicate n 1) = some (s.dec, s.out) ∧
      (n : K) * T ≤ ds.length * w ∧ (ds.length : K) * w < (n + 1) * T := by
  suffices h : ∃ (s : Rx K) (n : ℕ), listen θ T w fuel start ds = some s ∧
      Gave start s (List.replicate n 1) ∧ s.clk.transition = false ∧ s.clk.prevBit = 0 ∧
      0 ≤ s.clk.currentTime ∧ s.clk.currentTime < T ∧
      s.clk.currentTime = ds.length * w - n * T by
    obtain ⟨s, n, e, ⟨os, g1, g2⟩, _, _, h1, h2, h3⟩ := h
    refine ⟨s, n, e, by rw [g2]; exact g1, by linarith, by linarith⟩
  induction ds using List.reverseRecOn with
  | nil =>
    refine ⟨start, 0, rfl, Gave.nil start _, rfl, rfl, le_refl _, ?_, ?_⟩
    · show (0 : K) < T
      linarith
    · show (0 : K) = _
      simp
  | append_singleton ds d ih =>
    obtain ⟨s, n, e, g, t, p, h1, h2, h3⟩ := ih (fun x hx => hd x (by simp [hx]))
    have hl : level θ d = none ∨ level θ d = some s.clk.prevBit := by
      rcases hd d (by simp) with hq | ht
      · exact Or.inl (level_quiet hq)
      · right; rw [level_tone ht, p]; rfl
    obtain ⟨s', e', p', c⟩ := steady (θ := θ) hw hf [d] s 0 (by
      intro x hx; rw [List.mem_singleton.1 hx]; exact hl) h2 (by simp [t])
      (by simp only [List.length_singleton, Nat.cast_one, one_mul]; linarith)
    simp only [List.length_singleton, Nat.cast_one, one_mul, t] at c
    have hlen : (((ds ++ [d]).length : ℕ) : K) * w = ds.length * w + w := by
      rw [List.length_append]; push_cast [List.length_singleton]; ring
    rw [hlen]
    rcases c with ⟨c1, c2, c3⟩ | ⟨c1, c2, c3, c4⟩
    · refine ⟨s', n, by rw [listen_append_some _ e, e'], by simpa using g.trans c3, by rw [c2],
        by rw [p', p], ?_, ?_, ?_⟩
      · rw [c2]; dsimp only; linarith
      · rw [c2]; dsimp only; linarith
      · rw [c2]; dsimp only; linarith
    · refine ⟨s', n + 1, by rw [listen_append_some _ e, e'], ?_, c3, by rw [p', p], ?_, ?_, ?_⟩
      · rw [List.replicate_succ']
        exact g.trans (by simpa using c4)
      · rw [c2]; linarith
      · rw [c2]; linarith
      · rw [c2]; push_cast; linarith

/-- Non-vacuity: silence, and the higher tone. -/
example : Quiet (50 : ℚ) 3 ∧ Tone (50 : ℚ) (-60) false := by
  refine ⟨?_, ?_, ?_⟩ <;> norm_num [Quiet, Tone, abs_of_nonneg, abs_of_neg]

/-- **C88, in step.** From any state of the clock and the decoder: if a tone change (bit `k0`) comes when
the clock has at most one bit time to go and at least so little that the tick falls into that bit, then
that bit and every later one make exactly one `Feed` call, with 0 for a change of the tone and 1 for no
change, as long as the sender stays in step. -/
theorem C88_locked {θ T w : K} (hw : 0 < w) {fuel : ℕ} (hf : 3 ≤ fuel) {f : ℕ → K} {B : ℕ → ℕ}
    {v : ℕ → Bool} {k0 L : ℕ} (hL : k0 < L) (s : Rx K) (hp : s.clk.prevBit = bitInt (v k0))
    (h0 : s.clk.currentTime < T) (hv : v (k0 + 1) ≠ v k0)
    (h1 : T ≤ s.clk.currentTime + ((B (k0 + 1) : K) - B k0) * w)
    (hs : ∀ i, k0 ≤ i → i < L → Sends θ f B v i) (hstep : InStep T w B v k0 L) :
    ∃ s' os, listen θ T w fuel s (between f (B k0) (B L)) = some s' ∧
      run s.dec ((sentBits v k0 L).map bitInt) = some (s'.dec, os) ∧ s'.out = s.out ++ os := by
  obtain ⟨m, rfl⟩ : ∃ m, L = k0 + 1 + m := ⟨L - (k0 + 1), by omega⟩
  obtain ⟨s', e, ⟨os, g1, g2⟩, _⟩ := locked hw hf s hp h0 hv h1 m hs hstep
  exact ⟨s', os, e, g1, g2⟩

omit [IsStrictOrderedRing K] in
theorem mono_of_sends {θ : K} {f : ℕ → K} {B : ℕ → ℕ} {v : ℕ → Bool} {k0 L : ℕ}
    (hs : ∀ i, k0 ≤ i → i < L → Sends θ f B v i) : ∀ n, k0 ≤ n → n ≤ L → B k0 ≤ B n := by
  intro n hn
  induction n, hn using Nat.le_induction with
  | base => intro _; exact le_refl _
  | succ n hn ihn =>
    intro hnL
    exact le_trans (ihn (by omega)) (le_of_lt (hs n hn (by omega)).1)

/-- Two tone changes in a row: the first may be lost, after that the clock is in step. -/
theorem relock {θ T w : K} (hw : 0 < w) {fuel : ℕ} (hf : 3 ≤ fuel) {f : ℕ → K} {B : ℕ → ℕ}
    {v : ℕ → Bool} {k0 L : ℕ} (hL : k0 + 1 < L) (s : Rx K) (hp : s.clk.prevBit = bitInt (v k0))
    (hlo : -(T / 2) < s.clk.currentTime) (h0 : s.clk.currentTime < T)
    (hv : v (k0 + 1) ≠ v k0) (hv2 : v (k0 + 2) ≠ v (k0 + 1))
    (h2 : 3 / 2 * T ≤ ((B (k0 + 2) : K) - B k0) * w)
    (hs : ∀ i, k0 ≤ i → i < L → Sends θ f B v i) (hstep : InStep T w B v k0 L) :
    ∃ s' pre, listen θ T w fuel s (between f (B k0) (B L)) = some s' ∧
      Gave s s' (pre ++ (sentBits v (k0 + 1) L).map bitInt) ∧ (pre = [] ∨ pre = [0]) := by
  rcases le_or_gt T (s.clk.currentTime + ((B (k0 + 1) : K) - B k0) * w) with h1 | h1
  · obtain ⟨m, rfl⟩ : ∃ m, L = k0 + 1 + m := ⟨L - (k0 + 1), by omega⟩
    obtain ⟨s', e, g, _⟩ := locked hw hf s hp h0 hv h1 m hs hstep
    refine ⟨s', [0], e, ?_, Or.inr rfl⟩
    rw [sentBits_cons v (by omega)] at g
    simpa [sent, hv, bitInt] using g
  · have hJ := hstep k0 (k0 + 1) (le_refl _) (by omega) (by omega) hv (by omega)
    push_cast at hJ
    have hS := hs k0 (le_refl _) (by omega)
    obtain ⟨s1, e1, p1, c⟩ := one_bit hw hf hS s hp
      (fun h => absurd h hv) h0 (by rw [if_neg hv]; linarith [hJ.2])
    rcases c with ⟨_, c1, c2⟩ | ⟨c1, _⟩
    · obtain ⟨m, rfl⟩ : ∃ m, L = k0 + 1 + 1 + m := ⟨L - (k0 + 1 + 1), by omega⟩
      obtain ⟨s', e, g, _⟩ := locked hw hf s1 p1 (by rw [c1]; exact h1) hv2
        (by rw [c1]; linarith) m (fun i a b => hs i (by omega) b)
        (fun j k a b c d e => hstep j k (by omega) b c d e)
      refine ⟨s', [], ?_, by simpa using c2.trans g, Or.inl rfl⟩
      rw [between_append f (le_of_lt hS.1)
        (mono_of_sends (fun i a b => hs i (by omega) b) (k0 + 1 + 1 + m) (by omega) (le_refl _)),
        listen_append_some _ e1, e]
    · linarith

theorem start_inv {T : K} (hT : 0 < T) : Inv T (start : Rx K).clk := by
  refine ⟨?_, hT, ?_⟩
  · show -(T / 2) < 0
    linarith
  · intro h; simp [start] at h

/-- **C88, falling into step.** After any input at all, two tone changes in a row (bits `k0` and
`k0 + 1`) are enough: of the two, at most the first is lost; the second and all later bits are given
to the decoder, each once. -/
theorem C88_relock_partial {θ T w : K} (hw : 0 < w) (hwT : w ≤ T) {fuel : ℕ} (hf : 3 ≤ fuel) (past : List K)
    (s : Rx K) (hpast : listen θ T w fuel start past = some s) {f : ℕ → K} {B : ℕ → ℕ}
    {v : ℕ → Bool} {k0 L : ℕ} (hL : k0 + 1 < L) (hp : s.clk.prevBit = bitInt (v k0))
    (hv : v (k0 + 1) ≠ v k0) (hv2 : v (k0 + 2) ≠ v (k0 + 1))
    (h2 : 3 / 2 * T ≤ ((B (k0 + 2) : K) - B k0) * w)
    (hs : ∀ i, k0 ≤ i → i < L → Sends θ f B v i) (hstep : InStep T w B v k0 L) :
    ∃ s' pre os, listen θ T w fuel start (past ++ between f (B k0) (B L)) = some s' ∧
      (pre = [] ∨ pre = [0]) ∧
      run s.dec (pre ++ (sentBits v (k0 + 1) L).map bitInt) = some (s'.dec, os) ∧
      s'.out = s.out ++ os := by
  obtain ⟨s0, _, e0, i0, _⟩ := listen_inv (θ := θ) hw hwT hf start past
    (start_inv (lt_of_lt_of_le hw hwT))
  rw [hpast] at e0
  obtain rfl := Option.some.inj e0
  obtain ⟨s', pre, e, ⟨os, g1, g2⟩, c⟩ := relock hw hf hL s hp i0.1 i0.2.1 hv hv2 h2 hs hstep
  exact ⟨s', pre, os, by rw [listen_append_some _ hpast, e], c, g1, g2⟩

/-! ### A whole transmission -/

/-- The bits start at the times `φ`, `φ + T'`, `φ + 2 T'`, …, seen up to `e` later. -/
def Spec.Timed (T' w φ e : K) (B : ℕ → ℕ) (L : ℕ) : Prop :=
  ∀ i, i ≤ L → (i : K) * T' + φ ≤ B i * w ∧ (B i : K) * w < i * T' + φ + e

/-- The tones of a transmission of the bits `bits`. -/
def Spec.Carries (v : ℕ → Bool) (bits : List Bool) : Prop :=
  ∀ i (h : i < bits.length), v (i + 1) = v i ↔ bits[i] = true

/-- No run of seven or more ones, after `n` ones. -/
def OkRuns : ℕ → List Bool → Prop
  | _, [] => True
  | n, true :: bs => n < 6 ∧ OkRuns (n + 1) bs
  | _, false :: bs => OkRuns 0 bs

theorem OkRuns.weaken : ∀ {n m : ℕ} {bs : List Bool}, m ≤ n → OkRuns n bs → OkRuns m bs
  | _, _, [], _, _ => trivial
  | _, _, true :: _, h, ⟨h1, h2⟩ => ⟨by omega, OkRuns.weaken (by omega) h2⟩
  | _, _, false :: _, _, h2 => h2

theorem okRuns_stuffFrom (l m : List Bool) (n : ℕ) (hn : n ≤ 4)
    (hm' : ∀ k ≤ 4, OkRuns k m) : OkRuns n (stuffFrom n l ++ m) := by
  induction l generalizing n with
  | nil => exact hm' n hn
  | cons b l ih =>
    cases b with
    | true =>
      simp only [stuffFrom]
      split
      · subst n
        exact ⟨by omega, ih 0 (by omega)⟩
      · exact ⟨by omega, ih (n + 1) (by omega)⟩
    | false => exact ih 0 (by omega)

theorem okRuns_flag (m : List Bool) (k : ℕ) (hm : OkRuns 0 m) : OkRuns k (flag ++ m) := by
  simp only [flag, List.cons_append, List.nil_append, OkRuns]
  exact ⟨by omega, by omega, by omega, by omega, by omega, by omega, hm⟩

theorem OkRuns.drop (bits : List Bool) (h : OkRuns 0 bits) (i : ℕ) : OkRuns 0 (bits.drop i) := by
  induction bits generalizing i with
  | nil => simpa using h
  | cons b bs ih =>
    cases i with
    | zero => exact h
    | succ i =>
      apply ih
      cases b with
      | true => exact h.2.weaken (by omega)
      | false => exact h

theorem OkRuns.run (bits : List Bool) (n r : ℕ) (hn : n ≤ 6) (h : OkRuns n bits)
    (hr : ∀ m, m < r → bits[m]? = some true) : n + r ≤ 6 := by
  induction bits generalizing n r with
  | nil =>
    by_cases hr0 : r = 0
    · omega
    · have := hr 0 (by omega); simp at this
  | cons b bs ih =>
    by_cases hr0 : r = 0
    · omega
    · have hb := hr 0 (by omega)
      simp only [List.getElem?_cons_zero, Option.some.injEq] at hb
      subst hb
      have := ih (n + 1) (r - 1) (by have := h.1; omega) h.2 (fun m hm => by
        have := hr (m + 1) (by omega)
        simpa using this)
      omega

/-- The timing of a transmission without long runs of ones keeps the receiver in step. -/
theorem inStep_of_timed {T T' w φ e : K} {B : ℕ → ℕ} {v : ℕ → Bool} {bits : List Bool}
    (he : 8 * |T' - T| + e ≤ T / 2) (ht : Timed T' w φ e B bits.length) (hc : Carries v bits)
    (hr : OkRuns 0 bits) (k0 : ℕ) : InStep T w B v k0 bits.length := by
  intro j k _ hjk hkL _ hno
  have hrun : k - j ≤ 8 := by
    by_contra hlong
    have := OkRuns.run (bits.drop (j + 1)) 0 7 (by omega) (OkRuns.drop bits hr _) (fun m hm => by
      rw [List.getElem?_drop, List.getElem?_eq_getElem (by omega)]
      congr 1
      exact (hc (j + 1 + m) (by omega)).1 (hno (j + 1 + m) (by omega) (by omega)))
    omega
  obtain ⟨a1, a2⟩ := ht j (by omega)
  obtain ⟨b1, b2⟩ := ht k hkL
  have hcast : ((k : K) - j) = ((k - j : ℕ) : K) := by rw [Nat.cast_sub (by omega)]
  have hn0 : (0 : K) ≤ ((k - j : ℕ) : K) := Nat.cast_nonneg _
  have hn8 : ((k - j : ℕ) : K) ≤ 8 := by exact_mod_cast hrun
  have hab : |((k - j : ℕ) : K) * (T' - T)| ≤ 8 * |T' - T| := by
    rw [abs_mul, abs_of_nonneg hn0]
    exact mul_le_mul_of_nonneg_right hn8 (abs_nonneg _)
  have hlo := neg_le_of_abs_le hab
  have hhi := le_of_abs_le hab
  have e1 : ((B k : K) - B j) * w - ((k : K) - j) * T =
      ((B k : K) * w - (k * T' + φ)) - ((B j : K) * w - (j * T' + φ)) +
        ((k : K) - j) * (T' - T) := by ring
  rw [e1, hcast]
  constructor <;> linarith

omit [IsStrictOrderedRing K] in
theorem ticks_prevBit (T : K) (fuel : ℕ) (s s' : Rx K) (h : ticks T fuel s = some s') :
    s'.clk.prevBit = s.clk.prevBit := by
  induction fuel generalizing s with
  | zero => simp [ticks] at h
  | succ n ih =>
    by_cases hc : T ≤ s.clk.currentTime
    · obtain ⟨s1, e1, k1, _⟩ := ticks_cons T n s hc
      rw [e1] at h
      rw [ih s1 h, k1]
      unfold tickClk
      split <;> rfl
    · rw [ticks_none T _ s (not_le.1 hc) (by omega)] at h
      rw [Option.some.inj h]

omit [IsStrictOrderedRing K] in
theorem window_prevBit (θ T w : K) (fuel : ℕ) (s s' : Rx K) (d : K)
    (h : window θ T w fuel s d = some s') :
    s'.clk.prevBit = (observe T s.clk (level θ d)).prevBit := by
  unfold window at h
  exact ticks_prevBit T fuel _ _ h

omit [IsStrictOrderedRing K] in
theorem listen_prevBit (θ T w : K) (fuel : ℕ) (s s' : Rx K) (ds : List K)
    (hd : ∀ d ∈ ds, level θ d = none ∨ level θ d = some s.clk.prevBit)
    (h : listen θ T w fuel s ds = some s') : s'.clk.prevBit = s.clk.prevBit := by
  induction ds generalizing s with
  | nil => simp only [listen, Option.some.injEq] at h; rw [h]
  | cons d ds ih =>
    simp only [listen] at h
    rcases hw : window θ T w fuel s d with _ | s1
    · simp [hw] at h
    · simp only [hw] at h
      have hp := window_prevBit θ T w fuel s s1 d hw
      rw [observe_same T _ _ (hd d (by simp))] at hp
      rw [ih s1 (fun x hx => by rw [hp]; exact hd x (by simp [hx])) h, hp]

omit [IsStrictOrderedRing K] in
/-- After the windows of a bit the receiver knows the tone, if it knew the one before or the tone
changed. -/
theorem bit_prevBit {θ T w : K} {fuel : ℕ} {f : ℕ → K} {B : ℕ → ℕ} {v : ℕ → Bool} {i : ℕ}
    (h : Sends θ f B v i) (s s' : Rx K) (hk : v (i + 1) ≠ v i ∨ s.clk.prevBit = bitInt (v i))
    (hl : listen θ T w fuel s (between f (B i) (B (i + 1))) = some s') :
    s'.clk.prevBit = bitInt (v (i + 1)) := by
  have hlev := sends_levels h
  rw [between_cons f h.1] at hl hlev
  rw [← listen_observe] at hl
  have hp : (observe T s.clk (level θ (f (B i)))).prevBit = bitInt (v (i + 1)) := by
    by_cases hv : v (i + 1) = v i
    · have hp := hk.resolve_left (fun h => h hv)
      rw [observed h _ hp, if_pos hv, hp, hv]
    · rw [level_tone (h.2.1 hv), observe_prevBit]
  have := listen_prevBit θ T w fuel _ s' _ (by dsimp only; rw [hp]; exact hlev) hl
  rw [this]
  exact hp

theorem sentBits_carries {v : ℕ → Bool} {bits : List Bool} (hc : Carries v bits) (k : ℕ) :
    sentBits v k bits.length = bits.drop k := by
  apply List.ext_getElem
  · simp [sentBits]
  · intro n h1 h2
    have h3 : k + n < bits.length := by rw [List.length_drop] at h2; omega
    simp only [sentBits, List.getElem_map, List.getElem_range', List.getElem_drop, sent, one_mul]
    have := hc (k + n) h3
    cases hb : bits[k + n] with
    | true => rw [hb] at this; simp [this.2 rfl]
    | false =>
      rw [hb] at this
      have hn : ¬ v (k + n + 1) = v (k + n) := fun h => absurd (this.1 h) (by simp)
      simp [hn]

/-- **C88, a whole transmission.** After any input at all, a transmission of two flags, the stuffed bits
of an AX.25 frame with its frame check sequence and a closing flag makes the last `Feed` call of the
program return the frame that was sent; between the opening flag and that call no frame is returned.
The sender's bits take the time `T'`, the receiver counts on `T`, and changes of the tone are seen with
a delay below `e`: it is enough that `8 |T' - T| + e ≤ T / 2` and `3/2 T + e ≤ 2 T'`. -/
theorem C88_received {θ T T' w φ e : K} (hw : 0 < w) (hwT : w ≤ T) {fuel : ℕ} (hf : 3 ≤ fuel)
    (he : 8 * |T' - T| + e ≤ T / 2) (he2 : 3 / 2 * T + e ≤ 2 * T') (past : List K)
    (dst src : Station) (reps : List Station) (c : Control) (pid : Byte) (info : List Byte)
    (hd : dst.Valid) (hsrc : src.Valid) (hr : ∀ r ∈ reps, r.Valid) (hc : c.Valid)
    (hi : CarriesInfo c) (hlen : (encodeFrame dst src reps c.encode (pid :: info)).length ≤ 510)
    {f : ℕ → K} {B : ℕ → ℕ} {v : ℕ → Bool} :
    let p := encodeFrame dst src reps c.encode (pid :: info)
    let line := stuff (bytesBits (p ++ fcs p)) ++ flag
    let bits := flag ++ flag ++ line
    Carries v bits → Timed T' w φ e B bits.length →
    (∀ i, i < bits.length → Sends θ f B v i) →
    ∃ (s : Rx K) (before : List (Option Frame)) (fr : Frame),
      listen θ T w fuel start (past ++ between f (B 0) (B bits.length)) = some s ∧
      s.out = before ++ List.replicate (line.length - 1) none ++ [some fr] ∧
      fr.destination = ⟨dst.call, dst.ssid⟩ ∧ fr.source = ⟨src.call, src.ssid⟩ ∧
      fr.repeaters = reps.map (fun s => ⟨s.call, s.ssid⟩) ∧
      (fr.v1 = true ↔ dst.top = src.top) ∧ (fr.command = true ↔ dst.top = true ∧ src.top = false) ∧
      ControlFields fr c ∧ fr.pid = pid ∧ fr.info = info := by
  intro p line bits hv ht hs
  have hbl : bits.length = 16 + line.length := by
    simp only [bits, List.length_append]; rfl
  have hll : 8 ≤ line.length := by
    have : flag.length = 8 := rfl
    simp only [line, List.length_append]; omega
  have hT : 0 < T := lt_of_lt_of_le hw hwT
  -- the past
  obtain ⟨s0, _, e0, i0, _⟩ := listen_inv (θ := θ) hw hwT hf start past (start_inv hT)
  -- the first seven bits
  have h7 : ∀ n, n ≤ 6 → ∃ s, listen θ T w fuel s0 (between f (B 0) (B (n + 1))) = some s ∧
      Inv T s.clk ∧ s.clk.prevBit = bitInt (v (n + 1)) := by
    intro n hn
    induction n with
    | zero =>
      obtain ⟨s, _, e1, i1, _⟩ := listen_inv (θ := θ) hw hwT hf s0 (between f (B 0) (B (0 + 1))) i0
      refine ⟨s, e1, i1, bit_prevBit (hs 0 (by omega)) s0 s (Or.inl ?_) e1⟩
      intro h
      have := (hv 0 (by omega)).1 h
      simp [bits, flag] at this
    | succ n ih =>
      obtain ⟨s, e1, i1, p1⟩ := ih (by omega)
      obtain ⟨s', _, e2, i2, _⟩ := listen_inv (θ := θ) hw hwT hf s
        (between f (B (n + 1)) (B (n + 1 + 1))) i1
      refine ⟨s', ?_, i2, bit_prevBit (hs (n + 1) (by omega)) s s' (Or.inr p1) e2⟩
      rw [between_append f (mono_of_sends (k0 := 0) (fun i _ h => hs i h) (n + 1) (by omega) (by omega))
        (le_of_lt (hs (n + 1) (by omega)).1), listen_append_some _ e1, e2]
  obtain ⟨s7, e7, i7, p7⟩ := h7 6 (le_refl _)
  -- from the end of the first flag on
  have hok : OkRuns 0 bits := by
    simp only [bits, line, List.append_assoc]
    refine okRuns_flag _ _ (okRuns_flag _ _ ?_)
    refine okRuns_stuffFrom _ _ 0 (by omega) ?_
    intro k _
    have := okRuns_flag [] k trivial
    simpa using this
  have hz : ∀ i, (h : i < bits.length) → bits[i] = false → v (i + 1) ≠ v i := by
    intro i h hb hvv
    have := (hv i h).1 hvv
    rw [hb] at this
    exact absurd this (by simp)
  have hb7 : bits[7]'(by omega) = false := by simp [bits, flag]
  have hb8 : bits[8]'(by omega) = false := by simp [bits, flag]
  obtain ⟨s', pre, e', ⟨os, g1, g2⟩, hpre⟩ := relock hw hf (by omega : 7 + 1 < bits.length) s7 p7 i7.1 i7.2.1
    (hz 7 (by omega) hb7) (hz 8 (by omega) hb8) (by
      have a := ht 7 (by omega)
      have b := ht 9 (by omega)
      push_cast at a b
      norm_num
      linarith [a.2, b.1])
    (fun i _ h => hs i h) (inStep_of_timed he ht hv hok 7)
  have hdrop : sentBits v (7 + 1) bits.length = flag ++ line := by
    rw [sentBits_carries hv]
    simp [bits, flag]
  rw [hdrop, List.map_append] at g1
  obtain ⟨d2, fr, r1, r2⟩ := C10_frame_roundtrip (runRaw s7.dec pre).1 dst src reps c pid info hd hsrc
    hr hc hi hlen
  have r0 := run_append _ _ _ _ _ _ _ (run_eq s7.dec pre)
    (run_append _ _ _ _ _ _ _ (run_eq (runRaw s7.dec pre).1 (flag.map bitInt)) r1)
  rw [g1] at r0
  obtain ⟨_, hos⟩ := Prod.mk.injEq .. ▸ Option.some.inj r0
  refine ⟨s', s7.out ++ ((runRaw s7.dec pre).2.map (fun o => o.bind frameOf) ++
    (runRaw (runRaw s7.dec pre).1 (flag.map bitInt)).2.map (fun o => o.bind frameOf)), fr, ?_, ?_, r2⟩
  · rw [listen_append_some _ e0, between_append f
      (mono_of_sends (k0 := 0) (fun i _ h => hs i h) 7 (by omega) (by omega))
      (mono_of_sends (k0 := 7) (fun i _ h => hs i h) bits.length (by omega) (le_refl _)),
      listen_append_some _ e7, e']
  · rw [g2, hos]
    simp only [List.append_assoc]
    rfl

/-- The tones for given bits, starting with the higher one. -/
def tones (bits : List Bool) : ℕ → Bool
  | 0 => false
  | i + 1 => if bits.getD i true then tones bits i else !tones bits i

/-- Non-vacuity of `C88_received`, `C88_locked` and `C88_relock_partial`, with the constants of the program: whatever bits are to be sent, an
ideal sender at 1200 baud makes such an input (`B i` is the first window that begins after `i` bit
times, which means a delay below one window). -/
theorem ideal_sender (bits : List Bool) :
    let T : ℚ := 1 / 1200
    let w : ℚ := 4 / 44100
    let B : ℕ → ℕ := fun i => (147 * i + 15) / 16
    let v := tones bits
    let f : ℕ → ℚ := fun n => if v (16 * n / 147 + 1) then 60 else -60
    0 < w ∧ w ≤ T ∧ 8 * |T - T| + w ≤ T / 2 ∧ 3 / 2 * T + w ≤ 2 * T ∧
      Carries v bits ∧ Timed T w 0 w B bits.length ∧ ∀ i, Sends 50 f B v i := by
  intro T w B v f
  refine ⟨by norm_num [w], by norm_num [w, T], by norm_num [w, T], by norm_num [w, T], ?_, ?_, ?_⟩
  · intro i h
    simp only [v, tones, List.getD_eq_getElem?_getD, List.getElem?_eq_getElem h, Option.getD_some]
    cases bits[i] <;> simp
  · intro i _
    have h1 : 147 * i ≤ 16 * B i := by simp only [B]; omega
    have h2 : 16 * B i < 147 * i + 16 := by simp only [B]; omega
    have h1' : (147 : ℚ) * i ≤ 16 * B i := by exact_mod_cast h1
    have h2' : (16 : ℚ) * B i < 147 * i + 16 := by exact_mod_cast h2
    constructor
    · simp only [T, w]; linarith
    · simp only [T, w]; linarith
  · intro i
    have hn : ∀ n, B i ≤ n → n < B (i + 1) → Tone 50 (f n) (v (i + 1)) := by
      intro n h1 h2
      have hi : 16 * n / 147 = i := by simp only [B] at h1 h2; omega
      simp only [f, hi]
      cases v (i + 1) <;> norm_num [Tone, abs_of_nonneg, abs_of_neg]
    have hlt : B i < B (i + 1) := by simp only [B]; omega
    exact ⟨hlt, fun _ => hn _ (le_refl _) hlt, fun n a b => Or.inr (hn n a b)⟩

/-- Non-vacuity of `C88_received`: a station identifies itself. -/
example :
    let dst : Station := ⟨[0x41, 0x50, 0x52, 0x53], 0, true⟩
    let src : Station := ⟨[0x4b, 0x41, 0x39, 0x51], 1, false⟩
    dst.Valid ∧ src.Valid ∧ (Control.u 0 0 false).Valid ∧ CarriesInfo (.u 0 0 false) ∧
      (encodeFrame dst src [] (Control.u 0 0 false).encode [0xf0, 0x21, 0x22]).length ≤ 510 := by
  simp only [Station.Valid, Control.Valid, CarriesInfo]
  decide

/-- Non-vacuity of `C88_locked` (for a clock that is half a bit from its tick) and of `C88_relock_partial` (from
the start of the program): the bits 0, 0 and 1, 1, 0 after them. -/
example :
    let T : ℚ := 1 / 1200
    let w : ℚ := 4 / 44100
    let B : ℕ → ℕ := fun i => (147 * i + 15) / 16
    let v := tones [false, false, true, true, false]
    T / 2 < T ∧ T ≤ T / 2 + ((B (0 + 1) : ℚ) - B 0) * w ∧ 3 / 2 * T ≤ ((B (0 + 2) : ℚ) - B 0) * w ∧
      v (0 + 1) ≠ v 0 ∧ v (0 + 2) ≠ v (0 + 1) ∧ (start : Rx ℚ).clk.prevBit = bitInt (v 0) ∧
      InStep T w B v 0 5 := by
  intro T w B v
  refine ⟨by norm_num [T], by norm_num [T, w, B], by norm_num [T, w, B], by decide, by decide, rfl, ?_⟩
  obtain ⟨_, _, h1, _, h2, h3, _⟩ := ideal_sender [false, false, true, true, false]
  exact inStep_of_timed h1 h3 h2 (by simp [OkRuns]) 0

/-- **C88 is violated at the start.** That every bit of a well-timed transmission is given to the decoder
is false for the first one: the program begins with its clock at 0, so a tone change in the first
window is due only after a whole bit, when the second change has already taken its place.  Here three
0 bits are sent, with the constants of the program and an ideal sender, and two are received. -/
theorem C88_violated_first :
    ∃ (f : ℕ → ℚ) (B : ℕ → ℕ) (v : ℕ → Bool), v 0 = false ∧
      Timed (1 / 1200) (4 / 44100) (-(2 / 44100)) (4 / 44100 : ℚ) B 3 ∧
      (∀ i, i < 3 → Sends 50 f B v i) ∧ sentBits v 0 3 = [false, false, false] ∧
      ∃ s, listen 50 (1 / 1200) (4 / 44100) 3 start (between f (B 0) (B 3)) = some s ∧
        s.out.length = 2 := by
  refine ⟨fun n => if n < 9 then 60 else if n < 18 then -60 else 60,
    fun i => if i = 3 then 28 else 9 * i, fun i => i % 2 == 1, rfl, ?_, ?_, rfl, ?_⟩
  · intro i hi
    interval_cases i <;> norm_num
  · have ht : Tone (50 : ℚ) 60 true := by norm_num [Tone, abs_of_nonneg]
    have hf : Tone (50 : ℚ) (-60) false := by norm_num [Tone, abs_of_neg]
    intro i hi
    interval_cases i
    · refine ⟨by decide, fun _ => ht, fun n _ h => Or.inr ?_⟩
      have : n < 9 := h
      simpa [this] using ht
    · refine ⟨by decide, fun _ => hf, fun n h1 h => Or.inr ?_⟩
      have h2 : ¬ n < 9 := not_lt.2 h1
      have h3 : n < 18 := h
      simpa [h2, h3] using hf
    · refine ⟨by decide, fun _ => ht, fun n h1 h => Or.inr ?_⟩
      have h2 : 18 ≤ n := h1
      have h3 : ¬ n < 9 := by omega
      have h4 : ¬ n < 18 := by omega
      simpa [h3, h4] using ht
  · have h : ((listen 50 (1 / 1200) (4 / 44100) 3 start
        (between (fun n => if n < 9 then (60 : ℚ) else if n < 18 then -60 else 60) 0 28)).map
          (fun s => s.out.length)) = some 2 := by decide +kernel
    obtain ⟨s, h1, h2⟩ := Option.map_eq_some_iff.1 h
    exact ⟨s, h1, h2⟩

end Verif.Ax25.Clock
