import Verif.Ax25.ClockFpStep

/-!
# C138: the receiver of `examples/ax25.go` recovers the bits that were sent, with its own arithmetic

C88 says so for exact times.  Here the times are the `float64` values of the program: every sum is rounded, `1/1200` and `4/44100` are rounded
too, and the receiver may have been listening for any length of time before.
-/

namespace Verif.Ax25.Clock64

open Verif.Ax25 Verif.Ax25.Spec Verif.Ax25.Clock Verif.Ax25.Clock.Spec Verif.Fp

/-! ### Specification -/

namespace Spec

/-- No tone is recognised: the number is not above the threshold of 50, or is not a number. -/
def Quiet (x : Val) : Prop := x = .nan ∨ Finite x ∧ |x.toRat| ≤ 50

/-- The number clearly shows the lower tone (`true`) or the higher one (`false`). -/
def Tone (x : Val) (b : Bool) : Prop := x = .inf (!b) ∨ Finite x ∧ 50 < |x.toRat| ∧ (b = true ↔ 0 ≤ x.toRat)

/-- Bit number `i` of a transmission occupies the windows `B i`, …, `B (i + 1) - 1`; the tone is `v i` before and `v (i + 1)` during the bit.  No
window shows the other tone, and when the tone changes the first window shows it. -/
def Sends (f : ℕ → Val) (B : ℕ → ℕ) (v : ℕ → Bool) (i : ℕ) : Prop :=
  B i < B (i + 1) ∧ (v (i + 1) ≠ v i → Tone (f (B i)) (v (i + 1))) ∧
    ∀ n, B i ≤ n → n < B (i + 1) → Quiet (f n) ∨ Tone (f n) (v (i + 1))

end Spec

/-! ### Helper lemmas -/

theorem fifty : Is (ofInt binary64 50) 50 := by
  have := is_ofInt64 50 (by norm_num)
  exact_mod_cast this

theorem fifty_lt {x : Val} (hx : Finite x) : lt (ofInt binary64 50) (Fp.abs x) ↔ 50 < |x.toRat| := by
  have h5 := fifty
  obtain ⟨s, q, e, hq⟩ := h5.1
  have h2 := h5.2
  obtain ⟨t, r, rfl, hr⟩ := hx
  rw [e] at h2 ⊢
  have ha : |(Val.fin t r).toRat| = r := by
    cases t <;> simp [Val.toRat, abs_of_nonneg hr]
  rw [ha, ← h2]
  simp [Fp.abs, lt, Val.toRat]

theorem fifty_fin : ∃ s q, ofInt binary64 50 = .fin s q := by
  obtain ⟨s, q, e, hq⟩ := fifty.1
  exact ⟨s, q, e⟩

theorem level_quiet {x : Val} (h : Spec.Quiet x) : level x = none := by
  unfold level
  rw [if_neg]
  rcases h with rfl | ⟨h1, h2⟩
  · obtain ⟨s, q, e⟩ := fifty_fin
    rw [e]
    simp [Fp.abs, lt]
  · rw [fifty_lt h1]
    exact not_lt.2 h2

theorem level_tone {x : Val} {b : Bool} (h : Spec.Tone x b) : level x = some (bitInt b) := by
  unfold level
  rcases h with rfl | ⟨h1, h2, h3⟩
  · obtain ⟨s, q, e⟩ := fifty_fin
    rw [e]
    cases b <;> simp [Fp.abs, lt, bitInt]
  · rw [if_pos ((fifty_lt h1).2 h2)]
    obtain ⟨t, r, rfl, hr⟩ := h1
    congr 1
    have hz : (Val.fin false 0).toRat = 0 := by simp [Val.toRat]
    have hl : lt (Val.fin t r) (Val.fin false 0) ↔ (Val.fin t r).toRat < 0 := by
      simp [lt, Val.toRat]
    cases b with
    | true => rw [if_neg (by rw [hl]; exact not_lt.2 (h3.1 rfl))]; rfl
    | false =>
      rw [if_pos]
      · rfl
      · rw [hl]
        by_contra hx
        exact absurd (h3.2 (not_lt.1 hx)) (by simp)

theorem between_level (f : ℕ → Val) (a b : ℕ) : (between f a b).map level = between (fun n => level (f n)) a b := by
  unfold between
  rw [List.map_map]
  rfl

theorem shows_of_sends {f : ℕ → Val} {B : ℕ → ℕ} {v : ℕ → Bool} {i : ℕ} (h : Spec.Sends f B v i) : Shows (fun n => level (f n)) B v i := by
  refine ⟨h.1, fun hv => level_tone (h.2.1 hv), fun n a b => ?_⟩
  rcases h.2.2 n a b with hq | ht
  · exact Or.inl (level_quiet hq)
  · exact Or.inr (level_tone ht)

/-- A whole flag at most, and the bit before: the timing keeps the receiver in step. -/
theorem inStepE_of_timed {T' φ e : ℚ} {B : ℕ → ℕ} {v : ℕ → Bool} {bits : List Bool}
    (he : 8 * |T' - 1 / 1200| + e + 1 / 10 ^ 15 ≤ 1 / 2400) (ht : Timed T' (4 / 44100) φ e B bits.length) (hc : Carries v bits)
    (hr : OkRuns 0 bits) (k0 : ℕ) : InStepE B v k0 bits.length := by
  intro j k _ hjk hkL _ hno
  have hrun : k - j ≤ 8 := by
    by_contra hlong
    have := OkRuns.run (bits.drop (j + 1)) 0 7 (by omega) (OkRuns.drop bits hr _) (fun m hm => by
      rw [List.getElem?_drop, List.getElem?_eq_getElem (by omega)]
      congr 1
      exact (hc (j + 1 + m) (by omega)).1 (hno (j + 1 + m) (by omega) (by omega)))
    omega
  obtain ⟨a1, a2⟩ := ht j (by omega)
  obtain ⟨b1, b2⟩ := ht k hkL
  have hcast : ((k : ℚ) - j) = ((k - j : ℕ) : ℚ) := by rw [Nat.cast_sub (by omega)]
  have hn0 : (0 : ℚ) ≤ (k : ℚ) - j := by rw [hcast]; exact Nat.cast_nonneg _
  have hn8 : (k : ℚ) - j ≤ 8 := by rw [hcast]; exact_mod_cast hrun
  have hk' : (k : ℚ) * T' = j * T' + ((k : ℚ) - j) * T' := by ring
  generalize (k : ℚ) - j = n at *
  have hN : ((B k : ℚ) - B j) * (4 / 44100) = (B k : ℚ) * (4 / 44100) - B j * (4 / 44100) := by ring
  generalize (B k : ℚ) - B j = N at *
  have hab : |n * (T' - 1 / 1200)| ≤ 8 * |T' - 1 / 1200| := by
    rw [abs_mul, abs_of_nonneg hn0]
    exact mul_le_mul_of_nonneg_right hn8 (abs_nonneg _)
  have hlo := neg_le_of_abs_le hab
  have hhi := le_of_abs_le hab
  have hx : n * (T' - 1 / 1200) = n * T' - n / 1200 := by ring
  rw [hx] at hlo hhi
  have he0 : 0 < e := by linarith
  have hN0 : N * (4 / 44100) ≤ 8 / 1200 + 1 / 2400 := by linarith
  have hN1 : N ≤ 80 := by linarith
  have hN2 : -80 ≤ N := by linarith
  have ee : ε = 1 / 2 ^ 60 := rfl
  have d1 := bit_clock.2
  have d2 := window_time.2
  have hNW : |N * (W - 4 / 44100)| ≤ 80 * ε := by
    rw [abs_mul]
    exact mul_le_mul (abs_le.2 ⟨hN2, hN1⟩) d2 (abs_nonneg _) (by norm_num)
  have hnT : |n * (T - 1 / 1200)| ≤ 8 * ε := by
    rw [abs_mul]
    exact mul_le_mul (abs_le.2 ⟨by linarith, hn8⟩) d1 (abs_nonneg _) (by norm_num)
  have hNW := abs_le.1 hNW
  have hnT := abs_le.1 hnT
  have d1 := abs_le.1 d1
  have e1 : N * (W - 4 / 44100) = N * W - N * (4 / 44100) := by ring
  have e2 : n * (T - 1 / 1200) = n * T - n / 1200 := by ring
  rw [e1] at hNW
  rw [e2] at hnT
  have hD : (N + 4 * n) * ε ≤ 112 * ε := by
    apply mul_le_mul_of_nonneg_right _ constants.1.le
    linarith
  norm_num at ee he
  constructor <;> linarith

/-- The rounded constants, and two windows. -/
theorem two_bits {T' φ e : ℚ} {B : ℕ → ℕ} {L k : ℕ} (hk : k + 2 ≤ L) (he : 8 * |T' - 1 / 1200| + e + 1 / 10 ^ 15 ≤ 1 / 2400)
    (he2 : 1 / 800 + e + 1 / 10 ^ 15 ≤ 2 * T') (ht : Timed T' (4 / 44100) φ e B L) :
    3 / 2 * T + ((B (k + 2) : ℚ) - B k + 4) * ε ≤ ((B (k + 2) : ℚ) - B k) * W := by
  obtain ⟨a1, a2⟩ := ht k (by omega)
  obtain ⟨b1, b2⟩ := ht (k + 2) hk
  push_cast at b1 b2
  have hN : ((B (k + 2) : ℚ) - B k) * (4 / 44100) = (B (k + 2) : ℚ) * (4 / 44100) - B k * (4 / 44100) := by ring
  generalize (B (k + 2) : ℚ) - B k = N at *
  have h0 := le_abs_self (T' - 1 / 1200)
  have he0 : 0 < e := by linarith
  have hN1 : N ≤ 80 := by linarith
  have hN2 : -80 ≤ N := by linarith
  have ee : ε = 1 / 2 ^ 60 := rfl
  have d1 := abs_le.1 bit_clock.2
  have d2 := window_time.2
  have hNW : |N * (W - 4 / 44100)| ≤ 80 * ε := by
    rw [abs_mul]
    exact mul_le_mul (abs_le.2 ⟨hN2, hN1⟩) d2 (abs_nonneg _) (by norm_num)
  have hNW := abs_le.1 hNW
  have e1 : N * (W - 4 / 44100) = N * W - N * (4 / 44100) := by ring
  rw [e1] at hNW
  have hD : (N + 4) * ε ≤ 84 * ε := by
    apply mul_le_mul_of_nonneg_right _ constants.1.le
    linarith
  norm_num at ee he he2
  linarith

/-! ### C138 -/

/-- **C138, the clock.** Whatever numbers come in (NaNs and infinities too), and however many, the inner loop ends, the decoder does not panic,
each window gives at most two bits, only the bits 0 and 1 are given, and the time stays a finite number between minus one half and one bit. -/
theorem C138_bounded {fuel : ℕ} (hf : 3 ≤ fuel) (ds : List Val) :
    ∃ (s : Rx Val) (bits : List Bool), listen fuel start ds = some s ∧
      Finite s.clk.currentTime ∧ -(1 / 2400) - 1 / 10 ^ 17 < s.clk.currentTime.toRat ∧ s.clk.currentTime.toRat < 1 / 1200 + 1 / 10 ^ 17 ∧
      run newDecoder (bits.map bitInt) = some (s.dec, s.out) ∧ bits.length ≤ 2 * ds.length := by
  obtain ⟨s, bits, e, i, ⟨os, g1, g2⟩, l, m⟩ := hear_inv hf start (ds.map level) start_inv
  have hb : (bits.map (fun b => decide (b = 1))).map bitInt = bits := by
    rw [List.map_map]
    conv_rhs => rw [← List.map_id bits]
    apply List.map_congr_left
    intro b hb
    rcases m b hb with rfl | rfl <;> rfl
  have d1 := abs_le.1 bit_clock.2
  have ee : ε = 1 / 2 ^ 60 := rfl
  norm_num at ee
  refine ⟨s, bits.map (fun b => decide (b = 1)), e, i.fin, ?_, ?_, ?_, by simpa using l⟩
  · have := i.lo
    norm_num
    linarith
  · have := i.hi
    norm_num
    linarith
  · rw [hb, g2]
    exact g1

/-- Non-vacuity: three tests of the loop condition, on numbers of every kind. -/
example : 3 ≤ 3 ∧ [Val.nan, .inf true, .fin false 60].length = 3 := ⟨le_refl _, rfl⟩

/-- **C138, free running.** While no tone change is seen the bits given are all 1, and there are as many as whole bit times have passed, up to a drift
of 10⁻¹⁷ seconds per window. -/
theorem C138_idle {fuel : ℕ} (hf : 3 ≤ fuel) (ds : List Val) (hd : ∀ d ∈ ds, Spec.Quiet d ∨ Spec.Tone d false) :
    ∃ (s : Rx Val) (n : ℕ), listen fuel start ds = some s ∧
      run newDecoder (List.replicate n 1) = some (s.dec, s.out) ∧
      (n : ℚ) / 1200 ≤ ds.length * (4 / 44100) + (ds.length + 1) / 10 ^ 17 ∧
      (ds.length : ℚ) * (4 / 44100) ≤ (n + 1) / 1200 + (ds.length + 1) / 10 ^ 17 := by
  obtain ⟨e0, e1, t1, t2, w1, w2, k1, k2⟩ := constants
  norm_num at e1
  suffices h : ∃ (s : Rx Val) (n : ℕ), listen fuel start ds = some s ∧
      Gave start s (List.replicate n 1) ∧ s.clk.transition = false ∧ s.clk.prevBit = 0 ∧ Inv s.clk ∧ n ≤ ds.length ∧
      -(4 * ε) ≤ s.clk.currentTime.toRat ∧
      |s.clk.currentTime.toRat - (ds.length * W - n * T)| ≤ 3 * ds.length * ε by
    obtain ⟨s, n, e, ⟨os, g1, g2⟩, _, _, i, hn, h1, h2⟩ := h
    have h2 := abs_le.1 h2
    have hn : (n : ℚ) ≤ ds.length := by exact_mod_cast hn
    have hn0 : (0 : ℚ) ≤ n := Nat.cast_nonneg n
    have hl0 : (0 : ℚ) ≤ ds.length := Nat.cast_nonneg _
    have hi := i.hi
    refine ⟨s, n, e, by rw [g2]; exact g1, ?_⟩
    have hNW : |(ds.length : ℚ) * (W - 4 / 44100)| ≤ ds.length * ε := by
      rw [abs_mul, abs_of_nonneg hl0]
      exact mul_le_mul_of_nonneg_left window_time.2 hl0
    have hnT : |(n : ℚ) * (T - 1 / 1200)| ≤ ds.length * ε := by
      rw [abs_mul, abs_of_nonneg hn0]
      exact mul_le_mul hn bit_clock.2 (abs_nonneg _) hl0
    have hNW := abs_le.1 hNW
    have hnT := abs_le.1 hnT
    have d1 := abs_le.1 bit_clock.2
    have hle : (ds.length : ℚ) * ε ≤ ds.length * (1 / 1000000000000000000) := mul_le_mul_of_nonneg_left e1 hl0
    norm_num
    constructor <;> linarith
  unfold listen
  induction ds using List.reverseRecOn with
  | nil =>
    refine ⟨start, 0, rfl, Gave.nil start _, rfl, rfl, start_inv, le_refl _, ?_, ?_⟩
    · show -(4 * ε) ≤ (Val.fin false 0).toRat
      simp [Val.toRat]
      exact e0.le
    · show |(Val.fin false 0).toRat - _| ≤ _
      simp [Val.toRat]
  | append_singleton ds d ih =>
    obtain ⟨s, n, e, g, t, p, i, hn, h1, h2⟩ := ih (fun x hx => hd x (by simp [hx]))
    have hl : level d = none ∨ level d = some s.clk.prevBit := by
      rcases hd d (by simp) with hq | ht
      · exact Or.inl (level_quiet hq)
      · right; rw [level_tone ht, p]; rfl
    have h2 := abs_le.1 h2
    have hi := i.hi
    have key := steady hf [level d] s 0 (by
      intro x hx; rw [List.mem_singleton.1 hx]; exact hl) i (by simp [t])
      (by simp only [List.length_singleton, Nat.cast_one, one_mul]; linarith)
    simp only [List.length_singleton, Nat.cast_one, one_mul, t] at key
    obtain ⟨s', e', p', i', c⟩ := key
    have hlen : (((ds ++ [d]).length : ℕ) : ℚ) = ds.length + 1 := by
      rw [List.length_append]; push_cast [List.length_singleton]; ring
    rw [hlen, List.map_append, List.map_singleton]
    have hW : 0 ≤ W := by linarith
    rcases c with ⟨c1, c2, c3, c4⟩ | ⟨c1, c2, c3, c4⟩
    · have c1 := abs_le.1 c1
      refine ⟨s', n, by rw [hear_append_some _ e, e'], by simpa using g.trans c4, c2, by rw [p', p], i', ?_, by linarith, ?_⟩
      · rw [List.length_append]; omega
      · rw [abs_le]
        constructor <;> linarith
    · have c2 := abs_le.1 c2
      refine ⟨s', n + 1, by rw [hear_append_some _ e, e'], ?_, c3, by rw [p', p], i', ?_, by linarith, ?_⟩
      · rw [List.replicate_succ']
        exact g.trans (by simpa using c4)
      · rw [List.length_append, List.length_singleton]; omega
      · push_cast
        rw [abs_le]
        constructor <;> linarith

/-- Non-vacuity: silence, an invalid number, and the higher tone. -/
example : Spec.Quiet (.fin false 3) ∧ Spec.Quiet .nan ∧ Spec.Tone (.fin true 60) false ∧ Spec.Tone (.inf true) false := by
  refine ⟨Or.inr ⟨⟨_, _, rfl, by norm_num⟩, ?_⟩, Or.inl rfl, Or.inr ⟨⟨_, _, rfl, by norm_num⟩, ?_, ?_⟩, Or.inl rfl⟩ <;>
    norm_num [Val.toRat, abs_of_nonneg, abs_of_neg]

/-- **C138, a whole transmission.** After any input at all, of any length, a transmission of two flags, the stuffed bits of an AX.25 frame with its
frame check sequence and a closing flag makes the last `Feed` call of the program return the frame that was sent; between the opening flag and that
call no frame is returned.  The sender's bits take the time `T'`, and changes of the tone are seen with a delay below `e`: it is enough that
`8 |T' - 1/1200| + e` is at most half a bit and `3/2 · 1/1200 + e` at most two bits of the sender, each but for 10⁻¹⁵ seconds. -/
theorem C138_received {T' φ e : ℚ} {fuel : ℕ} (hf : 3 ≤ fuel)
    (he : 8 * |T' - 1 / 1200| + e + 1 / 10 ^ 15 ≤ 1 / 2400) (he2 : 1 / 800 + e + 1 / 10 ^ 15 ≤ 2 * T') (past : List Val)
    (dst src : Station) (reps : List Station) (c : Control) (pid : Byte) (info : List Byte)
    (hd : dst.Valid) (hsrc : src.Valid) (hr : ∀ r ∈ reps, r.Valid) (hc : c.Valid)
    (hi : CarriesInfo c) (hlen : (encodeFrame dst src reps c.encode (pid :: info)).length ≤ 510)
    {f : ℕ → Val} {B : ℕ → ℕ} {v : ℕ → Bool} :
    let p := encodeFrame dst src reps c.encode (pid :: info)
    let line := stuff (bytesBits (p ++ fcs p)) ++ flag
    let bits := flag ++ flag ++ line
    Carries v bits → Timed T' (4 / 44100) φ e B bits.length →
    (∀ i, i < bits.length → Spec.Sends f B v i) →
    ∃ (s : Rx Val) (before : List (Option Frame)) (fr : Frame),
      listen fuel start (past ++ between f (B 0) (B bits.length)) = some s ∧
      s.out = before ++ List.replicate (line.length - 1) none ++ [some fr] ∧
      fr.destination = ⟨dst.call, dst.ssid⟩ ∧ fr.source = ⟨src.call, src.ssid⟩ ∧
      fr.repeaters = reps.map (fun s => ⟨s.call, s.ssid⟩) ∧
      (fr.v1 = true ↔ dst.top = src.top) ∧ (fr.command = true ↔ dst.top = true ∧ src.top = false) ∧
      ControlFields fr c ∧ fr.pid = pid ∧ fr.info = info := by
  intro p line bits hv ht hs'
  have hs : ∀ i, i < bits.length → Shows (fun n => level (f n)) B v i := fun i h => shows_of_sends (hs' i h)
  have hbl : bits.length = 16 + line.length := by
    simp only [bits, List.length_append]; rfl
  have hll : 8 ≤ line.length := by
    have : flag.length = 8 := rfl
    simp only [line, List.length_append]; omega
  -- the past
  obtain ⟨s0, _, e0, i0, _⟩ := hear_inv hf start (past.map level) start_inv
  unfold listen
  rw [List.map_append, between_level]
  generalize (fun n => level (f n)) = g at hs
  -- the first seven bits
  have h7 : ∀ n, n ≤ 6 → ∃ s, hear fuel s0 (between g (B 0) (B (n + 1))) = some s ∧
      Inv s.clk ∧ s.clk.prevBit = bitInt (v (n + 1)) := by
    intro n hn
    induction n with
    | zero =>
      obtain ⟨s, _, e1, i1, _⟩ := hear_inv hf s0 (between g (B 0) (B (0 + 1))) i0
      refine ⟨s, e1, i1, bit_prevBit (hs 0 (by omega)) s0 s (Or.inl ?_) e1⟩
      intro h
      have := (hv 0 (by omega)).1 h
      simp [bits, flag] at this
    | succ n ih =>
      obtain ⟨s, e1, i1, p1⟩ := ih (by omega)
      obtain ⟨s', _, e2, i2, _⟩ := hear_inv hf s (between g (B (n + 1)) (B (n + 1 + 1))) i1
      refine ⟨s', ?_, i2, bit_prevBit (hs (n + 1) (by omega)) s s' (Or.inr p1) e2⟩
      rw [between_append g (shows_mono (k0 := 0) (fun i _ h => hs i h) (n + 1) (by omega) (by omega))
        (le_of_lt (hs (n + 1) (by omega)).1), hear_append_some _ e1, e2]
  obtain ⟨s7, e7, i7, p7⟩ := h7 6 (le_refl _)
  -- from the end of the first flag on
  have hok : OkRuns 0 bits := by
    simp only [bits, line, List.append_assoc]
    refine okRuns_flag _ _ (okRuns_flag _ _ ?_)
    refine okRuns_stuffFrom _ _ 0 (by omega) ?_
    intro k _
    have := okRuns_flag [] k trivial
    simpa using this
  have hz : ∀ i, (h : i < bits.length) → bits[i] = false → v (i + 1) ≠ v i := by
    intro i h hb hvv
    have := (hv i h).1 hvv
    rw [hb] at this
    exact absurd this (by simp)
  have hb7 : bits[7]'(by omega) = false := by simp [bits, flag]
  have hb8 : bits[8]'(by omega) = false := by simp [bits, flag]
  obtain ⟨s', pre, e', ⟨os, g1, g2⟩, hpre⟩ := relock hf (by omega : 7 + 1 < bits.length) s7 p7 i7
    (hz 7 (by omega) hb7) (hz 8 (by omega) hb8) (two_bits (k := 7) (by omega) he he2 ht)
    (fun i _ h => hs i h) (inStepE_of_timed he ht hv hok 7)
  have hdrop : sentBits v (7 + 1) bits.length = flag ++ line := by
    rw [sentBits_carries hv]
    simp [bits, flag]
  rw [hdrop, List.map_append] at g1
  obtain ⟨d2, fr, r1, r2⟩ := C10_frame_roundtrip (runRaw s7.dec pre).1 dst src reps c pid info hd hsrc
    hr hc hi hlen
  have r0 := run_append _ _ _ _ _ _ _ (run_eq s7.dec pre)
    (run_append _ _ _ _ _ _ _ (run_eq (runRaw s7.dec pre).1 (flag.map bitInt)) r1)
  rw [g1] at r0
  obtain ⟨_, hos⟩ := Prod.mk.injEq .. ▸ Option.some.inj r0
  refine ⟨s', s7.out ++ ((runRaw s7.dec pre).2.map (fun o => o.bind frameOf) ++
    (runRaw (runRaw s7.dec pre).1 (flag.map bitInt)).2.map (fun o => o.bind frameOf)), fr, ?_, ?_, r2⟩
  · rw [hear_append_some _ e0, between_append g
      (shows_mono (k0 := 0) (fun i _ h => hs i h) 7 (by omega) (by omega))
      (shows_mono (k0 := 7) (fun i _ h => hs i h) bits.length (by omega) (le_refl _)),
      hear_append_some _ e7, e']
  · rw [g2, hos]
    simp only [List.append_assoc]
    rfl

/-- Non-vacuity of `C138_received`: whatever bits are to be sent, an ideal sender at 1200 baud makes such an input. -/
theorem ideal_sender64 (bits : List Bool) :
    let T' : ℚ := 1 / 1200
    let w : ℚ := 4 / 44100
    let B : ℕ → ℕ := fun i => (147 * i + 15) / 16
    let v := tones bits
    let f : ℕ → Val := fun n => if v (16 * n / 147 + 1) then .fin false 60 else .fin true 60
    8 * |T' - 1 / 1200| + w + 1 / 10 ^ 15 ≤ 1 / 2400 ∧ 1 / 800 + w + 1 / 10 ^ 15 ≤ 2 * T' ∧
      Carries v bits ∧ Timed T' (4 / 44100) 0 w B bits.length ∧ ∀ i, Spec.Sends f B v i := by
  intro T' w B v f
  obtain ⟨-, -, -, -, h5, h6, -⟩ := ideal_sender bits
  refine ⟨by norm_num [w, T'], by norm_num [w, T'], h5, h6, ?_⟩
  intro i
  have hn : ∀ n, B i ≤ n → n < B (i + 1) → Spec.Tone (f n) (v (i + 1)) := by
    intro n h1 h2
    have hi : 16 * n / 147 = i := by simp only [B] at h1 h2; omega
    simp only [f, hi]
    right
    cases v (i + 1)
    · refine ⟨⟨_, _, rfl, by norm_num⟩, ?_, ?_⟩ <;> norm_num [Val.toRat, abs_of_neg]
    · refine ⟨⟨_, _, rfl, by norm_num⟩, ?_, ?_⟩ <;> norm_num [Val.toRat, abs_of_nonneg]
  have hlt : B i < B (i + 1) := by simp only [B]; omega
  exact ⟨hlt, fun _ => hn _ (le_refl _) hlt, fun n a b => Or.inr (hn n a b)⟩

/-- Non-vacuity of `C138_received`: a station identifies itself. -/
example :
    let dst : Station := ⟨[0x41, 0x50, 0x52, 0x53], 0, true⟩
    let src : Station := ⟨[0x4b, 0x41, 0x39, 0x51], 1, false⟩
    dst.Valid ∧ src.Valid ∧ (Control.u 0 0 false).Valid ∧ CarriesInfo (.u 0 0 false) ∧
      (encodeFrame dst src [] (Control.u 0 0 false).encode [0xf0, 0x21, 0x22]).length ≤ 510 := by
  simp only [Station.Valid, Control.Valid, CarriesInfo]
  decide

end Verif.Ax25.Clock64
