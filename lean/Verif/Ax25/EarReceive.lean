import Verif.Ax25.EarProps
import Verif.Ax25.EarTime

/-!
# C139, continued: loud recordings
-/

namespace Verif.Ax25.Ear

open Verif.Ax25 Verif.Ax25.Spec Verif.Ax25.Clock.Spec Verif.Fp Verif.Dft Verif.Dtmf Verif.Filt Verif.Conv Verif.Ax25.Ear.Spec

/-! ### The samples of a block -/

theorem flatten_length_eight {l : List (List Byte)} (h : ∀ r ∈ l, r.length = 8) : l.flatten.length = 8 * l.length := by
  induction l with
  | nil => rfl
  | cons r l ih =>
    rw [List.flatten_cons, List.length_append, ih fun r' h' => h r' (by simp [h']), h r (by simp), List.length_cons]
    ring

theorem block_samples {past now : List (List Byte)} (hp : ∀ r ∈ past, r.length ≤ 8) (hn : ∀ r ∈ now, r.length = 8) {n i : ℕ}
    (h1 : 4 * past.length + 32 ≤ 4 * n + i) (hi : i < 36) (h2 : n < past.length + now.length) :
    (vals (after Front.start ((past ++ now).take (n + 1))).samples).getD i 0 = (pcmAt now.flatten (4 * n + i - 32 - 4 * past.length) : ℝ) / 32768 := by
  have hall : ∀ r ∈ past ++ now, r.length ≤ 8 := by
    intro r hr
    rcases List.mem_append.1 hr with h | h
    · exact hp r h
    · exact (hn r h).le
  have hall' : ∀ r ∈ (past ++ now).take (n + 1), r.length ≤ 8 := fun r hr => hall r (List.mem_of_mem_take hr)
  have hlen := after_length hall'
  rw [vals_getD _ _ (by rw [hlen]; exact hi)]
  obtain ⟨s1, s2⟩ := after_samples start_lengths.1 start_lengths.2 hall'
  obtain ⟨-, s3⟩ := after_samples start_lengths.1 start_lengths.2 hp
  have hl : ((past ++ now).take (n + 1)).length = n + 1 := by rw [List.length_take, List.length_append]; omega
  have ht : (past ++ now).take (n + 1) = past ++ now.take (n + 1 - past.length) := by
    rw [List.take_append, List.take_of_length_le (by omega)]
  set q := n + 1 - past.length with hq
  have hnq : ∀ r ∈ now.take q, r.length = 8 := fun r hr => hn r (List.mem_of_mem_take hr)
  have hql : (now.take q).length = q := by rw [List.length_take]; omega
  have hfl := flatten_length_eight hnq
  rw [hql] at hfl
  have key : (after Front.start ((past ++ now).take (n + 1))).samples[i]? = some (sample (now.flatten.getD (2 * (4 * n + i - 32 - 4 * past.length)) 0)
      (now.flatten.getD (2 * (4 * n + i - 32 - 4 * past.length) + 1) 0)) := by
    rw [s1, hl, List.getElem?_drop, List.getElem?_append_right (by rw [start_lengths.2]; omega), start_lengths.2, ht, stream_append,
      stream_full (after_buf start_lengths.1 hp) hnq, List.getElem?_append_right (by rw [s3]; omega), s3]
    have e : 4 * (n + 1) + i - 36 - 4 * past.length = 4 * n + i - 32 - 4 * past.length := by omega
    rw [e, samplesOf_get _ _ (by rw [hfl]; omega)]
    have hsplit : now.flatten = (now.take q).flatten ++ (now.drop q).flatten := by rw [← List.flatten_append, List.take_append_drop]
    rw [hsplit]
    simp only [List.getD_eq_getElem?_getD]
    rw [List.getElem?_append_left (by rw [hfl]; omega), List.getElem?_append_left (by rw [hfl]; omega)]
  rw [List.getElem?_eq_getElem (by rw [hlen]; exact hi)] at key
  rw [Option.some.inj key, (sample_val _ _).2.2.2, word_pcm]
  rfl

theorem tone_pitch (b : Bool) : 2 * Real.pi * tone b / 44100 = pitch b * Ball.unit := by
  cases b <;> simp only [tone, pitch, Ball.unit] <;> norm_num <;> ring

/-- A block with a boundary at `c` samples is a mixed block. -/
theorem mixed_of {θ : ℝ → ℝ} {t0 P A : ℝ} {v : ℕ → Bool} {L i n : ℕ} (hθ : Afsk θ t0 P v (L + 1)) (hi : i ≤ L) (hP : 36.7 ≤ 44100 * P)
    (h0 : 0 ≤ 4 * (n : ℝ) + 4 - (44100 * t0 + i * (44100 * P))) (h1 : 4 * (n : ℝ) + 4 - (44100 * t0 + i * (44100 * P)) < 37) {x : ℕ → ℝ}
    (hx : ∀ j < 36, |x j - A * Real.sin (θ ((4 * (n : ℝ) + j - 32) / 44100))| ≤ 1 / 300) :
    Mixed A (v i) (v (i + 1)) ⌊4 * (n : ℝ) + 4 - (44100 * t0 + i * (44100 * P))⌋₊ x := by
  set b := 44100 * t0 + i * (44100 * P) with hb
  set u := 4 * (n : ℝ) + 4 - b with hu
  have f1 := Nat.floor_le h0
  have f2 := Nat.lt_floor_add_one u
  set q := ⌊u⌋₊ with hq
  have hq36 : q ≤ 36 := by
    have : (q : ℝ) < 37 := by linarith
    have : q < 37 := by exact_mod_cast this
    omega
  have hm : ((36 - q : ℕ) : ℝ) = 36 - q := by rw [Nat.cast_sub hq36]; norm_num
  have hbt : b / 44100 = t0 + i * P := by rw [hb]; ring
  refine ⟨θ (b / 44100) + pitch (v i) * Ball.unit * (u - q), u - q, by linarith, by linarith, fun j hj => ?_⟩
  have hj' : (j : ℝ) ≤ 35 := by exact_mod_cast (by omega : j ≤ 35)
  have hj0 : (0 : ℝ) ≤ j := Nat.cast_nonneg j
  have e : Real.sin (θ ((4 * (n : ℝ) + j - 32) / 44100)) = ideal (pitch (v i)) (pitch (v (i + 1))) (θ (b / 44100) + pitch (v i) * Ball.unit * (u - q))
      ((pitch (v (i + 1)) - pitch (v i)) * (u - q)) (36 - q) j := by
    unfold ideal
    rw [hm]
    split
    · rename_i hlt
      have hlt' : (j : ℝ) + 1 ≤ 36 - q := by
        rw [← hm]
        exact_mod_cast hlt
      have := hθ i (by omega) ((4 * (n : ℝ) + j - 32) / 44100) (b / 44100) (by rw [le_div_iff₀ (by norm_num)]; linarith)
        (by gcongr; linarith) (by rw [hbt])
      rw [this]
      congr 1
      have e2 := tone_pitch (v i)
      have e3 : 2 * Real.pi * tone (v i) * (b / 44100 - (4 * (n : ℝ) + j - 32) / 44100) = 2 * Real.pi * tone (v i) / 44100 * (b - (4 * (n : ℝ) + j - 32)) := by ring
      rw [e3, e2, hu]
      ring
    · rename_i hlt
      have hlt' : (36 - q : ℝ) ≤ j := by
        rw [← hm]
        exact_mod_cast not_lt.1 hlt
      have := hθ (i + 1) (by omega) (b / 44100) ((4 * (n : ℝ) + j - 32) / 44100) (by rw [hbt]; push_cast; linarith)
        (by gcongr; linarith) (by rw [div_le_iff₀ (by norm_num)]; push_cast; linarith)
      rw [this]
      congr 1
      have e2 := tone_pitch (v (i + 1))
      have e3 : 2 * Real.pi * tone (v (i + 1)) * ((4 * (n : ℝ) + j - 32) / 44100 - b / 44100)
          = 2 * Real.pi * tone (v (i + 1)) / 44100 * ((4 * (n : ℝ) + j - 32) - b) := by ring
      rw [e3, e2, hu]
      ring
  rw [← e]
  exact hx j hj

/-- Rational times near the real ones. -/
theorem rational_times {a P : ℝ} (L : ℕ) : ∃ T' φ : ℚ, (∀ i ≤ L, |(i * T' + φ : ℝ) - (i * P + a) + 1 / 10 ^ 9| < 1 / 10 ^ 9) ∧ |(T' : ℝ) - P| < 1 / 10 ^ 10 := by
  have hL : (0 : ℝ) < L + 1 := by positivity
  have hL2 : (0 : ℝ) < 1 / 10 ^ 10 / (L + 1) := by positivity
  obtain ⟨T', t1, t2⟩ := exists_rat_btwn (show P < P + 1 / 10 ^ 10 / (L + 1) by linarith)
  obtain ⟨φ, p1, p2⟩ := exists_rat_btwn (show a - 1 / 10 ^ 9 - 1 / 10 ^ 10 < a - 1 / 10 ^ 9 by norm_num)
  refine ⟨T', φ, fun i hi => ?_, ?_⟩
  · have hi' : (i : ℝ) ≤ L := by exact_mod_cast hi
    have h0 : (0 : ℝ) ≤ i := Nat.cast_nonneg i
    have h1 : (i : ℝ) * (T' - P) ≤ 1 / 10 ^ 10 := by
      have : (T' : ℝ) - P ≤ 1 / 10 ^ 10 / (L + 1) := by linarith
      calc (i : ℝ) * (T' - P) ≤ i * (1 / 10 ^ 10 / (L + 1)) := mul_le_mul_of_nonneg_left this h0
        _ ≤ (L + 1) * (1 / 10 ^ 10 / (L + 1)) := mul_le_mul_of_nonneg_right (by linarith) (by positivity)
        _ = 1 / 10 ^ 10 := by field_simp
    have h2 : 0 ≤ (i : ℝ) * (T' - P) := mul_nonneg h0 (by linarith)
    have e : (i * T' + φ : ℝ) - (i * P + a) + 1 / 10 ^ 9 = i * (T' - P) + (φ - a + 1 / 10 ^ 9) := by ring
    rw [e, abs_lt]
    norm_num at h1 p1 p2 ⊢
    constructor <;> linarith
  · have h3 : (1 : ℝ) / 10 ^ 10 / (L + 1) ≤ 1 / 10 ^ 10 := by
      rw [div_le_iff₀ hL]
      have : (0 : ℝ) ≤ L := Nat.cast_nonneg L
      norm_num
    rw [abs_lt]
    constructor <;> linarith

/-- **C139.** A recording of audio frequency shift keying with a frame in it makes the program return that frame.  The recording is 44100 samples per
second of 16 bits; between the time `P` of a bit before the first bit and the same time after the last, each sample is `A sin θ`, where `0.81 ≤ A ≤ 1`
and `θ` is the phase of the two tones without jumps, up to noise of 1/300 of full scale.  What was in the recording before (`past`, in reads of any
sizes) does not matter, and the bit time may be off by 1/800.  The bits are two flags, the stuffed frame with its check sequence, and a flag.  No
later than 28 samples after the end of these bits `Feed` returns the frame that was sent, and no frame since the second opening flag. -/
theorem C139_received {other : Val → Nat} {cos sin : FVal binary64 → FVal binary64} {η : ℝ} (hη0 : 0 ≤ η) (hη : η ≤ 1 / 2 ^ 50)
    (hT : Trig cos sin 9 η) {fuel : ℕ} (hf : 3 ≤ fuel) (dst src : Station) (reps : List Station) (c : Control) (pid : Byte) (info : List Byte)
    (hd : dst.Valid) (hsrc : src.Valid) (hr : ∀ r ∈ reps, r.Valid) (hc : c.Valid)
    (hi : CarriesInfo c) (hlen : (encodeFrame dst src reps c.encode (pid :: info)).length ≤ 510)
    {v : ℕ → Bool} {θ : ℝ → ℝ} {t0 P A : ℝ} (hA1 : 0.81 ≤ A) (hA2 : A ≤ 1) (hP : |1200 * P - 1| ≤ 1 / 800)
    {past now : List (List Byte)} (hpast : ∀ r ∈ past, r.length ≤ 8) (hnow : ∀ r ∈ now, r.length = 8)
    (hstart : 4 * (past.length : ℝ) / 44100 ≤ t0 - P) :
    let p := encodeFrame dst src reps c.encode (pid :: info)
    let line := stuff (bytesBits (p ++ fcs p)) ++ flag
    let bits := flag ++ flag ++ line
    Carries v bits → Afsk θ t0 P v (bits.length + 1) →
    Recorded now.flatten (4 * past.length) A θ (1 / 300) (t0 - P) (t0 + (bits.length + 1) * P) →
    t0 + (bits.length + 1) * P ≤ 4 * (past.length + now.length : ℝ) / 44100 →
    ∀ ds, Diffs other cos sin Front.start (past ++ now) ds →
    ∃ (n : ℕ) (s : Clock.Rx Val) (before : List (Option Frame)) (fr : Frame),
      n ≤ ds.length ∧ (4 * n : ℝ) / 44100 ≤ t0 + bits.length * P + 28 / 44100 ∧
      Clock64.listen fuel Clock64.start (ds.take n) = some s ∧
      s.out = before ++ List.replicate (line.length - 1) none ++ [some fr] ∧
      fr.destination = ⟨dst.call, dst.ssid⟩ ∧ fr.source = ⟨src.call, src.ssid⟩ ∧
      fr.repeaters = reps.map (fun s => ⟨s.call, s.ssid⟩) ∧
      (fr.v1 = true ↔ dst.top = src.top) ∧ (fr.command = true ↔ dst.top = true ∧ src.top = false) ∧
      ControlFields fr c ∧ fr.pid = pid ∧ fr.info = info := by
  intro p line bits hv hθ hrec hend ds hds
  obtain ⟨l1, l2⟩ := diffs_spec hds
  rw [List.length_append] at l1
  rw [abs_le] at hP
  have p1 : 36.7 ≤ 44100 * P := by linarith
  have p2 : 44100 * P ≤ 36.8 := by linarith
  have hpl : (0 : ℝ) ≤ past.length := Nat.cast_nonneg _
  rw [div_le_iff₀ (by norm_num)] at hstart
  rw [le_div_iff₀ (by norm_num)] at hend
  have ht0 : 0 ≤ 44100 * t0 := by linarith
  set f : ℕ → Val := fun n => ds.getD n .nan with hfdef
  -- the facts about the blocks
  have H : ∀ i ≤ bits.length, ∀ n : ℕ, 0 ≤ 4 * (n : ℝ) + 4 - (44100 * t0 + i * (44100 * P)) →
      4 * (n : ℝ) + 4 - (44100 * t0 + i * (44100 * P)) < 37 →
      Facts (wait A) (v i) (v (i + 1)) ⌊4 * (n : ℝ) + 4 - (44100 * t0 + i * (44100 * P))⌋₊ (f n) := by
    intro i hi n h0 h1
    have hi' : (i : ℝ) ≤ bits.length := by exact_mod_cast hi
    have hi0 : 0 ≤ (i : ℝ) * (44100 * P) := mul_nonneg (Nat.cast_nonneg i) (by linarith)
    have hiL : (i : ℝ) * (44100 * P) ≤ bits.length * (44100 * P) := mul_le_mul_of_nonneg_right hi' (by linarith)
    have n1 : past.length + 8 ≤ n := by
      have : (past.length : ℝ) + 8 ≤ n := by linarith
      exact_mod_cast this
    have n2 : n < past.length + now.length := by
      have : (n : ℝ) < past.length + now.length := by linarith
      exact_mod_cast this
    have hall : ∀ r ∈ (past ++ now).take (n + 1), r.length ≤ 8 := by
      intro r hr
      rcases List.mem_append.1 (List.mem_of_mem_take hr) with h | h
      · exact hpast r h
      · exact (hnow r h).le
    obtain ⟨g1, g2⟩ := diff_err hη0 hη hT (after_length hall) (after_good ((past ++ now).take (n + 1))) (l2 n (by omega))
    have ef : f n = ds[n] := by
      rw [hfdef]
      simp only [List.getD_eq_getElem?_getD]
      rw [List.getElem?_eq_getElem (by omega : n < ds.length), Option.getD_some]
    rw [ef]
    have hq36 : ⌊4 * (n : ℝ) + 4 - (44100 * t0 + i * (44100 * P))⌋₊ ≤ 36 := by
      have : ⌊4 * (n : ℝ) + 4 - (44100 * t0 + i * (44100 * P))⌋₊ < 37 := by
        rw [Nat.floor_lt h0]
        exact_mod_cast h1
      omega
    refine facts_of hA1 hA2 hq36 (mixed_of hθ hi p1 h0 h1 fun j hj => ?_) g1 g2
    rw [block_samples hpast hnow (by omega) hj n2]
    have hj' : (j : ℝ) ≤ 35 := by exact_mod_cast (by omega : j ≤ 35)
    have hj0 : (0 : ℝ) ≤ j := Nat.cast_nonneg j
    have ek : ((4 * past.length : ℕ) : ℝ) + ((4 * n + j - 32 - 4 * past.length : ℕ) : ℝ) = 4 * (n : ℝ) + j - 32 := by
      rw [Nat.cast_sub (by omega), Nat.cast_sub (by omega)]
      push_cast
      ring
    have := hrec (4 * n + j - 32 - 4 * past.length) (by
      rw [ek, le_div_iff₀ (by norm_num)]
      linarith) (by
      rw [ek, div_le_iff₀ (by norm_num)]
      linarith) (by
      rw [flatten_length_eight hnow]
      omega)
    rw [ek] at this
    exact this
  obtain ⟨B, b1, b2⟩ := bits_seen (by rcases wait_cases A with ⟨w, _⟩ | ⟨w, _⟩ <;> omega) ht0 p1 p2 H
  have hj : (13 : ℝ) ≤ wait A ∧ (wait A : ℝ) ≤ 14 := by rcases wait_cases A with ⟨w, _⟩ | ⟨w, _⟩ <;> rw [w] <;> norm_num
  obtain ⟨T', φ, t1, t2⟩ := rational_times (a := t0 + (wait A - 4) / 44100) (P := P) bits.length
  rw [abs_lt] at t2
  have hT1 : |(T' : ℝ) - 1 / 1200| ≤ 1 / 960000 + 1 / 10 ^ 10 := by
    rw [abs_le]
    constructor <;> linarith
  have q1 : 8 * |T' - 1 / 1200| + (18 / 44100 + 2 / 10 ^ 9) + 1 / 10 ^ 15 ≤ 1 / 2400 := by
    rw [← Rat.cast_le (K := ℝ)]
    push_cast
    norm_num at hT1 ⊢
    linarith
  have q2 : 1 / 800 + (18 / 44100 + 2 / 10 ^ 9) + 1 / 10 ^ 15 ≤ 2 * T' := by
    rw [← Rat.cast_le (K := ℝ)]
    push_cast
    rw [abs_le] at hT1
    norm_num at hT1 ⊢
    linarith
  have timed : Timed T' (4 / 44100) φ (18 / 44100 + 2 / 10 ^ 9) B bits.length := by
    intro i hi
    obtain ⟨c1, c2⟩ := b1 i hi
    have := t1 i hi
    rw [abs_lt] at this
    have r1 : (i : ℝ) * T' + φ ≤ B i * (4 / 44100) := by norm_num at this ⊢; linarith
    have r2 : (B i : ℝ) * (4 / 44100) < i * T' + φ + (18 / 44100 + 2 / 10 ^ 9) := by norm_num at this ⊢; linarith
    constructor
    · rw [← Rat.cast_le (K := ℝ)]
      push_cast
      exact r1
    · rw [← Rat.cast_lt (K := ℝ)]
      push_cast
      exact r2
  obtain ⟨s, before, fr, e1, e2⟩ := Clock64.C138_received hf q1 q2 (ds.take (B 0)) dst src reps c pid info hd hsrc hr hc hi hlen hv timed b2
  have hBL := (b1 bits.length le_rfl).2
  have hBn : B bits.length ≤ ds.length := by
    have : (B bits.length : ℝ) ≤ ds.length := by
      rw [l1]
      push_cast
      linarith
    exact_mod_cast this
  have hB0 : B 0 ≤ B bits.length := by
    have c1 := (b1 0 (Nat.zero_le _)).2
    have c2 := (b1 bits.length le_rfl).1
    have hb16 : 16 ≤ bits.length := by
      simp only [bits, List.length_append]
      have : flag.length = 8 := rfl
      omega
    have hb16' : (16 : ℝ) ≤ bits.length := by exact_mod_cast hb16
    have : (B 0 : ℝ) ≤ B bits.length := by
      push_cast at c1
      nlinarith
    exact_mod_cast this
  refine ⟨B bits.length, s, before, fr, hBn, ?_, ?_, e2⟩
  · rw [div_le_iff₀ (by norm_num)]
    linarith
  · rw [← e1]
    congr 1
    have : ds.take (B bits.length) = ds.take (B 0) ++ (ds.take (B bits.length)).drop (B 0) := by
      conv_lhs => rw [← List.take_append_drop (B 0) (ds.take (B bits.length)), List.take_take, Nat.min_eq_left hB0]
    rw [this]
    congr 1
    refine List.ext_getElem (by
      rw [between, List.length_map, List.length_range', List.length_drop, List.length_take, Nat.min_eq_left hBn]) fun k h1 h2 => ?_
    simp only [between, List.getElem_map, List.getElem_range', List.getElem_drop, List.getElem_take, hfdef]
    rw [List.getD_eq_getElem?_getD, List.getElem?_eq_getElem]
    · simp
    · simp at h1
      omega

/-! ### Such recordings exist -/

theorem exists_afsk (v : ℕ → Bool) {t0 P : ℝ} (hP : 0 < P) : ∃ θ, ∀ n, Afsk θ t0 P v n := by
  let ph : ℕ → ℝ := fun n => Nat.rec 0 (fun i x => x + 2 * Real.pi * tone (v (i + 1)) * P) n
  have ph1 : ∀ i, ph (i + 1) = ph i + 2 * Real.pi * tone (v (i + 1)) * P := fun i => rfl
  let θ : ℝ → ℝ := fun t => ph ⌈(t - t0) / P⌉₊ + 2 * Real.pi * tone (v ⌈(t - t0) / P⌉₊) * (t - (t0 + ⌈(t - t0) / P⌉₊ * P))
  have key : ∀ (i : ℕ) (t : ℝ), t0 + (i - 1) * P ≤ t → t ≤ t0 + i * P → θ t = ph i + 2 * Real.pi * tone (v i) * (t - (t0 + i * P)) := by
    intro i t h1 h2
    have c2 : (t - t0) / P ≤ i := by rw [div_le_iff₀ hP]; linarith
    rcases eq_or_lt_of_le h1 with h | h
    · cases i with
      | zero =>
        have : ⌈(t - t0) / P⌉₊ = 0 := by
          have := Nat.ceil_le.2 c2
          omega
        simp only [θ, this]
      | succ i =>
        have e : (t - t0) / P = i := by
          rw [div_eq_iff hP.ne', ← h]
          push_cast
          ring
        have : ⌈(t - t0) / P⌉₊ = i := by rw [e, Nat.ceil_natCast]
        simp only [θ, this]
        rw [ph1, ← h]
        push_cast
        ring
    · have : ⌈(t - t0) / P⌉₊ = i := by
        apply le_antisymm (Nat.ceil_le.2 c2)
        by_contra hc
        have hc : ⌈(t - t0) / P⌉₊ + 1 ≤ i := by omega
        have hc' : (⌈(t - t0) / P⌉₊ : ℝ) + 1 ≤ i := by exact_mod_cast hc
        have := Nat.le_ceil ((t - t0) / P)
        have c3 : (t - t0) / P ≤ i - 1 := by linarith
        rw [div_le_iff₀ hP] at c3
        linarith
      simp only [θ, this]
  refine ⟨θ, fun n i _ s t h1 h2 h3 => ?_⟩
  rw [key i t (h1.trans h2) h3, key i s h1 (h2.trans h3)]
  ring

theorem pcm_bytes {w : ℤ} (h1 : -32768 ≤ w) (h2 : w ≤ 32767) : pcm (BitVec.ofInt 8 w) (BitVec.ofInt 8 (w / 256)) = w := by
  unfold pcm
  rw [BitVec.toNat_ofInt, BitVec.toNat_ofInt]
  norm_num
  split <;> omega

/-- Reads that return the given samples. -/
def reads (w : ℕ → ℤ) (M : ℕ) : List (List Byte) :=
  (List.range M).map fun a => (List.range' (8 * a) 8).map fun j => BitVec.ofInt 8 (if j % 2 = 0 then w (j / 2) else w (j / 2) / 256)

theorem reads_length (w : ℕ → ℤ) (M : ℕ) : (reads w M).length = M := by simp [reads]

theorem reads_eight (w : ℕ → ℤ) (M : ℕ) : ∀ r ∈ reads w M, r.length = 8 := by
  intro r hr
  obtain ⟨a, _, rfl⟩ := List.mem_map.1 hr
  simp

theorem reads_flatten (w : ℕ → ℤ) (M : ℕ) :
    (reads w M).flatten = (List.range (8 * M)).map fun j => BitVec.ofInt 8 (if j % 2 = 0 then w (j / 2) else w (j / 2) / 256) := by
  induction M with
  | zero => rfl
  | succ M ih =>
    have e : reads w (M + 1) = reads w M ++ [(List.range' (8 * M) 8).map fun j => BitVec.ofInt 8 (if j % 2 = 0 then w (j / 2) else w (j / 2) / 256)] := by
      unfold reads
      rw [List.range_succ, List.map_append, List.map_cons, List.map_nil]
    rw [e, List.flatten_append, ih, List.flatten_singleton, ← List.map_append]
    congr 1
    rw [List.range_eq_range', List.range_eq_range']
    have := List.range'_append (s := 0) (m := 8 * M) (n := 8) (step := 1)
    simp only [one_mul, zero_add] at this
    rw [this, show 8 * (M + 1) = 8 * M + 8 by ring]

theorem reads_pcm {w : ℕ → ℤ} {M j : ℕ} (h1 : -32768 ≤ w j) (h2 : w j ≤ 32767) (hj : 2 * j + 1 < 8 * M) : pcmAt (reads w M).flatten j = w j := by
  unfold pcmAt
  rw [reads_flatten]
  simp only [List.getD_eq_getElem?_getD, List.getElem?_map]
  rw [List.getElem?_range (by omega), List.getElem?_range hj]
  simp only [Option.map_some, Option.getD_some]
  rw [if_pos (by omega), if_neg (by omega), show 2 * j / 2 = j by omega, show (2 * j + 1) / 2 = j by omega, pcm_bytes h1 h2]

/-- Every waveform that is not too loud has a recording. -/
theorem exists_recording (θ : ℝ → ℝ) {A : ℝ} (h0 : 0 ≤ A) (h1 : A ≤ 0.9999) (k : ℕ) (a b : ℝ) (M : ℕ) :
    ∃ now : List (List Byte), now.length = M ∧ (∀ r ∈ now, r.length = 8) ∧ Recorded now.flatten k A θ (1 / 300) a b := by
  let w : ℕ → ℤ := fun j => ⌊32768 * (A * Real.sin (θ ((k + j : ℝ) / 44100)))⌋
  refine ⟨reads w M, reads_length w M, reads_eight w M, fun j _ _ hj => ?_⟩
  rw [flatten_length_eight (reads_eight w M), reads_length] at hj
  have s1 := Real.neg_one_le_sin (θ ((k + j : ℝ) / 44100))
  have s2 := Real.sin_le_one (θ ((k + j : ℝ) / 44100))
  have e : w j = ⌊32768 * (A * Real.sin (θ ((k + j : ℝ) / 44100)))⌋ := rfl
  generalize Real.sin (θ ((k + j : ℝ) / 44100)) = x at *
  have m1 : A * x ≤ 0.9999 := by nlinarith
  have m2 : -0.9999 ≤ A * x := by nlinarith
  generalize A * x = y at *
  have f1 := Int.floor_le (32768 * y)
  have f2 := Int.lt_floor_add_one (32768 * y)
  rw [← e] at f1 f2
  have w1 : -32768 ≤ w j := by
    have : (-32768 : ℝ) < w j + 1 := by linarith
    have : -32768 < w j + 1 := by exact_mod_cast this
    omega
  have w2 : w j ≤ 32767 := by
    have : (w j : ℝ) ≤ 32767 := by linarith
    exact_mod_cast this
  rw [reads_pcm w1 w2 hj, abs_le]
  constructor <;> linarith

/-- The tones that carry some bits. -/
def tones (bits : List Bool) : ℕ → Bool
  | 0 => true
  | i + 1 => if bits.getD i true then tones bits i else !tones bits i

theorem tones_carry (bits : List Bool) : Carries (tones bits) bits := by
  intro i h
  rw [tones, List.getD_eq_getElem?_getD, List.getElem?_eq_getElem h, Option.getD_some]
  cases bits[i] <;> simp

/-- The hypotheses of `C139_received` can be met, for every frame: 0.9 of full scale, 1200 bits per second, after a bit time of the first tone. -/
example (bits : List Bool) : ∃ (v : ℕ → Bool) (θ : ℝ → ℝ) (now : List (List Byte)), Carries v bits ∧ Afsk θ (1 / 1200) (1 / 1200) v (bits.length + 1) ∧
    (∀ r ∈ now, r.length = 8) ∧
    Recorded now.flatten 0 0.9 θ (1 / 300) (1 / 1200 - 1 / 1200) (1 / 1200 + (bits.length + 1) * (1 / 1200)) ∧
    (1 / 1200 : ℝ) + (bits.length + 1) * (1 / 1200) ≤ 4 * ((0 : ℕ) + now.length : ℝ) / 44100 := by
  obtain ⟨θ, hθ⟩ := exists_afsk (tones bits) (t0 := 1 / 1200) (P := 1 / 1200) (by norm_num)
  obtain ⟨now, n1, n2, n3⟩ := exists_recording θ (A := 0.9) (by norm_num) (by norm_num) 0 (1 / 1200 - 1 / 1200)
    (1 / 1200 + (bits.length + 1) * (1 / 1200)) (10 * (bits.length + 2))
  refine ⟨tones bits, θ, now, tones_carry bits, hθ _, n2, n3, ?_⟩
  rw [n1, le_div_iff₀ (by norm_num)]
  have : (0 : ℝ) ≤ bits.length := Nat.cast_nonneg _
  push_cast
  linarith

/-- There are functions with the accuracy assumed of `math.Cos` and `math.Sin`, and the numbers `diff` can always be computed. -/
example (other : Val → Nat) : ∃ cos sin : FVal binary64 → FVal binary64, Trig cos sin 9 (1 / 2 ^ 50) ∧
    ∀ rs, ∃ ds, Diffs other cos sin Front.start rs ds := by
  choose co c1 c2 c3 using fun x : FVal binary64 => exists_float (Real.cos (val x)) (Real.abs_cos_le_one _)
  choose si s1 _ s3 using fun x : FVal binary64 => exists_float (Real.sin (val x)) (Real.abs_sin_le_one _)
  exact ⟨co, si, fun x _ _ => ⟨⟨c1 x, c2 x, c3 x⟩, s1 x, s3 x⟩, fun rs => diffs_exist other co si Front.start rs⟩

end Verif.Ax25.Ear
