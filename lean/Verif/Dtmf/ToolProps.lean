import Verif.Dtmf.ToolModel
import Verif.Dtmf.DtmfProps

/-!
# Property C87: what the DTMF programs print, and from which samples
-/

namespace Verif.Dtmf
open Verif.Conv Verif.Dft

/-! ## Specification -/

variable {F S : Type}

/-- Block `i` confirms the key of the block before. `det i` are key and strength found in block `i`. -/
def Confirmed [LT S] [Zero S] (det : Nat → Nat × S) (i : Nat) : Prop :=
  0 < i ∧ (det i).1 = (det (i - 1)).1 ∧ (det i).2 > 0

instance [LT S] [DecidableLT S] [Zero S] (det : Nat → Nat × S) (i : Nat) : Decidable (Confirmed det i) := by
  unfold Confirmed; infer_instance

/-- Block `i` is the `r`-th confirmation in a row, counted from the beginning of the row. -/
def Prints [LT S] [Zero S] (r : Nat) (det : Nat → Nat × S) (i : Nat) : Prop :=
  (∀ j < r, Confirmed det (i - j)) ∧ ¬ Confirmed det (i - r)

instance [LT S] [DecidableLT S] [Zero S] (r : Nat) (det : Nat → Nat × S) (i : Nat) : Decidable (Prints r det i) := by
  unfold Prints; infer_instance

/-- The characters printed for the first `n` blocks. -/
def printed [LT S] [DecidableLT S] [Zero S] (r : Nat) (det : Nat → Nat × S) (n : Nat) : List Char :=
  ((List.range n).filter fun i => Prints r det i).filterMap fun i => keypad[(det i).1]?

/-- The value `v` multiplied in turn by the window at the positions `i + q * win`, …, `i + 2 * win`, `i + win`. -/
def aged [Mul S] (w : Nat → S) (win i : Nat) (v : S) (q : Nat) : S :=
  (List.range q).foldl (fun a l => a * w (i + (q - l) * win)) v

/-- What is at position `i` of the block of turn `j`, before this block is windowed: the sample belonging there (zero
before the first sample), multiplied by the window at each position it has been at. -/
def seen [Mul S] [Zero S] (N win : Nat) (w : Nat → S) (x : Nat → Nat → S) (j i : Nat) : S :=
  let q := (N - 1 - i) / win
  aged w win i (if q ≤ j then x (j - q) (i + q * win - (N - win)) else 0) (min q j)

/-! ## Keys -/

theorem press_run [LT S] [DecidableLT S] [Zero S] (t : Tool) (hr : 0 < t.repeats) (det : Nat → Nat × S) (hk : ∀ i, (det i).1 < 16) (n : Nat) :
    ∃ st, forRange n Keys.start (fun i st => press t st (det i).1 (det i).2) = some st ∧
      (st.lastKey = if n = 0 then -1 else ((det (n - 1)).1 : Int)) ∧
      (∀ j < st.keyCount, Confirmed det (n - 1 - j)) ∧ ¬ Confirmed det (n - 1 - st.keyCount) ∧ st.out = printed t.repeats det n := by
  induction n with
  | zero => exact ⟨_, rfl, rfl, by simp [Keys.start], by simp [Keys.start, Confirmed], rfl⟩
  | succ n ih =>
    obtain ⟨st, h1, h2, h3, h4, h5⟩ := ih
    rw [forRange, h1, Option.bind_some]
    have hcond : ((det n).1 : Int) = st.lastKey ∧ (det n).2 > 0 ↔ Confirmed det n := by
      rw [h2, Confirmed]
      split
      · subst n; constructor
        · rintro ⟨h, -⟩; omega
        · rintro ⟨h, -⟩; omega
      · constructor
        · rintro ⟨h, h'⟩; exact ⟨by omega, by omega, h'⟩
        · rintro ⟨-, h, h'⟩; exact ⟨by omega, h'⟩
    have hsucc : printed t.repeats det (n + 1) = printed t.repeats det n ++ (if Prints t.repeats det n then (keypad[(det n).1]?).toList else []) := by
      unfold printed
      rw [List.range_succ, List.filter_append, List.filterMap_append]
      congr 1
      by_cases h : Prints t.repeats det n
      · rw [if_pos h, List.filter_cons_of_pos (by simpa using h), List.filter_nil, List.filterMap_cons, List.filterMap_nil]
        cases keypad[(det n).1]? <;> rfl
      · rw [if_neg h, List.filter_cons_of_neg (by simpa using h)]
        rfl
    unfold press
    by_cases hc : Confirmed det n
    · rw [if_pos (hcond.2 hc)]
      dsimp only
      have g3 : ∀ j < st.keyCount + 1, Confirmed det (n - j) := by
        intro j hj
        rcases j with _ | j
        · exact hc
        · have := h3 j (by omega)
          rwa [show n - 1 - j = n - (j + 1) by omega] at this
      have g4 : ¬ Confirmed det (n - (st.keyCount + 1)) := by
        rwa [show n - 1 - st.keyCount = n - (st.keyCount + 1) by omega] at h4
      have hp : Prints t.repeats det n ↔ st.keyCount + 1 = t.repeats := by
        constructor
        · rintro ⟨p1, p2⟩
          rcases Nat.lt_trichotomy (st.keyCount + 1) t.repeats with h | h | h
          · exact absurd (p1 _ h) g4
          · exact h
          · exact absurd (g3 _ h) p2
        · rintro h
          rw [← h]
          exact ⟨g3, g4⟩
      obtain ⟨c, hkc⟩ : ∃ c, keypad[(det n).1]? = some c := ⟨_, List.getElem?_eq_getElem (by simpa [keypad] using hk n)⟩
      have hlast : st.lastKey = ((det n).1 : Int) := (hcond.2 hc).1.symm
      by_cases hq : st.keyCount + 1 = t.repeats
      · rw [if_pos hq, hkc]
        refine ⟨_, rfl, by simpa using hlast, by simpa using g3, by simpa using g4, ?_⟩
        rw [hsucc, if_pos (hp.2 hq), hkc, h5]
        rfl
      · rw [if_neg hq]
        refine ⟨_, rfl, by simpa using hlast, by simpa using g3, by simpa using g4, ?_⟩
        rw [hsucc, if_neg (fun h => hq (hp.1 h)), List.append_nil]
        exact h5
    · rw [if_neg (fun h => hc (hcond.1 h))]
      refine ⟨_, rfl, by simp, by simp, by simpa using hc, ?_⟩
      rw [hsucc, if_neg (fun h => hc (h.1 0 hr)), List.append_nil]
      exact h5

/-! ## Samples -/

theorem aged_succ [Mul S] (w : Nat → S) (win i : Nat) (v : S) (q : Nat) :
    aged w win i v (q + 1) = aged w win (i + win) v q * w (i + win) := by
  unfold aged
  rw [List.range_succ, List.foldl_append]
  simp only [List.foldl_cons, List.foldl_nil]
  have e : i + (q + 1 - q) * win = i + win := by rw [Nat.add_sub_cancel_left, Nat.one_mul]
  rw [e]
  congr 1
  apply List.foldl_ext
  intro a l hl
  have hl := List.mem_range.1 hl
  have e2 : (q + 1 - l) * win = win + (q - l) * win := by
    rw [show q + 1 - l = (q - l) + 1 by omega, Nat.succ_mul, Nat.add_comm]
  rw [e2, Nat.add_assoc]

theorem seen_new [Mul S] [Zero S] (N win : Nat) (w : Nat → S) (x : Nat → Nat → S) (j i : Nat) (hi : N - win ≤ i) (hN : i < N) :
    seen N win w x j i = x j (i - (N - win)) := by
  have e : (N - 1 - i) / win = 0 := Nat.div_eq_of_lt (by omega)
  unfold seen
  dsimp only
  rw [e, if_pos (Nat.zero_le _), Nat.zero_min, Nat.zero_mul, Nat.add_zero, Nat.sub_zero]
  rfl

theorem age_succ (N win i : Nat) (hw : 0 < win) (h : i + win < N) : (N - 1 - i) / win = (N - 1 - (i + win)) / win + 1 := by
  rw [show N - 1 - i = (N - 1 - (i + win)) + win by omega, Nat.add_div_right _ hw]

theorem seen_old [Mul S] [Zero S] (N win : Nat) (hw : 0 < win) (w : Nat → S) (x : Nat → Nat → S) (j i : Nat) (h : i + win < N) :
    seen N win w x (j + 1) i = seen N win w x j (i + win) * w (i + win) := by
  unfold seen
  dsimp only
  rw [age_succ N win i hw h]
  generalize (N - 1 - (i + win)) / win = q
  rw [show min (q + 1) (j + 1) = min q j + 1 by omega, aged_succ]
  congr 2
  by_cases hq : q ≤ j
  · rw [if_pos hq, if_pos (by omega), show j + 1 - (q + 1) = j - q by omega, Nat.succ_mul]
    congr 1
    omega
  · rw [if_neg hq, if_neg (by omega)]

theorem seen_start [Mul S] [Zero S] (N win : Nat) (hw : 0 < win) (w : Nat → S) (x : Nat → Nat → S) (i : Nat) (h : i + win < N) :
    seen N win w x 0 i = 0 := by
  unfold seen
  dsimp only
  rw [age_succ N win i hw h, if_neg (Nat.not_succ_le_zero _), Nat.min_zero]
  rfl

theorem shiftIn_eq (t : Tool) (hw : t.window ≤ t.blockSize) (m : Nat → S) (x : Nat → S) :
    ∃ m', shiftIn t m x = some m' ∧ ∀ i < t.blockSize, m' i = if i + t.window < t.blockSize then m (i + t.window) else x (i - (t.blockSize - t.window)) := by
  refine ⟨fill (copySlice m ⟨0, t.blockSize⟩ ⟨0 + t.window, t.blockSize - t.window⟩) (t.blockSize - t.window) t.window x, ?_, ?_⟩
  · unfold shiftIn
    dsimp only
    rw [drop_ok (by simpa using hw)]
    simp only [Option.bind_eq_bind, Option.bind_some]
    refine forRange_states (fun j => fill _ (t.blockSize - t.window) j x) (fill_zero _ _ _) ?_
    intro i hi
    rw [write_ok (by simp only; omega)]
    simp only [Nat.zero_add]
    exact congrArg some (update_fill _ _ _ _ _ rfl)
  · intro i hi
    split
    · rw [fill_out (by omega)]
      unfold copySlice
      rw [if_pos (by simp only; omega)]
      simp only
      congr 1
      omega
    · conv => lhs; rw [show i = (t.blockSize - t.window) + (i - (t.blockSize - t.window)) by omega]
      rw [fill_in (by omega)]

/-! ## C87 -/

variable [Add F] [Sub F] [Mul F] [Zero F] [Mul S] [LT S] [DecidableLT S] [Zero S]

/-- Key and strength found in the block of turn `j`: those a fresh detector finds in the samples `seen`. -/
def found (wide : S → F) (narrow : F → S) (d : DTMF F S) (t : Tool) (x : Nat → Nat → S) (j : Nat) : Nat × S :=
  outcome wide narrow (reset d.lowFreq) (reset d.highFreq) d.nHigh
    (windowed d.w t.blockSize ((List.range t.blockSize).map (seen t.blockSize t.window (fun i => d.w.getD i 0) x j)))

/-- A detector as made by `NewStandard` for the program. -/
structure Standard (t : Tool) (d : DTMF F S) : Prop where
  w : d.w.length = t.blockSize
  size : d.blockSize = t.blockSize
  low : d.lowFreq.length = 4
  high : d.highFreq.length = 4
  n : d.nHigh = 4

theorem found_lt (wide : S → F) (narrow : F → S) (d : DTMF F S) (t : Tool) (hd : Standard t d) (x : Nat → Nat → S) (j : Nat) :
    (found wide narrow d t x j).1 < 16 := by
  unfold found outcome
  dsimp only
  generalize windowed d.w _ _ = b
  have l1 : (magnitude narrow (feed wide (reset d.lowFreq) b)).length = 4 := by rw [magnitude_length, reset, List.length_map, hd.low]
  have l2 : (magnitude narrow (feed wide (reset d.highFreq) b)).length = 4 := by rw [magnitude_length, reset, List.length_map, hd.high]
  have b1 := maxOf_lt (magnitude narrow (feed wide (reset d.lowFreq) b)) (by intro h; rw [h] at l1; simp at l1)
  have b2 := maxOf_lt (magnitude narrow (feed wide (reset d.highFreq) b)) (by intro h; rw [h] at l2; simp at l2)
  rw [hd.n]
  omega

/-- The state of the loop after `n` turns. -/
theorem turns_eq (wide : S → F) (narrow : F → S) (t : Tool) (hw : 0 < t.window) (hN : t.window ≤ t.blockSize) (hr : 0 < t.repeats)
    (d : DTMF F S) (hd : Standard t d) (x : Nat → Nat → S) (n : Nat) :
    ∃ l, Loop.turns wide narrow t ⟨d, fun _ => 0, Keys.start⟩ x n = some l ∧
      (Standard t l.d ∧ l.d.w = d.w ∧ reset l.d.lowFreq = reset d.lowFreq ∧ reset l.d.highFreq = reset d.highFreq) ∧
      forRange n Keys.start (fun i st => press t st (found wide narrow d t x i).1 (found wide narrow d t x i).2) = some l.keys ∧
      ∀ i < t.blockSize, l.m i = if n = 0 then 0 else seen t.blockSize t.window (fun i => d.w.getD i 0) x (n - 1) i * d.w.getD i 0 := by
  induction n with
  | zero => exact ⟨_, rfl, ⟨hd, rfl, rfl, rfl⟩, rfl, fun i _ => rfl⟩
  | succ n ih =>
    obtain ⟨l, h1, ⟨h2, h2w, h2l, h2h⟩, h3, h4⟩ := ih
    obtain ⟨m', s1, s2⟩ := shiftIn_eq t hN l.m (x n)
    have hm : ∀ i < t.blockSize, m' i = seen t.blockSize t.window (fun i => d.w.getD i 0) x n i := by
      intro i hi
      rw [s2 i hi]
      split
      · rename_i hlt
        rw [h4 _ hlt]
        rcases n with _ | n
        · rw [if_pos rfl, seen_start _ _ hw _ _ _ hlt]
        · rw [if_neg (by omega), seen_old _ _ hw _ _ _ _ hlt, Nat.add_sub_cancel]
      · rw [seen_new _ _ _ _ _ _ (by omega) hi]
    have hcont : contents m' ⟨0, t.blockSize⟩ = (List.range t.blockSize).map (seen t.blockSize t.window (fun i => d.w.getD i 0) x n) := by
      unfold contents
      refine List.map_congr_left fun i hi => ?_
      simp only [Nat.zero_add]
      exact hm i (List.mem_range.1 hi)
    have hfeed := feed_closed wide narrow l.d (h2.w.trans h2.size.symm) m' ⟨0, t.blockSize⟩
    rw [hcont, h2w, h2.size, h2l, h2h, h2.n.trans hd.n.symm] at hfeed
    obtain ⟨st, p1, -⟩ := press_run t hr (found wide narrow d t x) (found_lt wide narrow d t hd x) (n + 1)
    have p2 := p1
    rw [forRange, h3, Option.bind_some] at p2
    have hturn : Loop.turns wide narrow t ⟨d, fun _ => 0, Keys.start⟩ x (n + 1) =
        some ⟨⟨feed wide (reset d.lowFreq) (windowed d.w t.blockSize ((List.range t.blockSize).map (seen t.blockSize t.window (fun i => d.w.getD i 0) x n))),
          feed wide (reset d.highFreq) (windowed d.w t.blockSize ((List.range t.blockSize).map (seen t.blockSize t.window (fun i => d.w.getD i 0) x n))),
          d.nHigh, t.blockSize, d.w⟩, fill m' 0 (min t.blockSize t.blockSize) (fun i => m' (0 + i) * d.w.getD i 0), st⟩ := by
      unfold Loop.turns at h1 ⊢
      rw [forRange, h1, Option.bind_some]
      unfold Loop.turn
      simp only [Option.bind_eq_bind]
      rw [s1, Option.bind_some, hfeed, Option.bind_some]
      unfold found at p2
      dsimp only
      rw [p2]
      rfl
    have fr : ∀ (q : List (Gz F)) b, reset (feed wide (reset q) b) = reset q := fun q b => reset_feed wide _ (reset_fresh _) _
    have ln : ∀ (q : List (Gz F)), (reset q).length = q.length := fun q => by rw [reset, List.length_map]
    refine ⟨_, hturn, ⟨⟨hd.w, rfl, ?_, ?_, hd.n⟩, rfl, fr _ _, fr _ _⟩, p1, ?_⟩
    · show (feed wide (reset d.lowFreq) _).length = 4
      rw [← ln, fr, ln, hd.low]
    · show (feed wide (reset d.highFreq) _).length = 4
      rw [← ln, fr, ln, hd.high]
    · intro i hi
      show fill m' 0 (min t.blockSize t.blockSize) (fun i => m' (0 + i) * d.w.getD i 0) i = _
      conv => lhs; rw [show i = 0 + i by omega]
      rw [fill_in (by omega), if_neg (by omega), Nat.add_sub_cancel]
      simp only [Nat.zero_add]
      rw [hm i hi]

/-- C87: for any samples the programs do not panic, and what they have printed after `n` blocks is `printed`: the key of
a block once it has been confirmed by `repeats` blocks in a row, and not again before a block fails to confirm.  The
keys are those found in the blocks `seen`. -/
theorem C87_printed (wide : S → F) (narrow : F → S) (t : Tool) (hw : 0 < t.window) (hN : t.window ≤ t.blockSize) (hr : 0 < t.repeats)
    (d : DTMF F S) (hd : Standard t d) (x : Nat → Nat → S) (n : Nat) :
    ∃ l, Loop.turns wide narrow t ⟨d, fun _ => 0, Keys.start⟩ x n = some l ∧
      l.keys.out = printed t.repeats (found wide narrow d t x) n := by
  obtain ⟨l, h1, -, h3, -⟩ := turns_eq wide narrow t hw hN hr d hd x n
  obtain ⟨st, p1, -, -, -, p5⟩ := press_run t hr (found wide narrow d t x) (found_lt wide narrow d t hd x) n
  rw [h3] at p1
  cases p1
  exact ⟨l, h1, p5⟩

omit [Mul S] [DecidableLT S] in
/-- C87: between two blocks at which a key is printed there is a block that does not confirm the one before: a stretch
of confirming blocks prints its key at most once. -/
theorem C87_once (r : Nat) (det : Nat → Nat × S) (a b : Nat) (hab : a < b) (ha : Prints r det a) (hb : Prints r det b) (hr : 0 < r) :
    ∃ c, a < c ∧ c < b ∧ ¬ Confirmed det c := by
  have har : r ≤ a := by
    have := (ha.1 (r - 1) (by omega)).1
    omega
  refine ⟨b - r, ?_, by omega, hb.2⟩
  by_contra hc
  refine hb.2 ?_
  have := ha.1 (a - (b - r)) (by omega)
  rwa [show a - (a - (b - r)) = b - r by omega] at this

omit [Mul S] [DecidableLT S] in
/-- C87: a stretch of `r` or more confirming blocks after one that is not confirming does print its key. -/
theorem C87_heard (r : Nat) (det : Nat → Nat × S) (a : Nat) (ha : ¬ Confirmed det a) (h : ∀ j < r, Confirmed det (a + 1 + j)) :
    Prints r det (a + r) := by
  refine ⟨fun j hj => ?_, by rwa [Nat.add_sub_cancel]⟩
  have := h (r - 1 - j) (by omega)
  rwa [show a + 1 + (r - 1 - j) = a + r - j by omega] at this

/-- Specification: the sample that belongs at position `i` of the block of turn `j`, if turn `k` brings the samples
`k * win`, `k * win + 1`, … of `stream`. -/
def recent (N win : Nat) (stream : Nat → S) (j i : Nat) : S :=
  if N ≤ j * win + win + i then stream (j * win + win + i - N) else 0

omit [LT S] [DecidableLT S] in
/-- C87, samples: position `i` of the block of turn `j` holds the sample that belongs there multiplied by the window at
each of the positions it has been at. -/
theorem C87_seen (N win : Nat) (hw : 0 < win) (w : Nat → S) (stream : Nat → S) (j i : Nat) (hi : i < N) (hN : win ≤ N) :
    seen N win w (fun k r => stream (k * win + r)) j i = aged w win i (recent N win stream j i) (min ((N - 1 - i) / win) j) := by
  unfold seen recent
  dsimp only
  congr 1
  have h1 := Nat.div_add_mod (N - 1 - i) win
  have h2 := Nat.mod_lt (N - 1 - i) hw
  generalize (N - 1 - i) / win = q at *
  rw [Nat.mul_comm] at h1
  by_cases hq : q ≤ j
  · obtain ⟨e, rfl⟩ := Nat.exists_eq_add_of_le hq
    rw [if_pos hq, Nat.add_mul, Nat.add_sub_cancel_left, if_pos (by omega)]
    congr 1
    omega
  · obtain ⟨e, rfl⟩ := Nat.exists_eq_add_of_lt (Nat.lt_of_not_le hq)
    have : (j + e + 1) * win = j * win + e * win + win := by rw [Nat.add_mul, Nat.add_mul, Nat.one_mul]
    rw [if_neg hq, if_neg (by omega)]

omit [LT S] [DecidableLT S] in
/-- C87 does not hold for the samples: from the second turn on, the detector does not get the latest samples.  Each
sample of the window before the last has been multiplied by the window once already (and is so again). -/
theorem C87_violated_window (N win : Nat) (w : Nat → S) (stream : Nat → S) (j i : Nat) (hj : 0 < j) (h1 : i + win < N)
    (h2 : N ≤ i + 2 * win) (hne : recent N win stream j i * w (i + win) ≠ recent N win stream j i) :
    seen N win w (fun k r => stream (k * win + r)) j i ≠ recent N win stream j i := by
  rw [C87_seen N win (by omega) w stream j i (by omega) (by omega)]
  have e : (N - 1 - i) / win = 1 := by
    rw [age_succ N win i (by omega) h1, Nat.div_eq_of_lt (by omega)]
  rw [e, show min 1 j = 1 by omega]
  simpa [aged] using hne

/-! ## The file -/

/-- Specification: the byte stored last at position `p` of the buffer, after the reads `0 … j`. -/
def lastStored (bs : List (List (BitVec 8))) (p : Nat) : Nat → BitVec 8
  | 0 => (bs.getD 0 []).getD p 0
  | j + 1 => if p < (bs.getD (j + 1) []).length then (bs.getD (j + 1) []).getD p 0 else lastStored bs p j

theorem int16Of_eq (b0 b1 : BitVec 8) : int16Of b0 b1 = b1 ++ b0 := by
  unfold int16Of
  apply BitVec.eq_of_getLsbD_eq
  intro i hi
  simp only [BitVec.getLsbD_or, BitVec.getLsbD_shiftLeft, BitVec.truncate_eq_setWidth, BitVec.getLsbD_setWidth, BitVec.getLsbD_append]
  by_cases h : i < 8
  · simp [h, hi]
  · have : b0.getLsbD i = false := BitVec.getLsbD_of_ge _ _ (by omega)
    simp [h, hi, this]
    omega

/-- The samples of turn `j` when the file is read in the pieces `bs`. -/
def fileSamples (conv : BitVec 16 → S) (bs : List (List (BitVec 8))) (j i : Nat) : S :=
  conv (lastStored bs (2 * i + 1) j ++ lastStored bs (2 * i) j)

theorem fileLoop_snoc (wide : S → F) (narrow : F → S) (conv : BitVec 16 → S) (bs : List (List (BitVec 8))) (rest : List Got) :
    ∀ (buf buf' : Nat → BitVec 8) (l l' : Loop F S), fileLoop wide narrow conv buf l (bs.map Got.data) = some (.reading buf' l') →
      fileLoop wide narrow conv buf l (bs.map Got.data ++ rest) = fileLoop wide narrow conv buf' l' rest := by
  induction bs with
  | nil =>
    intro buf buf' l l' h
    simp only [List.map_nil, fileLoop, Option.some.injEq, Ended.reading.injEq] at h
    rw [h.1, h.2]
    rfl
  | cons b bs ih =>
    intro buf buf' l l' h
    simp only [List.map_cons, List.cons_append, fileLoop] at h ⊢
    rcases hl : l.turn wide narrow fileTool (fun i => conv (int16Of (overwrite buf b (2 * i)) (overwrite buf b (2 * i + 1)))) with _ | l2
    · rw [hl] at h; simp at h
    · rw [hl] at h
      simp only [Option.bind_some] at h ⊢
      exact ih _ _ _ _ h

theorem lastStored_append (bs : List (List (BitVec 8))) (b : List (BitVec 8)) (p j : Nat) (hj : j < bs.length) :
    lastStored (bs ++ [b]) p j = lastStored bs p j := by
  have e : ∀ k, k < bs.length → (bs ++ [b]).getD k [] = bs.getD k [] := by
    intro k hk
    rw [List.getD_eq_getElem?_getD, List.getD_eq_getElem?_getD, List.getElem?_append_left hk]
  induction j with
  | zero => simp only [lastStored]; rw [e 0 hj]
  | succ j ih => simp only [lastStored]; rw [e _ hj, ih (by omega)]

theorem forRange_congr {σ : Type} (n : Nat) (s : σ) (f g : Nat → σ → Option σ) (h : ∀ i < n, f i = g i) : forRange n s f = forRange n s g := by
  induction n with
  | zero => rfl
  | succ n ih =>
    rw [forRange, forRange, ih fun i hi => h i (by omega), h n (by omega)]

/-- C87, file: the program runs its turns on `fileSamples`, whatever the sizes of the pieces read, and ends with the end
of the file. -/
theorem C87_file (wide : S → F) (narrow : F → S) (conv : BitVec 16 → S) (d : DTMF F S) (hd : Standard fileTool d) (bs : List (List (BitVec 8))) :
    ∃ l, Loop.turns wide narrow fileTool ⟨d, fun _ => 0, Keys.start⟩ (fileSamples conv bs) bs.length = some l ∧
      l.keys.out = printed 9 (found wide narrow d fileTool (fileSamples conv bs)) bs.length ∧
      fileLoop wide narrow conv (fun _ => 0) ⟨d, fun _ => 0, Keys.start⟩ (bs.map Got.data ++ [.eof]) = some (.newline l) := by
  have key : ∃ l buf, Loop.turns wide narrow fileTool ⟨d, fun _ => 0, Keys.start⟩ (fileSamples conv bs) bs.length = some l ∧
      fileLoop wide narrow conv (fun _ => 0) ⟨d, fun _ => 0, Keys.start⟩ (bs.map Got.data) = some (.reading buf l) ∧
      ∀ p, buf p = if bs.length = 0 then 0 else lastStored bs p (bs.length - 1) := by
    induction bs using List.reverseRecOn with
    | nil => exact ⟨_, _, rfl, rfl, fun p => rfl⟩
    | append_singleton bs b ih =>
      obtain ⟨l, buf, h1, h2, h3⟩ := ih
      have hb : ∀ p, overwrite buf b p = lastStored (bs ++ [b]) p bs.length := by
        intro p
        have eb : (bs ++ [b]).getD bs.length [] = b := by simp [List.getD_eq_getElem?_getD]
        unfold overwrite
        rw [h3]
        rcases hn : bs.length with _ | n
        · rw [hn] at eb
          simp only [lastStored]
          rw [eb, if_pos trivial, List.getD_eq_getElem?_getD]
        · rw [hn] at eb
          simp only [lastStored]
          rw [eb, if_neg (by omega), Nat.add_sub_cancel, lastStored_append _ _ _ _ (by omega)]
          split
          · rename_i hp
            rw [List.getD_eq_getElem?_getD, List.getElem?_eq_getElem hp]
            rfl
          · rename_i hp
            rw [List.getElem?_eq_none (by omega)]
            rfl
      have hx : (fun i => conv (int16Of (overwrite buf b (2 * i)) (overwrite buf b (2 * i + 1)))) = fileSamples conv (bs ++ [b]) bs.length := by
        funext i
        rw [int16Of_eq, hb, hb]
        rfl
      have h1' : Loop.turns wide narrow fileTool ⟨d, fun _ => 0, Keys.start⟩ (fileSamples conv (bs ++ [b])) bs.length = some l := by
        rw [← h1]
        refine forRange_congr _ _ _ _ fun j hj => ?_
        funext l
        congr 1
        funext i
        unfold fileSamples
        rw [lastStored_append _ _ _ _ hj, lastStored_append _ _ _ _ hj]
      obtain ⟨l2, t1, -⟩ := turns_eq wide narrow fileTool (by decide) (by decide) (by decide) d hd (fileSamples conv (bs ++ [b])) (bs.length + 1)
      have t2 := t1
      unfold Loop.turns at t2 h1'
      rw [forRange, h1', Option.bind_some] at t2
      refine ⟨l2, overwrite buf b, ?_, ?_, ?_⟩
      · rw [List.length_append, List.length_singleton]; exact t1
      · rw [List.map_append, fileLoop_snoc wide narrow conv bs _ _ _ _ _ h2]
        simp only [List.map_cons, List.map_nil, fileLoop]
        rw [hx, t2]
        rfl
      · intro p
        rw [hb, List.length_append, List.length_singleton, if_neg (by omega), Nat.add_sub_cancel]
  obtain ⟨l, buf, h1, h2, -⟩ := key
  obtain ⟨l', p1, p2⟩ := C87_printed wide narrow fileTool (by decide) (by decide) (by decide) d hd (fileSamples conv bs) bs.length
  rw [h1] at p1
  cases p1
  exact ⟨l, h1, p2, fileLoop_snoc wide narrow conv bs _ _ _ _ _ h2⟩

/-- Specification: sample `k` of a file of 16-bit little-endian numbers. -/
def fileSample (conv : BitVec 16 → S) (bytes : List (BitVec 8)) (k : Nat) : S := conv (bytes.getD (2 * k + 1) 0 ++ bytes.getD (2 * k) 0)

theorem flatten_getD (n : Nat) (bs : List (List (BitVec 8))) (h : ∀ b ∈ bs, b.length = n) (j p : Nat) (hp : p < n) :
    bs.flatten.getD (j * n + p) 0 = (bs.getD j []).getD p 0 := by
  induction bs generalizing j with
  | nil => simp
  | cons b bs ih =>
    have hb : b.length = n := h b (by simp)
    rw [List.flatten_cons]
    rcases j with _ | j
    · rw [Nat.zero_mul, Nat.zero_add, List.getD_eq_getElem?_getD, List.getElem?_append_left (by omega), ← List.getD_eq_getElem?_getD]
      rfl
    · rw [List.getD_eq_getElem?_getD, List.getElem?_append_right (by rw [Nat.succ_mul]; omega),
        show (j + 1) * n + p - b.length = j * n + p by rw [Nat.succ_mul]; omega, ← List.getD_eq_getElem?_getD, ih (fun c hc => h c (by simp [hc]))]
      rfl

/-- C87, microphone: with a stream that always fills its buffer the program prints a key once ten blocks in a row have confirmed it. -/
theorem C87_live (wide : S → F) (narrow : F → S) (d : DTMF F S) (hd : Standard liveTool d) (x : Nat → Nat → S) (n : Nat) :
    liveTool.blockSize = 1130 ∧ liveTool.window = 282 ∧
    ∃ l, Loop.turns wide narrow liveTool ⟨d, fun _ => 0, Keys.start⟩ x n = some l ∧
      l.keys.out = printed 10 (found wide narrow d liveTool x) n :=
  ⟨by decide, by decide, C87_printed wide narrow liveTool (by decide) (by decide) (by decide) d hd x n⟩

omit [Mul S] [LT S] [DecidableLT S] [Zero S] in
/-- C87 (partial: see `C87_violated_short`): if every read fills the buffer, turn `j` brings the samples `51 * j`,
`51 * j + 1`, … of the file. -/
theorem C87_full_partial (conv : BitVec 16 → S) (bs : List (List (BitVec 8))) (h : ∀ b ∈ bs, b.length = 2 * fileTool.window) (j i : Nat)
    (hj : j < bs.length) (hi : i < fileTool.window) : fileSamples conv bs j i = fileSample conv bs.flatten (j * fileTool.window + i) := by
  have hl : ∀ p < 2 * fileTool.window, lastStored bs p j = (bs.getD j []).getD p 0 := by
    intro p hp
    rcases j with _ | j
    · rfl
    · simp only [lastStored]
      rw [if_pos]
      rw [List.getD_eq_getElem?_getD, List.getElem?_eq_getElem hj, Option.getD_some, h _ (List.getElem_mem hj)]
      exact hp
  unfold fileSamples fileSample
  rw [hl _ (by omega), hl _ (by omega), ← flatten_getD _ bs h j _ (by omega), ← flatten_getD _ bs h j _ (by omega)]
  congr 3
  · ring
  · ring

omit [Mul S] [LT S] [DecidableLT S] [Zero S] in
/-- C87 does not hold for short reads: the samples of the buffer that a read does not reach are used again. -/
theorem C87_violated_short (conv : BitVec 16 → S) (bs : List (List (BitVec 8))) (j i : Nat) (h : (bs.getD (j + 1) []).length ≤ 2 * i) :
    fileSamples conv bs (j + 1) i = fileSamples conv bs j i := by
  unfold fileSamples
  simp only [lastStored]
  rw [if_neg (by omega), if_neg (by omega)]

/-! ## Examples -/

/-- Key 5 for twelve blocks, of strength zero in block 3, then key 6 for fifteen blocks. -/
def exDet (i : Nat) : Nat × Nat := if i < 12 then (5, if i = 3 then 0 else 1) else (6, 1)

example : printed 9 exDet 27 = ['6'] ∧ printed 8 exDet 27 = ['5', '6'] ∧ printed 9 exDet 21 = [] ∧ Prints 9 exDet 21 := by decide +kernel
example : Prints 8 exDet (3 + 8) := C87_heard 8 exDet 3 (by decide) (by decide)
/-- The detector of the program. -/
theorem standard_file (window : Nat → ℝ) : Standard fileTool (new stdLowFreq stdHighFreq 8000 205 window) :=
  ⟨by simp [new, fileTool], rfl, by simp [new, newGoertzel, stdLowFreq], by simp [new, newGoertzel, stdHighFreq], rfl⟩
theorem standard_live (window : Nat → ℝ) : Standard liveTool (new stdLowFreq stdHighFreq 44100 1130 window) :=
  ⟨by simp [new, liveTool], rfl, by simp [new, newGoertzel, stdLowFreq], by simp [new, newGoertzel, stdHighFreq], rfl⟩
example (window : Nat → ℝ) (x : Nat → Nat → ℝ) (n : Nat) :
    ∃ l, Loop.turns id id liveTool ⟨new stdLowFreq stdHighFreq 44100 1130 window, fun _ => 0, Keys.start⟩ x n = some l := by
  obtain ⟨l, h, -⟩ := C87_printed id id liveTool (by decide) (by decide) (by decide) _ (standard_live window) x n
  exact ⟨l, h⟩
/-- With a window of one half everywhere and samples all one, position 110 of the second block is one half. -/
example : seen 205 51 (fun _ => (1 / 2 : ℚ)) (fun _ _ => 1) 1 110 = 1 / 2 ∧ seen 205 51 (fun _ => (1 / 2 : ℚ)) (fun _ _ => 1) 9 0 = 1 / 16 := by decide +kernel
example : seen 205 51 (fun _ => (1 / 2 : ℚ)) (fun _ _ => 1) 1 110 ≠ recent 205 51 (fun _ => (1 : ℚ)) 1 110 :=
  C87_violated_window 205 51 _ (fun _ => 1) 1 110 (by decide) (by decide) (by decide) (by decide +kernel)
/-- A read of 102 bytes and one of four: sample 2 of the second turn is that of the first. -/
example : fileSamples (fun v => v.toInt) [List.replicate 102 0x12#8, [1#8, 2#8, 3#8, 4#8]] 1 1 = 0x403 ∧
    fileSamples (fun v => v.toInt) [List.replicate 102 0x12#8, [1#8, 2#8, 3#8, 4#8]] 1 2 = 0x1212 := by decide +kernel

end Verif.Dtmf
