import Verif.Dtmf.DtmfModel
import Verif.Dft.GoertzelProps
import Verif.Conv.SliceLemmas
import Mathlib.Data.List.Induction
import Mathlib.Tactic.NormNum

/-!
# Properties C59 and C60 of the DTMF detector
-/

namespace Verif.Dtmf
open Verif.Conv Verif.Dft

variable {F S : Type} [Add F] [Sub F] [Mul F] [Zero F] [Mul S] [LT S] [DecidableLT S] [Zero S]

/-- What `New` establishes: the window has the block size. -/
def DTMF.Ok (d : DTMF F S) : Prop := d.w.length = d.blockSize

/-- Specification: the block as seen by the detectors. -/
def windowed (w : List S) (n : Nat) (xs : List S) : List S := List.zipWith (· * ·) (xs.take n) w

omit [Mul S] [LT S] [DecidableLT S] [Zero S] in
theorem contents_length (m : Nat → S) (s : Slice) : (contents m s).length = s.len := by simp [contents]

omit [Mul S] [LT S] [DecidableLT S] [Zero S] in
theorem contents_get (m : Nat → S) (s : Slice) {i : Nat} (h : i < s.len) : (contents m s)[i]? = some (m (s.base + i)) := by
  simp [contents, h]

omit [Mul S] [LT S] [DecidableLT S] [Zero S] in
theorem contents_take (m : Nat → S) (s : Slice) (n : Nat) : (contents m s).take n = contents m ⟨s.base, min n s.len⟩ := by
  simp [contents, ← List.map_take, List.take_range]

omit [LT S] [DecidableLT S] in
theorem applyWindow_eq (w : List S) (m : Nat → S) (s : Slice) (h : s.len ≤ w.length) :
    applyWindow w m s = some (fill m s.base s.len fun i => m (s.base + i) * w.getD i 0) := by
  unfold applyWindow
  refine forRange_states (fun j => fill m s.base j fun i => m (s.base + i) * w.getD i 0) (fill_zero _ _ _) ?_
  intro i hi
  have hw : w[i]? = some (w.getD i 0) := by
    rw [List.getD_eq_getElem?_getD, List.getElem?_eq_getElem (by omega), Option.getD_some]
  simp only [Option.bind_eq_bind]
  rw [read_ok hi, Option.bind_some, hw, Option.bind_some, write_ok hi]
  refine congrArg some (update_fill _ _ _ _ _ ?_)
  rw [fill_out (by omega)]

omit [LT S] [DecidableLT S] in
theorem contents_windowed (w : List S) (m : Nat → S) (b n : Nat) (h : n ≤ w.length) :
    contents (fill m b n fun i => m (b + i) * w.getD i 0) ⟨b, n⟩ = List.zipWith (· * ·) (contents m ⟨b, n⟩) w := by
  apply List.ext_getElem?
  intro i
  by_cases hi : i < n
  · rw [contents_get _ _ hi, List.getElem?_zipWith, contents_get _ _ hi, List.getElem?_eq_getElem (show i < w.length by omega)]
    simp only
    rw [fill_in hi, List.getD_eq_getElem?_getD, List.getElem?_eq_getElem (show i < w.length by omega), Option.getD_some]
  · rw [List.getElem?_eq_none (by rw [contents_length]; simp only; omega), List.getElem?_eq_none]
    rw [List.length_zipWith, contents_length]
    simp only
    omega

/-- Specification: key and threshold as a function of the fresh detectors and the windowed block. -/
def outcome (wide : S → F) (narrow : F → S) (low high : List (Gz F)) (nHigh : Nat) (block : List S) : Nat × S :=
  let r := maxOf (magnitude narrow (feed wide low block))
  let c := maxOf (magnitude narrow (feed wide high block))
  (r.1 * nHigh + c.1, if c.2 < r.2 then c.2 else r.2)

/-- `Feed` in closed form. -/
theorem feed_closed (wide : S → F) (narrow : F → S) (d : DTMF F S) (hd : d.Ok) (m : Nat → S) (s : Slice) :
    d.feed wide narrow m s = some ({ d with
        lowFreq := feed wide (reset d.lowFreq) (windowed d.w d.blockSize (contents m s))
        highFreq := feed wide (reset d.highFreq) (windowed d.w d.blockSize (contents m s)) },
      fill m s.base (min d.blockSize s.len) (fun i => m (s.base + i) * d.w.getD i 0),
      outcome wide narrow (reset d.lowFreq) (reset d.highFreq) d.nHigh (windowed d.w d.blockSize (contents m s))) := by
  have ht : trim s d.blockSize = some ⟨s.base, min d.blockSize s.len⟩ := by
    unfold trim
    split
    · rw [take_ok (by omega), Nat.min_eq_left (by omega)]
    · rw [Nat.min_eq_right (by omega)]
  have hl : min d.blockSize s.len ≤ d.w.length := by rw [hd]; omega
  unfold DTMF.feed
  simp only [Option.bind_eq_bind]
  rw [ht, Option.bind_some, applyWindow_eq _ _ _ hl, Option.bind_some, contents_windowed _ _ _ _ hl, windowed, contents_take]
  rfl

omit [Add F] [Sub F] [Mul F] [Mul S] [LT S] [DecidableLT S] [Zero S] in
theorem reset_fresh (freq : List (Gz F)) : ∀ g ∈ reset freq, g.FreshR := by
  intro g hg
  rw [reset, List.mem_map] at hg
  obtain ⟨g', -, rfl⟩ := hg
  exact ⟨rfl, rfl⟩

/-- A sequence of earlier calls, each on its own memory and slice. -/
def after (wide : S → F) (narrow : F → S) (d : DTMF F S) : List ((Nat → S) × Slice) → Option (DTMF F S)
  | [] => some d
  | (m, s) :: rest => (d.feed wide narrow m s).bind fun r => after wide narrow r.1 rest

/-- C59: after any history of blocks, feeding a block gives the key, the threshold and the memory that
a detector without history gives. -/
theorem C59_history (wide : S → F) (narrow : F → S) (d : DTMF F S) (hd : d.Ok) (history : List ((Nat → S) × Slice)) (m : Nat → S) (s : Slice) :
    ∃ d', after wide narrow d history = some d' ∧
      (d'.feed wide narrow m s).map (fun r => r.2) = (d.feed wide narrow m s).map (fun r => r.2) := by
  induction history generalizing d with
  | nil => exact ⟨d, rfl, rfl⟩
  | cons c rest ih =>
    obtain ⟨m0, s0⟩ := c
    obtain ⟨d', h1, h2⟩ := ih _ (show DTMF.Ok { d with
        lowFreq := feed wide (reset d.lowFreq) (windowed d.w d.blockSize (contents m0 s0))
        highFreq := feed wide (reset d.highFreq) (windowed d.w d.blockSize (contents m0 s0)) } from hd)
    refine ⟨d', ?_, h2.trans ?_⟩
    · rw [after, feed_closed wide narrow d hd, Option.bind_some]
      exact h1
    · rw [feed_closed wide narrow d hd, feed_closed wide narrow _ (show DTMF.Ok { d with
        lowFreq := feed wide (reset d.lowFreq) (windowed d.w d.blockSize (contents m0 s0))
        highFreq := feed wide (reset d.highFreq) (windowed d.w d.blockSize (contents m0 s0)) } from hd)]
      simp only [Option.map_some, reset_feed wide _ (reset_fresh _)]

/-- C59: only the first `blockSize` samples matter, wherever they are stored. -/
theorem C59_block (wide : S → F) (narrow : F → S) (d : DTMF F S) (hd : d.Ok) (m1 m2 : Nat → S) (s1 s2 : Slice)
    (h : (contents m1 s1).take d.blockSize = (contents m2 s2).take d.blockSize) :
    (d.feed wide narrow m1 s1).map (fun r => r.2.2) = (d.feed wide narrow m2 s2).map (fun r => r.2.2) := by
  rw [feed_closed wide narrow d hd, feed_closed wide narrow d hd]
  simp only [Option.map_some, windowed, h]

omit [Mul S] [Zero S] in
theorem maxOf_bound (val : List S) (a : S) : (val.zipIdx.foldl maxStep (0, a)).1 = 0 ∨ (val.zipIdx.foldl maxStep (0, a)).1 < val.length := by
  induction val using List.reverseRecOn with
  | nil => left; rfl
  | append_singleton xs x ih =>
    rw [List.zipIdx_append, List.foldl_append]
    simp only [List.zipIdx_singleton, List.foldl_cons, List.foldl_nil, List.length_append, List.length_singleton]
    unfold maxStep
    split
    · right; simp
    · rcases ih with h | h
      · left; exact h
      · right; exact Nat.lt_succ_of_lt h

omit [Mul S] in
theorem maxOf_lt (val : List S) (h : val ≠ []) : (maxOf val).1 < val.length := by
  rcases maxOf_bound val 0 with h1 | h1
  · rw [maxOf, h1]; exact List.length_pos_of_ne_nil h
  · exact h1

omit [Mul S] [LT S] [DecidableLT S] [Zero S] [Zero F] in
theorem magnitude_length (wide : S → F) (narrow : F → S) (low : List (Gz F)) (xs : List S) :
    (magnitude narrow (feed wide low xs)).length = low.length := by
  rw [magnitude, feed_eq]
  simp

/-- C59: the key number is that of a row and a column of the table, whatever the arithmetic does. -/
theorem C59_range (wide : S → F) (narrow : F → S) (d : DTMF F S) (hd : d.Ok) (hh : d.nHigh = d.highFreq.length)
    (hl0 : d.lowFreq ≠ []) (hh0 : d.highFreq ≠ []) (m : Nat → S) (s : Slice) :
    ∃ r row col, d.feed wide narrow m s = some r ∧ r.2.2.1 = row * d.nHigh + col ∧ row < d.lowFreq.length ∧ col < d.nHigh ∧
      r.2.2.1 < d.lowFreq.length * d.nHigh := by
  have ln : ∀ (l : List (Gz F)) (xs : List S), l ≠ [] → magnitude narrow (feed wide (reset l) xs) ≠ [] := by
    intro l xs hl hc
    have := congrArg List.length hc
    rw [magnitude_length, reset, List.length_map] at this
    exact hl (List.eq_nil_of_length_eq_zero this)
  have hr := maxOf_lt _ (ln d.lowFreq (windowed d.w d.blockSize (contents m s)) hl0)
  have hc := maxOf_lt _ (ln d.highFreq (windowed d.w d.blockSize (contents m s)) hh0)
  rw [magnitude_length, reset, List.length_map] at hr hc
  refine ⟨_, _, _, feed_closed wide narrow d hd m s, rfl, hr, by rw [hh]; exact hc, ?_⟩
  simp only [outcome]
  rw [← hh] at hc
  calc _ < (maxOf (magnitude narrow (feed wide (reset d.lowFreq) (windowed d.w d.blockSize (contents m s))))).1 * d.nHigh + d.nHigh :=
        Nat.add_lt_add_left hc _
    _ = ((maxOf (magnitude narrow (feed wide (reset d.lowFreq) (windowed d.w d.blockSize (contents m s))))).1 + 1) * d.nHigh := by
        rw [Nat.add_mul, Nat.one_mul]
    _ ≤ d.lowFreq.length * d.nHigh := Nat.mul_le_mul_right _ hr

/-! ## C60 -/

/-- C60 does not hold: every sample of the block that its window factor changes is changed in the
caller's slice. -/
theorem C60_violated (wide : S → F) (narrow : F → S) (d : DTMF F S) (hd : d.Ok) (m : Nat → S) (s : Slice) (i : Nat)
    (hi : i < s.len) (hb : i < d.blockSize) (hne : m (s.base + i) * d.w.getD i 0 ≠ m (s.base + i)) :
    ∃ r, d.feed wide narrow m s = some r ∧ r.2.1 (s.base + i) ≠ m (s.base + i) := by
  refine ⟨_, feed_closed wide narrow d hd m s, ?_⟩
  simp only
  rw [fill_in (by omega)]
  exact hne

/-- C60 does not hold: a second call on the same buffer sees the samples windowed twice. -/
theorem C60_violated_again (wide : S → F) (narrow : F → S) (d : DTMF F S) (hd : d.Ok) (m : Nat → S) (s : Slice) :
    ∃ r r2, d.feed wide narrow m s = some r ∧ r.1.feed wide narrow r.2.1 s = some r2 ∧
      r2.2.2 = outcome wide narrow (reset d.lowFreq) (reset d.highFreq) d.nHigh
        (List.zipWith (· * ·) (List.zipWith (· * ·) ((contents m s).take d.blockSize) d.w) d.w) := by
  refine ⟨_, _, feed_closed wide narrow d hd m s, feed_closed wide narrow _ (show DTMF.Ok { d with
        lowFreq := feed wide (reset d.lowFreq) (windowed d.w d.blockSize (contents m s))
        highFreq := feed wide (reset d.highFreq) (windowed d.w d.blockSize (contents m s)) } from hd) _ s, ?_⟩
  simp only [reset_feed wide _ (reset_fresh _)]
  have hl : min d.blockSize s.len ≤ d.w.length := by rw [hd]; omega
  rw [windowed, contents_take, contents_windowed _ _ _ _ hl, ← contents_take]

/-- C60, the part that holds: the samples of the block are replaced by their products with the window
and nothing else in memory changes. -/
theorem C60_frame_partial (wide : S → F) (narrow : F → S) (d : DTMF F S) (hd : d.Ok) (m : Nat → S) (s : Slice) :
    ∃ r, d.feed wide narrow m s = some r ∧
      (∀ i, i < s.len → i < d.blockSize → r.2.1 (s.base + i) = m (s.base + i) * d.w.getD i 0) ∧
      ∀ a, ¬(s.base ≤ a ∧ a < s.base + min d.blockSize s.len) → r.2.1 a = m a := by
  refine ⟨_, feed_closed wide narrow d hd m s, fun i h1 h2 => ?_, fun a ha => ?_⟩
  · simp only
    rw [fill_in (by omega)]
  · simp only
    rw [fill_out (by omega)]

/-! ## Exact arithmetic -/

/-- `v` is the largest of the list and `i` its first place. -/
def IsMax (val : List ℝ) (i : Nat) (v : ℝ) : Prop :=
  val[i]? = some v ∧ (∀ x ∈ val, x ≤ v) ∧ ∀ j < i, ∀ x, val[j]? = some x → x < v

theorem maxOf_isMax (val : List ℝ) (h0 : ∀ x ∈ val, 0 ≤ x) (hne : val ≠ []) : IsMax val (maxOf val).1 (maxOf val).2 := by
  have key : ∀ val : List ℝ, (∀ x ∈ val, 0 ≤ x) → ((maxOf val) = (0, 0) ∧ ∀ x ∈ val, x = 0) ∨ (0 < (maxOf val).2 ∧ IsMax val (maxOf val).1 (maxOf val).2) := by
    intro val
    induction val using List.reverseRecOn with
    | nil => intro _; left; exact ⟨rfl, by simp⟩
    | append_singleton xs x ih =>
      intro h0
      have hx0 : 0 ≤ x := h0 x (by simp)
      have e : maxOf (xs ++ [x]) = maxStep (maxOf xs) (x, xs.length) := by
        unfold maxOf
        rw [List.zipIdx_append, List.foldl_append]
        simp
      rw [e]
      have ih := ih (fun y hy => h0 y (by simp [hy]))
      unfold maxStep
      by_cases hx : x > (maxOf xs).2
      · right
        simp only [if_pos hx]
        have hle : ∀ y ∈ xs, y < x := by
          intro y hy
          rcases ih with ⟨h1, h2⟩ | ⟨h1, h2⟩
          · rw [h1] at hx; rw [h2 y hy]; exact hx
          · exact lt_of_le_of_lt (h2.2.1 y hy) hx
        have hpos : 0 < x := by
          rcases ih with ⟨h1, -⟩ | ⟨h1, -⟩
          · rw [h1] at hx; exact hx
          · exact lt_trans h1 hx
        refine ⟨hpos, by simp, ?_, ?_⟩
        · intro y hy
          rw [List.mem_append, List.mem_singleton] at hy
          rcases hy with hy | hy
          · exact (hle y hy).le
          · exact hy.le
        · intro j hj y hy
          rw [List.getElem?_append_left hj] at hy
          exact hle y (List.mem_of_getElem? hy)
      · simp only [if_neg hx]
        rcases ih with ⟨h1, h2⟩ | ⟨h1, h2, h3, h4⟩
        · left
          refine ⟨h1, ?_⟩
          rw [h1] at hx
          intro y hy
          rw [List.mem_append, List.mem_singleton] at hy
          rcases hy with hy | hy
          · exact h2 y hy
          · rw [hy]; exact le_antisymm (not_lt.mp hx) hx0
        · right
          have hlen : (maxOf xs).1 < xs.length := (List.getElem?_eq_some_iff.mp h2).1
          refine ⟨h1, by rw [List.getElem?_append_left hlen]; exact h2, ?_, ?_⟩
          · intro y hy
            rw [List.mem_append, List.mem_singleton] at hy
            rcases hy with hy | hy
            · exact h3 y hy
            · rw [hy]; exact not_lt.mp hx
          · intro j hj y hy
            rw [List.getElem?_append_left (by omega)] at hy
            exact h4 j hj y hy
  rcases key val h0 with ⟨h1, h2⟩ | ⟨-, h⟩
  · rw [h1]
    cases val with
    | nil => exact absurd rfl hne
    | cons x xs =>
      have hx := h2 x (by simp)
      subst hx
      exact ⟨rfl, fun y hy => (h2 y hy).le, by simp⟩
  · exact h

/-- Squared magnitude of the DFT bin closest to a frequency. -/
noncomputable def power (fs n : Nat) (block : List ℝ) (f : Nat) : ℝ := ‖dft n (bucket f fs n) (sampleR block)‖ ^ 2

theorem magnitude_powers (freqs : List Nat) (fs : Nat) (block : List ℝ) (hn : 0 < block.length) :
    magnitude id (feed id (reset (newGoertzel freqs fs block.length)) block) = freqs.map (power fs block.length block) := by
  have hr : reset (newGoertzel freqs fs block.length) = newGoertzel freqs fs block.length := by
    rw [reset, newGoertzel, List.map_map]
    rfl
  rw [hr, newGoertzel]
  clear hr
  induction freqs with
  | nil => simp [magnitude, feed_eq]
  | cons f fs' ih =>
    obtain ⟨c, m, -, h2, -, h4⟩ := C45_dft f fs block hn
    simp only [magnitude, feed_eq, List.map_cons, List.map_nil, List.cons.injEq] at h2 ih ⊢
    exact ⟨h2.1.trans h4, ih⟩

/-- C59 in exact arithmetic: for a full block the key is the row of the low frequency and the column of
the high frequency whose DFT bins of the windowed block have the largest magnitudes, and the
threshold is the smaller of the two squared magnitudes. -/
theorem C59_largest (low high : List Nat) (fs n : Nat) (window : Nat → ℝ) (hn : 0 < n) (hl : low ≠ []) (hh : high ≠ [])
    (m : Nat → ℝ) (s : Slice) (hs : n ≤ s.len) :
    ∃ r row col p q, (new low high fs n window).feed id id m s = some r ∧ r.2.2 = (row * high.length + col, min p q) ∧
      IsMax (low.map (power fs n ((List.range n).map fun i => m (s.base + i) * window i))) row p ∧
      IsMax (high.map (power fs n ((List.range n).map fun i => m (s.base + i) * window i))) col q := by
  have hd : (new low high fs n window).Ok := by simp [DTMF.Ok, new]
  have hblock : windowed (new low high fs n window).w n (contents m s) = (List.range n).map fun i => m (s.base + i) * window i := by
    apply List.ext_getElem?
    intro i
    rw [windowed, contents_take, Nat.min_eq_left hs]
    by_cases hi : i < n
    · rw [List.getElem?_zipWith, contents_get _ _ hi]
      simp [new, hi]
    · rw [List.getElem?_eq_none (by rw [List.length_zipWith, contents_length]; simp only; omega), List.getElem?_eq_none (by simpa using hi)]
  have hlen : ((List.range n).map fun i => m (s.base + i) * window i).length = n := by simp
  have hp : ∀ (freqs : List Nat) (block : List ℝ), ∀ x ∈ freqs.map (power fs n block), 0 ≤ x := by
    intro freqs block x hx
    rw [List.mem_map] at hx
    obtain ⟨f, -, rfl⟩ := hx
    exact sq_nonneg _
  have m1 := magnitude_powers low fs _ (by rw [hlen]; exact hn)
  have m2 := magnitude_powers high fs _ (by rw [hlen]; exact hn)
  rw [hlen] at m1 m2
  refine ⟨_, _, _, _, _, feed_closed id id _ hd m s, ?_, maxOf_isMax _ (hp low _) (by simpa using hl), maxOf_isMax _ (hp high _) (by simpa using hh)⟩
  have hb : (new low high fs n window).blockSize = n := rfl
  rw [hb, hblock]
  simp only [outcome]
  have e1 : (new low high fs n window).lowFreq = newGoertzel low fs n := rfl
  have e2 : (new low high fs n window).highFreq = newGoertzel high fs n := rfl
  have e3 : (new low high fs n window).nHigh = high.length := rfl
  rw [e1, e2, e3, m1, m2]
  congr 1
  rw [min_def]
  split
  · rename_i h; rw [if_neg (not_le.mpr h)]
  · rename_i h; rw [if_pos (not_lt.mp h)]

/-- C59: the standard detector always names one of the sixteen keys. -/
theorem C59_keypad (fs n : Nat) (window : Nat → ℝ) (m : Nat → ℝ) (s : Slice) :
    ∃ r, (new stdLowFreq stdHighFreq fs n window).feed id id m s = some r ∧ (keypad[r.2.2.1]?).isSome := by
  obtain ⟨r, row, col, h1, h2, h3, h4, h5⟩ := C59_range id id (new stdLowFreq stdHighFreq fs n window) (by simp [DTMF.Ok, new])
    (by simp [new, newGoertzel]) (by simp [new, newGoertzel, stdLowFreq]) (by simp [new, newGoertzel, stdHighFreq]) m s
  refine ⟨r, h1, ?_⟩
  have e1 : (new stdLowFreq stdHighFreq fs n window).lowFreq.length = 4 := by simp [new, newGoertzel, stdLowFreq]
  have e2 : (new stdLowFreq stdHighFreq fs n window).nHigh = 4 := by simp [new, stdHighFreq]
  rw [e1, e2] at h5
  rw [List.getElem?_eq_getElem (by simpa [keypad] using h5)]
  rfl

/-- Specification: the pair of tones of each key of a push-button telephone set (ITU-T Q.23). -/
def tones : Char → Option (Nat × Nat)
  | '1' => some (697, 1209) | '2' => some (697, 1336) | '3' => some (697, 1477) | 'A' => some (697, 1633)
  | '4' => some (770, 1209) | '5' => some (770, 1336) | '6' => some (770, 1477) | 'B' => some (770, 1633)
  | '7' => some (852, 1209) | '8' => some (852, 1336) | '9' => some (852, 1477) | 'C' => some (852, 1633)
  | '*' => some (941, 1209) | '0' => some (941, 1336) | '#' => some (941, 1477) | 'D' => some (941, 1633)
  | _ => none

/-- C59: the standard detector names the key whose low tone is the strongest of the four low tones of the windowed
block and whose high tone is the strongest of the four high ones, and its threshold is the weaker of the two. -/
theorem C59_digit (fs n : Nat) (window : Nat → ℝ) (hn : 0 < n) (m : Nat → ℝ) (s : Slice) (hs : n ≤ s.len) :
    ∃ r c lo hi, (new stdLowFreq stdHighFreq fs n window).feed id id m s = some r ∧ keypad[r.2.2.1]? = some c ∧ tones c = some (lo, hi) ∧
      (∀ c' lo' hi', tones c' = some (lo', hi') →
        power fs n ((List.range n).map fun i => m (s.base + i) * window i) lo' ≤ power fs n ((List.range n).map fun i => m (s.base + i) * window i) lo ∧
        power fs n ((List.range n).map fun i => m (s.base + i) * window i) hi' ≤ power fs n ((List.range n).map fun i => m (s.base + i) * window i) hi) ∧
      r.2.2.2 = min (power fs n ((List.range n).map fun i => m (s.base + i) * window i) lo) (power fs n ((List.range n).map fun i => m (s.base + i) * window i) hi) := by
  obtain ⟨r, row, col, p, q, h1, h2, ⟨hr, hrm, -⟩, hc, hcm, -⟩ := C59_largest stdLowFreq stdHighFreq fs n window hn (by decide) (by decide) m s hs
  generalize power fs n ((List.range n).map fun i => m (s.base + i) * window i) = P at *
  have hpair : ∀ c' lo' hi', tones c' = some (lo', hi') → lo' ∈ stdLowFreq ∧ hi' ∈ stdHighFreq := by
    intro c' lo' hi' h
    unfold tones at h
    split at h <;> first
      | (obtain ⟨rfl, rfl⟩ := Prod.mk.inj (Option.some.inj h); decide)
      | cases h
  have hrow : row < 4 := by
    have := (List.getElem?_eq_some_iff.1 hr).1
    simpa [stdLowFreq] using this
  have hcol : col < 4 := by
    have := (List.getElem?_eq_some_iff.1 hc).1
    simpa [stdHighFreq] using this
  have table : ∀ i < 4, ∀ j < 4, ∃ c lo hi, keypad[i * 4 + j]? = some c ∧ tones c = some (lo, hi) ∧ stdLowFreq[i]? = some lo ∧ stdHighFreq[j]? = some hi := by
    intro i hi j hj
    have : i = 0 ∨ i = 1 ∨ i = 2 ∨ i = 3 := by omega
    have : j = 0 ∨ j = 1 ∨ j = 2 ∨ j = 3 := by omega
    rcases ‹i = 0 ∨ _› with rfl | rfl | rfl | rfl <;> rcases ‹j = 0 ∨ _› with rfl | rfl | rfl | rfl <;>
      exact ⟨_, _, _, rfl, rfl, rfl, rfl⟩
  obtain ⟨c, lo, hi, t1, t2, t3, t4⟩ := table row hrow col hcol
  rw [List.getElem?_map, t3] at hr
  rw [List.getElem?_map, t4] at hc
  have e1 : P lo = p := Option.some.inj hr
  have e2 : P hi = q := Option.some.inj hc
  refine ⟨r, c, lo, hi, h1, ?_, t2, fun c' lo' hi' h => ?_, ?_⟩
  · rw [h2]; exact t1
  · have := hpair c' lo' hi' h
    rw [e1, e2]
    exact ⟨hrm _ (List.mem_map_of_mem this.1), hcm _ (List.mem_map_of_mem this.2)⟩
  · rw [h2, e1, e2]

example : ∃ r c lo hi, (new stdLowFreq stdHighFreq 8000 205 fun _ => 1).feed id id (fun i => Real.sin i) ⟨7, 300⟩ = some r ∧ keypad[r.2.2.1]? = some c ∧ tones c = some (lo, hi) ∧
      (∀ c' lo' hi', tones c' = some (lo', hi') →
        power 8000 205 ((List.range 205).map fun i => Real.sin ((7 + i : ℕ) : ℝ) * 1) lo' ≤ power 8000 205 ((List.range 205).map fun i => Real.sin ((7 + i : ℕ) : ℝ) * 1) lo ∧
        power 8000 205 ((List.range 205).map fun i => Real.sin ((7 + i : ℕ) : ℝ) * 1) hi' ≤ power 8000 205 ((List.range 205).map fun i => Real.sin ((7 + i : ℕ) : ℝ) * 1) hi) ∧
      r.2.2.2 = min (power 8000 205 ((List.range 205).map fun i => Real.sin ((7 + i : ℕ) : ℝ) * 1) lo) (power 8000 205 ((List.range 205).map fun i => Real.sin ((7 + i : ℕ) : ℝ) * 1) hi) :=
  C59_digit 8000 205 (fun _ => 1) (by decide) _ _ (by decide)

/-- A small detector over the integers with two rows and two columns. -/
def small : DTMF Int Int where
  lowFreq := [⟨2, 0, 0, 0, 0, 0, 0⟩, ⟨0, 0, 0, 0, 0, 0, 0⟩]
  highFreq := [⟨1, 0, 0, 0, 0, 0, 0⟩, ⟨-1, 0, 0, 0, 0, 0, 0⟩]
  nHigh := 2
  blockSize := 4
  w := [1, 2, 2, 1]

/-- After other blocks the block 9, 1, -7, 4 (stored from address 3, with samples beyond it) gives the same key. -/
example : ∃ d', after id id small [(fun i => i * i, ⟨0, 4⟩), (fun i => 5 - i, ⟨2, 1⟩)] = some d' ∧
    (d'.feed id id (fun i => [0, 0, 0, 9, 1, -7, 4, 100].getD i 0) ⟨3, 5⟩).map (fun r => r.2) =
      (small.feed id id (fun i => [0, 0, 0, 9, 1, -7, 4, 100].getD i 0) ⟨3, 5⟩).map (fun r => r.2) :=
  C59_history id id small rfl _ _ _

example : (small.feed id id (fun i => [0, 0, 0, 9, 1, -7, 4, 100].getD i 0) ⟨3, 5⟩).map (fun r => r.2.2) =
    (small.feed id id (fun i => [9, 1, -7, 4].getD i 0) ⟨0, 4⟩).map (fun r => r.2.2) :=
  C59_block id id small rfl _ _ _ _ (by decide)

/-- The key really depends on the block: two blocks with different keys. -/
example : (small.feed id id (fun _ => 1) ⟨0, 4⟩).map (fun r => r.2.2) = some (0, 12) ∧
    (small.feed id id (fun i => if i = 1 ∨ i = 2 then -1 else 1) ⟨0, 4⟩).map (fun r => r.2.2.1) = some 3 := by
  decide

example : ∃ r row col, small.feed id id (fun _ => 1) ⟨0, 4⟩ = some r ∧ r.2.2.1 = row * small.nHigh + col ∧
    row < small.lowFreq.length ∧ col < small.nHigh ∧ r.2.2.1 < small.lowFreq.length * small.nHigh :=
  C59_range id id small rfl rfl (by decide) (by decide) _ _

/-- Feeding the same buffer twice to the small detector gives another threshold. -/
example : ((small.feed id id (fun _ => 1) ⟨0, 4⟩).bind fun r => r.1.feed id id r.2.1 ⟨0, 4⟩).map (fun r => r.2.2) ≠
    (small.feed id id (fun _ => 1) ⟨0, 4⟩).map (fun r => r.2.2) := by
  decide

example : ∃ r row col p q, (new stdLowFreq stdHighFreq 8000 205 fun _ => 1).feed id id (fun i => Real.sin i) ⟨7, 300⟩ = some r ∧
      r.2.2 = (row * stdHighFreq.length + col, min p q) ∧
      IsMax (stdLowFreq.map (power 8000 205 ((List.range 205).map fun i => Real.sin ((7 + i : ℕ) : ℝ) * 1))) row p ∧
      IsMax (stdHighFreq.map (power 8000 205 ((List.range 205).map fun i => Real.sin ((7 + i : ℕ) : ℝ) * 1))) col q :=
  C59_largest stdLowFreq stdHighFreq 8000 205 (fun _ => 1) (by decide) (by decide) (by decide) _ _ (by decide)

/-- The window of `NewStandard` changes the samples: the first sample of a block of two or more is
multiplied by 0.07672. -/
example : ∃ r, (new stdLowFreq stdHighFreq 8000 205 fun n => 0.53836 - 0.46164 * Real.cos (2 * Real.pi * n / 204)).feed id id
    (fun _ => 1) ⟨0, 205⟩ = some r ∧ r.2.1 0 ≠ 1 := by
  refine C60_violated id id _ (by simp [DTMF.Ok, new]) (fun _ => 1) ⟨0, 205⟩ 0 (by decide) (by decide) ?_
  norm_num [new]

end Verif.Dtmf
