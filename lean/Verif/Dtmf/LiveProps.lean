import Verif.Dtmf.LiveFp
import Verif.Dtmf.LiveModel
import Verif.Dtmf.DialProps

/-!
# Property C151: from the microphone to the printed digits
-/

namespace Verif.Dtmf.Live
open Verif.Fp Verif.Conv Verif.Dft Verif.Filt Verif.WinFp Real

/-! ## Specification -/

/-- The sound of a press at sample `k`, at 44100 samples per second. -/
noncomputable def wave (p : Press) (k : Nat) : ℝ :=
  p.A * Real.cos (2 * π * p.f * k / 44100 + p.φ) + p.B * Real.cos (2 * π * p.g * k / 44100 + p.ψ)

/-- The tones are those of the key up to a quarter of a percent, none is more than one and a half times as strong as the other, and the key is held for at
least 4231 samples, that is 96 ms. -/
structure Ok (p : Press) : Prop where
  tone : ∃ lo hi, tones p.key = some (lo, hi) ∧ |p.f - lo| ≤ lo / 400 ∧ |p.g - hi| ≤ hi / 400
  weakA : 1 / 2 ^ 40 ≤ p.A
  weakB : 1 / 2 ^ 40 ≤ p.B
  ratioA : p.A ≤ 1.5 * p.B
  ratioB : p.B ≤ 1.5 * p.A
  bound : p.A ≤ 2 ^ 20
  long : p.start + 4231 ≤ p.stop

/-- The samples `s 0, …, s (len - 1)` are the presses `ps` with a noise of at most one thirtieth of the weaker tone, and silence between them, of
at least 1411 samples, that is 32 ms. -/
structure Dialled (s : Nat → ℝ) (len : Nat) (ps : List Press) : Prop where
  ok : ∀ p ∈ ps, Ok p
  within : ∀ p ∈ ps, p.stop ≤ len
  apart : ps.Pairwise fun p q => p.stop + 1411 ≤ q.start
  sound : ∀ p ∈ ps, ∀ k, p.start ≤ k → k < p.stop → |s k - wave p k| ≤ min p.A p.B / 30
  silent : ∀ k < len, (∀ p ∈ ps, ¬ (p.start ≤ k ∧ k < p.stop)) → s k = 0

/-- The blocks that are read before the first error, up to the first signal. -/
def blocks {S : Type} : List (Heard S) → List (Nat → S)
  | [] => []
  | .err :: _ => []
  | .block x true :: _ => [x]
  | .block x false :: rest => x :: blocks rest

/-- The first of the two that happens. -/
inductive Fate where
  | signal
  | error
  | neither

/-- Whether an error or a signal is first. -/
def fate {S : Type} : List (Heard S) → Fate
  | [] => .neither
  | .err :: _ => .error
  | .block _ true :: _ => .signal
  | .block _ false :: rest => fate rest

/-- Sample `k` of the blocks of 282 samples. -/
def micAt (xs : List (Nat → FVal binary32)) (k : Nat) : FVal binary32 := xs.getD (k / 282) (fun _ => 0) (k % 282)

/-- The keys are right and the program ends as it should: with a newline after a signal, with an error message after an error, and otherwise not. -/
def Says (r : LiveEndFp) (f : Fate) (keys : List Char) : Prop :=
  match f with
  | .signal => ∃ k, r = .newline k ∧ k.out = keys
  | .error => ∃ k, r = .fatal k ∧ k.out = keys
  | .neither => ∃ m k, r = .listening m k ∧ k.out = keys

/-! ## The run -/

theorem live_run (d : DTMF (FVal binary64) (FVal binary32)) (evs : List (Heard (FVal binary32))) : ∀ (pre : List (Nat → FVal binary32))
    (m : Nat → FVal binary32) (keys : Keys) (r : LiveEndFp),
    RunFp liveTool d (fun j => (pre ++ blocks evs).getD j fun _ => 0) pre.length m keys → LiveFp d m keys evs r →
    ∃ m' k, (match fate evs with | .signal => r = .newline k | .error => r = .fatal k | .neither => r = .listening m' k) ∧
      RunFp liveTool d (fun j => (pre ++ blocks evs).getD j fun _ => 0) (pre ++ blocks evs).length m' k := by
  induction evs with
  | nil =>
    intro pre m keys r h1 h2
    refine ⟨m, keys, h2, ?_⟩
    have e : pre ++ blocks ([] : List (Heard (FVal binary32))) = pre := List.append_nil pre
    rw [e] at h1 ⊢
    exact h1
  | cons ev evs ih =>
    intro pre m keys r h1 h2
    rcases ev with ⟨x, _ | _⟩ | _
    · obtain ⟨m', keys', u1, u2⟩ := h2
      have e : pre ++ blocks (.block x false :: evs) = (pre ++ [x]) ++ blocks evs := by simp [blocks]
      have hl : (pre ++ [x]).length = pre.length + 1 := by simp
      rw [e] at h1 ⊢
      refine ih (pre ++ [x]) m' keys' r ?_ u2
      rw [hl]
      refine ⟨m, keys, h1, ?_⟩
      have : ((pre ++ [x]) ++ blocks evs).getD pre.length (fun _ => 0) = x := by simp [List.getD_eq_getElem?_getD]
      dsimp only
      rwa [this]
    · obtain ⟨m', keys', u1, u2⟩ := h2
      refine ⟨m', keys', u2, ?_⟩
      have e : pre ++ blocks (.block x true :: evs) = pre ++ [x] := rfl
      have hl : (pre ++ [x]).length = pre.length + 1 := by simp
      rw [e] at h1 ⊢
      rw [hl]
      refine ⟨m, keys, h1, ?_⟩
      have : (pre ++ [x]).getD pre.length (fun _ => 0) = x := by simp [List.getD_eq_getElem?_getD]
      dsimp only
      rwa [this]
    · refine ⟨m, keys, h2, ?_⟩
      have e : pre ++ blocks (.err :: evs : List (Heard (FVal binary32))) = pre := List.append_nil pre
      rw [e] at h1 ⊢
      exact h1

/-! ## The blocks -/

theorem wave_shift (p : Press) (s0 i : Nat) : wave p (s0 + i) =
    p.A * toneAt p.f 44100 (2 * π * p.f * s0 / 44100 + p.φ) i + p.B * toneAt p.g 44100 (2 * π * p.g * s0 / 44100 + p.ψ) i := by
  unfold wave toneAt
  push_cast
  congr 3 <;> ring

/-- The blocks of the presses. -/
theorem dialled_rings {det : Nat → Nat × FVal binary32} {n : Nat} (ps : List Press) : ∀ x, (∀ p ∈ ps, p.start + 4231 ≤ p.stop ∧ p.stop ≤ 282 * n) →
    (ps.Pairwise fun p q => p.stop + 1411 ≤ q.start) → (∀ p ∈ ps, x < p.start / 282 ∨ x = 0) →
    (∀ i, x ≤ i → i < n → (∀ p ∈ ps, ¬ (p.start / 282 ≤ i ∧ i ≤ (p.stop + 1) / 282 + 3)) → ¬ (det i).2 > 0) →
    (∀ p ∈ ps, ∀ i, (p.start + 1) / 282 + 4 ≤ i → i + 1 ≤ p.stop / 282 → keypad[(det i).1]? = some p.key ∧ (det i).2 > 0) →
    Rings 10 5 det n x (ps.map fun p => (p.start / 282, (p.start + 1) / 282 + 4, p.stop / 282 - 1, (p.stop + 1) / 282 + 4, p.key)) := by
  induction ps with
  | nil => exact fun x _ _ _ h _ i h1 h2 => h i h1 h2 (by simp)
  | cons p ps ih =>
    intro x h1 h2 h3 h4 h5
    obtain ⟨l1, l2⟩ := h1 p (by simp)
    rw [List.pairwise_cons] at h2
    rw [List.map_cons]
    refine ⟨?_, ?_, by omega, by omega, by omega, by omega, by omega, by omega, fun i i1 i2 => h5 p (by simp) i i1 (by omega), ?_⟩
    · rcases h3 p (by simp) with h | h <;> omega
    · intro i i1 i2
      refine h4 i i1 (by omega) fun q hq hh => ?_
      rcases List.mem_cons.1 hq with rfl | hq
      · omega
      · have := h2.1 q hq
        omega
    · refine ih _ (fun q hq => h1 q (by simp [hq])) h2.2 (fun q hq => ?_) (fun i i1 i2 hh => ?_) fun q hq => h5 q (by simp [hq])
      · have := h2.1 q hq
        omega
      · refine h4 i ?_ i2 fun q hq => ?_
        · rcases h3 p (by simp) with h | h <;> omega
        rcases List.mem_cons.1 hq with rfl | hq
        · omega
        · exact hh q hq

/-- **C151**: the program examples/dtmf_live.go, computed with rounding on any platform whose cosine and sine are within `2^-50`, prints the keys that are
dialled into the microphone, each once and in order; after a signal it prints a newline and ends, after an error of the sound system it ends with an
error message, and otherwise it goes on. -/
theorem C151_dialled (other : Val → Nat) (cos sin : FVal binary64 → FVal binary64) (η : ℝ) (hη0 : 0 ≤ η) (hη : η ≤ 1 / 2 ^ 50)
    (hT : Trig cos sin 21 η) (d : DTMF (FVal binary64) (FVal binary32)) (hd : NewStandardFp other cos sin 44100 1130 d)
    (evs : List (Heard (FVal binary32))) (hfin : ∀ x ∈ blocks evs, ∀ i < 282, Fp.Finite (x i)) (ps : List Press)
    (hp : Dialled (fun k => val (micAt (blocks evs) k)) (282 * (blocks evs).length) ps) (r : LiveEndFp)
    (hr : LiveFp d (fun _ => 0) Keys.start evs r) : Says r (fate evs) (ps.map Press.key) := by
  obtain ⟨m', k, hend, hrun⟩ := live_run d evs [] (fun _ => 0) Keys.start r ⟨rfl, rfl⟩ hr
  rw [List.nil_append] at hrun
  obtain ⟨det, d1, d2, -, d4⟩ := run_det liveTool (by decide) (by decide) d hd _ _ _ _ hrun
  obtain ⟨st, p1, -, -, -, p5⟩ := press_run liveTool (by decide) det d1 (blocks evs).length
  rw [d4] at p1
  obtain rfl := Option.some.inj p1
  have hout : k.out = ps.map Press.key := by
    rw [p5]
    clear hend hrun hr p5 d4 d1
    generalize blocks evs = xs at *
    have hlive : ∀ j < xs.length, ∀ i < 282, xs.getD j (fun _ => 0) i = (fun k r => micAt xs (k * 282 + r)) j i := by
      intro j hj i hi
      simp only [micAt]
      rw [show (j * 282 + i) / 282 = j by omega, show (j * 282 + i) % 282 = i by omega]
    have hseen : ∀ j < xs.length, ∃ mj, (∀ i < 1130, mj i = aged (fun i => d.w.getD i 0) 282 i (recent 1130 282 (micAt xs) j i)
        (min ((1129 - i) / 282) j)) ∧ FeedFp d mj ⟨0, 1130⟩ (det j).1 (det j).2 := by
      intro j hj
      obtain ⟨mj, h1, h2⟩ := d2 j hj
      refine ⟨mj, fun i hi => ?_, h2⟩
      have e1 := h1 i hi
      have eN : liveTool.blockSize = 1130 := rfl
      have eW : liveTool.window = 282 := rfl
      rw [eN, eW] at e1
      rw [e1, seen_congr (by norm_num) _ hlive hj hi, C87_seen 1130 282 (by norm_num) _ _ _ _ hi (by norm_num)]
    have hval : ∀ k, k < 282 * xs.length → Fp.Finite (micAt xs k) := by
      intro k hk
      have hk2 : k / 282 < xs.length := by omega
      unfold micAt
      rw [List.getD_eq_getElem?_getD, List.getElem?_eq_getElem hk2, Option.getD_some]
      exact hfin _ (List.getElem_mem hk2) _ (Nat.mod_lt _ (by norm_num))
    have hrings := dialled_rings (det := det) (n := xs.length) ps 0 (fun p h => ⟨(hp.ok p h).long, hp.within p h⟩) hp.apart (fun p _ => Or.inr rfl)
      (fun j _ hj hun => by
        obtain ⟨mj, h1, h2⟩ := hseen j hj
        refine block_silent hη0 hη hT hd (q := fun i => min ((1129 - i) / 282) j) (fun i hi => by show i + 282 * min ((1129 - i) / 282) j < 1130; omega) h1
          (fun i hi => ?_) h2
        unfold recent
        split
        · refine isZero_of_val (hval _ (by omega)) ?_
          refine hp.silent _ (by omega) fun p hpp hh => hun p hpp ?_
          omega
        · exact ⟨false, rfl⟩)
      (fun p hpp j j1 j2 => by
        have hst := hp.within p hpp
        obtain ⟨mj, h1, h2⟩ := hseen j (by omega)
        obtain ⟨⟨lo, hi, c1, c2, c3⟩, wA, wB, rA, rB, bd, -⟩ := hp.ok p hpp
        refine block_key hη0 hη hT hd c1 c2 c3 wA wB bd rB rA (φ := 2 * π * p.f * (j * 282 + 282 - 1130 : ℕ) / 44100 + p.φ)
          (ψ := 2 * π * p.g * (j * 282 + 282 - 1130 : ℕ) / 44100 + p.ψ) (X := recent 1130 282 (micAt xs) j)
          (fun i hi => by rw [h1 i hi, show min ((1129 - i) / 282) j = (1129 - i) / 282 by omega]) (fun i hi => ?_) h2
        unfold recent
        rw [if_pos (by omega), ← wave_shift, show j * 282 + 282 + i - 1130 = j * 282 + 282 - 1130 + i by omega]
        exact ⟨hval _ (by omega), hp.sound p hpp _ (by omega) (by omega)⟩)
    have := rings_printed 10 5 (by norm_num) det xs.length _ 0 hrings
    rw [List.map_map] at this
    have e10 : liveTool.repeats = 10 := rfl
    rw [e10, this, Nat.zero_min]
    rfl
  unfold Says
  generalize fate evs = fa at hend ⊢
  rcases fa with _ | _ | _
  · exact ⟨k, hend, hout⟩
  · exact ⟨k, hend, hout⟩
  · exact ⟨m', k, hend, hout⟩

/-! ## The program that fuses nothing -/

/-- What is seen of the end of the program. -/
def endFp {F : Type} : LiveEnd F (FVal binary32) → LiveEndFp
  | .newline l => .newline l.keys
  | .fatal l => .fatal l.keys
  | .listening l => .listening l.m l.keys

theorem live_unfused {other : Val → Nat} {cos sin : FVal binary64 → FVal binary64} {d : DTMF (FVal binary64) (FVal binary32)}
    (hd : NewStandardFp other cos sin 44100 1130 d) (evs : List (Heard (FVal binary32))) : ∀ (l : Loop (FVal binary64) (FVal binary32)),
    l.d.w = d.w → l.d.blockSize = d.blockSize → l.d.nHigh = d.nHigh → reset l.d.lowFreq = reset d.lowFreq → reset l.d.highFreq = reset d.highFreq →
    ∀ e, liveLoop widen narrow l evs = some e → LiveFp d l.m l.keys evs (endFp e) := by
  induction evs with
  | nil =>
    intro l _ _ _ _ _ e h
    obtain rfl := Option.some.inj h
    rfl
  | cons ev evs ih =>
    intro l h1 h2 h3 h4 h5 e h
    rcases ev with ⟨x, sig⟩ | _
    · simp only [liveLoop] at h
      rcases ht : l.turn widen narrow liveTool x with _ | l2
      · rw [ht] at h; cases h
      rw [ht, Option.bind_some] at h
      obtain ⟨t1, t2, t3, t4, t5, t6⟩ := turn_unfused (t := liveTool) hd h1 h2 h3 h4 h5 ht
      refine ⟨l2.m, l2.keys, t1, ?_⟩
      rcases sig with _ | _
      · exact ih l2 t2 t3 t4 t5 t6 e h
      · obtain rfl := Option.some.inj h
        rfl
    · obtain rfl := Option.some.inj h
      rfl

/-- The end of the program with the variables `l`. -/
def endOf {F S : Type} (l : Loop F S) : Fate → LiveEnd F S
  | .signal => .newline l
  | .error => .fatal l
  | .neither => .listening l

theorem live_turns {F S : Type} [Add F] [Sub F] [Mul F] [Zero F] [Mul S] [LT S] [DecidableLT S] [Zero S] (wide : S → F) (narrow : F → S) (d : DTMF F S)
    (hd : Standard liveTool d) (evs : List (Heard S)) : ∀ (pre : List (Nat → S)) (l : Loop F S),
    Loop.turns wide narrow liveTool ⟨d, fun _ => 0, Keys.start⟩ (fun j => (pre ++ blocks evs).getD j fun _ => 0) pre.length = some l →
    ∃ l', Loop.turns wide narrow liveTool ⟨d, fun _ => 0, Keys.start⟩ (fun j => (pre ++ blocks evs).getD j fun _ => 0) (pre ++ blocks evs).length = some l' ∧
      liveLoop wide narrow l evs = some (endOf l' (fate evs)) := by
  have next : ∀ (x : Nat → Nat → S) (n : Nat) (l : Loop F S), Loop.turns wide narrow liveTool ⟨d, fun _ => 0, Keys.start⟩ x n = some l →
      ∃ l2, l.turn wide narrow liveTool (x n) = some l2 ∧ Loop.turns wide narrow liveTool ⟨d, fun _ => 0, Keys.start⟩ x (n + 1) = some l2 := by
    intro x n l h
    obtain ⟨l2, h2, -⟩ := turns_eq wide narrow liveTool (by decide) (by decide) (by decide) d hd x (n + 1)
    refine ⟨l2, ?_, h2⟩
    unfold Loop.turns at h h2
    rw [forRange, h, Option.bind_some] at h2
    exact h2
  induction evs with
  | nil =>
    intro pre l h
    refine ⟨l, ?_, rfl⟩
    have e : pre ++ blocks ([] : List (Heard S)) = pre := List.append_nil pre
    rw [e] at h ⊢
    exact h
  | cons ev evs ih =>
    intro pre l h
    rcases ev with ⟨x, _ | _⟩ | _
    · have e : pre ++ blocks (.block x false :: evs) = (pre ++ [x]) ++ blocks evs := by simp [blocks]
      have hl : (pre ++ [x]).length = pre.length + 1 := by simp
      rw [e] at h ⊢
      obtain ⟨l2, n1, n2⟩ := next _ _ _ h
      have : ((pre ++ [x]) ++ blocks evs).getD pre.length (fun _ => 0) = x := by simp [List.getD_eq_getElem?_getD]
      rw [this] at n1
      rw [← hl] at n2
      obtain ⟨l', i1, i2⟩ := ih (pre ++ [x]) l2 n2
      refine ⟨l', i1, ?_⟩
      rw [liveLoop, n1, Option.bind_some, if_neg (by simp), i2]
      rfl
    · have e : pre ++ blocks (.block x true :: evs) = pre ++ [x] := rfl
      have hl : (pre ++ [x]).length = pre.length + 1 := by simp
      rw [e] at h ⊢
      obtain ⟨l2, n1, n2⟩ := next _ _ _ h
      have : (pre ++ [x]).getD pre.length (fun _ => 0) = x := by simp [List.getD_eq_getElem?_getD]
      rw [this] at n1
      rw [← hl] at n2
      refine ⟨l2, n2, ?_⟩
      rw [liveLoop, n1, Option.bind_some, if_pos rfl]
      rfl
    · refine ⟨l, ?_, rfl⟩
      have e : pre ++ blocks (.err :: evs : List (Heard S)) = pre := List.append_nil pre
      rw [e] at h ⊢
      exact h

/-- C151: there is always something the program may do: the program that rounds every operation and fuses nothing does not panic, makes the turns of C87, and
does what `LiveFp` allows. -/
theorem C151_unfused (other : Val → Nat) (cos sin : FVal binary64 → FVal binary64) (d : DTMF (FVal binary64) (FVal binary32))
    (hd : NewStandardFp other cos sin 44100 1130 d) (evs : List (Heard (FVal binary32))) :
    ∃ l, Loop.turns widen narrow liveTool ⟨d, fun _ => 0, Keys.start⟩ (fun j => (blocks evs).getD j fun _ => 0) (blocks evs).length = some l ∧
      liveLoop widen narrow ⟨d, fun _ => 0, Keys.start⟩ evs = some (endOf l (fate evs)) ∧
      LiveFp d (fun _ => 0) Keys.start evs (endFp (endOf l (fate evs))) := by
  obtain ⟨hwl, hsz⟩ := standardFp_sizes hd
  have hst : Standard liveTool d := by
    obtain ⟨es, w, -, -, rfl⟩ := hd
    exact ⟨hwl, hsz, by simp [stdLowFreq], by simp [stdHighFreq], rfl⟩
  obtain ⟨l, h1, h2⟩ := live_turns widen narrow d hst evs [] ⟨d, fun _ => 0, Keys.start⟩ rfl
  rw [List.nil_append] at h1
  exact ⟨l, h1, h2, live_unfused hd evs _ rfl rfl rfl rfl rfl _ h2⟩

/-! ## Sounds -/

theorem apart_unique {ps : List Press} (h : ps.Pairwise fun p q => p.stop + 1411 ≤ q.start) {p q : Press} (hp : p ∈ ps) (hq : q ∈ ps) {k : Nat}
    (h1 : p.start ≤ k ∧ k < p.stop) (h2 : q.start ≤ k ∧ k < q.stop) : p = q := by
  induction ps with
  | nil => cases hp
  | cons x xs ih =>
    rw [List.pairwise_cons] at h
    rcases List.mem_cons.1 hp with rfl | hp' <;> rcases List.mem_cons.1 hq with rfl | hq'
    · rfl
    · have := h.1 q hq'
      omega
    · have := h.1 p hp'
      omega
    · exact ih h.2 hp' hq'

/-- The hypotheses of `C151_dialled` can be met: whatever presses are far enough apart and neither too weak nor too strong for 16 bits, they can be
dialled into a microphone. -/
theorem dialled_exists (n : Nat) (ps : List Press) (hok : ∀ p ∈ ps, Ok p) (hwith : ∀ p ∈ ps, p.stop ≤ 282 * n)
    (hap : ps.Pairwise fun p q => p.stop + 1411 ≤ q.start) (hweak : ∀ p ∈ ps, 30 / 65536 ≤ min p.A p.B) (hstrong : ∀ p ∈ ps, p.A + p.B ≤ 0.9999) :
    ∃ xs : List (Nat → FVal binary32), xs.length = n ∧ (∀ x ∈ xs, ∀ i, Fp.Finite (x i)) ∧ Dialled (fun k => val (micAt xs k)) (282 * n) ps := by
  have hs : ∀ k : Nat, ∃ y : ℝ, |y| ≤ 0.9999 ∧ (∀ p ∈ ps, p.start ≤ k ∧ k < p.stop → y = wave p k) ∧
      ((∀ p ∈ ps, ¬ (p.start ≤ k ∧ k < p.stop)) → y = 0) := by
    intro k
    by_cases h : ∃ p ∈ ps, p.start ≤ k ∧ k < p.stop
    · obtain ⟨p, hp, hk⟩ := h
      refine ⟨wave p k, ?_, fun q hq hkq => by rw [apart_unique hap hp hq hk hkq], fun hh => absurd hk (hh p hp)⟩
      have hA : 0 < p.A := lt_of_lt_of_le (by norm_num) (hok p hp).weakA
      have hB : 0 < p.B := lt_of_lt_of_le (by norm_num) (hok p hp).weakB
      have a1 := Real.abs_cos_le_one (2 * π * p.f * k / 44100 + p.φ)
      have a2 := Real.abs_cos_le_one (2 * π * p.g * k / 44100 + p.ψ)
      refine le_trans ?_ (hstrong p hp)
      unfold wave
      refine (abs_add_le _ _).trans ?_
      rw [abs_mul, abs_mul, abs_of_pos hA, abs_of_pos hB]
      nlinarith
    · exact ⟨0, by norm_num, fun p hp hk => absurd ⟨p, hp, hk⟩ h, fun _ => rfl⟩
  choose y y1 y2 y3 using hs
  choose v v1 v2 using fun k => exists_word (y k) (y1 k)
  have hc : ∀ k, Fp.Finite (conv16 (v k)) ∧ val (conv16 (v k)) = ((v k).toInt : ℝ) / 32768 := by
    intro k
    have e : ((v k >>> 8).setWidth 8 ++ (v k).setWidth 8 : BitVec 16) = v k := by
      apply BitVec.eq_of_getLsbD_eq
      intro i hi
      simp only [BitVec.getLsbD_append, BitVec.getLsbD_setWidth, BitVec.getLsbD_ushiftRight]
      by_cases h : i < 8
      · simp [h]
      · simp only [h, decide_false, if_false]
        rw [show 8 + (i - 8) = i by omega]
        simp
        omega
    have := conv16_val ((v k).setWidth 8) ((v k >>> 8).setWidth 8)
    rwa [e] at this
  refine ⟨(List.range n).map fun j i => conv16 (v (282 * j + i)), by simp, fun x hx i => ?_, ?_⟩
  · obtain ⟨j, -, rfl⟩ := List.mem_map.1 hx
    exact (hc _).1
  have hm : ∀ k < 282 * n, micAt ((List.range n).map fun j i => conv16 (v (282 * j + i))) k = conv16 (v k) := by
    intro k hk
    unfold micAt
    rw [List.getD_eq_getElem?_getD, List.getElem?_map, List.getElem?_range (by omega), Option.map_some, Option.getD_some,
      show 282 * (k / 282) + k % 282 = k by omega]
  refine ⟨hok, hwith, hap, fun p hp k k1 k2 => ?_, fun k hk hh => ?_⟩
  · rw [hm k (lt_of_lt_of_le k2 (hwith p hp)), (hc k).2, ← y2 k p hp ⟨k1, k2⟩]
    exact (v1 k).trans (by linarith [hweak p hp])
  · rw [hm k hk, (hc k).2, v2 k (y3 k hh)]
    simp

/-- Blocks of sound, then a signal during the last one. -/
def untilSignal {S : Type} : List (Nat → S) → List (Heard S)
  | [] => []
  | [x] => [.block x true]
  | x :: xs => .block x false :: untilSignal xs

theorem blocks_until {S : Type} (xs : List (Nat → S)) : blocks (untilSignal xs) = xs := by
  induction xs with
  | nil => rfl
  | cons x xs ih =>
    cases xs with
    | nil => rfl
    | cons y ys => simp only [untilSignal, blocks, ih]

theorem fate_until {S : Type} (xs : List (Nat → S)) (h : xs ≠ []) : fate (untilSignal xs) = .signal := by
  induction xs with
  | nil => exact absurd rfl h
  | cons x xs ih =>
    cases xs with
    | nil => rfl
    | cons y ys =>
      have := ih (by simp)
      simpa only [untilSignal, fate] using this

/-- The keys 5, 5 and # in four tenths of a second, any phases, off by about two hertz, then a signal: there is a platform, and a sound of 70 blocks, and the
program prints `55#`, a newline, and ends. -/
example (other : Val → Nat) (φ ψ : ℝ) : ∃ (cos sin : FVal binary64 → FVal binary64) (d : DTMF (FVal binary64) (FVal binary32))
    (xs : List (Nat → FVal binary32)) (l : Loop (FVal binary64) (FVal binary32)), NewStandardFp other cos sin 44100 1130 d ∧ xs.length = 70 ∧
    liveLoop widen narrow ⟨d, fun _ => 0, Keys.start⟩ (untilSignal xs) = some (.newline l) ∧ l.keys.out = ['5', '5', '#'] := by
  choose co c1 c2 c3 using fun x : FVal binary64 => exists_float (Real.cos (val x)) (Real.abs_cos_le_one _)
  choose si s1 _ s3 using fun x : FVal binary64 => exists_float (Real.sin (val x)) (Real.abs_sin_le_one _)
  have hT : Trig co si 21 (1 / 2 ^ 50) := fun x _ _ => ⟨⟨c1 x, c2 x, c3 x⟩, s1 x, s3 x⟩
  obtain ⟨d, hd⟩ := standard_exists other co si 44100 1130
  have ok1 : ∀ a b, a + 4231 ≤ b → Ok ⟨'5', a, b, 768.5, 1338, 0.3, 0.2, φ, ψ⟩ := fun a b hab =>
    ⟨⟨770, 1336, rfl, by norm_num [abs_le], by norm_num [abs_le]⟩, by norm_num, by norm_num, by norm_num, by norm_num, by norm_num, hab⟩
  have ok2 : Ok ⟨'#', 14000, 18500, 942, 1475, 0.01, 0.013, ψ, φ⟩ :=
    ⟨⟨941, 1477, rfl, by norm_num [abs_le], by norm_num [abs_le]⟩, by norm_num, by norm_num, by norm_num, by norm_num, by norm_num, by norm_num⟩
  obtain ⟨xs, b1, b2, b3⟩ := dialled_exists 70 [⟨'5', 7, 4238, 768.5, 1338, 0.3, 0.2, φ, ψ⟩, ⟨'5', 6000, 10300, 768.5, 1338, 0.3, 0.2, φ, ψ⟩,
      ⟨'#', 14000, 18500, 942, 1475, 0.01, 0.013, ψ, φ⟩]
    (by
      intro p hp
      simp only [List.mem_cons, List.not_mem_nil, or_false] at hp
      rcases hp with rfl | rfl | rfl
      · exact ok1 _ _ (by norm_num)
      · exact ok1 _ _ (by norm_num)
      · exact ok2)
    (by simp) (by simp) (by norm_num) (by norm_num)
  obtain ⟨l, -, l1, l2⟩ := C151_unfused other co si d hd (untilSignal xs)
  have hf : fate (untilSignal xs) = .signal := fate_until xs (by rintro rfl; simp at b1)
  have hS := C151_dialled other co si (1 / 2 ^ 50) (by norm_num) le_rfl hT d hd (untilSignal xs) (by rw [blocks_until]; exact fun x hx i _ => b2 x hx i) _
    (by rw [blocks_until, b1]; exact b3) _ l2
  rw [hf] at l1 hS
  obtain ⟨k, k1, k2⟩ := hS
  refine ⟨co, si, d, xs, l, hd, b1, l1, ?_⟩
  have : l.keys = k := LiveEndFp.newline.inj k1
  rw [this, k2]
  rfl

end Verif.Dtmf.Live
