import Verif.Ax25.EarFp

/-!
# Which samples are in the block after each window
-/

namespace Verif.Ax25.Ear

open Verif.Ax25 Verif.Fp Verif.Dft Verif.Dtmf Verif.Filt Verif.Conv

theorem samplesOf_length : ∀ l : List Byte, (samplesOf l).length = l.length / 2
  | [] => rfl
  | [_] => by simp [samplesOf]
  | lo :: hi :: rest => by
    rw [samplesOf, List.length_cons, samplesOf_length rest, List.length_cons, List.length_cons]
    omega

theorem samplesOf_get : ∀ (l : List Byte) (j : ℕ), 2 * j + 1 < l.length → (samplesOf l)[j]? = some (sample (l.getD (2 * j) 0) (l.getD (2 * j + 1) 0))
  | [], j, h => by simp at h
  | [_], j, h => by simp at h
  | lo :: hi :: rest, 0, _ => rfl
  | lo :: hi :: rest, j + 1, h => by
    rw [samplesOf, List.getElem?_cons_succ, samplesOf_get rest j (by simp only [List.length_cons] at h; omega)]
    have e1 : 2 * (j + 1) = 2 * j + 1 + 1 := by ring
    rw [e1, List.getD_cons_succ, List.getD_cons_succ, List.getD_cons_succ, List.getD_cons_succ]

theorem samplesOf_mem {l : List Byte} {x : FVal binary32} (h : x ∈ samplesOf l) :
    ∃ j, 2 * j + 1 < l.length ∧ x = sample (l.getD (2 * j) 0) (l.getD (2 * j + 1) 0) := by
  obtain ⟨j, hj, rfl⟩ := List.getElem_of_mem h
  have hl := samplesOf_length l
  have h2 : 2 * j + 1 < l.length := by omega
  refine ⟨j, h2, ?_⟩
  have := samplesOf_get l j h2
  rw [List.getElem?_eq_getElem hj] at this
  exact Option.some.inj this

theorem samplesOf_append : ∀ {l m : List Byte}, l.length % 2 = 0 → samplesOf (l ++ m) = samplesOf l ++ samplesOf m
  | [], _, _ => rfl
  | [_], _, h => by simp at h
  | lo :: hi :: rest, m, h => by
    have := samplesOf_append (l := rest) (m := m) (by simp only [List.length_cons] at h; omega)
    simp only [List.cons_append, samplesOf, this]

/-- The state after some reads. -/
def after (f : Front) (rs : List (List Byte)) : Front := rs.foldl Front.read f

/-- All samples so far. -/
def stream : Front → List (List Byte) → List (FVal binary32)
  | _, [] => []
  | f, r :: rs => samplesOf (f.read r).buf ++ stream (f.read r) rs

theorem read_buf {f : Front} {r : List Byte} (hf : f.buf.length = 8) (hr : r.length ≤ 8) : (f.read r).buf.length = 8 := by
  simp only [Front.read, List.length_append, List.length_drop]
  omega

theorem read_samples_length {f : Front} {r : List Byte} (hf : f.buf.length = 8) (hs : f.samples.length = 36) (hr : r.length ≤ 8) :
    (f.read r).samples.length = 36 := by
  have := read_buf hf hr
  have h2 := samplesOf_length (f.read r).buf
  rw [this] at h2
  have e : (f.read r).samples = f.samples.drop 4 ++ samplesOf (f.read r).buf := rfl
  rw [e, List.length_append, List.length_drop, h2, hs]

theorem after_samples {f : Front} {rs : List (List Byte)} (hf : f.buf.length = 8) (hs : f.samples.length = 36) (hr : ∀ r ∈ rs, r.length ≤ 8) :
    (after f rs).samples = (f.samples ++ stream f rs).drop (4 * rs.length) ∧ (stream f rs).length = 4 * rs.length := by
  induction rs generalizing f with
  | nil => simp [after, stream]
  | cons r rs ih =>
    have h1 := read_buf hf (hr r (by simp))
    have h2 := read_samples_length hf hs (hr r (by simp))
    obtain ⟨i1, i2⟩ := ih h1 h2 fun r' h' => hr r' (by simp [h'])
    have h3 := samplesOf_length (f.read r).buf
    rw [h1] at h3
    constructor
    · have e : after f (r :: rs) = after (f.read r) rs := rfl
      rw [e, i1, stream, List.length_cons]
      have e2 : (f.read r).samples = f.samples.drop 4 ++ samplesOf (f.read r).buf := rfl
      have e3 : 4 * (rs.length + 1) = 4 + 4 * rs.length := by ring
      rw [e2, e3, ← List.drop_drop, List.drop_append_of_le_length (l₁ := f.samples) (by omega), List.append_assoc]
    · rw [stream, List.length_append, i2, h3, List.length_cons]
      ring

theorem stream_append (f : Front) (rs ts : List (List Byte)) : stream f (rs ++ ts) = stream f rs ++ stream (after f rs) ts := by
  induction rs generalizing f with
  | nil => rfl
  | cons r rs ih => rw [List.cons_append, stream, stream, ih, List.append_assoc]; rfl

theorem after_buf {f : Front} {rs : List (List Byte)} (hf : f.buf.length = 8) (hr : ∀ r ∈ rs, r.length ≤ 8) : (after f rs).buf.length = 8 := by
  induction rs generalizing f with
  | nil => exact hf
  | cons r rs ih => exact ih (read_buf hf (hr r (by simp))) fun r' h' => hr r' (by simp [h'])

/-- When all reads are full, the samples are those of the bytes. -/
theorem stream_full {f : Front} {rs : List (List Byte)} (hf : f.buf.length = 8) (hr : ∀ r ∈ rs, r.length = 8) : stream f rs = samplesOf rs.flatten := by
  induction rs generalizing f with
  | nil => rfl
  | cons r rs ih =>
    have h8 := hr r (by simp)
    have e : (f.read r).buf = r := by
      show r ++ f.buf.drop r.length = r
      rw [h8, List.drop_of_length_le (by omega), List.append_nil]
    rw [stream, e, List.flatten_cons, samplesOf_append (by omega), ih (by rw [e]; exact h8) fun r' h' => hr r' (by simp [h'])]

/-- Every sample of the block is one of those before, or comes from two bytes of the buffer. -/
theorem after_all {Q : FVal binary32 → Prop} {B : List Byte → Prop} (hB : ∀ b, B b → ∀ x ∈ samplesOf b, Q x) {f : Front} {rs : List (List Byte)}
    (hf : ∀ x ∈ f.samples, Q x) (hb : B f.buf) (hstep : ∀ r ∈ rs, ∀ b, B b → B (r ++ b.drop r.length)) :
    ∀ x ∈ (after f rs).samples, Q x := by
  induction rs generalizing f with
  | nil => exact hf
  | cons r rs ih =>
    have hb' : B (f.read r).buf := hstep r (by simp) _ hb
    refine ih (f := f.read r) ?_ hb' fun r' h' => hstep r' (by simp [h'])
    intro x hx
    have e2 : (f.read r).samples = f.samples.drop 4 ++ samplesOf (f.read r).buf := rfl
    rw [e2, List.mem_append] at hx
    rcases hx with hx | hx
    · exact hf x (List.mem_of_mem_drop hx)
    · exact hB _ hb' x hx

theorem diffs_spec {other : Val → Nat} {cos sin : FVal binary64 → FVal binary64} {f : Front} {rs : List (List Byte)} {ds : List Val}
    (h : Diffs other cos sin f rs ds) :
    ds.length = rs.length ∧ ∀ n (hn : n < ds.length), Diff other cos sin (after f (rs.take (n + 1))).samples ds[n] := by
  induction rs generalizing f ds with
  | nil =>
    obtain rfl : ds = [] := h
    exact ⟨rfl, fun n hn => by simp at hn⟩
  | cons r rs ih =>
    obtain ⟨d, ds', rfl, h1, h2⟩ := h
    obtain ⟨i1, i2⟩ := ih h2
    refine ⟨by rw [List.length_cons, List.length_cons, i1], fun n hn => ?_⟩
    cases n with
    | zero => exact h1
    | succ n =>
      rw [List.getElem_cons_succ, List.take_succ_cons]
      exact i2 n (by simpa using hn)

/-- Good samples: numbers of the format, of size at most 1. -/
def Good (x : FVal binary32) : Prop := Fp.Finite x ∧ Grid binary32 x.toRat ∧ |val x| ≤ 1

theorem good_zero : Good (Val.fin false 0 : FVal binary32) := by
  refine ⟨⟨_, _, rfl, le_rfl⟩, ?_, ?_⟩
  · exact ⟨0, 0, by decide, by decide, by simp [Val.toRat]⟩
  · simp [val, Val.toRat]

theorem start_lengths : Front.start.buf.length = 8 ∧ Front.start.samples.length = 36 := ⟨rfl, rfl⟩

theorem start_good : ∀ x ∈ Front.start.samples, x = Val.fin false 0 := fun x hx => List.eq_of_mem_replicate hx

theorem after_good (rs : List (List Byte)) : ∀ x ∈ (after Front.start rs).samples, Good x :=
  after_all (B := fun _ => True) (fun b _ x hx => by
    obtain ⟨j, _, rfl⟩ := samplesOf_mem hx
    have := sample_val (b.getD (2 * j) 0) (b.getD (2 * j + 1) 0)
    exact ⟨this.1, this.2.1, this.2.2.1⟩) (fun x hx => by rw [start_good x hx]; exact good_zero) trivial fun _ _ _ _ => trivial

theorem after_length {rs : List (List Byte)} (hr : ∀ r ∈ rs, r.length ≤ 8) : (after Front.start rs).samples.length = 36 := by
  obtain ⟨h1, h2⟩ := after_samples start_lengths.1 start_lengths.2 hr
  rw [h1, List.length_drop, List.length_append, h2]
  have := start_lengths.2
  omega

/-- The values `diff` can always be computed. -/
theorem diff_exists (other : Val → Nat) (cos sin : FVal binary64 → FVal binary64) (xs : List (FVal binary32)) : ∃ d, Diff other cos sin xs d := by
  have h := magnitudes_unfused (detectors other cos sin) xs
  have hl := h.length_eq
  generalize magnitude narrow (Verif.Dft.feed widen (reset (detectors other cos sin)) xs) = vs at h hl
  match vs, hl with
  | [v0, v1], _ => exact ⟨_, v0, v1, h, rfl⟩

theorem diffs_exist (other : Val → Nat) (cos sin : FVal binary64 → FVal binary64) (f : Front) (rs : List (List Byte)) :
    ∃ ds, Diffs other cos sin f rs ds := by
  induction rs generalizing f with
  | nil => exact ⟨[], rfl⟩
  | cons r rs ih =>
    obtain ⟨d, hd⟩ := diff_exists other cos sin (f.read r).samples
    obtain ⟨ds, h⟩ := ih (f.read r)
    exact ⟨d :: ds, d, ds, rfl, hd, h⟩

end Verif.Ax25.Ear
