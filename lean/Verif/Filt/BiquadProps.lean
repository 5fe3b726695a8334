import Verif.Filt.BiquadModel
import Verif.Filt.IirProps
import Mathlib.Tactic.LinearCombination

/-!
# Property C41 and the biquad part of C44
-/

namespace Verif.Filt
open Verif.Conv Finset

variable {F S K : Type}

section
variable [Add F] [Sub F] [Mul F] [Div F]

/-- One sample. -/
def BQ.step (f : BQ F) (s : F) : BQ F :=
  { f with
    prevIn0 := s
    prevIn1 := f.prevIn0
    prevOut0 := f.B0 / f.A0 * s + f.B1 / f.A0 * f.prevIn0 + f.B2 / f.A0 * f.prevIn1
      - f.A1 / f.A0 * f.prevOut0 - f.A2 / f.A0 * f.prevOut1
    prevOut1 := f.prevOut0 }

/-- The filter after `n` samples. -/
def BQ.after (f : BQ F) (x : Nat → F) : Nat → BQ F
  | 0 => f
  | n + 1 => (f.after x n).step (x n)

theorem BQ.step_coef (f : BQ F) (s : F) : (f.step s).B0 = f.B0 ∧ (f.step s).B1 = f.B1 ∧ (f.step s).B2 = f.B2 ∧
    (f.step s).A0 = f.A0 ∧ (f.step s).A1 = f.A1 ∧ (f.step s).A2 = f.A2 := ⟨rfl, rfl, rfl, rfl, rfl, rfl⟩

theorem BQ.after_coef (f : BQ F) (x : Nat → F) (n : Nat) : (f.after x n).B0 = f.B0 ∧ (f.after x n).B1 = f.B1 ∧
    (f.after x n).B2 = f.B2 ∧ (f.after x n).A0 = f.A0 ∧ (f.after x n).A1 = f.A1 ∧ (f.after x n).A2 = f.A2 := by
  induction n with
  | zero => exact ⟨rfl, rfl, rfl, rfl, rfl, rfl⟩
  | succ n ih => exact ih

theorem BQ.filterF32_eq (wide : S → F) (narrow : F → S) (f : BQ F) (m : Nat → S) (input output : Slice)
    (hio : OutputOk input output) :
    f.filterF32 wide narrow m input output = some (fill m output.base input.len
        fun n => narrow (f.after (fun i => wide (m (input.base + i))) (n + 1)).prevOut0,
      f.after (fun i => wide (m (input.base + i))) input.len) := by
  obtain ⟨h1, h2⟩ := hio
  unfold BQ.filterF32
  refine forRange_states (S := fun k => (fill m output.base k
        fun n => narrow (f.after (fun i => wide (m (input.base + i))) (n + 1)).prevOut0,
      f.after (fun i => wide (m (input.base + i))) k)) ?_ ?_
  · simp only [fill_zero]; rfl
  · intro i hi
    obtain ⟨e0, e1, e2, e3, e4, e5⟩ := f.after_coef (fun i => wide (m (input.base + i))) i
    simp only [Option.bind_eq_bind]
    rw [read_ok hi, Option.bind_some, fill_out (by omega), write_ok (by omega), Option.bind_some,
      ← update_fill _ _ _ _ _ rfl]
    simp only [BQ.after, BQ.step, e0, e1, e2, e3, e4, e5]

/-- `Filter` is `FilterF32` without conversions. -/
theorem BQ.filter_f32 (f : BQ F) (m : Nat → F) (input output : Slice) :
    f.filter m input output = f.filterF32 (fun s => s) (fun s => s) m input output := rfl

theorem BQ.filter_eq (f : BQ F) (m : Nat → F) (input output : Slice) (hio : OutputOk input output) :
    f.filter m input output = some (fill m output.base input.len
        fun n => (f.after (fun i => m (input.base + i)) (n + 1)).prevOut0,
      f.after (fun i => m (input.base + i)) input.len) :=
  BQ.filterF32_eq (fun s => s) (fun s => s) f m input output hio

/-- Successive calls of `FilterF32`. -/
def BQ.callsF32 (wide : S → F) (narrow : F → S) (f : BQ F) (m : Nat → S) :
    List (Slice × Slice) → Option ((Nat → S) × BQ F)
  | [] => some (m, f)
  | (i, o) :: cs => (f.filterF32 wide narrow m i o).bind fun (m, f) => f.callsF32 wide narrow m cs

/-- Successive calls of `Filter`. -/
def BQ.calls (f : BQ F) (m : Nat → F) : List (Slice × Slice) → Option ((Nat → F) × BQ F)
  | [] => some (m, f)
  | (i, o) :: cs => (f.filter m i o).bind fun (m, f) => f.calls m cs

/-- The loop body of `filterF32` with the coefficients of `f0`. -/
def BQ.body (wide : S → F) (narrow : F → S) (f0 : BQ F) (input output : Slice) :
    Nat → (Nat → S) × BQ F → Option ((Nat → S) × BQ F) := fun i (m, f) => do
  let s ← input.read m i
  let newSample := f0.B0 / f0.A0 * wide s + f0.B1 / f0.A0 * f.prevIn0 + f0.B2 / f0.A0 * f.prevIn1
    - f0.A1 / f0.A0 * f.prevOut0 - f0.A2 / f0.A0 * f.prevOut1
  let m ← output.write m i (narrow newSample)
  some (m, { f with prevIn0 := wide s, prevIn1 := f.prevIn0, prevOut0 := newSample, prevOut1 := f.prevOut0 })

theorem BQ.filterF32_body (wide : S → F) (narrow : F → S) (f : BQ F) (m : Nat → S) (input output : Slice) :
    f.filterF32 wide narrow m input output = forRange input.len (m, f) (BQ.body wide narrow f input output) := rfl

theorem BQ.run_coef {wide : S → F} {narrow : F → S} {f0 f g : BQ F} {m m' : Nat → S} {input output : Slice} {n : Nat}
    (h : forRange n (m, f) (BQ.body wide narrow f0 input output) = some (m', g)) :
    g.B0 = f.B0 ∧ g.B1 = f.B1 ∧ g.B2 = f.B2 ∧ g.A0 = f.A0 ∧ g.A1 = f.A1 ∧ g.A2 = f.A2 := by
  induction n generalizing m' g with
  | zero => cases h; exact ⟨rfl, rfl, rfl, rfl, rfl, rfl⟩
  | succ n ih =>
    rw [forRange] at h
    obtain ⟨⟨m1, g1⟩, h1, h2⟩ := Option.bind_eq_some_iff.1 h
    have := ih h1
    unfold BQ.body at h2
    simp only [Option.bind_eq_bind] at h2
    obtain ⟨s, _, h2⟩ := Option.bind_eq_some_iff.1 h2
    obtain ⟨m2, _, h2⟩ := Option.bind_eq_some_iff.1 h2
    cases h2
    exact this

theorem BQ.filter_append (wide : S → F) (narrow : F → S) (f : BQ F) (m : Nat → S) (ib ob n k e e' : Nat) :
    f.filterF32 wide narrow m ⟨ib, n + k⟩ ⟨ob, n + k + e⟩ =
      (f.filterF32 wide narrow m ⟨ib, n⟩ ⟨ob, n + e'⟩).bind
        fun (m, f) => f.filterF32 wide narrow m ⟨ib + n, k⟩ ⟨ob + n, k + e⟩ := by
  rw [BQ.filterF32_body, BQ.filterF32_body, forRange_add]
  have e1 : forRange n (m, f) (BQ.body wide narrow f ⟨ib, n + k⟩ ⟨ob, n + k + e⟩)
      = forRange n (m, f) (BQ.body wide narrow f ⟨ib, n⟩ ⟨ob, n + e'⟩) := by
    refine forRange_congr fun i t hi => ?_
    have r : Slice.read ⟨ib, n + k⟩ t.1 i = Slice.read ⟨ib, n⟩ t.1 i := by
      rw [read_ok (by simp only; omega), read_ok (by simp only; omega)]
    have w : ∀ v, Slice.write ⟨ob, n + k + e⟩ t.1 i v = Slice.write ⟨ob, n + e'⟩ t.1 i v := by
      intro v
      rw [write_ok (by simp only; omega), write_ok (by simp only; omega)]
    unfold BQ.body
    simp only [r, w]
  dsimp only
  rw [e1]
  cases hr : forRange n (m, f) (BQ.body wide narrow f ⟨ib, n⟩ ⟨ob, n + e'⟩) with
  | none => rfl
  | some t =>
    obtain ⟨m1, g⟩ := t
    obtain ⟨c0, c1, c2, c3, c4, c5⟩ := BQ.run_coef hr
    rw [Option.bind_some, Option.bind_some, BQ.filterF32_body]
    refine forRange_congr fun i u hi => ?_
    have r : Slice.read ⟨ib, n + k⟩ u.1 (n + i) = Slice.read ⟨ib + n, k⟩ u.1 i := by
      rw [read_ok (by simp only; omega), read_ok (by simp only; omega)]
      simp only [Nat.add_assoc]
    have w : ∀ v, Slice.write ⟨ob, n + k + e⟩ u.1 (n + i) v = Slice.write ⟨ob + n, k + e⟩ u.1 i v := by
      intro v
      rw [write_ok (by simp only; omega), write_ok (by simp only; omega)]
      simp only [Nat.add_assoc]
    unfold BQ.body
    simp only [r, w, c0, c1, c2, c3, c4, c5]

/-- C41, chunking for `FilterF32`: any list of pieces gives the same memory and state as one call, for
arbitrary arithmetic and conversions, any placement. -/
theorem C41_chunks_f32 (wide : S → F) (narrow : F → S) (f : BQ F) (m : Nat → S) (ib ob : Nat)
    (cs : List (Nat × Nat)) (extra : Nat) :
    f.callsF32 wide narrow m (cut ib ob cs) = f.filterF32 wide narrow m ⟨ib, total cs⟩ ⟨ob, total cs + extra⟩ := by
  induction cs generalizing f m ib ob with
  | nil => rfl
  | cons c cs ih =>
    obtain ⟨n, e⟩ := c
    rw [cut, BQ.callsF32, total, BQ.filter_append (e' := e)]
    refine congrArg _ (funext fun t => ?_)
    exact ih ..

/-- C41, chunking for `Filter`. -/
theorem C41_chunks (f : BQ F) (m : Nat → F) (ib ob : Nat) (cs : List (Nat × Nat)) (extra : Nat) :
    f.calls m (cut ib ob cs) = f.filter m ⟨ib, total cs⟩ ⟨ob, total cs + extra⟩ := by
  have : ∀ cs, f.calls m cs = f.callsF32 (fun s => s) (fun s => s) m cs := by
    intro cs
    induction cs generalizing f m with
    | nil => rfl
    | cons c cs ih =>
      rw [BQ.calls, BQ.callsF32]
      refine congrArg _ (funext fun t => ?_)
      exact ih ..
  rw [this, C41_chunks_f32 (extra := extra)]
  rfl

/-- C41: `FilterF32` returns the narrowed outputs of the 64-bit filter on the widened samples and
leaves it in the same state. -/
theorem C41_f32_narrows (wide : S → F) (narrow : F → S) (f : BQ F) (m : Nat → S) (M : Nat → F) (input output : Slice)
    (hio : OutputOk input output) (hM : ∀ i < input.len, M (input.base + i) = wide (m (input.base + i))) :
    ∃ m' M' g, f.filterF32 wide narrow m input output = some (m', g) ∧ f.filter M input output = some (M', g) ∧
      (∀ i < input.len, m' (output.base + i) = narrow (M' (output.base + i))) ∧
      ∀ j, ¬ (output.base ≤ j ∧ j < output.base + input.len) → m' j = m j := by
  have e : ∀ n ≤ input.len, f.after (fun i => M (input.base + i)) n = f.after (fun i => wide (m (input.base + i))) n := by
    intro n
    induction n with
    | zero => intro _; rfl
    | succ n ih =>
      intro h
      rw [BQ.after, BQ.after, ih (by omega), hM n (by omega)]
  refine ⟨_, fill M output.base input.len fun n => (f.after (fun i => M (input.base + i)) (n + 1)).prevOut0, _,
    BQ.filterF32_eq wide narrow f m input output hio, ?_, ?_, ?_⟩
  · rw [BQ.filter_eq f M input output hio, e _ (Nat.le_refl _)]
  · intro i hi
    rw [fill_in hi, fill_in hi, e (i + 1) (by omega)]
  · intro j hj
    exact fill_out (by omega)

end

/-! ## The difference equation -/

/-- Coefficient sequences of a biquad. -/
def BQ.bSeq (f : BQ K) (k : Nat) : K := if k = 0 then f.B0 else if k = 1 then f.B1 else f.B2

/-- Denominator coefficients. -/
def BQ.aSeq (f : BQ K) (k : Nat) : K := if k = 0 then f.A0 else if k = 1 then f.A1 else f.A2

section
variable [Field K]

/-- A filter that has not been used. -/
def BQ.AtRest (f : BQ K) : Prop := f.prevIn0 = 0 ∧ f.prevIn1 = 0 ∧ f.prevOut0 = 0 ∧ f.prevOut1 = 0

/-- Output `n` from the given state. -/
def BQ.out (f : BQ K) (x : Nat → K) (n : Nat) : K := (f.after x (n + 1)).prevOut0

theorem BQ.after_state (f : BQ K) (hf : f.AtRest) (x : Nat → K) (n : Nat) :
    (f.after x n).prevIn0 = delayed x n 1 ∧ (f.after x n).prevIn1 = delayed x n 2 ∧
    (f.after x n).prevOut0 = delayed (f.out x) n 1 ∧ (f.after x n).prevOut1 = delayed (f.out x) n 2 := by
  obtain ⟨h1, h2, h3, h4⟩ := hf
  match n with
  | 0 => exact ⟨h1, h2, h3, h4⟩
  | 1 => exact ⟨rfl, h1, rfl, h3⟩
  | n + 2 => exact ⟨rfl, rfl, rfl, rfl⟩

theorem BQ.out_eq (f : BQ K) (hf : f.AtRest) (x : Nat → K) (n : Nat) : f.out x n =
    f.B0 / f.A0 * x n + f.B1 / f.A0 * delayed x n 1 + f.B2 / f.A0 * delayed x n 2
      - f.A1 / f.A0 * delayed (f.out x) n 1 - f.A2 / f.A0 * delayed (f.out x) n 2 := by
  obtain ⟨e1, e2, e3, e4⟩ := f.after_state hf x n
  obtain ⟨c0, c1, c2, c3, c4, c5⟩ := f.after_coef x n
  conv_lhs => rw [BQ.out, BQ.after, BQ.step]
  simp only [c0, c1, c2, c3, c4, c5, e1, e2, e3, e4]

theorem BQ.out_recurrence (f : BQ K) (hf : f.AtRest) (ha : f.A0 ≠ 0) (x : Nat → K) (N : Nat) :
    Recurrence 3 N f.bSeq f.aSeq x (f.out x) := by
  intro n _
  have e := f.out_eq hf x n
  simp only [sum_range_succ, sum_range_zero, zero_add, BQ.bSeq, BQ.aSeq]
  simp only [if_true, one_ne_zero, if_false, OfNat.ofNat_ne_zero, OfNat.ofNat_ne_one]
  have d0 : ∀ y : Nat → K, delayed y n 0 = y n := fun y => by simp [delayed]
  rw [d0, d0]
  field_simp at e
  linear_combination e

/-- C41: an unused biquad with `A0 ≠ 0` writes the solution of its difference equation, into every
output that does not overwrite unread input, and nothing else. -/
theorem C41_recurrence (f : BQ K) (hf : f.AtRest) (ha : f.A0 ≠ 0) (m : Nat → K) (input output : Slice)
    (hio : OutputOk input output) :
    ∃ m' g, f.filter m input output = some (m', g) ∧
      (∀ j, ¬ (output.base ≤ j ∧ j < output.base + input.len) → m' j = m j) ∧
      Recurrence 3 input.len f.bSeq f.aSeq (fun i => m (input.base + i)) (fun i => m' (output.base + i)) := by
  refine ⟨_, _, BQ.filter_eq f m input output hio, fun j hj => fill_out (by omega), ?_⟩
  intro n hn
  have := f.out_recurrence hf ha (fun i => m (input.base + i)) input.len n hn
  rw [← this]
  refine sum_congr rfl fun k _ => ?_
  congr 1
  unfold delayed
  split
  · exact fill_in (by omega)
  · rfl

/-- The filter of the examples: `2 y[n] = 4 x[n] + 2 x[n-1] + 6 x[n-2] - 2 y[n-1] + 4 y[n-2]`. -/
def exampleBQ : BQ ℚ := bq 4 2 6 2 2 (-4)

example : exampleBQ.AtRest ∧ exampleBQ.A0 ≠ 0 ∧ OutputOk ⟨1, 4⟩ ⟨1, 5⟩ ∧
    (exampleBQ.filter (fun i => if i = 1 then 1 else 0) ⟨1, 4⟩ ⟨1, 5⟩).map (fun r => (List.range 6).map r.1)
      = some [0, 2, -1, 8, -10, 0] := by
  refine ⟨⟨rfl, rfl, rfl, rfl⟩, by decide +kernel, ⟨by simp, by simp⟩, by decide +kernel⟩

/-! ## C44 for the biquad -/

theorem BQ.out_linear (f : BQ K) (hf : f.AtRest) (x y : Nat → K) (α β : K) (n : Nat) :
    f.out (fun i => α * x i + β * y i) n = α * f.out x n + β * f.out y n := by
  induction n using Nat.strong_induction_on with
  | _ n ih =>
    rw [f.out_eq hf, f.out_eq hf x, f.out_eq hf y]
    have dx : ∀ k, delayed (fun i => α * x i + β * y i) n k = α * delayed x n k + β * delayed y n k := by
      intro k; unfold delayed; split <;> ring
    have dy : ∀ k, 0 < k → delayed (f.out fun i => α * x i + β * y i) n k
        = α * delayed (f.out x) n k + β * delayed (f.out y) n k := by
      intro k hk
      unfold delayed
      split
      · exact ih _ (by omega)
      · ring
    rw [dx, dx, dy 1 (by omega), dy 2 (by omega)]
    ring

theorem BQ.out_congr (f : BQ K) {x x' : Nat → K} {n : Nat} (h : ∀ i ≤ n, x i = x' i) : f.out x n = f.out x' n := by
  have : ∀ k ≤ n + 1, f.after x k = f.after x' k := by
    intro k
    induction k with
    | zero => intro _; rfl
    | succ k ih => intro hk; rw [BQ.after, BQ.after, ih (by omega), h k (by omega)]
  unfold BQ.out
  rw [this _ (Nat.le_refl _)]

theorem BQ.after_zero (f : BQ K) (hf : f.AtRest) (x : Nat → K) (k : Nat) (h : ∀ i < k, x i = 0) : f.after x k = f := by
  induction k with
  | zero => rfl
  | succ k ih =>
    rw [BQ.after, ih fun i hi => h i (by omega), h k (by omega)]
    obtain ⟨h1, h2, h3, h4⟩ := hf
    cases f
    simp only at h1 h2 h3 h4
    subst h1 h2 h3 h4
    simp [BQ.step]

theorem BQ.after_add (f : BQ K) (x : Nat → K) (k n : Nat) :
    f.after x (k + n) = (f.after x k).after (fun i => x (k + i)) n := by
  induction n with
  | zero => rfl
  | succ n ih => rw [← Nat.add_assoc, BQ.after, BQ.after, ih]

/-- C44, superposition for the biquad. -/
theorem C44_biquad_linear (f : BQ K) (hf : f.AtRest) (α β : K) (input output : Slice) (m1 m2 m3 : Nat → K)
    (hio : OutputOk input output)
    (hx : ∀ i < input.len, m3 (input.base + i) = α * m1 (input.base + i) + β * m2 (input.base + i)) :
    ∃ r1 r2 r3, f.filter m1 input output = some r1 ∧ f.filter m2 input output = some r2 ∧
      f.filter m3 input output = some r3 ∧
      ∀ i < input.len, r3.1 (output.base + i) = α * r1.1 (output.base + i) + β * r2.1 (output.base + i) := by
  refine ⟨_, _, _, BQ.filter_eq f m1 input output hio, BQ.filter_eq f m2 input output hio,
    BQ.filter_eq f m3 input output hio, ?_⟩
  intro i hi
  dsimp only
  rw [fill_in hi, fill_in hi, fill_in hi]
  have := f.out_linear hf (fun i => m1 (input.base + i)) (fun i => m2 (input.base + i)) α β i
  unfold BQ.out at this
  rw [← this]
  exact f.out_congr fun j hj => hx j (by omega)

/-- C44, time invariance for the biquad. -/
theorem C44_biquad_time_invariant (f : BQ K) (hf : f.AtRest) (k : Nat) (in1 out1 in2 out2 : Slice) (m1 m2 : Nat → K)
    (hio1 : OutputOk in1 out1) (hio2 : OutputOk in2 out2) (hlen : in2.len = k + in1.len)
    (hx0 : ∀ i < k, m2 (in2.base + i) = 0)
    (hx : ∀ i < in1.len, m2 (in2.base + (k + i)) = m1 (in1.base + i)) :
    ∃ r1 r2, f.filter m1 in1 out1 = some r1 ∧ f.filter m2 in2 out2 = some r2 ∧
      (∀ i < k, r2.1 (out2.base + i) = 0) ∧
      ∀ i < in1.len, r2.1 (out2.base + (k + i)) = r1.1 (out1.base + i) := by
  refine ⟨_, _, BQ.filter_eq f m1 in1 out1 hio1, BQ.filter_eq f m2 in2 out2 hio2, ?_⟩
  refine ⟨fun i hi => ?_, fun i hi => ?_⟩
  · dsimp only
    rw [fill_in (by omega), f.after_zero hf _ (i + 1) fun j hj => hx0 j (by omega), hf.2.2.1]
  · dsimp only
    rw [fill_in (by omega), fill_in hi, Nat.add_assoc, f.after_add, f.after_zero hf _ k hx0]
    exact f.out_congr fun j hj => hx j (by omega)

end

end Verif.Filt
