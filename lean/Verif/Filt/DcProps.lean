import Verif.Filt.IirProps
import Mathlib.Analysis.SpecificLimits.Normed
import Mathlib.Tactic.LinearCombination

/-!
# Property C40 and the DC filter part of C44
-/

namespace Verif.Filt
open Verif.Conv

variable {F K : Type}

section
variable [Add F] [Sub F] [Mul F]

/-- A stream handled one sample at a time: read, `FilterOne`, write; as a caller would do it. -/
def DC.oneByOne (f : DC F) (m : Nat → F) (input output : Slice) : Option ((Nat → F) × DC F) :=
  forRange input.len (m, f) fun i (m, f) => do
    let x ← input.read m i
    let (y, f) := f.filterOne x
    let m ← output.write m i y
    some (m, f)

/-- One use of the filter: a block call, or single calls for every sample of the block. -/
inductive DCUse where
  | block
  | single

/-- A sequence of uses on slices. -/
def DC.uses (f : DC F) (m : Nat → F) : List (DCUse × Slice × Slice) → Option ((Nat → F) × DC F)
  | [] => some (m, f)
  | (.block, i, o) :: us => (f.filter m i o).bind fun (m, f) => f.uses m us
  | (.single, i, o) :: us => (f.oneByOne m i o).bind fun (m, f) => f.uses m us

/-- C40: a block call gives the same memory and the same state as single calls, for arbitrary
sample arithmetic (so bit for bit), every state, every position of input and output. -/
theorem C40_block_single (f : DC F) (m : Nat → F) (input output : Slice) :
    f.filter m input output = f.oneByOne m input output := by
  unfold DC.filter DC.oneByOne
  generalize input.len = n
  induction n with
  | zero => rfl
  | succ n ih =>
    rw [forRange, forRange, ← ih]
    simp only [Option.bind_eq_bind, Option.bind_assoc]
    refine congrArg _ (funext fun t => ?_)
    simp only [Option.bind_some, DC.filterOne]

/-- Cuts with a choice of interface for every piece. -/
def dcCut (ib ob : Nat) : List (DCUse × Nat × Nat) → List (DCUse × Slice × Slice)
  | [] => []
  | (u, n, extra) :: cs => (u, ⟨ib, n⟩, ⟨ob, n + extra⟩) :: dcCut (ib + n) (ob + n) cs

/-- Total length. -/
def dcTotal : List (DCUse × Nat × Nat) → Nat
  | [] => 0
  | (_, n, _) :: cs => n + dcTotal cs

theorem DC.append (f : DC F) (m : Nat → F) (ib ob n k e e' : Nat) :
    f.oneByOne m ⟨ib, n + k⟩ ⟨ob, n + k + e⟩ =
      (f.oneByOne m ⟨ib, n⟩ ⟨ob, n + e'⟩).bind fun (m, f) => f.oneByOne m ⟨ib + n, k⟩ ⟨ob + n, k + e⟩ := by
  unfold DC.oneByOne
  dsimp only
  rw [forRange_add]
  have e1 : forRange n (m, f) (fun i (m, f) => do
      let x ← Slice.read ⟨ib, n + k⟩ m i
      let (y, f) := f.filterOne x
      let m ← Slice.write ⟨ob, n + k + e⟩ m i y
      some (m, f)) = forRange n (m, f) (fun i (m, f) => do
      let x ← Slice.read ⟨ib, n⟩ m i
      let (y, f) := f.filterOne x
      let m ← Slice.write ⟨ob, n + e'⟩ m i y
      some (m, f)) := by
    refine forRange_congr fun i t hi => ?_
    have r : Slice.read ⟨ib, n + k⟩ t.1 i = Slice.read ⟨ib, n⟩ t.1 i := by
      rw [read_ok (by simp only; omega), read_ok (by simp only; omega)]
    have w : ∀ v, Slice.write ⟨ob, n + k + e⟩ t.1 i v = Slice.write ⟨ob, n + e'⟩ t.1 i v := by
      intro v
      rw [write_ok (by simp only; omega), write_ok (by simp only; omega)]
    dsimp only
    simp only [r, w]
  rw [e1]
  refine congrArg _ (funext fun t => forRange_congr fun i u hi => ?_)
  have r : Slice.read ⟨ib, n + k⟩ u.1 (n + i) = Slice.read ⟨ib + n, k⟩ u.1 i := by
    rw [read_ok (by simp only; omega), read_ok (by simp only; omega)]
    simp only [Nat.add_assoc]
  have w : ∀ v, Slice.write ⟨ob, n + k + e⟩ u.1 (n + i) v = Slice.write ⟨ob + n, k + e⟩ u.1 i v := by
    intro v
    rw [write_ok (by simp only; omega), write_ok (by simp only; omega)]
    simp only [Nat.add_assoc]
  simp only [r, w]

/-- C40: every way to cut the stream and to mix the two interfaces gives the same memory and the
same state as one block call. -/
theorem C40_mixed (f : DC F) (m : Nat → F) (ib ob : Nat) (cs : List (DCUse × Nat × Nat)) (extra : Nat) :
    f.uses m (dcCut ib ob cs) = f.filter m ⟨ib, dcTotal cs⟩ ⟨ob, dcTotal cs + extra⟩ := by
  induction cs generalizing f m ib ob with
  | nil => rfl
  | cons c cs ih =>
    obtain ⟨u, n, e⟩ := c
    rw [dcTotal, C40_block_single, DC.append (e' := e)]
    cases u
    · rw [dcCut, DC.uses, C40_block_single]
      refine congrArg _ (funext fun t => ?_)
      exact (ih ..).trans (C40_block_single ..)
    · rw [dcCut, DC.uses]
      refine congrArg _ (funext fun t => ?_)
      exact (ih ..).trans (C40_block_single ..)

/-- State `w` after `n` samples. -/
def dcW (a w0 : F) (x : Nat → F) : Nat → F
  | 0 => w0
  | n + 1 => x n + a * dcW a w0 x n

theorem DC.filter_eq (f : DC F) (m : Nat → F) (input output : Slice) (hio : OutputOk input output) :
    f.filter m input output = some (fill m output.base input.len
        fun n => dcW f.a f.w (fun i => m (input.base + i)) (n + 1) - dcW f.a f.w (fun i => m (input.base + i)) n,
      ⟨f.a, dcW f.a f.w (fun i => m (input.base + i)) input.len⟩) := by
  obtain ⟨h1, h2⟩ := hio
  unfold DC.filter
  have h : forRange input.len (m, f.w) (fun i (m, lw) => do
      let x ← input.read m i
      let w := x + f.a * lw
      let m ← output.write m i (w - lw)
      some (m, w)) = some (fill m output.base input.len
        fun n => dcW f.a f.w (fun i => m (input.base + i)) (n + 1) - dcW f.a f.w (fun i => m (input.base + i)) n,
      dcW f.a f.w (fun i => m (input.base + i)) input.len) := by
    refine forRange_states (S := fun k => (fill m output.base k
        fun n => dcW f.a f.w (fun i => m (input.base + i)) (n + 1) - dcW f.a f.w (fun i => m (input.base + i)) n,
      dcW f.a f.w (fun i => m (input.base + i)) k)) ?_ ?_
    · simp only [fill_zero]; rfl
    · intro i hi
      simp only [Option.bind_eq_bind]
      rw [read_ok hi, Option.bind_some, fill_out (by omega), write_ok (by omega), Option.bind_some,
        ← update_fill _ _ _ _ _ rfl]
      rfl
  rw [h]
  rfl

end

section
variable [CommRing K]

/-- C40, what the filter computes: `y[n] = x[n] - x[n-1] + a y[n-1]` from rest. -/
theorem C40_recurrence (a : K) (m : Nat → K) (input output : Slice) (hio : OutputOk input output) :
    ∃ m' g, (newDC a).filter m input output = some (m', g) ∧
      (∀ j, ¬ (output.base ≤ j ∧ j < output.base + input.len) → m' j = m j) ∧
      Recurrence 2 input.len (fun k => if k = 0 then 1 else -1) (fun k => if k = 0 then 1 else -a)
        (fun i => m (input.base + i)) (fun i => m' (output.base + i)) := by
  refine ⟨_, _, DC.filter_eq _ m input output hio, fun j hj => fill_out (by omega), ?_⟩
  intro n hn
  rw [Finset.sum_range_succ, Finset.sum_range_one, Finset.sum_range_succ, Finset.sum_range_one]
  unfold delayed
  simp only [Nat.zero_le, if_true, Nat.sub_zero, one_ne_zero, if_false, newDC]
  rw [fill_in hn]
  cases n with
  | zero => simp [dcW]
  | succ n =>
    rw [if_pos (by omega), if_pos (by omega), Nat.add_sub_cancel, fill_in (by omega)]
    simp only [dcW]
    ring

/-- C40, constant input: the output is `c aⁿ`. -/
theorem C40_constant (a c : K) (m : Nat → K) (input output : Slice) (hio : OutputOk input output)
    (hc : ∀ i < input.len, m (input.base + i) = c) :
    ∃ m' g, (newDC a).filter m input output = some (m', g) ∧
      ∀ i < input.len, m' (output.base + i) = c * a ^ i := by
  refine ⟨_, _, DC.filter_eq _ m input output hio, ?_⟩
  intro i hi
  rw [fill_in hi]
  have : ∀ n, n < input.len → dcW a 0 (fun i => m (input.base + i)) (n + 1)
      - dcW a 0 (fun i => m (input.base + i)) n = c * a ^ n := by
    intro n
    induction n with
    | zero => intro h; have := hc 0 h; simp [dcW] at this ⊢; exact this
    | succ n ih =>
      intro h
      have ih' := ih (by omega)
      simp only [dcW] at ih' ⊢
      rw [hc _ h]
      rw [hc n (by omega)] at ih' ⊢
      rw [pow_succ]
      linear_combination a * ih'
  exact this i hi

/-- C44 for the DC filter: superposition from rest. -/
theorem C44_dc_linear (a α β : K) (input output : Slice) (m1 m2 m3 : Nat → K) (hio : OutputOk input output)
    (hx : ∀ i < input.len, m3 (input.base + i) = α * m1 (input.base + i) + β * m2 (input.base + i)) :
    ∃ r1 r2 r3, (newDC a).filter m1 input output = some r1 ∧ (newDC a).filter m2 input output = some r2 ∧
      (newDC a).filter m3 input output = some r3 ∧
      ∀ i < input.len, r3.1 (output.base + i) = α * r1.1 (output.base + i) + β * r2.1 (output.base + i) := by
  have e := fun m => DC.filter_eq (newDC a) m input output hio
  refine ⟨_, _, _, e m1, e m2, e m3, ?_⟩
  intro i hi
  dsimp only
  rw [fill_in hi, fill_in hi, fill_in hi]
  have : ∀ n, n ≤ input.len → dcW a 0 (fun i => m3 (input.base + i)) n
      = α * dcW a 0 (fun i => m1 (input.base + i)) n + β * dcW a 0 (fun i => m2 (input.base + i)) n := by
    intro n
    induction n with
    | zero => intro _; simp [dcW]
    | succ n ih =>
      intro h
      simp only [dcW]
      rw [ih (by omega), hx n (by omega)]
      ring
  have e1 := this i (by omega)
  have e2 := this (i + 1) (by omega)
  simp only [newDC]
  rw [e1, e2]
  ring

/-- C44 for the DC filter: time invariance. -/
theorem C44_dc_time_invariant (a : K) (k : Nat) (in1 out1 in2 out2 : Slice) (m1 m2 : Nat → K)
    (hio1 : OutputOk in1 out1) (hio2 : OutputOk in2 out2) (hlen : in2.len = k + in1.len)
    (hx0 : ∀ i < k, m2 (in2.base + i) = 0)
    (hx : ∀ i < in1.len, m2 (in2.base + (k + i)) = m1 (in1.base + i)) :
    ∃ r1 r2, (newDC a).filter m1 in1 out1 = some r1 ∧ (newDC a).filter m2 in2 out2 = some r2 ∧
      (∀ i < k, r2.1 (out2.base + i) = 0) ∧
      ∀ i < in1.len, r2.1 (out2.base + (k + i)) = r1.1 (out1.base + i) := by
  refine ⟨_, _, DC.filter_eq _ m1 in1 out1 hio1, DC.filter_eq _ m2 in2 out2 hio2, ?_⟩
  have z : ∀ n ≤ k, dcW a 0 (fun i => m2 (in2.base + i)) n = 0 := by
    intro n
    induction n with
    | zero => intro _; rfl
    | succ n ih => intro h; rw [dcW, ih (by omega), hx0 n (by omega)]; ring
  have s : ∀ n ≤ in1.len, dcW a 0 (fun i => m2 (in2.base + i)) (k + n) = dcW a 0 (fun i => m1 (in1.base + i)) n := by
    intro n
    induction n with
    | zero => intro _; exact z k (Nat.le_refl _)
    | succ n ih => intro h; rw [← Nat.add_assoc, dcW, dcW, ih (by omega), hx n (by omega)]
  simp only [newDC]
  refine ⟨fun i hi => ?_, fun i hi => ?_⟩
  · rw [fill_in (by omega), z i (by omega), z (i + 1) (by omega), sub_zero]
  · rw [fill_in (by omega), fill_in hi, s i (by omega), Nat.add_assoc, s (i + 1) (by omega)]

end

/-- C40, decay: for `|a| < 1` the response `c aⁿ` to a constant tends to zero. -/
theorem C40_decay (a c : ℝ) (ha : |a| < 1) :
    Filter.Tendsto (fun n : Nat => c * a ^ n) Filter.atTop (nhds 0) := by
  have := tendsto_pow_atTop_nhds_zero_of_abs_lt_one ha
  simpa using this.const_mul c

/-- C40: every sample after the `n`-th differs from zero by at most `|c| |a|ⁿ`. -/
theorem C40_decay_bound (a c : ℝ) (ha : |a| < 1) (n i : Nat) (h : n ≤ i) : |c * a ^ i| ≤ |c| * |a| ^ n := by
  rw [abs_mul, abs_pow]
  exact mul_le_mul_of_nonneg_left (pow_le_pow_of_le_one (abs_nonneg a) ha.le h) (abs_nonneg c)

example : OutputOk ⟨3, 4⟩ ⟨3, 4⟩ ∧ |(1 / 2 : ℝ)| < 1 ∧
    ((newDC (1 / 2 : ℚ)).filter (fun _ => 8) ⟨3, 4⟩ ⟨3, 4⟩).map (fun r => (List.range 9).map r.1)
      = some [8, 8, 8, 8, 4, 2, 1, 8, 8] := by
  refine ⟨⟨Nat.le_refl _, Or.inl (Nat.le_refl _)⟩, ?_, by decide +kernel⟩
  rw [abs_of_pos (by norm_num)]; norm_num

end Verif.Filt
