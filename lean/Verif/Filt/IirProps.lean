import Verif.Filt.IirLemmas
import Verif.Filt.FiltSpec
import Mathlib.Algebra.Field.Basic
import Mathlib.Algebra.BigOperators.Ring.Finset
import Mathlib.Algebra.Field.Rat
import Mathlib.Data.Complex.Basic
import Mathlib.Tactic.Ring
import Mathlib.Tactic.FieldSimp
import Mathlib.Tactic.NormNum
import Mathlib.Tactic.Linarith

/-!
# Properties C36, C37, C38, C39 and the IIR part of C44
-/

namespace Verif.Filt
open Verif.Conv Finset

variable {F K : Type}

/-- Two slices without a common cell. -/
def Disj (s t : Slice) : Prop := s.base + s.len ≤ t.base ∨ t.base + t.len ≤ s.base

/-- The output `output` may be used with the input `input`: it has room, and it is the input itself,
or starts before it, or lies behind it (so no unread input is overwritten). -/
def OutputOk (input output : Slice) : Prop :=
  input.len ≤ output.len ∧ (output.base ≤ input.base ∨ input.base + input.len ≤ output.base)

/-! ## The constructor -/

theorem normalise_eq [Div F] (bc ac : Slice) (m : Nat → F) (hl : bc.len = ac.len) (h0 : 0 < bc.len)
    (hd : Disj bc ac) : normalise bc ac m = some (fill (fill m bc.base bc.len fun i => m (bc.base + i) / m ac.base)
      (ac.base + 1) (ac.len - 1) fun i => m (ac.base + 1 + i) / m ac.base) := by
  unfold Disj at hd
  unfold normalise
  rw [if_neg (by omega)]
  have h1 : forRange bc.len m (fun i m => do
      let c ← bc.read m i
      let a0 ← ac.read m 0
      bc.write m i (c / a0)) = some (fill m bc.base bc.len fun i => m (bc.base + i) / m ac.base) := by
    refine forRange_states (S := fun i => fill m bc.base i fun i => m (bc.base + i) / m ac.base) (fill_zero ..) ?_
    intro i hi
    simp only [Option.bind_eq_bind]
    rw [read_ok hi, Option.bind_some, read_ok (by omega), Option.bind_some, write_ok hi, fill_out (by omega),
      fill_out (by omega), Nat.add_zero]
    exact congrArg some (update_fill _ _ _ _ _ rfl)
  simp only [Option.bind_eq_bind] at h1 ⊢
  rw [h1, Option.bind_some, drop_ok (by omega), Option.bind_some]
  generalize hM : fill m bc.base bc.len (fun i => m (bc.base + i) / m ac.base) = M
  have e0 : M ac.base = m ac.base := by rw [← hM, fill_out (by omega)]
  refine forRange_states (S := fun i => fill M (ac.base + 1) i fun i => m (ac.base + 1 + i) / m ac.base)
    (fill_zero ..) ?_
  intro i hi
  dsimp only at hi ⊢
  rw [read_ok hi, Option.bind_some, read_ok (by omega), Option.bind_some, write_ok (by omega)]
  dsimp only
  rw [fill_out (by omega), fill_out (by omega), show ac.base + 0 = ac.base from rfl, e0,
    show ac.base + (i + 1) = ac.base + 1 + i by omega, update_fill]
  rw [← hM, fill_out (by omega)]

/-! ## C36 -/

section
variable [CommRing K]

theorem sumOf_eq (b a p q : Nat → K) (s : K) (d : Nat) :
    sumOf b a p q s d = b 0 * s + ∑ j ∈ range d, (b (j + 1) * p j - a (j + 1) * q j) := by
  induction d with
  | zero => simp [sumOf]
  | succ d ih => rw [sumOf, ih, sum_range_succ]; ring

/-- From rest the delay lines hold the previous samples. -/
theorem lines_eq (b a : Nat → K) (d : Nat) (x : Nat → K) (n k : Nat) (hk : k < d) :
    (lines b a d (fun _ => 0) (fun _ => 0) x n).1 k = delayed x n (k + 1) ∧
    (lines b a d (fun _ => 0) (fun _ => 0) x n).2 k = delayed (outAt b a d (fun _ => 0) (fun _ => 0) x) n (k + 1) := by
  induction n generalizing k with
  | zero => simp [lines, delayed]
  | succ n ih =>
    by_cases h0 : k = 0
    · subst h0
      simp only [lines, shiftOf, delayed, if_true]
      rw [if_pos (by omega), if_pos (by omega)]
      exact ⟨rfl, rfl⟩
    · have ih' := ih (k - 1) (by omega)
      simp only [lines, shiftOf, if_neg h0, if_pos hk]
      rw [ih'.1, ih'.2]
      simp only [delayed]
      rw [show k - 1 + 1 = k by omega]
      constructor <;> by_cases hkn : k ≤ n <;> simp [hkn]

theorem outAt_recurrence (b a : Nat → K) (d : Nat) (x : Nat → K) (n : Nat) :
    outAt b a d (fun _ => 0) (fun _ => 0) x n = ∑ k ∈ range (d + 1), b k * delayed x n k
      - ∑ k ∈ range d, a (k + 1) * delayed (outAt b a d (fun _ => 0) (fun _ => 0) x) n (k + 1) := by
  conv_lhs => rw [outAt]
  rw [sumOf_eq, sum_range_succ', add_sub_right_comm, ← sum_sub_distrib, add_comm]
  congr 1
  · refine sum_congr rfl fun k hk => ?_
    have := lines_eq b a d x n k (mem_range.1 hk)
    rw [this.1, this.2]

end

/-- A filter at rest whose coefficients are those of `B`, `A` divided by `A 0` solves the difference equation. -/
theorem filter_recurrence [Field K] (bc ac input output : Slice) (d : Nat) (m1 B A : Nat → K) (hb : bc.len = d + 1)
    (ha : ac.len = d + 1) (h1 : 0 < d) (ha0 : A 0 ≠ 0) (hb1 : ∀ k < d + 1, m1 (bc.base + k) = B k / A 0)
    (ha1 : ∀ k < d, m1 (ac.base + (k + 1)) = A (k + 1) / A 0) (hio : OutputOk input output)
    (hob : Disj ⟨output.base, input.len⟩ bc) (hoa : Disj ⟨output.base, input.len⟩ ac) :
    ∃ m2 g, (⟨bc, ac, d, fun _ => 0, fun _ => 0⟩ : IIR K).filter m1 input output = some (m2, g) ∧
      (∀ j, ¬ (output.base ≤ j ∧ j < output.base + input.len) → m2 j = m1 j) ∧
      Recurrence bc.len input.len B A (fun i => m1 (input.base + i)) (fun i => m2 (output.base + i)) := by
  unfold Disj at hob hoa
  have hfe := IIR.filter_eq (⟨bc, ac, d, fun _ => 0, fun _ => 0⟩ : IIR K) m1 input output (by simp only; omega)
    (by simp only; omega) (by simp only; omega) hio.1
    (by simp only at hob ⊢; omega) (by simp only at hoa ⊢; omega) hio.2
  refine ⟨_, _, hfe, ?_, ?_⟩
  · intro j hj
    exact fill_out (by omega)
  · intro n hn
    have hrec := outAt_recurrence (fun k => m1 (bc.base + k)) (fun k => m1 (ac.base + k)) d
      (fun i => m1 (input.base + i)) n
    dsimp only
    generalize hy : outAt (fun k => m1 (bc.base + k)) (fun k => m1 (ac.base + k)) d (fun _ => 0) (fun _ => 0)
      (fun i => m1 (input.base + i)) = y at hrec ⊢
    have hdel : ∀ k, delayed (fun i => fill m1 output.base input.len y (output.base + i)) n k = delayed y n k := by
      intro k
      unfold delayed
      split
      · exact fill_in (by omega)
      · rfl
    simp only [hdel]
    rw [hb, sum_range_succ' (fun k => A k * delayed y n k)]
    have hrec' : A 0 * y n = ∑ k ∈ range (d + 1), B k * delayed (fun i => m1 (input.base + i)) n k
        - ∑ k ∈ range d, A (k + 1) * delayed y n (k + 1) := by
      rw [hrec, mul_sub, mul_sum, mul_sum]
      congr 1
      · refine sum_congr rfl fun k hk => ?_
        rw [hb1 k (mem_range.1 hk)]
        field_simp
      · refine sum_congr rfl fun k hk => ?_
        rw [ha1 k (mem_range.1 hk)]
        field_simp
    have : delayed y n 0 = y n := by simp [delayed]
    rw [this, hrec']
    ring

/-- C36: a filter made of numerator and denominator coefficients `b`, `a` (equally long, at least two,
`a[0]` not zero, not overlapping) writes, for every input and every output slice that neither
overwrites unread input nor the coefficients, the solution of the difference equation
`Σ a[k] y[n-k] = Σ b[k] x[n-k]`, where the coefficients are those before the construction. -/
theorem C36_recurrence [Field K] (bc ac input output : Slice) (m : Nat → K) (hl : bc.len = ac.len)
    (h2 : 2 ≤ bc.len) (ha0 : m ac.base ≠ 0) (hd : Disj bc ac) (hio : OutputOk input output)
    (hob : Disj ⟨output.base, input.len⟩ bc) (hoa : Disj ⟨output.base, input.len⟩ ac) :
    ∃ m1 f m2 g, newIIR bc ac m = some (m1, f) ∧ f.filter m1 input output = some (m2, g) ∧
      (∀ j, ¬ (output.base ≤ j ∧ j < output.base + input.len) → m2 j = m1 j) ∧
      Recurrence bc.len input.len (fun k => m (bc.base + k)) (fun k => m (ac.base + k))
        (fun i => m1 (input.base + i)) (fun i => m2 (output.base + i)) := by
  obtain ⟨d, hdlen⟩ : ∃ d, bc.len = d + 1 := ⟨bc.len - 1, by omega⟩
  have hn := normalise_eq bc ac m hl (by omega) hd
  generalize hM : fill (fill m bc.base bc.len fun i => m (bc.base + i) / m ac.base)
      (ac.base + 1) (ac.len - 1) (fun i => m (ac.base + 1 + i) / m ac.base) = m1 at hn
  unfold Disj at hd
  obtain ⟨m2, g, h1, h2, h3⟩ := filter_recurrence bc ac input output d m1 (fun k => m (bc.base + k)) (fun k => m (ac.base + k))
    hdlen (by omega) (by omega) ha0
    (by intro k hk; rw [← hM, fill_out (by omega), fill_in (by omega)]; rfl)
    (by intro k hk; rw [← hM, show ac.base + (k + 1) = ac.base + 1 + k by omega, fill_in (by omega)]; rfl) hio hob hoa
  refine ⟨m1, ⟨bc, ac, d, fun _ => 0, fun _ => 0⟩, m2, g, ?_, h1, h2, h3⟩
  unfold newIIR
  rw [hn]
  simp only [Option.bind_eq_bind, Option.bind_some]
  rw [show bc.len - 1 = d by omega]

theorem rtoc_eq {R F : Type} (toC : R → F) (r : Slice) (rm : Nat → R) (p : Nat) (cm : Nat → F) :
    rtoc toC r rm p cm = some (fill cm p r.len fun i => toC (rm (r.base + i)), ⟨p, r.len⟩) := by
  unfold rtoc
  have h := forRange_states (n := r.len) (s := cm) (body := fun i cm => do
    let v ← r.read rm i
    (⟨p, r.len⟩ : Slice).write cm i (toC v)) (S := fun i => fill cm p i fun i => toC (rm (r.base + i))) (fill_zero ..) (by
      intro i hi
      simp only [Option.bind_eq_bind]
      rw [read_ok hi, Option.bind_some, write_ok (s := ⟨p, r.len⟩) hi]
      exact congrArg some (update_fill _ _ _ _ _ rfl))
  simp only [Option.bind_eq_bind] at h ⊢
  rw [h, Option.bind_some]

/-- C36 for the complex filters, which take real coefficients and filter complex samples: the real slices are
normalised in place and copied to two fresh slices at `fb` and `fa`; the output is the solution of the same
difference equation with the coefficients as they were before the construction. -/
theorem C36_complex {R : Type} [Field R] [Field K] (toC : R →+* K) (bc ac input output : Slice) (rm : Nat → R) (fb fa : Nat)
    (cm : Nat → K) (hl : bc.len = ac.len) (h2 : 2 ≤ bc.len) (ha0 : rm ac.base ≠ 0) (hd : Disj bc ac)
    (hf : Disj ⟨fb, bc.len⟩ ⟨fa, ac.len⟩) (hio : OutputOk input output)
    (hib : Disj input ⟨fb, bc.len⟩) (hia : Disj input ⟨fa, ac.len⟩)
    (hob : Disj ⟨output.base, input.len⟩ ⟨fb, bc.len⟩) (hoa : Disj ⟨output.base, input.len⟩ ⟨fa, ac.len⟩) :
    ∃ rm1 cm1 f cm2 g, newComplexIIR toC bc ac rm fb fa cm = some (rm1, cm1, f) ∧ f.filter cm1 input output = some (cm2, g) ∧
      (∀ j, ¬ (output.base ≤ j ∧ j < output.base + input.len) → cm2 j = cm1 j) ∧
      (∀ k < bc.len, rm1 (bc.base + k) = rm (bc.base + k) / rm ac.base) ∧
      Recurrence bc.len input.len (fun k => toC (rm (bc.base + k))) (fun k => toC (rm (ac.base + k)))
        (fun i => cm (input.base + i)) (fun i => cm2 (output.base + i)) := by
  obtain ⟨d, hdlen⟩ : ∃ d, bc.len = d + 1 := ⟨bc.len - 1, by omega⟩
  have hn := normalise_eq bc ac rm hl (by omega) hd
  generalize hM : fill (fill rm bc.base bc.len fun i => rm (bc.base + i) / rm ac.base)
      (ac.base + 1) (ac.len - 1) (fun i => rm (ac.base + 1 + i) / rm ac.base) = rm1 at hn
  unfold Disj at hd hf hib hia
  simp only at hf hib hia
  have hb1 : ∀ k < d + 1, rm1 (bc.base + k) = rm (bc.base + k) / rm ac.base := by
    intro k hk
    rw [← hM, fill_out (by omega), fill_in (by omega)]
  have ha1 : ∀ k < d, rm1 (ac.base + (k + 1)) = rm (ac.base + (k + 1)) / rm ac.base := by
    intro k hk
    rw [← hM, show ac.base + (k + 1) = ac.base + 1 + k by omega, fill_in (by omega)]
  generalize hC : fill (fill cm fb bc.len fun i => toC (rm1 (bc.base + i))) fa ac.len (fun i => toC (rm1 (ac.base + i))) = cm1
  obtain ⟨cm2, g, r1, r2, r3⟩ := filter_recurrence ⟨fb, bc.len⟩ ⟨fa, ac.len⟩ input output d cm1
    (fun k => toC (rm (bc.base + k))) (fun k => toC (rm (ac.base + k)))
    hdlen (by simp only; omega) (by omega) (by simpa using ha0)
    (by
      intro k hk
      rw [← hC, fill_out (by simp only; omega)]
      simp only
      rw [fill_in (by omega), hb1 k hk, map_div₀]
      rfl)
    (by
      intro k hk
      rw [← hC]
      simp only
      rw [fill_in (by omega), ha1 k hk, map_div₀]
      rfl) hio hob hoa
  refine ⟨rm1, cm1, ⟨⟨fb, bc.len⟩, ⟨fa, ac.len⟩, d, fun _ => 0, fun _ => 0⟩, cm2, g, ?_, r1, r2, fun k hk => hb1 k (by omega), ?_⟩
  · unfold newComplexIIR
    rw [hn]
    simp only [Option.bind_eq_bind, Option.bind_some, rtoc_eq, hC]
    rw [show bc.len - 1 = d by omega]
  · intro n hn
    have := r3 n hn
    rw [this]
    refine sum_congr rfl fun k _ => ?_
    congr 1
    unfold delayed
    split
    · simp only
      rw [← hC, fill_out (by omega), fill_out (by omega)]
    · rfl

/-- Real coefficients at 0 and 2, their complex copies at 10 and 12, four samples at 4 filtered in place. -/
example : ∃ rm1 cm1 f cm2 g, newComplexIIR Complex.ofRealHom ⟨0, 2⟩ ⟨2, 2⟩ (fun i => (i : ℝ) + 1) 10 12 (fun i => ⟨i, -i⟩) = some (rm1, cm1, f) ∧
      f.filter cm1 ⟨4, 4⟩ ⟨4, 4⟩ = some (cm2, g) ∧ (∀ j, ¬ (4 ≤ j ∧ j < 4 + 4) → cm2 j = cm1 j) ∧
      (∀ k < 2, rm1 (0 + k) = (((0 + k : ℕ) : ℝ) + 1) / (((2 : ℕ) : ℝ) + 1)) ∧
      Recurrence 2 4 (fun k => Complex.ofRealHom (((0 + k : ℕ) : ℝ) + 1)) (fun k => Complex.ofRealHom (((2 + k : ℕ) : ℝ) + 1))
        (fun i => (⟨(4 + i : ℕ), -(4 + i : ℕ)⟩ : ℂ)) (fun i => cm2 (4 + i)) :=
  C36_complex Complex.ofRealHom ⟨0, 2⟩ ⟨2, 2⟩ ⟨4, 4⟩ ⟨4, 4⟩ _ 10 12 _ rfl (by simp) (by positivity) (by simp [Disj]) (by simp [Disj])
    ⟨by simp, by simp⟩ (by simp [Disj]) (by simp [Disj]) (by simp [Disj]) (by simp [Disj])

/-- The difference equation determines the output, so C36 leaves no freedom. -/
theorem C36_unique [Field K] (L N : Nat) (b a x y y' : Nat → K) (hL : 0 < L) (ha0 : a 0 ≠ 0)
    (h : Recurrence L N b a x y) (h' : Recurrence L N b a x y') : ∀ n < N, y n = y' n := by
  intro n
  induction n using Nat.strong_induction_on with
  | _ n ih =>
    intro hn
    obtain ⟨d, rfl⟩ : ∃ d, L = d + 1 := ⟨L - 1, by omega⟩
    have e := (h n hn).trans (h' n hn).symm
    rw [sum_range_succ', sum_range_succ' (fun k => a k * delayed y' n k)] at e
    have e2 : ∑ k ∈ range d, a (k + 1) * delayed y n (k + 1) = ∑ k ∈ range d, a (k + 1) * delayed y' n (k + 1) := by
      refine sum_congr rfl fun k _ => ?_
      unfold delayed
      split
      · rw [ih (n - (k + 1)) (by omega) (by omega)]
      · rfl
    rw [e2] at e
    have := add_left_cancel e
    simp only [delayed, Nat.zero_le, if_true, Nat.sub_zero] at this
    exact mul_left_cancel₀ ha0 this

/-- A memory with coefficients, input and output as the theorem requires, and the result: impulse response of
`2 y[n] = 4 x[n] + 2 x[n-1] + 1 y[n-1]`. -/
example :
    let m : Nat → ℚ := fun i => if i = 0 then 4 else if i = 1 then 2 else if i = 2 then 2 else if i = 3 then -1
      else if i = 4 then 1 else 0
    m 2 ≠ 0 ∧ Disj ⟨0, 2⟩ ⟨2, 2⟩ ∧ OutputOk ⟨4, 4⟩ ⟨4, 4⟩ ∧ Disj ⟨4, 4⟩ ⟨0, 2⟩ ∧ Disj ⟨4, 4⟩ ⟨2, 2⟩ ∧
      ((newIIR ⟨0, 2⟩ ⟨2, 2⟩ m).bind fun (m, f) => (f.filter m ⟨4, 4⟩ ⟨4, 4⟩).map fun r => (List.range 4).map fun i => r.1 (4 + i))
        = some [2, 2, 1, 1 / 2] := by
  refine ⟨by norm_num, ?_, ?_, ?_, ?_, ?_⟩
  · unfold Disj; simp
  · unfold OutputOk; simp
  · unfold Disj; simp
  · unfold Disj; simp
  · decide +kernel

/-! ## C37 -/

section
variable [Add F] [Sub F] [Mul F]

/-- Successive calls of `Filter`. -/
def IIR.calls (f : IIR F) (m : Nat → F) : List (Slice × Slice) → Option ((Nat → F) × IIR F)
  | [] => some (m, f)
  | (i, o) :: cs => (f.filter m i o).bind fun (m, f) => f.calls m cs

/-- Consecutive pieces of an input at `ib` and an output at `ob`: each piece has a length, and its
output slice may be longer by any amount. -/
def cut (ib ob : Nat) : List (Nat × Nat) → List (Slice × Slice)
  | [] => []
  | (n, extra) :: cs => (⟨ib, n⟩, ⟨ob, n + extra⟩) :: cut (ib + n) (ob + n) cs

/-- Total length of the pieces. -/
def total : List (Nat × Nat) → Nat
  | [] => 0
  | (n, _) :: cs => n + total cs

theorem IIR.filter_append (f : IIR F) (m : Nat → F) (ib ob n k e e' : Nat) :
    f.filter m ⟨ib, n + k⟩ ⟨ob, n + k + e⟩ =
      (f.filter m ⟨ib, n⟩ ⟨ob, n + e'⟩).bind fun (m, f) => f.filter m ⟨ib + n, k⟩ ⟨ob + n, k + e⟩ := by
  unfold IIR.filter
  dsimp only
  rw [forRange_add]
  have e1 : forRange n (m, f) (fun i (m, f) => do
      let s ← Slice.read ⟨ib, n + k⟩ m i
      let sum ← f.sum m s
      let f ← f.push s sum
      let m ← Slice.write ⟨ob, n + k + e⟩ m i sum
      some (m, f)) = forRange n (m, f) (fun i (m, f) => do
      let s ← Slice.read ⟨ib, n⟩ m i
      let sum ← f.sum m s
      let f ← f.push s sum
      let m ← Slice.write ⟨ob, n + e'⟩ m i sum
      some (m, f)) := by
    refine forRange_congr fun i t hi => ?_
    have r : Slice.read ⟨ib, n + k⟩ t.1 i = Slice.read ⟨ib, n⟩ t.1 i := by
      rw [read_ok (by simp only; omega), read_ok (by simp only; omega)]
    have w : ∀ v, Slice.write ⟨ob, n + k + e⟩ t.1 i v = Slice.write ⟨ob, n + e'⟩ t.1 i v := by
      intro v
      rw [write_ok (by simp only; omega), write_ok (by simp only; omega)]
    dsimp only
    simp only [r, w]
  rw [e1]
  refine congrArg _ (funext fun t => forRange_congr fun i u hi => ?_)
  have r : Slice.read ⟨ib, n + k⟩ u.1 (n + i) = Slice.read ⟨ib + n, k⟩ u.1 i := by
    rw [read_ok (by simp only; omega), read_ok (by simp only; omega)]
    simp only [Nat.add_assoc]
  have w : ∀ v, Slice.write ⟨ob, n + k + e⟩ u.1 (n + i) v = Slice.write ⟨ob + n, k + e⟩ u.1 i v := by
    intro v
    rw [write_ok (by simp only; omega), write_ok (by simp only; omega)]
    simp only [Nat.add_assoc]
  simp only [r, w]

/-- C37: filtering a stream piece by piece gives the same memory and the same filter state as one
call, for arbitrary sample arithmetic, every filter state, every position of input and output (also
overlapping or equal), every list of pieces. -/
theorem C37_chunks (f : IIR F) (m : Nat → F) (ib ob : Nat) (cs : List (Nat × Nat)) (extra : Nat) :
    f.calls m (cut ib ob cs) = f.filter m ⟨ib, total cs⟩ ⟨ob, total cs + extra⟩ := by
  induction cs generalizing f m ib ob with
  | nil => rfl
  | cons c cs ih =>
    obtain ⟨n, e⟩ := c
    rw [cut, IIR.calls, total, IIR.filter_append (e' := e)]
    refine congrArg _ (funext fun t => ?_)
    exact ih ..

/-- C37: filtering in place gives the same samples and the same state as filtering into a separate
output, for every filter. -/
theorem C37_in_place (f : IIR F) (m : Nat → F) (input output : Slice) (hd : 0 < f.d)
    (hb : f.bCoef.len = f.d + 1) (ha : f.aCoef.len = f.d + 1) (hio : OutputOk input output)
    (hib : Disj input f.bCoef) (hia : Disj input f.aCoef)
    (hob : Disj ⟨output.base, input.len⟩ f.bCoef) (hoa : Disj ⟨output.base, input.len⟩ f.aCoef) :
    ∃ y g, f.filter m input input = some (fill m input.base input.len y, g) ∧
      f.filter m input output = some (fill m output.base input.len y, g) := by
  unfold Disj at *
  rw [hb] at hib hob
  rw [ha] at hia hoa
  exact ⟨_, _, IIR.filter_eq f m input input hd hb ha (Nat.le_refl _) hib hia (Or.inl (Nat.le_refl _)),
    IIR.filter_eq f m input output hd hb ha hio.1 hob hoa hio.2⟩

/-! ## C39 -/

theorem IIR.filter_total (f : IIR F) (m : Nat → F) (input output : Slice) (hb : f.bCoef.len = f.d + 1)
    (ha : f.aCoef.len = f.d + 1) (hd : 0 < f.d) (hlen : input.len ≤ output.len) :
    ∃ r, f.filter m input output = some r := by
  have := forRange_inv (n := input.len) (s := (m, f)) (body := fun i (m, f) => do
    let s ← input.read m i
    let sum ← f.sum m s
    let f ← f.push s sum
    let m ← output.write m i sum
    some (m, f)) (P := fun _ t => t.2.bCoef.len = t.2.d + 1 ∧ t.2.aCoef.len = t.2.d + 1 ∧ 0 < t.2.d)
    ⟨hb, ha, hd⟩ (by
      rintro i ⟨m, f⟩ hi ⟨hb, ha, hd⟩
      dsimp only at hb ha hd ⊢
      simp only [Option.bind_eq_bind]
      rw [read_ok hi, Option.bind_some, IIR.sum_eq _ _ _ hb ha, Option.bind_some, IIR.push_eq _ _ _ hd,
        Option.bind_some, write_ok (by omega), Option.bind_some]
      exact ⟨_, rfl, hb, ha, hd⟩)
  obtain ⟨t, h, _⟩ := this
  exact ⟨t, h⟩

/-- C39, exactly: a filter made by the constructor panics iff the input is not empty and the filter
has a single coefficient, or the output is shorter than the input. -/
theorem C39_panics_iff_partial [Div F] [Zero F] (bc ac input output : Slice) (m m1 m2 : Nat → F) (f : IIR F)
    (h : newIIR bc ac m = some (m1, f)) :
    f.filter m2 input output = none ↔ 0 < input.len ∧ (bc.len = 1 ∨ output.len < input.len) := by
  have hf : f.bCoef.len = f.d + 1 ∧ f.aCoef.len = f.d + 1 ∧ f.d + 1 = bc.len := by
    unfold newIIR at h
    obtain ⟨m3, h3, h⟩ := Option.bind_eq_some_iff.1 h
    cases h
    unfold normalise at h3
    split at h3
    · cases h3
    · dsimp only; omega
  obtain ⟨hb, ha, hl⟩ := hf
  constructor
  · intro hn
    by_contra hc
    by_cases h0 : input.len = 0
    · unfold IIR.filter at hn
      rw [h0] at hn
      cases hn
    · obtain ⟨r, hr⟩ := IIR.filter_total f m2 input output hb ha (by omega) (by omega)
      rw [hr] at hn
      cases hn
  · rintro ⟨h0, h1⟩
    by_contra hc
    obtain ⟨r, hr⟩ := Option.ne_none_iff_exists'.1 hc
    unfold IIR.filter at hr
    rcases h1 with h1 | h1
    · obtain ⟨u, v, hu, hv⟩ := forRange_prefix hr h0
      cases hu
      dsimp only at hv
      simp only [Option.bind_eq_bind] at hv
      rw [read_ok h0, Option.bind_some, IIR.sum_eq _ _ _ hb ha, Option.bind_some,
        IIR.push_none _ _ _ (by omega)] at hv
      cases hv
    · obtain ⟨u, v, hu, hv⟩ := forRange_prefix hr h1
      dsimp only at hv
      simp only [Option.bind_eq_bind] at hv
      obtain ⟨_, _, hv⟩ := Option.bind_eq_some_iff.1 hv
      obtain ⟨_, _, hv⟩ := Option.bind_eq_some_iff.1 hv
      obtain ⟨_, _, hv⟩ := Option.bind_eq_some_iff.1 hv
      obtain ⟨_, hw, hv⟩ := Option.bind_eq_some_iff.1 hv
      unfold Slice.write at hw
      rw [if_neg (by omega)] at hw
      cases hw

/-- C39 is violated: the constructor accepts one coefficient in each slice, and the filter panics on
every input that is not empty. -/
theorem C39_violated [Div F] [Zero F] (bc ac input output : Slice) (m : Nat → F) (hb : bc.len = 1)
    (ha : ac.len = 1) (hi : 0 < input.len) :
    ∃ m1 f, newIIR bc ac m = some (m1, f) ∧ ∀ m2, f.filter m2 input output = none := by
  have : ∃ r, newIIR bc ac m = some r := by
    unfold newIIR normalise
    simp [hb, ha, forRange, Slice.read, Slice.write, Slice.drop]
  obtain ⟨⟨m1, f⟩, h⟩ := this
  exact ⟨m1, f, h, fun m2 => (C39_panics_iff_partial bc ac input output m m1 m2 f h).2 ⟨hi, Or.inl hb⟩⟩

end

example : ∃ m1 f, newIIR ⟨0, 3⟩ ⟨3, 3⟩ (fun _ => (2 : ℚ)) = some (m1, f) := by
  unfold newIIR
  rw [normalise_eq ⟨0, 3⟩ ⟨3, 3⟩ _ rfl (by simp) (by unfold Disj; simp)]
  exact ⟨_, _, rfl⟩

/-! ## C38 -/

/-- C38, what happens to the arguments exactly: every coefficient except `a[0]` is replaced by its
quotient by `a[0]`; so they are unchanged iff every such division returns its dividend. -/
theorem C38_unchanged_iff_partial [Div F] [Zero F] (bc ac : Slice) (m m1 : Nat → F) (f : IIR F)
    (hd : Disj bc ac) (h : newIIR bc ac m = some (m1, f)) :
    m1 = m ↔ (∀ i < bc.len, m (bc.base + i) / m ac.base = m (bc.base + i)) ∧
      ∀ i < ac.len - 1, m (ac.base + 1 + i) / m ac.base = m (ac.base + 1 + i) := by
  have hc : bc.len = ac.len ∧ 0 < bc.len := by
    unfold newIIR at h
    obtain ⟨m3, h3, _⟩ := Option.bind_eq_some_iff.1 h
    unfold normalise at h3
    split at h3
    · cases h3
    · omega
  unfold newIIR at h
  rw [normalise_eq bc ac m hc.1 hc.2 hd] at h
  cases h
  unfold Disj at hd
  constructor
  · intro e
    refine ⟨fun i hi => ?_, fun i hi => ?_⟩
    · have := congrFun e (bc.base + i)
      rwa [fill_out (by omega), fill_in hi] at this
    · have := congrFun e (ac.base + 1 + i)
      rwa [fill_in hi] at this
  · rintro ⟨h1, h2⟩
    funext j
    by_cases ha : ac.base + 1 ≤ j ∧ j < ac.base + 1 + (ac.len - 1)
    · obtain ⟨i, rfl⟩ := Nat.exists_eq_add_of_le ha.1
      rw [fill_in (by omega), h2 i (by omega)]
    · rw [fill_out (by omega)]
      by_cases hb : bc.base ≤ j ∧ j < bc.base + bc.len
      · obtain ⟨i, rfl⟩ := Nat.exists_eq_add_of_le hb.1
        rw [fill_in (by omega), h1 i (by omega)]
      · rw [fill_out (by omega)]

/-- C38 is violated: with `b = [4, 2]`, `a = [2, 6]` the arguments change, the second filter made of
the same slices differs, and its outputs differ (impulse response 2, -5 and 1, -1). -/
theorem C38_violated :
    let m : Nat → ℚ := fun i => if i = 0 then 4 else if i = 1 then 2 else if i = 2 then 2 else if i = 3 then 6
      else if i = 4 then 1 else 0
    let impulse := fun (r : (Nat → ℚ) × IIR ℚ) =>
      (r.2.filter r.1 ⟨4, 2⟩ ⟨6, 2⟩).map fun r => (r.1 6, r.1 7)
    ((newIIR ⟨0, 2⟩ ⟨2, 2⟩ m).map fun r => (List.range 4).map r.1) = some [2, 1, 2, 3] ∧
    (newIIR ⟨0, 2⟩ ⟨2, 2⟩ m).bind impulse = some (2, -5) ∧
    ((newIIR ⟨0, 2⟩ ⟨2, 2⟩ m).bind fun r => (newIIR ⟨0, 2⟩ ⟨2, 2⟩ r.1).bind impulse) = some (1, -1) := by
  decide +kernel

/-! ## C44 for the IIR filter -/

section
variable [CommRing K]

/-- A filter at rest whose slices have the lengths the constructor gives them. -/
def IIR.AtRest (f : IIR K) : Prop :=
  0 < f.d ∧ f.bCoef.len = f.d + 1 ∧ f.aCoef.len = f.d + 1 ∧ (f.pIn = fun _ => 0) ∧ (f.pOut = fun _ => 0)

theorem outAt_linear (b a : Nat → K) (d : Nat) (x y : Nat → K) (α β : K) (n : Nat) :
    outAt b a d (fun _ => 0) (fun _ => 0) (fun i => α * x i + β * y i) n
      = α * outAt b a d (fun _ => 0) (fun _ => 0) x n + β * outAt b a d (fun _ => 0) (fun _ => 0) y n := by
  induction n using Nat.strong_induction_on with
  | _ n ih =>
    rw [outAt_recurrence, outAt_recurrence b a d x, outAt_recurrence b a d y]
    rw [mul_sub, mul_sub, mul_sum, mul_sum, mul_sum, mul_sum, sub_add_sub_comm, ← sum_add_distrib, ← sum_add_distrib]
    congr 1
    · refine sum_congr rfl fun k _ => ?_
      unfold delayed
      split
      · ring
      · ring
    · refine sum_congr rfl fun k _ => ?_
      unfold delayed
      split
      · rw [ih _ (by omega)]; ring
      · ring

theorem outAt_delay (b a : Nat → K) (d : Nat) (x x' : Nat → K) (k : Nat) (h0 : ∀ i < k, x' i = 0)
    (h1 : ∀ i, x' (k + i) = x i) (n : Nat) :
    outAt b a d (fun _ => 0) (fun _ => 0) x' n
      = if n < k then 0 else outAt b a d (fun _ => 0) (fun _ => 0) x (n - k) := by
  induction n using Nat.strong_induction_on with
  | _ n ih =>
    have hx : ∀ j, delayed x' n j = if n < k then 0 else delayed x (n - k) j := by
      intro j
      unfold delayed
      by_cases hn : n < k
      · rw [if_pos hn]
        split
        · rw [h0 _ (by omega)]
        · rfl
      · rw [if_neg hn]
        by_cases hj : j ≤ n
        · rw [if_pos hj]
          by_cases hj2 : j ≤ n - k
          · rw [if_pos hj2, ← h1]; congr 1; omega
          · rw [if_neg hj2, h0 _ (by omega)]
        · rw [if_neg hj, if_neg (by omega)]
    have hy : ∀ j, delayed (outAt b a d (fun _ => 0) (fun _ => 0) x') n (j + 1)
        = if n < k then 0 else delayed (outAt b a d (fun _ => 0) (fun _ => 0) x) (n - k) (j + 1) := by
      intro j
      unfold delayed
      by_cases hj : j + 1 ≤ n
      · rw [if_pos hj, ih _ (by omega)]
        by_cases hn : n < k
        · rw [if_pos hn, if_pos (by omega)]
        · rw [if_neg hn]
          by_cases hj2 : j + 1 ≤ n - k
          · rw [if_pos hj2, if_neg (by omega)]; congr 1; omega
          · rw [if_neg hj2, if_pos (by omega)]
      · rw [if_neg hj]
        split
        · rfl
        · rw [if_neg (by omega)]
    rw [outAt_recurrence, outAt_recurrence b a d x]
    simp only [hx, hy]
    by_cases hn : n < k
    · simp only [if_pos hn, mul_zero, sum_const_zero, sub_zero]
    · simp only [if_neg hn]

theorem outAt_congr (b a b' a' : Nat → K) (d : Nat) (x x' : Nat → K) (N : Nat)
    (hb : ∀ k < d + 1, b k = b' k) (ha : ∀ k < d + 1, a k = a' k) (hx : ∀ i < N, x i = x' i) (n : Nat) (hn : n < N) :
    outAt b a d (fun _ => 0) (fun _ => 0) x n = outAt b' a' d (fun _ => 0) (fun _ => 0) x' n := by
  induction n using Nat.strong_induction_on with
  | _ n ih =>
    rw [outAt_recurrence, outAt_recurrence b' a']
    congr 1
    · refine sum_congr rfl fun k hk => ?_
      rw [hb k (mem_range.1 hk)]
      unfold delayed
      split
      · rw [hx _ (by omega)]
      · rfl
    · refine sum_congr rfl fun k hk => ?_
      rw [ha (k + 1) (by have := mem_range.1 hk; omega)]
      unfold delayed
      split
      · rw [ih _ (by omega) (by omega)]
      · rfl

/-- C44, superposition: three runs of a filter at rest, with the same coefficients, where the third
input is a combination of the first two: so is the third output. -/
theorem C44_iir_linear (f : IIR K) (hf : f.AtRest) (α β : K) (input output : Slice) (m1 m2 m3 : Nat → K)
    (hio : OutputOk input output)
    (hob : Disj ⟨output.base, input.len⟩ f.bCoef) (hoa : Disj ⟨output.base, input.len⟩ f.aCoef)
    (hb : ∀ k < f.bCoef.len, m3 (f.bCoef.base + k) = m1 (f.bCoef.base + k) ∧ m3 (f.bCoef.base + k) = m2 (f.bCoef.base + k))
    (ha : ∀ k < f.aCoef.len, m3 (f.aCoef.base + k) = m1 (f.aCoef.base + k) ∧ m3 (f.aCoef.base + k) = m2 (f.aCoef.base + k))
    (hx : ∀ i < input.len, m3 (input.base + i) = α * m1 (input.base + i) + β * m2 (input.base + i)) :
    ∃ r1 r2 r3, f.filter m1 input output = some r1 ∧ f.filter m2 input output = some r2 ∧
      f.filter m3 input output = some r3 ∧
      ∀ i < input.len, r3.1 (output.base + i) = α * r1.1 (output.base + i) + β * r2.1 (output.base + i) := by
  obtain ⟨hd, hbl, hal, hpi, hpo⟩ := hf
  unfold Disj at hob hoa
  simp only [hbl, hal] at hob hoa hb ha
  have e := fun m => IIR.filter_eq f m input output hd hbl hal hio.1 hob hoa hio.2
  refine ⟨_, _, _, e m1, e m2, e m3, ?_⟩
  intro i hi
  dsimp only
  rw [fill_in hi, fill_in hi, fill_in hi, hpi, hpo]
  rw [outAt_congr _ _ (fun k => m1 (f.bCoef.base + k)) (fun k => m1 (f.aCoef.base + k)) _ _ _ input.len
    (fun k hk => (hb k hk).1) (fun k hk => (ha k hk).1) hx i hi, outAt_linear]
  congr 2
  exact outAt_congr _ _ _ _ _ _ _ input.len (fun k hk => (hb k hk).1.symm.trans (hb k hk).2)
    (fun k hk => (ha k hk).1.symm.trans (ha k hk).2) (fun _ _ => rfl) i hi

/-- C44, time invariance: if the second input is `k` zeros followed by the first, the second output is
`k` zeros followed by the first output. -/
theorem C44_iir_time_invariant (f : IIR K) (hf : f.AtRest) (k : Nat) (in1 out1 in2 out2 : Slice)
    (m1 m2 : Nat → K) (hio1 : OutputOk in1 out1) (hio2 : OutputOk in2 out2) (hlen : in2.len = k + in1.len)
    (hob1 : Disj ⟨out1.base, in1.len⟩ f.bCoef) (hoa1 : Disj ⟨out1.base, in1.len⟩ f.aCoef)
    (hob2 : Disj ⟨out2.base, in2.len⟩ f.bCoef) (hoa2 : Disj ⟨out2.base, in2.len⟩ f.aCoef)
    (hb : ∀ k < f.bCoef.len, m2 (f.bCoef.base + k) = m1 (f.bCoef.base + k))
    (ha : ∀ k < f.aCoef.len, m2 (f.aCoef.base + k) = m1 (f.aCoef.base + k))
    (hx0 : ∀ i < k, m2 (in2.base + i) = 0)
    (hx : ∀ i < in1.len, m2 (in2.base + (k + i)) = m1 (in1.base + i)) :
    ∃ r1 r2, f.filter m1 in1 out1 = some r1 ∧ f.filter m2 in2 out2 = some r2 ∧
      (∀ i < k, r2.1 (out2.base + i) = 0) ∧
      ∀ i < in1.len, r2.1 (out2.base + (k + i)) = r1.1 (out1.base + i) := by
  obtain ⟨hd, hbl, hal, hpi, hpo⟩ := hf
  unfold Disj at hob1 hoa1 hob2 hoa2
  simp only [hbl, hal] at hob1 hoa1 hob2 hoa2 hb ha
  refine ⟨_, _, IIR.filter_eq f m1 in1 out1 hd hbl hal hio1.1 hob1 hoa1 hio1.2,
    IIR.filter_eq f m2 in2 out2 hd hbl hal hio2.1 hob2 hoa2 hio2.2, ?_⟩
  have key : ∀ n < in2.len, outAt (fun k => m2 (f.bCoef.base + k)) (fun k => m2 (f.aCoef.base + k)) f.d
      (fun _ => 0) (fun _ => 0) (fun i => m2 (in2.base + i)) n
      = if n < k then 0 else outAt (fun k => m1 (f.bCoef.base + k)) (fun k => m1 (f.aCoef.base + k)) f.d
        (fun _ => 0) (fun _ => 0) (fun i => m1 (in1.base + i)) (n - k) := by
    intro n hn
    rw [← outAt_delay _ _ _ (fun i => m1 (in1.base + i)) (fun i => if i < k then 0 else m1 (in1.base + (i - k))) k
      (fun i hi => if_pos hi) (fun i => by rw [if_neg (by omega), Nat.add_sub_cancel_left])]
    refine outAt_congr _ _ _ _ _ _ _ in2.len hb ha (fun i hi => ?_) n hn
    split
    · rw [hx0 i (by assumption)]
    · rw [← hx (i - k) (by omega)]; congr 2; omega
  refine ⟨fun i hi => ?_, fun i hi => ?_⟩
  · dsimp only
    rw [fill_in (by omega), hpi, hpo, key i (by omega), if_pos hi]
  · dsimp only
    rw [fill_in (by omega), fill_in hi, hpi, hpo, key _ (by omega), if_neg (by omega), Nat.add_sub_cancel_left]

example : IIR.AtRest (⟨⟨0, 2⟩, ⟨2, 2⟩, 1, fun _ => 0, fun _ => 0⟩ : IIR ℚ) ∧ OutputOk ⟨4, 3⟩ ⟨7, 3⟩ ∧
    Disj ⟨7, 3⟩ ⟨0, 2⟩ ∧ Disj ⟨7, 3⟩ ⟨2, 2⟩ := by
  refine ⟨⟨by simp, rfl, rfl, rfl, rfl⟩, ⟨by simp, by simp⟩, ?_, ?_⟩ <;> unfold Disj <;> simp

end

end Verif.Filt
