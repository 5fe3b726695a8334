import Verif.Demod.DemodModel
import Verif.Angle.FastProps
import Mathlib.Data.List.Induction

/-!
# Properties C57, C58 and C75 of the FM demodulator
-/

namespace Verif.Demod
open Verif.Angle

variable {F : Type*} [Mul F] [Sub F] [Add F]

/-- Specification: the discriminator of every sample with its predecessor, `pre` before the first. -/
def increments (atan2 : F → F → F) (pre : F × F) (xs : List (F × F)) : List F :=
  List.zipWith (disc atan2) xs (pre :: xs)

theorem increments_length (atan2 : F → F → F) (pre : F × F) (xs : List (F × F)) : (increments atan2 pre xs).length = xs.length := by
  simp [increments]

theorem increments_cons (atan2 : F → F → F) (pre x : F × F) (xs : List (F × F)) :
    increments atan2 pre (x :: xs) = disc atan2 x pre :: increments atan2 x xs := rfl

theorem increments_append (atan2 : F → F → F) (xs ys : List (F × F)) : ∀ pre,
    increments atan2 pre (xs ++ ys) = increments atan2 pre xs ++ increments atan2 ((pre :: xs).getLast (by simp)) ys := by
  induction xs with
  | nil => intro pre; simp [increments]
  | cons x xs ih =>
    intro pre
    rw [List.cons_append, increments_cons, ih, increments_cons, List.cons_append, List.getLast_cons_cons]

theorem fmLoop_eq (atan2 : F → F → F) (input : List (F × F)) : ∀ (i : Nat) (pre : F × F) (output : List F), i + input.length ≤ output.length →
    fmLoop atan2 i pre input output = some ((pre :: input).getLast (by simp),
      output.take i ++ increments atan2 pre input ++ output.drop (i + input.length)) := by
  induction input with
  | nil =>
    intro i pre output h
    rw [fmLoop]
    simp [increments]
  | cons x xs ih =>
    intro i pre output h
    rw [List.length_cons] at h
    have hi : i < output.length := by omega
    rw [fmLoop, if_pos hi, ih _ _ _ (by rw [List.length_set]; omega), List.getLast_cons_cons, increments_cons]
    congr 2
    have e1 : (output.set i (disc atan2 x pre)).take (i + 1) = output.take i ++ [disc atan2 x pre] := by
      rw [List.take_succ_eq_append_getElem (by rw [List.length_set]; exact hi), List.getElem_set_self, List.take_set_of_le (le_refl i)]
    have e2 : (output.set i (disc atan2 x pre)).drop (i + 1 + xs.length) = output.drop (i + (x :: xs).length) := by
      rw [List.drop_set_of_lt (by omega), List.length_cons]
      congr 1
      omega
    rw [e1, e2]
    simp

/-- C57: the output receives, in order, the discriminator of each sample with its predecessor (across
calls), the rest of the output is untouched, and the number of samples consumed is returned. -/
theorem C57_value (atan2 : F → F → F) (pre : F × F) (input : List (F × F)) (output : List F) (h : input.length ≤ output.length) :
    fmDemodulate atan2 pre input output = some ((pre :: input).getLast (by simp),
      increments atan2 pre input ++ output.drop input.length, input.length) := by
  rw [fmDemodulate, fmLoop_eq atan2 input 0 pre output (by omega)]
  simp

theorem fmLoop_short (atan2 : F → F → F) (input : List (F × F)) : ∀ (i : Nat) (pre : F × F) (output : List F), i ≤ output.length →
    output.length < i + input.length → fmLoop atan2 i pre input output = none := by
  induction input with
  | nil => intro i pre output h1 h2; simp at h2; omega
  | cons x xs ih =>
    intro i pre output h1 h2
    rw [fmLoop]
    split
    · refine ih _ _ _ (by rw [List.length_set]; omega) ?_
      rw [List.length_set]
      simp at h2
      omega
    · rfl

/-- C57: an output shorter than the input is the only cause of a panic. -/
theorem C57_panics (atan2 : F → F → F) (pre : F × F) (input : List (F × F)) (output : List F) (h : output.length < input.length) :
    fmDemodulate atan2 pre input output = none := by
  rw [fmDemodulate, fmLoop_short atan2 input 0 pre output (by omega) (by omega)]
  rfl

/-- A sequence of calls, each with its own input and output: the outputs in order and the final
state. -/
def calls (atan2 : F → F → F) : F × F → List (List (F × F) × List F) → Option ((F × F) × List (List F))
  | pre, [] => some (pre, [])
  | pre, (input, output) :: rest =>
    (fmDemodulate atan2 pre input output).bind fun r => (calls atan2 r.1 rest).map fun q => (q.1, r.2.1 :: q.2)

/-- C57: however a stream is cut into calls, with outputs as long as the inputs, the outputs put
together are those of one call on the whole stream, and so is the final state. -/
theorem C57_cut (atan2 : F → F → F) (chunks : List (List (F × F) × List F)) (h : ∀ c ∈ chunks, c.1.length = c.2.length) (pre : F × F)
    (output : List F) (ho : output.length = (chunks.map Prod.fst).flatten.length) :
    ∃ st outs, calls atan2 pre chunks = some (st, outs) ∧
      fmDemodulate atan2 pre (chunks.map Prod.fst).flatten output = some (st, outs.flatten, (chunks.map Prod.fst).flatten.length) := by
  have key : ∀ (chunks : List (List (F × F) × List F)), (∀ c ∈ chunks, c.1.length = c.2.length) → ∀ pre : F × F,
      ∃ outs, calls atan2 pre chunks = some ((pre :: (chunks.map Prod.fst).flatten).getLast (by simp), outs) ∧
        outs.flatten = increments atan2 pre (chunks.map Prod.fst).flatten := by
    intro chunks
    induction chunks with
    | nil => intro _ pre; exact ⟨[], rfl, rfl⟩
    | cons c cs ih =>
      intro h pre
      obtain ⟨inp, out⟩ := c
      have hc : inp.length = out.length := h (inp, out) (by simp)
      obtain ⟨outs, h1, h2⟩ := ih (fun c hc => h c (by simp [hc])) ((pre :: inp).getLast (by simp))
      refine ⟨(increments atan2 pre inp ++ out.drop inp.length) :: outs, ?_, ?_⟩
      · rw [calls, C57_value atan2 pre inp out (by omega), Option.bind_some, h1]
        simp only [Option.map_some, List.map_cons, List.flatten_cons]
        congr 2
        have : ∀ (ys : List (F × F)) (p : F × F), ((p :: inp).getLast (by simp) :: ys).getLast (by simp) = (p :: (inp ++ ys)).getLast (by simp) := by
          intro ys p
          cases ys with
          | nil => simp
          | cons y ys =>
            have e : p :: (inp ++ y :: ys) = (p :: inp) ++ (y :: ys) := rfl
            rw [List.getLast_cons_cons]
            simp only [e]
            rw [List.getLast_append_of_ne_nil _ (by simp)]
        exact this _ _
      · rw [List.flatten_cons, h2, List.map_cons, List.flatten_cons, increments_append, hc]
        simp
  obtain ⟨outs, h1, h2⟩ := key chunks h pre
  refine ⟨_, outs, h1, ?_⟩
  rw [C57_value atan2 pre _ output (by omega), h2, ← ho]
  simp

example : fmDemodulate (fun y x : ℤ => 100 * y + x) (1, 0) [(0, 1), (-1, 0)] [7, 8, 9] = some ((-1, 0), [100, 100, 9], 2) := by
  rw [C57_value _ _ _ _ (by decide)]; decide

/-! ## C58 -/

/-- In exact arithmetic the discriminator is the arctangent of the parts of `a · conj b`. -/
theorem disc_eq (f : ℝ → ℝ → ℝ) (a b : ℂ) :
    disc f (a.re, a.im) (b.re, b.im) = f (a * (starRingEnd ℂ) b).im (a * (starRingEnd ℂ) b).re := by
  simp only [disc, Complex.mul_im, Complex.mul_re, Complex.conj_re, Complex.conj_im]
  congr 1 <;> ring

/-- C58: the output is unchanged when both samples are rotated by a common phase. -/
theorem C58_rotation (f : ℝ → ℝ → ℝ) (a b u : ℂ) (hu : ‖u‖ = 1) :
    disc f ((u * a).re, (u * a).im) ((u * b).re, (u * b).im) = disc f (a.re, a.im) (b.re, b.im) := by
  rw [disc_eq, disc_eq]
  have e : u * a * (starRingEnd ℂ) (u * b) = a * (starRingEnd ℂ) b := by
    have h : u * (starRingEnd ℂ) u = 1 := by
      rw [Complex.mul_conj, Complex.normSq_eq_norm_sq, hu]
      simp
    rw [map_mul]
    linear_combination (a * (starRingEnd ℂ) b) * h
  rw [e]

/-- The product of a sample with the conjugate of the previous one. -/
theorem polar_product (r q p d : ℝ) : (q * Complex.exp ((p + d : ℝ) * Complex.I)) * (starRingEnd ℂ) (r * Complex.exp ((p : ℝ) * Complex.I)) =
    ((r * q : ℝ) : ℂ) * (Complex.cos d + Complex.sin d * Complex.I) := by
  rw [map_mul, ← Complex.exp_conj, map_mul, Complex.conj_ofReal, Complex.conj_ofReal, Complex.conj_I, ← Complex.exp_mul_I]
  have : Complex.exp (((p + d : ℝ) : ℂ) * Complex.I) = Complex.exp ((d : ℂ) * Complex.I) * Complex.exp ((p : ℂ) * Complex.I) := by
    rw [← Complex.exp_add]
    congr 1
    push_cast
    ring
  rw [this]
  have h1 : Complex.exp ((p : ℂ) * Complex.I) * Complex.exp ((p : ℂ) * -Complex.I) = 1 := by
    rw [← Complex.exp_add]
    simp
  push_cast
  linear_combination ((r : ℂ) * q * Complex.exp ((d : ℂ) * Complex.I)) * h1

/-- A sample of magnitude `r` and phase `p` as a pair. -/
noncomputable def polar (r p : ℝ) : ℝ × ℝ := (((r : ℂ) * Complex.exp ((p : ℝ) * Complex.I)).re, ((r : ℂ) * Complex.exp ((p : ℝ) * Complex.I)).im)

theorem max_of_norm (x y m : ℝ) (h : m ^ 2 ≤ x ^ 2 + y ^ 2) : m / 2 ≤ max |x| |y| := by
  by_contra hc
  rw [not_le, max_lt_iff] at hc
  have h1 : x ^ 2 < (m / 2) ^ 2 := by rw [← sq_abs]; exact pow_lt_pow_left₀ hc.1 (abs_nonneg x) (by norm_num)
  have h2 : y ^ 2 < (m / 2) ^ 2 := by rw [← sq_abs]; exact pow_lt_pow_left₀ hc.2 (abs_nonneg y) (by norm_num)
  nlinarith

/-- C58: for samples of magnitudes `r`, `q` and phases `p`, `p + d` the output is within
`0.01016 + 2e-20 / (r q)` of the phase increment `d`. -/
theorem C58_increment_partial (r q p d : ℝ) (hr : 0 < r) (hq : 0 < q) (hd : -Real.pi < d) (hd2 : d ≤ Real.pi) :
    |disc (fastAtan2 Real.pi) (polar q (p + d)) (polar r p) - d| ≤ 0.01016 + 2e-20 / (r * q) := by
  have hrq : 0 < r * q := mul_pos hr hq
  have hp := polar_product r q p d
  have e := disc_eq (fastAtan2 Real.pi) (q * Complex.exp ((p + d : ℝ) * Complex.I)) (r * Complex.exp ((p : ℝ) * Complex.I))
  unfold polar
  rw [e, hp]
  have harg := Complex.arg_mul_cos_add_sin_mul_I hrq ⟨hd, hd2⟩
  generalize hz : ((r * q : ℝ) : ℂ) * (Complex.cos d + Complex.sin d * Complex.I) = z at *
  have hn : z.re ^ 2 + z.im ^ 2 = (r * q) ^ 2 := by
    have h1 : ‖z‖ = r * q := by
      rw [← hz, norm_mul, Complex.norm_real, Real.norm_of_nonneg hrq.le]
      have : ‖Complex.cos d + Complex.sin d * Complex.I‖ = 1 := by
        rw [← Complex.exp_mul_I]
        exact Complex.norm_exp_ofReal_mul_I d
      rw [this, mul_one]
    have h2 := Complex.sq_norm z
    rw [h1, Complex.normSq_apply] at h2
    linarith
  have hm := max_of_norm z.re z.im (r * q) (le_of_eq hn.symm)
  have h0 : ¬ (z.re = 0 ∧ z.im = 0) := by
    rintro ⟨h1, h2⟩
    rw [h1, h2] at hn
    have := pow_pos hrq 2
    norm_num at hn
    linarith [hrq]
  have hc := C33_error_partial z.im z.re h0
  have hz2 : (⟨z.re, z.im⟩ : ℂ) = z := rfl
  rw [hz2, harg] at hc
  refine hc.trans ?_
  have : (1e-20 : ℝ) / max |z.re| |z.im| ≤ 2e-20 / (r * q) := by
    have h3 : (1e-20 : ℝ) / max |z.re| |z.im| ≤ 1e-20 / (r * q / 2) := div_le_div_of_nonneg_left (by norm_num) (by linarith) hm
    refine h3.trans (le_of_eq ?_)
    field_simp
    norm_num
  linarith

/-- C58: within 0.0102 when the product of the magnitudes is at least `1e-15`. -/
theorem C58_increment_away_partial (r q p d : ℝ) (hr : 0 < r) (hq : 0 < q) (h : 1e-15 ≤ r * q) (hd : -Real.pi < d) (hd2 : d ≤ Real.pi) :
    |disc (fastAtan2 Real.pi) (polar q (p + d)) (polar r p) - d| ≤ 0.0102 := by
  refine (C58_increment_partial r q p d hr hq hd hd2).trans ?_
  have : (2e-20 : ℝ) / (r * q) ≤ 2e-20 / 1e-15 := div_le_div_of_nonneg_left (by norm_num) (by norm_num) h
  norm_num at this ⊢
  linarith

/-- C58 does not hold for every pair of nonzero samples: with samples 1e-10 and 1e-11, both of phase
0, the output is off by more than one radian. -/
theorem C58_violated : 1 < |disc (fastAtan2 Real.pi) ((1e-11 : ℝ), 0) (1e-10, 0) - 0| := by
  have h := C33_violated_small
  have e : Complex.arg ⟨1e-21, 0⟩ = 0 := by
    have : (⟨1e-21, 0⟩ : ℂ) = ((1e-21 : ℝ) : ℂ) := rfl
    rw [this, Complex.arg_ofReal_of_nonneg (by norm_num)]
  rw [e] at h
  have e2 : disc (fastAtan2 Real.pi) ((1e-11 : ℝ), 0) (1e-10, 0) = fastAtan2 Real.pi 0 1e-21 := by
    unfold disc
    norm_num
  rw [e2]
  exact h

example : ∃ r q d : ℝ, 0 < r ∧ 0 < q ∧ 1e-15 ≤ r * q ∧ -Real.pi < d ∧ d ≤ Real.pi ∧ d ≠ 0 :=
  ⟨1, 1, 1, by norm_num, by norm_num, by norm_num, by linarith [Real.pi_gt_three], by linarith [Real.pi_gt_three], by norm_num⟩

/-! ## C75, ARM -/

section Arm
variable {K : Type*} [Field K] [LinearOrder K] [IsStrictOrderedRing K]

/-- The inlined arctangent is `fastAtan2`. -/
theorem armAtan2_eq (pi y x : K) : armAtan2 pi y x = fastAtan2 pi y x := by
  have ea : (if y < 0 then -y else y) = |y| := by
    split
    · rename_i h; rw [abs_of_neg h]
    · rename_i h; rw [abs_of_nonneg (not_lt.1 h)]
  unfold armAtan2 fastAtan2
  simp only [ea]
  rcases lt_trichotomy x 0 with h | h | h
  · simp only [if_neg (ne_of_lt h), if_neg (not_lt.mpr h.le), if_pos h, kludge, fastPoly, gt_iff_lt]
    split <;> ring
  · subst h
    simp only [if_true, gt_iff_lt, lt_irrefl, if_false]
    rcases lt_trichotomy y 0 with h | h | h
    · rw [if_neg (not_lt.mpr h.le), if_pos h, if_pos h]
    · subst h; simp
    · rw [if_pos h, if_neg (not_lt.mpr h.le), if_pos h]
  · simp only [if_neg (ne_of_gt h), if_pos h, if_neg (not_lt.mpr h.le), kludge, fastPoly, gt_iff_lt]
    split <;> ring

theorem armLoop_eq (pi : K) : ∀ (n i : Nat) (pre : K × K) (input : List (K × K)) (output : List K), input.length = i + n →
    some (armLoop pi n i pre (fun k => input.getD k (0, 0)) output) = if i + n ≤ output.length then
      fmLoop (fastAtan2 pi) i pre (input.drop i) output else some (armLoop pi n i pre (fun k => input.getD k (0, 0)) output) := by
  intro n
  induction n with
  | zero =>
    intro i pre input output h
    split
    · rw [List.drop_of_length_le (by omega), fmLoop, armLoop]
    · rfl
  | succ n ih =>
    intro i pre input output h
    split
    · rename_i hle
      have hi : i < input.length := by omega
      rw [armLoop, List.drop_eq_getElem_cons hi, fmLoop, if_pos (by omega)]
      have := ih (i + 1) (input.getD i (0, 0)) input (output.set i (disc (fastAtan2 pi) (input.getD i (0, 0)) pre)) (by omega)
      rw [if_pos (by rw [List.length_set]; omega)] at this
      have e : input.getD i (0, 0) = input[i] := by rw [List.getD_eq_getElem?_getD, List.getElem?_eq_getElem hi, Option.getD_some]
      rw [← e, ← this]
      simp only [armAtan2_eq, disc]
    · rfl

omit [IsStrictOrderedRing K] in
theorem armLoop_prefix (pi : K) : ∀ (n i : Nat) (pre : K × K) (f g : Nat → K × K) (output : List K), (∀ k, i ≤ k → k < i + n → f k = g k) →
    armLoop pi n i pre f output = armLoop pi n i pre g output := by
  intro n
  induction n with
  | zero => intro i pre f g output h; rfl
  | succ n ih =>
    intro i pre f g output h
    rw [armLoop, armLoop, h i (le_refl i) (by omega)]
    exact ih _ _ _ _ _ fun k h1 h2 => h k (by omega) (by omega)

/-- C75: with an output at least as long as the input, the ARM code gives the result of the portable
code. -/
theorem C75_agrees_partial (pi : K) (pre : K × K) (input : List (K × K)) (output : List K) (h : input.length ≤ output.length) :
    fmDemodulate (fastAtan2 pi) pre input output = some (fmDemodulateArm pi pre input output) := by
  unfold fmDemodulateArm
  simp only [if_neg (not_lt.mpr h)]
  split
  · rename_i h0
    have : input = [] := List.eq_nil_of_length_eq_zero h0
    subst this
    rfl
  · have := armLoop_eq pi input.length 0 pre input output (by omega)
    rw [if_pos (by omega), List.drop_zero] at this
    rw [fmDemodulate, ← this]
    rfl

omit [IsStrictOrderedRing K] in
/-- C75: with a shorter output, where the portable code panics, the ARM code demodulates as many samples as
fit and keeps the last of them. -/
theorem C75_short (pi : K) (pre : K × K) (input : List (K × K)) (output : List K) (h : output.length < input.length) :
    fmDemodulateArm pi pre input output = ((fmDemodulateArm pi pre (input.take output.length) output).1,
      (fmDemodulateArm pi pre (input.take output.length) output).2.1, input.length) := by
  have hl : (input.take output.length).length = output.length := by rw [List.length_take]; omega
  unfold fmDemodulateArm
  simp only [if_pos h, hl, if_neg (lt_irrefl _)]
  split
  · rfl
  · have := armLoop_prefix pi output.length 0 pre (fun i => input.getD i (0, 0)) (fun i => (input.take output.length).getD i (0, 0)) output
      (by intro k _ hk; rw [List.getD_eq_getElem?_getD, List.getD_eq_getElem?_getD, List.getElem?_take_of_lt (by omega)])
    rw [this]

omit [IsStrictOrderedRing K] in
/-- C75 does not hold: with a shorter output the count returned is the length of the input, more than
was consumed, so the samples in between are lost. -/
theorem C75_violated (pi : K) (pre : K × K) (input : List (K × K)) (output : List K) (h : output.length < input.length) :
    (fmDemodulateArm pi pre input output).2.2 = input.length ∧
      (fmDemodulateArm pi pre (input.take output.length) output).2.1 = (fmDemodulateArm pi pre input output).2.1 := by
  rw [C75_short pi pre input output h]
  exact ⟨rfl, rfl⟩

example : (fmDemodulateArm (3 : ℚ) (1, 0) [(1, 0), (0, 1)] [9]).2.2 = 2 := (C75_violated 3 (1, 0) [(1, 0), (0, 1)] [9] (by decide)).1

end Arm

end Verif.Demod
