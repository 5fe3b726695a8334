import Verif.Dft.GoertzelModel
import Verif.Dft.DftSpec
import Mathlib.Tactic.LinearCombination
import Mathlib.Tactic.Linarith
import Mathlib.Tactic.FieldSimp
import Mathlib.Tactic.Positivity
import Mathlib.Tactic.NormNum

/-!
# Properties C45 and C46 of the Goertzel detectors
-/

namespace Verif.Dft

/-! ## Chunking, reset, independence (no arithmetic laws) -/

section
variable {F S R : Type} [Add F] [Sub F] [Mul F] [Zero F]

/-- Calls on a detector. -/
inductive Call (S : Type) where
  | feed (samples : List S)
  | reset

/-- Effect of a sequence of calls on `Goertzel`/`Goertzel32`. -/
def run (wide : S → F) (freq : List (Gz F)) : List (Call S) → List (Gz F)
  | [] => freq
  | .feed s :: cs => run wide (feed wide freq s) cs
  | .reset :: cs => run wide (reset freq) cs

/-- Effect of a sequence of calls on `ComplexGoertzel`. -/
def runC (freq : List (Gz F)) : List (Call (F × F)) → List (Gz F)
  | [] => freq
  | .feed s :: cs => runC (feedC freq s) cs
  | .reset :: cs => runC (resetC freq) cs

/-- Samples fed since the last reset, in order; `acc` are those fed before the calls. -/
def sinceReset (acc : List S) : List (Call S) → List S
  | [] => acc
  | .feed s :: cs => sinceReset (acc ++ s) cs
  | .reset :: cs => sinceReset [] cs

omit [Zero F] in
theorem feed_eq (wide : S → F) (freq : List (Gz F)) (samples : List S) :
    feed wide freq samples = freq.map fun g => (samples.map wide).foldl Gz.step g := by
  unfold feed
  induction samples generalizing freq with
  | nil => simp
  | cons s ss ih => simp only [List.foldl_cons, ih, List.map_map, List.map_cons]; rfl

omit [Zero F] in
theorem feedC_eq (freq : List (Gz F)) (samples : List (F × F)) :
    feedC freq samples = freq.map fun g => samples.foldl Gz.stepC g := by
  unfold feedC
  induction samples generalizing freq with
  | nil => simp
  | cons s ss ih => simp only [List.foldl_cons, ih, List.map_map]; rfl

omit [Zero F] in
/-- C46: feeding two chunks is feeding their concatenation. -/
theorem C46_chunks (wide : S → F) (freq : List (Gz F)) (a b : List S) :
    feed wide (feed wide freq a) b = feed wide freq (a ++ b) := by
  simp only [feed, List.foldl_append]

omit [Zero F] in
/-- C46, complex detectors. -/
theorem C46_chunks_complex (freq : List (Gz F)) (a b : List (F × F)) :
    feedC (feedC freq a) b = feedC freq (a ++ b) := by
  simp only [feedC, List.foldl_append]

omit [Zero F] in
/-- C46: each frequency is tracked independently of the others. -/
theorem C46_independent (wide : S → F) (freq : List (Gz F)) (samples : List S) (i : Nat) :
    (feed wide freq samples)[i]? = (freq[i]?).bind fun g => (feed wide [g] samples)[0]? := by
  simp only [feed_eq, List.getElem?_map, List.map_cons, List.map_nil, List.getElem?_cons_zero]
  cases freq[i]? <;> rfl

omit [Zero F] in
/-- C46, complex detectors. -/
theorem C46_independent_complex (freq : List (Gz F)) (samples : List (F × F)) (i : Nat) :
    (feedC freq samples)[i]? = (freq[i]?).bind fun g => (feedC [g] samples)[0]? := by
  simp only [feedC_eq, List.getElem?_map, List.map_cons, List.map_nil, List.getElem?_cons_zero]
  cases freq[i]? <;> rfl

/-- A detector in the state the constructor leaves it. -/
def Gz.Fresh (g : Gz F) : Prop := g.q1 = 0 ∧ g.q2 = 0 ∧ g.q1i = 0 ∧ g.q2i = 0

/-- A fresh detector of the real kinds: the fields for imaginary parts are never used. -/
def Gz.FreshR (g : Gz F) : Prop := g.q1 = 0 ∧ g.q2 = 0

omit [Zero F] in
theorem step_coef (g : Gz F) (xs : List F) : (xs.foldl Gz.step g).coeff = g.coeff ∧
    (xs.foldl Gz.step g).cos = g.cos ∧ (xs.foldl Gz.step g).sin = g.sin ∧
    (xs.foldl Gz.step g).q1i = g.q1i ∧ (xs.foldl Gz.step g).q2i = g.q2i := by
  induction xs generalizing g with
  | nil => simp
  | cons x xs ih => exact ih (g.step x)

omit [Zero F] in
theorem stepC_coef (g : Gz F) (xs : List (F × F)) : (xs.foldl Gz.stepC g).coeff = g.coeff ∧
    (xs.foldl Gz.stepC g).cos = g.cos ∧ (xs.foldl Gz.stepC g).sin = g.sin := by
  induction xs generalizing g with
  | nil => simp
  | cons x xs ih => exact ih (g.stepC x)

theorem reset_feed (wide : S → F) (freq : List (Gz F)) (h : ∀ g ∈ freq, g.FreshR) (a : List S) :
    reset (feed wide freq a) = freq := by
  rw [feed_eq, reset, List.map_map]
  conv => rhs; rw [← List.map_id freq]
  refine List.map_congr_left fun g hg => ?_
  obtain ⟨h1, h2⟩ := h g hg
  obtain ⟨c1, c2, c3, c4, c5⟩ := step_coef g (a.map wide)
  obtain ⟨a1, a2, a3, a4, a5, a6, a7⟩ := g
  simp only at h1 h2
  subst h1 h2
  simp only [Function.comp_apply, c1, c2, c3, c4, c5, id]

theorem resetC_feedC (freq : List (Gz F)) (h : ∀ g ∈ freq, g.Fresh) (a : List (F × F)) :
    resetC (feedC freq a) = freq := by
  rw [feedC_eq, resetC, List.map_map]
  conv => rhs; rw [← List.map_id freq]
  refine List.map_congr_left fun g hg => ?_
  obtain ⟨h1, h2, h3, h4⟩ := h g hg
  obtain ⟨c1, c2, c3⟩ := stepC_coef g a
  obtain ⟨a1, a2, a3, a4, a5, a6, a7⟩ := g
  simp only at h1 h2 h3 h4
  subst h1 h2 h3 h4
  simp only [Function.comp_apply, c1, c2, c3, id]

/-- C46: after any sequence of calls the detector is in exactly the state of a new one fed, in one
call, the samples since the last reset. -/
theorem C46_calls (wide : S → F) (freq : List (Gz F)) (h : ∀ g ∈ freq, g.FreshR) (cs : List (Call S)) :
    run wide freq cs = feed wide freq (sinceReset [] cs) := by
  have key : ∀ (cs : List (Call S)) (acc : List S),
      run wide (feed wide freq acc) cs = feed wide freq (sinceReset acc cs) := by
    intro cs
    induction cs with
    | nil => intro acc; rfl
    | cons c cs ih =>
      intro acc
      cases c with
      | feed s => simp only [run, sinceReset, C46_chunks, ih]
      | reset =>
        simp only [run, sinceReset, reset_feed wide freq h]
        exact ih []
  exact key cs []

/-- C46, complex detectors. -/
theorem C46_calls_complex (freq : List (Gz F)) (h : ∀ g ∈ freq, g.Fresh) (cs : List (Call (F × F))) :
    runC freq cs = feedC freq (sinceReset [] cs) := by
  have key : ∀ (cs : List (Call (F × F))) (acc : List (F × F)),
      runC (feedC freq acc) cs = feedC freq (sinceReset acc cs) := by
    intro cs
    induction cs with
    | nil => intro acc; rfl
    | cons c cs ih =>
      intro acc
      cases c with
      | feed s => simp only [runC, sinceReset, C46_chunks_complex, ih]
      | reset =>
        simp only [runC, sinceReset, resetC_feedC freq h]
        exact ih []
  exact key cs []

end

theorem newGz_fresh (f fs n : Nat) : (newGz f fs n).Fresh := ⟨rfl, rfl, rfl, rfl⟩

example : (∀ g ∈ newGoertzel [697, 770] 8000 205, g.Fresh) ∧
    sinceReset [] [.feed [1, 2], .reset, .feed [3], .feed [4, 5]] = [3, 4, 5] := by
  refine ⟨?_, rfl⟩
  intro g hg
  simp only [newGoertzel, List.map_cons, List.map_nil, List.mem_cons, List.not_mem_nil, or_false] at hg
  rcases hg with rfl | rfl <;> exact newGz_fresh _ _ _

/-! ## The detector computes a Fourier sum (exact arithmetic) -/

open Complex

/-- The `m`-th of a list of samples as a complex number. -/
noncomputable def sampleR (xs : List ℝ) (m : Nat) : ℂ := (xs.getD m 0 : ℝ)
/-- The `m`-th of a list of complex samples given as pairs. -/
noncomputable def sampleC (xs : List (ℝ × ℝ)) (m : Nat) : ℂ := ⟨(xs.getD m (0, 0)).1, (xs.getD m (0, 0)).2⟩

/-- The recursion the detectors implement. -/
theorem fold_fourier (w : ℝ) (xs : List ℂ) :
    xs.foldl (fun y x => exp (w * I) * (y + x)) 0
      = exp ((w * xs.length : ℝ) * I) * fourierSum w xs.length (fun m => xs.getD m 0) := by
  induction xs using List.reverseRecOn with
  | nil => simp [fourierSum]
  | append_singleton xs x ih =>
    rw [List.foldl_append, List.foldl_cons, List.foldl_nil, ih]
    simp only [fourierSum, List.length_append, List.length_cons, List.length_nil, zero_add, Finset.sum_range_succ]
    have e1 : ∑ m ∈ Finset.range xs.length, (xs ++ [x]).getD m 0 * exp (-(w * m : ℝ) * I)
        = ∑ m ∈ Finset.range xs.length, xs.getD m 0 * exp (-(w * m : ℝ) * I) := by
      refine Finset.sum_congr rfl fun m hm => ?_
      rw [List.getD_eq_getElem?_getD, List.getD_eq_getElem?_getD, List.getElem?_append_left (Finset.mem_range.1 hm)]
    have e2 : (xs ++ [x]).getD xs.length 0 = x := by simp
    rw [e1, e2]
    have e3 : exp ((w * (xs.length + 1 : Nat) : ℝ) * I) = exp (w * I) * exp ((w * xs.length : ℝ) * I) := by
      rw [← exp_add]
      congr 1
      push_cast
      ring
    have e4 : exp ((w * xs.length : ℝ) * I) * exp (-(w * xs.length : ℝ) * I) = 1 := by
      rw [← exp_add]
      simp
    rw [e3]
    linear_combination (-exp (w * I) * x) * e4

/-- The angle a detector is tuned to. -/
def Gz.Tuned (g : Gz ℝ) (w : ℝ) : Prop := g.coeff = 2 * Real.cos w ∧ g.cos = Real.cos w ∧ g.sin = Real.sin w

theorem exp_cs (w : ℝ) : exp (w * I) = (Real.cos w : ℂ) + Real.sin w * I := by
  rw [exp_mul_I]; push_cast; rfl

theorem step_value {g : Gz ℝ} {w : ℝ} (h : g.Tuned w) (xs : List ℝ) :
    ((((xs.foldl Gz.step g).q1 * Real.cos w - (xs.foldl Gz.step g).q2 : ℝ) : ℂ) + ((xs.foldl Gz.step g).q1 * Real.sin w : ℝ) * I)
      = (xs.map (fun x : ℝ => (x : ℂ))).foldl (fun y x => exp (w * I) * (y + x))
        (((g.q1 * Real.cos w - g.q2 : ℝ) : ℂ) + (g.q1 * Real.sin w : ℝ) * I) := by
  induction xs generalizing g with
  | nil => rfl
  | cons x xs ih =>
    simp only [List.foldl_cons, List.map_cons]
    rw [ih (g := g.step x) h]
    congr 1
    simp only [Gz.step, h.1]
    have h3 : ((Real.sin w : ℝ) : ℂ) ^ 2 + ((Real.cos w : ℝ) : ℂ) ^ 2 = 1 := by
      exact_mod_cast Real.sin_sq_add_cos_sq w
    rw [exp_cs]
    generalize Real.cos w = c at *
    generalize Real.sin w = s at *
    push_cast
    have hI : I ^ 2 = -1 := I_sq
    linear_combination (g.q1 : ℂ) * h3 - (g.q1 * s ^ 2 : ℂ) * hI

theorem stepC_value {g : Gz ℝ} {w : ℝ} (h : g.Tuned w) (xs : List (ℝ × ℝ)) :
    (⟨(xs.foldl Gz.stepC g).q1 * Real.cos w - (xs.foldl Gz.stepC g).q2 - (xs.foldl Gz.stepC g).q1i * Real.sin w,
      (xs.foldl Gz.stepC g).q1 * Real.sin w + (xs.foldl Gz.stepC g).q1i * Real.cos w - (xs.foldl Gz.stepC g).q2i⟩ : ℂ)
      = (xs.map (fun x : ℝ × ℝ => (⟨x.1, x.2⟩ : ℂ))).foldl (fun y x => exp (w * I) * (y + x))
        ⟨g.q1 * Real.cos w - g.q2 - g.q1i * Real.sin w, g.q1 * Real.sin w + g.q1i * Real.cos w - g.q2i⟩ := by
  induction xs generalizing g with
  | nil => rfl
  | cons x xs ih =>
    simp only [List.foldl_cons, List.map_cons]
    rw [ih (g := g.stepC x) h]
    congr 1
    simp only [Gz.stepC, h.1]
    have h3 : (Real.sin w) ^ 2 + (Real.cos w) ^ 2 = 1 := Real.sin_sq_add_cos_sq w
    rw [exp_cs]
    generalize Real.cos w = c at *
    generalize Real.sin w = s at *
    apply Complex.ext
    · simp
      linear_combination g.q1 * h3
    · simp
      linear_combination g.q1i * h3

/-- The number a real detector reports, as a complex number. -/
def toC (p : ℝ × ℝ) : ℂ := ⟨p.1, p.2⟩

/-- C45, any length: after `n` samples the real detector tuned to `w` reports the Fourier sum at `w`
times the phase factor `e^{jwn}`, and the magnitude is the squared modulus of the Fourier sum. -/
theorem C45_phase (g : Gz ℝ) (w : ℝ) (h : g.Tuned w) (hf : g.FreshR) (xs : List ℝ) :
    ∃ c m, complex id (feed id [g] xs) = [c] ∧ magnitude id (feed id [g] xs) = [m] ∧
      toC c = exp ((w * xs.length : ℝ) * I) * fourierSum w xs.length (sampleR xs) ∧
      m = ‖fourierSum w xs.length (sampleR xs)‖ ^ 2 := by
  simp only [complex, magnitude, feed_eq, List.map_cons, List.map_nil, List.map_id_fun, id, (step_coef g xs).1,
    (step_coef g xs).2.1, (step_coef g xs).2.2.1, h.1, h.2.1, h.2.2]
  refine ⟨_, _, rfl, rfl, ?_⟩
  have e := step_value h xs
  rw [hf.1, hf.2] at e
  simp only [zero_mul, sub_zero, ofReal_zero, add_zero] at e
  rw [fold_fourier, List.length_map] at e
  have es : (fun m => (xs.map (fun x : ℝ => (x : ℂ))).getD m 0) = sampleR xs := by
    funext m
    simp only [sampleR, List.getD_eq_getElem?_getD, List.getElem?_map]
    cases xs[m]? <;> simp
  rw [es] at e
  have e' : toC ((xs.foldl Gz.step g).q1 * Real.cos w - (xs.foldl Gz.step g).q2, (xs.foldl Gz.step g).q1 * Real.sin w)
      = exp ((w * xs.length : ℝ) * I) * fourierSum w xs.length (sampleR xs) := by
    rw [← e, toC]
    generalize (xs.foldl Gz.step g).q1 * Real.cos w - (xs.foldl Gz.step g).q2 = a
    generalize (xs.foldl Gz.step g).q1 * Real.sin w = b
    apply Complex.ext <;> simp
  refine ⟨e', ?_⟩
  have hn : ‖fourierSum w xs.length (sampleR xs)‖ = ‖exp ((w * xs.length : ℝ) * I) * fourierSum w xs.length (sampleR xs)‖ := by
    rw [norm_mul, norm_exp_ofReal_mul_I, one_mul]
  rw [hn, ← e', Complex.sq_norm, toC, normSq_mk]
  linear_combination (-(xs.foldl Gz.step g).q1 ^ 2) * Real.sin_sq_add_cos_sq w

/-- C45, complex detector, any length. -/
theorem C45_phase_complex (g : Gz ℝ) (w : ℝ) (h : g.Tuned w) (hf : g.Fresh) (xs : List (ℝ × ℝ)) :
    ∃ c m, complexC (feedC [g] xs) = [c] ∧ magnitudeC (feedC [g] xs) = [m] ∧
      toC c = exp ((w * xs.length : ℝ) * I) * fourierSum w xs.length (sampleC xs) ∧
      m = ‖fourierSum w xs.length (sampleC xs)‖ ^ 2 := by
  simp only [complexC, magnitudeC, feedC_eq, List.map_cons, List.map_nil, (stepC_coef g xs).2.1, (stepC_coef g xs).2.2, h.2.1, h.2.2]
  refine ⟨_, _, rfl, rfl, ?_⟩
  have e := stepC_value h xs
  rw [hf.1, hf.2.1, hf.2.2.1, hf.2.2.2] at e
  have z0 : (⟨0 * Real.cos w - 0 - 0 * Real.sin w, 0 * Real.sin w + 0 * Real.cos w - 0⟩ : ℂ) = 0 := by
    apply Complex.ext <;> simp
  rw [z0, fold_fourier, List.length_map] at e
  have es : (fun m => (xs.map (fun x : ℝ × ℝ => (⟨x.1, x.2⟩ : ℂ))).getD m 0) = sampleC xs := by
    funext m
    simp only [sampleC, List.getD_eq_getElem?_getD, List.getElem?_map]
    cases xs[m]?
    · simp
      rfl
    · simp
  rw [es] at e
  refine ⟨e, ?_⟩
  have hn : ‖fourierSum w xs.length (sampleC xs)‖ = ‖exp ((w * xs.length : ℝ) * I) * fourierSum w xs.length (sampleC xs)‖ := by
    rw [norm_mul, norm_exp_ofReal_mul_I, one_mul]
  rw [hn, ← e, Complex.sq_norm, normSq_mk]

/-! ## Detectors made by the constructors -/

theorem newGz_tuned (f fs n : Nat) : (newGz f fs n).Tuned (2 * Real.pi * bucket f fs n / n) := ⟨rfl, rfl, rfl⟩

theorem whole_cycles (k n : Nat) (hn : 0 < n) : exp ((2 * Real.pi * k / n * n : ℝ) * I) = 1 := by
  have hn' : (n : ℝ) ≠ 0 := by positivity
  rw [div_mul_cancel₀ _ hn']
  have := exp_nat_mul_two_pi_mul_I k
  rw [← this]
  congr 1
  push_cast
  ring

theorem fourier_dft (n k : Nat) (x : Nat → ℂ) : fourierSum (2 * Real.pi * k / n) n x = dft n k x := by
  unfold fourierSum dft
  refine Finset.sum_congr rfl fun m _ => ?_
  congr 3
  push_cast
  ring_nf

/-- C45: a new real detector fed exactly one block reports the DFT bin `k` of the block, and its
squared modulus. -/
theorem C45_dft (f fs : Nat) (xs : List ℝ) (hn : 0 < xs.length) :
    ∃ c m, complex id (feed id [newGz f fs xs.length] xs) = [c] ∧
      magnitude id (feed id [newGz f fs xs.length] xs) = [m] ∧
      toC c = dft xs.length (bucket f fs xs.length) (sampleR xs) ∧
      m = ‖dft xs.length (bucket f fs xs.length) (sampleR xs)‖ ^ 2 := by
  obtain ⟨c, m, h1, h2, h3, h4⟩ := C45_phase _ _ (newGz_tuned f fs xs.length) ⟨rfl, rfl⟩ xs
  rw [whole_cycles _ _ hn, one_mul, fourier_dft] at h3
  rw [fourier_dft] at h4
  exact ⟨c, m, h1, h2, h3, h4⟩

/-- C45, complex detectors. -/
theorem C45_dft_complex (f fs : Nat) (xs : List (ℝ × ℝ)) (hn : 0 < xs.length) :
    ∃ c m, complexC (feedC [newGz f fs xs.length] xs) = [c] ∧
      magnitudeC (feedC [newGz f fs xs.length] xs) = [m] ∧
      toC c = dft xs.length (bucket f fs xs.length) (sampleC xs) ∧
      m = ‖dft xs.length (bucket f fs xs.length) (sampleC xs)‖ ^ 2 := by
  obtain ⟨c, m, h1, h2, h3, h4⟩ := C45_phase_complex _ _ (newGz_tuned f fs xs.length) (newGz_fresh _ _ _) xs
  rw [whole_cycles _ _ hn, one_mul, fourier_dft] at h3
  rw [fourier_dft] at h4
  exact ⟨c, m, h1, h2, h3, h4⟩

/-- C45: the bucket is the closest one: its centre frequency `k fs / n` is within half a bucket of the
target frequency. -/
theorem C45_closest (f fs n : Nat) (hfs : 0 < fs) (hn : 0 < n) (ho : n * f < 2 ^ 64) :
    |(bucket f fs n * fs / n : ℝ) - f| ≤ fs / n / 2 := by
  have hfs' : (0 : ℝ) < fs := by exact_mod_cast hfs
  have hn' : (0 : ℝ) < n := by exact_mod_cast hn
  have e : ((n * f % 2 ^ 64 : Nat) : ℝ) = n * f := by rw [Nat.mod_eq_of_lt ho]; push_cast; rfl
  have h0 : 0 ≤ (0.5 : ℝ) + (n * f : ℝ) / fs := by positivity
  have h1 := Nat.floor_le h0
  have h2 := Nat.lt_floor_add_one ((0.5 : ℝ) + (n * f : ℝ) / fs)
  have hb : bucket f fs n = ⌊(0.5 : ℝ) + (n * f : ℝ) / fs⌋₊ := by rw [bucket, e]
  rw [← hb] at h1 h2
  have e1 : (f : ℝ) = (n * f : ℝ) / fs * (fs / n) := by field_simp
  have e2 : (bucket f fs n * fs / n : ℝ) = bucket f fs n * (fs / n) := by ring
  have hr : (0 : ℝ) < fs / n := by positivity
  rw [e2]
  conv => lhs; rw [e1]
  rw [← sub_mul, abs_mul, abs_of_pos hr, show (fs / n / 2 : ℝ) = 1 / 2 * (fs / n) by ring]
  refine mul_le_mul_of_nonneg_right ?_ hr.le
  rw [abs_le]
  norm_num at h1 h2 ⊢
  constructor <;> linarith

/-- C45: a target frequency that is a whole number of cycles per block gets exactly its bin. -/
theorem C45_exact_bin (k fs n f : Nat) (hfs : 0 < fs) (hk : n * f = k * fs) (ho : n * f < 2 ^ 64) :
    bucket f fs n = k := by
  have hfs' : (fs : ℝ) ≠ 0 := by positivity
  rw [bucket, Nat.mod_eq_of_lt ho, hk]
  push_cast
  rw [mul_div_cancel_right₀ _ hfs', Nat.floor_eq_iff (by positivity)]
  constructor
  · norm_num
  · norm_num
    linarith

example : (0 : Nat) < 8000 ∧ (0 : Nat) < 205 ∧ 205 * 697 < 2 ^ 64 ∧ 200 * 440 = 11 * 8000 ∧
    0 < ([1, 0.5, -1] : List ℝ).length := by
  refine ⟨by norm_num, by norm_num, by norm_num, by norm_num, by simp⟩

end Verif.Dft
