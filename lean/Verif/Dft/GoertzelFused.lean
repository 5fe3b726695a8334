import Verif.Dft.GoertzelFp

/-!
# Property C98: the Goertzel detectors on platforms that fuse multiplication and addition

Go permits an implementation to compute `x*y + z` with one rounding, and its compilers do so on arm64, ppc64, s390x and
riscv64.  The model of the code is run on expressions; `Expr.Eval` gives the values an implementation may compute, every
choice of fusing or not being allowed at every step.  Only the top operation of an expression that is stored and read
again could be fused across steps, and in `Feed` that is an addition.
-/

namespace Verif.Dft
open Verif.Fp Complex Expr

variable {φ : Format}

/-- The detector `g` with the stored numbers `s`, and `t` for imaginary parts, as expressions. -/
def exprs (g : Gz (FVal φ)) (s t : FVal φ × FVal φ) : Gz (Expr φ) :=
  { coeff := lf g.coeff, cos := lf g.cos, sin := lf g.sin, q1 := lf s.1, q2 := lf s.2, q1i := lf t.1, q2i := lf t.2 }

/-- What one call of `Feed` (dsp/goertzel.go:58-66 and 110-118) with one sample may make of the stored numbers. -/
def FeedStep (g : Gz (FVal φ)) (p q x y : FVal φ) : Prop := Eval ((exprs g (p, q) (0, 0)).step (lf x)).q1 y

/-- The same for the two halves of `ComplexGoertzel.Feed` (dsp/goertzel.go:163-174). -/
def FeedStepC (g : Gz (FVal φ)) (s t : FVal φ × FVal φ) (x : FVal φ × FVal φ) (s' t' : FVal φ × FVal φ) : Prop :=
  let r := (exprs g s t).stepC (lf x.1, lf x.2)
  Eval r.q1 s'.1 ∧ Eval r.q2 s'.2 ∧ Eval r.q1i t'.1 ∧ Eval r.q2i t'.2

/-- `s` may be stored after the samples `xs`. -/
inductive After (g : Gz (FVal φ)) : List (FVal φ) → FVal φ × FVal φ → Prop where
  | new : After g [] (0, 0)
  | feed {xs : List (FVal φ)} {s : FVal φ × FVal φ} {x y : FVal φ} :
      After g xs s → FeedStep g s.1 s.2 x y → After g (xs ++ [x]) (y, s.1)

/-- `s` and `t` may be stored after the samples `xs`. -/
inductive AfterC (g : Gz (FVal φ)) : List (FVal φ × FVal φ) → FVal φ × FVal φ → FVal φ × FVal φ → Prop where
  | new : AfterC g [] (0, 0) (0, 0)
  | feed {xs : List (FVal φ × FVal φ)} {s t s' t' x : FVal φ × FVal φ} :
      AfterC g xs s t → FeedStepC g s t x s' t' → AfterC g (xs ++ [x]) s' t'

/-- `re` and `im` may be reported by `Complex`. -/
def Reports (g : Gz (FVal φ)) (s : FVal φ × FVal φ) (re im : FVal φ) : Prop :=
  ∃ e f, complex id [exprs g s (0, 0)] = [(e, f)] ∧ Eval e re ∧ Eval f im

/-- `m` may be reported by `Magnitude`. -/
def ReportsMagnitude (g : Gz (FVal φ)) (s : FVal φ × FVal φ) (m : FVal φ) : Prop :=
  ∃ e, magnitude id [exprs g s (0, 0)] = [e] ∧ Eval e m

/-- `re` and `im` may be reported by the complex detector. -/
def ReportsC (g : Gz (FVal φ)) (s t : FVal φ × FVal φ) (re im : FVal φ) : Prop :=
  ∃ e f, complexC [exprs g s t] = [(e, f)] ∧ Eval e re ∧ Eval f im

theorem After.runs {g : Gz (FVal φ)} {xs : List (FVal φ)} {s : FVal φ × FVal φ} (h : After g xs s) :
    Runs (NextQ1 g) xs s := by
  induction h with
  | new => exact .nil
  | feed _ hs ih => exact .snoc ih hs

theorem eval_leaf {v w : FVal φ} (h : Eval (lf v) w) : w = v := by
  cases h
  rfl

theorem AfterC.runs {g : Gz (FVal φ)} {xs : List (FVal φ × FVal φ)} {s t : FVal φ × FVal φ} (h : AfterC g xs s t) :
    Runs (NextQ1 g) (xs.map Prod.fst) s ∧ Runs (NextQ1 g) (xs.map Prod.snd) t := by
  induction h with
  | new => exact ⟨.nil, .nil⟩
  | @feed xs s t s' t' x _ hs ih =>
    obtain ⟨h1, h2, h3, h4⟩ := hs
    have e2 : s'.2 = s.1 := eval_leaf h2
    have e4 : t'.2 = t.1 := eval_leaf h4
    rw [List.map_append, List.map_append]
    have es : s' = (s'.1, s.1) := by rw [← e2]
    have et : t' = (t'.1, t.1) := by rw [← e4]
    rw [es, et]
    exact ⟨.snoc ih.1 h1, .snoc ih.2 h3⟩

/-- Not fusing is one of the allowed implementations. -/
theorem C98_unfused (g : Gz (FVal φ)) (hf : g.FreshR) (xs : List (FVal φ)) :
    ∃ c m s, After g xs s ∧ Reports g s c.1 c.2 ∧ ReportsMagnitude g s m ∧
      complex id (feed id [g] xs) = [c] ∧ magnitude id (feed id [g] xs) = [m] := by
  have e := gz_fold g xs
  rw [hf.1, hf.2] at e
  have key : ∀ ys : List (FVal φ), After g ys (ys.foldl (pairStep (rec g.coeff)) (0, 0)) := by
    intro ys
    induction ys using List.reverseRecOn with
    | nil => exact .new
    | append_singleton ys y ih =>
      rw [List.foldl_append, List.foldl_cons, List.foldl_nil]
      exact .feed ih (eval_unfused (lf g.coeff * _ - _ + lf y))
  have ha := key xs
  rw [← e] at ha
  simp only [complex, magnitude, feed_eq, List.map_cons, List.map_nil, List.map_id_fun, id, (step_coef g xs).1,
    (step_coef g xs).2.1, (step_coef g xs).2.2.1]
  refine ⟨_, _, _, ha, ⟨_, _, rfl, eval_unfused _, eval_unfused _⟩, ⟨_, rfl, eval_unfused _⟩, rfl, rfl⟩

/-- C98: `Complex` on any platform is within the bound of `C97_complex`.  Missing, here and below: that
all platforms give the same bits, which is false (`C98_bits_violated`). -/
theorem C98_complex_partial (h : φ.Ok) (g : Gz (FVal φ)) (w δ X M : ℝ) (hg : g.TunedTo w δ) (hδ0 : 0 ≤ δ)
    (hδ : δ ≤ 1 / 4) (hX : 0 < X) (hM0 : 0 ≤ M) (hM : 8 * M + 4 ≤ 2 ^ φ.emax)
    (hε : (2 * δ + 14 * uR φ) * M + 4 * wR φ ≤ X)
    (xs : List (FVal φ)) (hxs : ∀ x ∈ xs, Finite x ∧ |val x| ≤ X) (hR : Room w xs.length X M)
    (s : FVal φ × FVal φ) (hs : After g xs s) (re im : FVal φ) (hr : Reports g s re im) :
    Finite re ∧ Finite im ∧
      ‖(⟨val re, val im⟩ : ℂ) - exp ((w * xs.length : ℝ) * I) * fourierSum w xs.length (sampleR (vals xs))‖
        ≤ (xs.length + 1) * ((2 * δ + 14 * uR φ) * M + 4 * wR φ) := by
  obtain ⟨e, f, he, h1, h2⟩ := hr
  simp only [complex, List.map_cons, List.map_nil, id, List.cons.injEq, Prod.mk.injEq, and_true] at he
  rw [← he.1] at h1
  rw [← he.2] at h2
  exact complex_err h hg hδ0 hδ hX hM0 hM hε hxs hR hs.runs h1 h2

/-- C98: `Magnitude` on any platform is within the bound of `C97_magnitude_partial`. -/
theorem C98_magnitude_partial (h : φ.Ok) (g : Gz (FVal φ)) (w δ X M : ℝ) (hg : g.TunedTo w δ) (hδ0 : 0 ≤ δ)
    (hδ : δ ≤ 1 / 4) (hX : 0 < X) (hM0 : 0 ≤ M) (hM : 8 * M + 4 ≤ 2 ^ φ.emax) (hM2 : 8 * M ^ 2 + 4 ≤ 2 ^ φ.emax)
    (hε : (2 * δ + 14 * uR φ) * M + 4 * wR φ ≤ X)
    (xs : List (FVal φ)) (hxs : ∀ x ∈ xs, Finite x ∧ |val x| ≤ X) (hR : Room w xs.length X M)
    (s : FVal φ × FVal φ) (hs : After g xs s) (m : FVal φ) (hr : ReportsMagnitude g s m) :
    Finite m ∧ |val m - ‖fourierSum w xs.length (sampleR (vals xs))‖ ^ 2|
        ≤ 3 * xs.length ^ 2 * X * ((2 * δ + 14 * uR φ) * M + 4 * wR φ) + ((2 * δ + 18 * uR φ) * M ^ 2 + 12 * wR φ) := by
  obtain ⟨e, he, h1⟩ := hr
  simp only [magnitude, List.map_cons, List.map_nil, id, List.cons.injEq, and_true] at he
  rw [← he] at h1
  exact magnitude_err h hg hδ0 hδ hX hM0 hM hM2 hε hxs hR hs.runs h1

/-- C98: `ComplexGoertzel.Complex` on any platform is within the bound of `C97_complex_detector`. -/
theorem C98_detector_partial (h : φ.Ok) (g : Gz (FVal φ)) (w δ X M : ℝ) (hg : g.TunedTo w δ) (hδ0 : 0 ≤ δ)
    (hδ : δ ≤ 1 / 4) (hX : 0 < X) (hM0 : 0 ≤ M) (hM : 8 * M + 4 ≤ 2 ^ φ.emax)
    (hε : (2 * δ + 14 * uR φ) * M + 4 * wR φ ≤ X) (xs : List (FVal φ × FVal φ))
    (hxs : ∀ x ∈ xs, (Finite x.1 ∧ |val x.1| ≤ X) ∧ Finite x.2 ∧ |val x.2| ≤ X) (hR : Room w xs.length X M)
    (s t : FVal φ × FVal φ) (hs : AfterC g xs s t) (re im : FVal φ) (hr : ReportsC g s t re im) :
    Finite re ∧ Finite im ∧
      ‖(⟨val re, val im⟩ : ℂ) - exp ((w * xs.length : ℝ) * I) * fourierSum w xs.length (sampleC (valsC xs))‖
        ≤ (2 * xs.length + 3) * ((2 * δ + 14 * uR φ) * M + 4 * wR φ) := by
  obtain ⟨e, f, he, h1, h2⟩ := hr
  simp only [complexC, List.map_cons, List.map_nil, List.cons.injEq, Prod.mk.injEq, and_true] at he
  rw [← he.1] at h1
  rw [← he.2] at h2
  exact complexC_err h hg hδ0 hδ hX hM0 hM hε hxs hR hs.runs.1 hs.runs.2 h1 h2

/-- C98, what does not hold: the bits of the results depend on the platform.  The same detector fed the same two samples
may report the magnitude `-16`, when nothing is fused, and `0`, when the product `q1*q1` is. -/
theorem C98_bits_violated :
    let g : Gz (FVal binary64) := gzOf (int64 1) (int64 0)
    ∃ s, After g [int64 191484786, int64 (-191484785)] s ∧ ReportsMagnitude g s (int64 (-16)) ∧
      ReportsMagnitude g s (int64 0) := by
  intro g
  have h1 : After g ([] ++ [int64 191484786]) (int64 191484786, 0) := by
    refine .feed .new ?_
    have e : int64 191484786 = g.coeff * (0 : FVal binary64) - (0 : FVal binary64) + int64 191484786 := by decide +kernel
    have := eval_unfused (lf g.coeff * lf 0 - lf 0 + lf (int64 191484786))
    have e' : (lf g.coeff * lf 0 - lf 0 + lf (int64 191484786)).unfused = int64 191484786 := e.symm
    rw [e'] at this
    exact this
  have h2 : After g ([int64 191484786] ++ [int64 (-191484785)]) (int64 191484787, int64 191484786) := by
    refine .feed h1 ?_
    have e : int64 191484787 = g.coeff * int64 191484786 - (0 : FVal binary64) + int64 (-191484785) := by decide +kernel
    rw [e]
    exact eval_unfused (lf g.coeff * lf (int64 191484786) - lf 0 + lf (int64 (-191484785)))
  refine ⟨(int64 191484787, int64 191484786), h2, ⟨_, rfl, ?_⟩, ⟨_, rfl, ?_⟩⟩
  · have e : int64 (-16) = int64 191484787 * int64 191484787 + int64 191484786 * int64 191484786
      - int64 191484787 * int64 191484786 * g.coeff := by decide +kernel
    rw [e]
    exact eval_unfused (lf _ * lf _ + lf _ * lf _ - lf _ * lf _ * lf g.coeff)
  · let f : FVal binary64 := fma binary64 (int64 191484787) (int64 191484787) (int64 191484786 * int64 191484786)
    have e : int64 0 = f - int64 191484787 * int64 191484786 * g.coeff := by decide +kernel
    rw [e]
    exact .sub (.fmadd (.leaf _) (.leaf _) (.mul (.leaf _) (.leaf _))) (.mul (.mul (.leaf _) (.leaf _)) (.leaf _))

end Verif.Dft
