import Verif.Dft.GoertzelProps
import Verif.Fp.FpFma
import Verif.Filt.IirFp

/-!
# Property C97: the Goertzel detectors with rounding

The model of `GoertzelModel.lean` run on IEEE data.  The detector holds two numbers; with exact arithmetic
`y = q1 e^{jw} - q2` obeys `y' = e^{jw} (y + x)`, so the rounding error of one sample is rotated and never grows, and the
errors of `n` samples add up.  The detector is given by its three coefficients: `math.Sin` and `math.Cos` are not modelled,
the coefficients may differ from those of the angle `w` by `δ`.
-/

namespace Verif.Dft
open Verif.Fp Complex

variable {φ : Format}

/-- The coefficients are those of the angle `w`, to within `δ`. -/
structure Gz.TunedTo (g : Gz (FVal φ)) (w δ : ℝ) : Prop where
  fcoeff : Finite g.coeff
  fcos : Finite g.cos
  fsin : Finite g.sin
  coeff : |val g.coeff - 2 * Real.cos w| ≤ 2 * δ
  cos : |val g.cos - Real.cos w| ≤ δ
  sin : |val g.sin - Real.sin w| ≤ δ

/-- Error of one step when the values in the detector and the samples are at most `M`. -/
noncomputable def stepErr (φ : Format) (δ M : ℝ) : ℝ := (2 * δ + 14 * uR φ) * M + 4 * wR φ

/-! ## Operations -/

/-- `v` is finite and differs from `x` by at most `e`. -/
def Within (v : FVal φ) (x e : ℝ) : Prop := Finite v ∧ |val v - x| ≤ e

theorem Within.abs {v : FVal φ} {x e a : ℝ} (h : Within v x e) (hx : |x| ≤ a) : |val v| ≤ a + e := by
  have h1 := h.2
  have : val v = x + (val v - x) := by ring
  rw [this]
  exact (abs_add_le _ _).trans (add_le_add hx h1)

theorem abs_near {v x e a : ℝ} (h : |v - x| ≤ e) (hx : |x| ≤ a) : |v| ≤ a + e := by
  have : v = x + (v - x) := by ring
  rw [this]
  exact (abs_add_le _ _).trans (add_le_add hx h)

theorem within_trans {v : FVal φ} {x y d e f : ℝ} (h : Finite v ∧ |val v - x| ≤ e) (hxy : |x - y| ≤ d) (hf : e + d ≤ f) :
    Within v y f := by
  refine ⟨h.1, ?_⟩
  have : val v - y = (val v - x) + (x - y) := by ring
  rw [this]
  exact (abs_add_le _ _).trans ((add_le_add h.2 hxy).trans hf)

/-- A datum as an expression. -/
abbrev lf (v : FVal φ) : Expr φ := .leaf v

open Expr

/-- Error of the recurrence, whatever is fused. -/
theorem step_err (h : φ.Ok) {c p q x v : FVal φ} (hv : Eval (lf c * lf p - lf q + lf x) v)
    (hc : Finite c) (hp : Finite p) (hq : Finite q) (hx : Finite x)
    {w δ M : ℝ} (hδ : δ ≤ 1 / 4) (hcw : |val c - 2 * Real.cos w| ≤ 2 * δ) (hpM : |val p| ≤ M) (hqM : |val q| ≤ M)
    (hxM : |val x| ≤ M) (hM : 8 * M + 4 ≤ 2 ^ φ.emax) :
    Within v (2 * Real.cos w * val p - val q + val x) (stepErr φ δ M) := by
  have hu := uR_pos φ
  have hu4 := uR_le h
  have hw := wR_pos φ
  have hw4 := wR_le h
  have hM0 : 0 ≤ M := (abs_nonneg _).trans hpM
  have h2c : |2 * Real.cos w| ≤ 2 := by
    rw [abs_mul, abs_two]
    have := Real.abs_cos_le_one w
    linarith
  have hc5 : |val c| ≤ 5 / 2 := (abs_near hcw h2c).trans (by linarith)
  have huM0 : 0 ≤ uR φ * M := by positivity
  have huw : uR φ * wR φ ≤ 1 / 4 * wR φ := mul_le_mul_of_nonneg_right hu4 hw.le
  have b1 := bd_mul h (bd_leaf hc hc5) (bd_leaf hp hpM) (by linarith)
  have b2 := bd_sub h b1 (bd_leaf hq hqM) (by linarith)
  have b3 := bd_add h b2 (bd_leaf hx hxM) (by linarith)
  have e4 : |val c * val p - val q + val x - (2 * Real.cos w * val p - val q + val x)| ≤ 2 * δ * M := by
    have : val c * val p - val q + val x - (2 * Real.cos w * val p - val q + val x)
      = (val c - 2 * Real.cos w) * val p := by ring
    rw [this, abs_mul]
    exact mul_le_mul hcw hpM (abs_nonneg _) ((abs_nonneg _).trans hcw)
  refine within_trans (b3.eval h hv) e4 ?_
  unfold stepErr
  linarith

/-! ## The recurrence -/

/-- Two numbers fed by a recurrence `f`. -/
def pairStep {F : Type} (f : F → F → F → F) (s : F × F) (x : F) : F × F := (f s.1 s.2 x, s.1)

/-- What the detector stores, as a complex number: `q1 e^{jw} - q2`. -/
noncomputable def phasor (w : ℝ) (s : FVal φ × FVal φ) : ℂ := ⟨val s.1 * Real.cos w - val s.2, val s.1 * Real.sin w⟩

/-- Its exact counterpart. -/
noncomputable def exactPhasor (w : ℝ) (xs : List ℝ) : ℂ :=
  (xs.map (fun x : ℝ => (x : ℂ))).foldl (fun y x => exp (w * I) * (y + x)) 0

/-- The values of a list of data. -/
noncomputable def vals : List (FVal φ) → List ℝ
  | [] => []
  | x :: xs => val x :: vals xs

theorem vals_snoc (xs : List (FVal φ)) (x : FVal φ) : vals (xs ++ [x]) = vals xs ++ [val x] := by
  induction xs with
  | nil => rfl
  | cons y xs ih => simp [vals, ih]

theorem vals_length (xs : List (FVal φ)) : (vals xs).length = xs.length := by
  induction xs with
  | nil => rfl
  | cons y xs ih => simp [vals, ih]

theorem vals_le {X : ℝ} {xs : List (FVal φ)} (h : ∀ x ∈ xs, Finite x ∧ |val x| ≤ X) : ∀ y ∈ vals xs, |y| ≤ X := by
  induction xs with
  | nil => simp [vals]
  | cons z xs ih =>
    intro y hy
    rcases List.mem_cons.1 hy with rfl | hy
    · exact (h z (by simp)).2
    · exact ih (fun x hx => h x (by simp [hx])) y hy

theorem exactPhasor_snoc (w : ℝ) (xs : List ℝ) (x : ℝ) :
    exactPhasor w (xs ++ [x]) = exp (w * I) * (exactPhasor w xs + x) := by
  simp [exactPhasor, List.foldl_append]

theorem exactPhasor_le (w : ℝ) {X : ℝ} (xs : List ℝ) (h : ∀ x ∈ xs, |x| ≤ X) :
    ‖exactPhasor w xs‖ ≤ xs.length * X := by
  induction xs using List.reverseRecOn with
  | nil => simp [exactPhasor]
  | append_singleton xs x ih =>
    rw [exactPhasor_snoc, norm_mul, norm_exp_ofReal_mul_I, one_mul]
    refine (norm_add_le _ _).trans ?_
    have h1 := ih fun y hy => h y (by simp [hy])
    have h2 := h x (by simp)
    rw [Complex.norm_real, Real.norm_eq_abs]
    simp only [List.length_append, List.length_cons, List.length_nil]
    push_cast
    linarith

theorem exactPhasor_fourier (w : ℝ) (xs : List ℝ) :
    exactPhasor w xs = exp ((w * xs.length : ℝ) * I) * fourierSum w xs.length (sampleR xs) := by
  rw [exactPhasor, fold_fourier, List.length_map]
  congr 2
  funext m
  simp only [sampleR, List.getD_eq_getElem?_getD, List.getElem?_map]
  cases xs[m]? <;> simp

/-- Rotation of the phasor by one step. -/
theorem phasor_step (w p q x e : ℝ) :
    (⟨(2 * Real.cos w * p - q + x + e) * Real.cos w - p, (2 * Real.cos w * p - q + x + e) * Real.sin w⟩ : ℂ)
      = exp (w * I) * ((⟨p * Real.cos w - q, p * Real.sin w⟩ : ℂ) + ((x + e : ℝ) : ℂ)) := by
  have h3 : (Real.sin w) ^ 2 + (Real.cos w) ^ 2 = 1 := Real.sin_sq_add_cos_sq w
  rw [exp_cs]
  generalize Real.cos w = c at *
  generalize Real.sin w = s at *
  apply Complex.ext
  · simp
    linear_combination p * h3
  · simp
    ring

/-- Bound for what the detector stores after `n` samples of magnitude at most `X`, at the angle `w`: either bound that
holds will do.  Near `w = 0` and `w = π` the stored numbers grow with the square of `n`, elsewhere with `n`. -/
def Room (w : ℝ) (n : Nat) (X M : ℝ) : Prop := n * (n + 1) * X ≤ M ∨ 2 * n * X ≤ |Real.sin w| * M

theorem room_le {w : ℝ} {n : Nat} {X M : ℝ} (hn : 0 < n) (hX : 0 ≤ X) (hM0 : 0 ≤ M) (h : Room w n X M) : 2 * X ≤ M := by
  have h1 : (1 : ℝ) ≤ n := by exact_mod_cast hn
  have hnX : X ≤ n * X := by nlinarith
  rcases h with h | h
  · have : (n * (n + 1) * X : ℝ) = n * (n * X) + n * X := by ring
    nlinarith
  · have := mul_le_mul_of_nonneg_right (Real.abs_sin_le_one w) hM0
    linarith

/-- The pairs a recurrence may arrive at from zero: `R p q x y` says that `y` may come from `p`, `q` and the sample `x`. -/
inductive Runs (R : FVal φ → FVal φ → FVal φ → FVal φ → Prop) : List (FVal φ) → FVal φ × FVal φ → Prop where
  | nil : Runs R [] (0, 0)
  | snoc {xs : List (FVal φ)} {s : FVal φ × FVal φ} {x y : FVal φ} :
      Runs R xs s → R s.1 s.2 x y → Runs R (xs ++ [x]) (y, s.1)

/-- The rounded recurrence stays within `M` and its phasor follows the exact one. -/
theorem pair_err {R : FVal φ → FVal φ → FVal φ → FVal φ → Prop} {w X M ε : ℝ}
    (hf : ∀ p q x y : FVal φ, R p q x y → Finite p → Finite q → Finite x → |val p| ≤ M → |val q| ≤ M → |val x| ≤ M →
      Within y (2 * Real.cos w * val p - val q + val x) ε)
    (hX : 0 < X) (hM0 : 0 ≤ M) (hε0 : 0 ≤ ε) (hε : ε ≤ X) (N : Nat) (hM : Room w N X M) (xs : List (FVal φ))
    (hxs : ∀ x ∈ xs, Finite x ∧ |val x| ≤ X) (hN : xs.length ≤ N)
    (s : FVal φ × FVal φ) (hrun : Runs R xs s) :
    Finite s.1 ∧ Finite s.2 ∧ |val s.1| ≤ M ∧ |val s.2| ≤ M ∧
      |val s.1| ≤ xs.length * (xs.length + 1) / 2 * (X + ε) ∧
      ‖phasor w s - exactPhasor w (vals xs)‖ ≤ xs.length * ε := by
  induction hrun with
  | nil =>
    have h0 : Finite (0 : FVal φ) := ⟨false, 0, rfl, le_refl _⟩
    have hv : val (0 : FVal φ) = 0 := by
      show val (Val.fin false 0) = 0
      rw [val_fin]
      simp
    refine ⟨h0, h0, ?_, ?_, ?_, ?_⟩
    · show |val (0 : FVal φ)| ≤ M
      rw [hv]; simpa using hM0
    · show |val (0 : FVal φ)| ≤ M
      rw [hv]; simpa using hM0
    · show |val (0 : FVal φ)| ≤ _
      rw [hv]; simp
    · show ‖phasor w ((0 : FVal φ), (0 : FVal φ)) - _‖ ≤ _
      simp only [phasor, hv, exactPhasor]
      have : (⟨0 * Real.cos w - 0, 0 * Real.sin w⟩ : ℂ) = 0 := by apply Complex.ext <;> simp
      rw [this]
      simp [vals]
  | @snoc xs s x y hrun hstep ih =>
    have hN' : xs.length + 1 ≤ N := by simpa using hN
    obtain ⟨h1, h2, h3, h4, h5, h6⟩ := ih (fun z hz => hxs z (by simp [hz])) (by omega)
    obtain ⟨hx1, hx2⟩ := hxs x (by simp)
    have hXM : X ≤ M := by
      have := room_le (w := w) (n := N) (by omega) hX.le hM0 hM
      linarith
    obtain ⟨g1, g2⟩ := hf s.1 s.2 x y hstep h1 h2 hx1 h3 h4 (hx2.trans hXM)
    set e := val y - (2 * Real.cos w * val s.1 - val s.2 + val x) with he
    have hq : val y = 2 * Real.cos w * val s.1 - val s.2 + val x + e := by rw [he]; ring
    have hy : phasor w (y, s.1) = exp (w * I) * (phasor w s + ((val x + e : ℝ) : ℂ)) := by
      simp only [phasor, hq]
      exact phasor_step w _ _ _ _
    have hlen : (((xs ++ [x]).length : Nat) : ℝ) = xs.length + 1 := by simp
    have hd : ‖phasor w (y, s.1) - exactPhasor w (vals (xs ++ [x]))‖ ≤ ((xs ++ [x]).length : Nat) * ε := by
      rw [hlen, vals_snoc, exactPhasor_snoc, hy, ← mul_sub, norm_mul,
        norm_exp_ofReal_mul_I, one_mul]
      have : phasor w s + ((val x + e : ℝ) : ℂ) - (exactPhasor w (vals xs) + (val x : ℂ))
          = (phasor w s - exactPhasor w (vals xs)) + (e : ℂ) := by push_cast; ring
      rw [this]
      refine (norm_add_le _ _).trans ?_
      rw [Complex.norm_real, Real.norm_eq_abs]
      linarith
    have hex : ‖exactPhasor w (vals xs)‖ ≤ xs.length * X := by
      have := exactPhasor_le w (X := X) (vals xs) (vals_le fun y hy => hxs y (by simp [hy]))
      rwa [vals_length] at this
    have hex' : ‖exactPhasor w (vals (xs ++ [x]))‖ ≤ (xs.length + 1) * X := by
      have := exactPhasor_le w (X := X) (vals (xs ++ [x])) (vals_le hxs)
      rwa [vals_length, hlen] at this
    have hps : ‖phasor w s‖ ≤ xs.length * (X + ε) := by
      have : phasor w s = (phasor w s - exactPhasor w (vals xs)) + exactPhasor w (vals xs) := by ring
      rw [this]
      refine (norm_add_le _ _).trans ?_
      linarith
    have hps' : ‖phasor w (y, s.1)‖ ≤ (xs.length + 1) * (X + ε) := by
      have : phasor w (y, s.1) = (phasor w (y, s.1) - exactPhasor w (vals (xs ++ [x])))
        + exactPhasor w (vals (xs ++ [x])) := by ring
      rw [this]
      refine (norm_add_le _ _).trans ?_
      rw [hlen] at hd
      linarith
    have hq1 : |val y| ≤ ((xs ++ [x]).length : Nat) * (((xs ++ [x]).length : Nat) + 1) / 2 * (X + ε) := by
      rw [hlen]
      have hsplit : val y = Real.cos w * val s.1 + (val s.1 * Real.cos w - val s.2) + val x + e := by
        rw [hq]; ring
      have a1 : |Real.cos w * val s.1| ≤ |val s.1| := by
        rw [abs_mul]
        have := mul_le_mul_of_nonneg_right (Real.abs_cos_le_one w) (abs_nonneg (val s.1))
        linarith
      have a2 : |val s.1 * Real.cos w - val s.2| ≤ ‖phasor w s‖ := Complex.abs_re_le_norm (phasor w s)
      rw [hsplit]
      have a3 := abs_add_le (Real.cos w * val s.1 + (val s.1 * Real.cos w - val s.2) + val x) e
      have a4 := abs_add_le (Real.cos w * val s.1 + (val s.1 * Real.cos w - val s.2)) (val x)
      have a5 := abs_add_le (Real.cos w * val s.1) (val s.1 * Real.cos w - val s.2)
      have a6 : ((xs.length : ℝ) + 1) * (xs.length + 1 + 1) / 2 * (X + ε)
        = xs.length * (xs.length + 1) / 2 * (X + ε) + xs.length * (X + ε) + (X + ε) := by ring
      rw [a6]
      linarith
    have hNr : (xs.length : ℝ) + 1 ≤ N := by exact_mod_cast hN'
    have hl0 : (0 : ℝ) ≤ xs.length := Nat.cast_nonneg _
    have hqM : |val y| ≤ M := by
      rcases hM with hM | hM
      · refine hq1.trans (le_trans ?_ hM)
        rw [hlen]
        have b1 : (X + ε) ≤ 2 * X := by linarith
        have b2 : ((xs.length : ℝ) + 1) * (xs.length + 1 + 1) ≤ N * (N + 1) :=
          mul_le_mul hNr (by linarith) (by linarith) (by linarith)
        have b3 : ((xs.length : ℝ) + 1) * (xs.length + 1 + 1) * (X + ε) ≤ N * (N + 1) * (2 * X) :=
          mul_le_mul b2 b1 (by linarith) (by positivity)
        linarith
      · have c1 : |val y * Real.sin w| ≤ ‖phasor w (y, s.1)‖ :=
          Complex.abs_im_le_norm (phasor w (y, s.1))
        rw [abs_mul] at c1
        have c2 : ((xs.length : ℝ) + 1) * (X + ε) ≤ N * (2 * X) :=
          mul_le_mul hNr (by linarith) (by linarith) (by linarith)
        have c3 : 0 < |Real.sin w| * M := by
          have : 0 < 2 * (N : ℝ) * X := by
            have : 0 < (N : ℝ) := by linarith
            positivity
          linarith
        have c4 : 0 < |Real.sin w| := by
          rcases (abs_nonneg (Real.sin w)).eq_or_lt with h | h
          · rw [← h, zero_mul] at c3
            exact absurd c3 (lt_irrefl _)
          · exact h
        have c5 : |val y| * |Real.sin w| ≤ M * |Real.sin w| := by linarith
        exact le_of_mul_le_mul_right c5 c4
    exact ⟨g1, h1, hqM, h3, hq1, hd⟩

theorem runs_fold (f : FVal φ → FVal φ → FVal φ → FVal φ) (R : FVal φ → FVal φ → FVal φ → FVal φ → Prop)
    (hR : ∀ p q x, R p q x (f p q x)) (xs : List (FVal φ)) : Runs R xs (xs.foldl (pairStep f) (0, 0)) := by
  induction xs using List.reverseRecOn with
  | nil => exact .nil
  | append_singleton xs x ih =>
    rw [List.foldl_append, List.foldl_cons, List.foldl_nil]
    exact .snoc ih (hR _ _ _)

/-! ## The results -/

theorem abs_le_of_near {v x e a : ℝ} (h : |v - x| ≤ e) (hx : |x| ≤ 1) (he : e ≤ 1 / 4) (ha : a = 5 / 4) : |v| ≤ a := by
  rw [ha]
  exact (abs_near h hx).trans (by linarith)

/-- `q1 cos - q2`. -/
theorem re_err (h : φ.Ok) {c p q v : FVal φ} (hv : Eval (lf p * lf c - lf q) v) (hc : Finite c) (hp : Finite p)
    (hq : Finite q) {a δ M : ℝ} (hδ : δ ≤ 1 / 4)
    (ha : |a| ≤ 1) (hca : |val c - a| ≤ δ) (hpM : |val p| ≤ M) (hqM : |val q| ≤ M) (hM : 8 * M + 4 ≤ 2 ^ φ.emax) :
    Within v (val p * a - val q) ((δ + 4 * uR φ) * M + 3 * wR φ) := by
  have hu := uR_pos φ
  have hu4 := uR_le h
  have hw := wR_pos φ
  have hw4 := wR_le h
  have hM0 : 0 ≤ M := (abs_nonneg _).trans hpM
  have hc5 : |val c| ≤ 5 / 4 := abs_le_of_near hca ha hδ rfl
  have huM0 : 0 ≤ uR φ * M := by positivity
  have huw : uR φ * wR φ ≤ 1 / 4 * wR φ := mul_le_mul_of_nonneg_right hu4 hw.le
  have b1 := bd_mul h (bd_leaf hp hpM) (bd_leaf hc hc5) (by linarith)
  have b2 := bd_sub h b1 (bd_leaf hq hqM) (by linarith)
  have e4 : |val p * val c - val q - (val p * a - val q)| ≤ M * δ := by
    have : val p * val c - val q - (val p * a - val q) = val p * (val c - a) := by ring
    rw [this, abs_mul]
    exact mul_le_mul hpM hca (abs_nonneg _) hM0
  refine within_trans (b2.eval h hv) e4 ?_
  linarith

/-- `q1 sin`. -/
theorem im_err (h : φ.Ok) {c p v : FVal φ} (hv : Eval (lf p * lf c) v) (hc : Finite c) (hp : Finite p) {a δ M : ℝ}
    (hδ : δ ≤ 1 / 4)
    (ha : |a| ≤ 1) (hca : |val c - a| ≤ δ) (hpM : |val p| ≤ M) (hM : 8 * M + 4 ≤ 2 ^ φ.emax) :
    Within v (val p * a) ((δ + 2 * uR φ) * M + wR φ) := by
  have hu := uR_pos φ
  have hM0 : 0 ≤ M := (abs_nonneg _).trans hpM
  have hc5 : |val c| ≤ 5 / 4 := abs_le_of_near hca ha hδ rfl
  have huM0 : 0 ≤ uR φ * M := by positivity
  have b1 := bd_mul h (bd_leaf hp hpM) (bd_leaf hc hc5) (by linarith)
  have e4 : |val p * val c - val p * a| ≤ M * δ := by
    rw [← mul_sub, abs_mul]
    exact mul_le_mul hpM hca (abs_nonneg _) hM0
  refine within_trans (b1.eval h hv) e4 ?_
  linarith

theorem norm_le_parts (z : ℂ) {a b : ℝ} (ha : |z.re| ≤ a) (hb : |z.im| ≤ b) : ‖z‖ ≤ a + b :=
  (Complex.norm_le_abs_re_add_abs_im z).trans (add_le_add ha hb)

/-- The recurrence of the code. -/
def rec (c : FVal φ) (p q x : FVal φ) : FVal φ := c * p - q + x

theorem gz_fold (g : Gz (FVal φ)) (xs : List (FVal φ)) :
    ((xs.foldl Gz.step g).q1, (xs.foldl Gz.step g).q2) = xs.foldl (pairStep (rec g.coeff)) (g.q1, g.q2) := by
  induction xs generalizing g with
  | nil => rfl
  | cons x xs ih => exact ih (g.step x)

theorem stepErr_nonneg {δ M : ℝ} (hδ : 0 ≤ δ) (hM : 0 ≤ M) : 0 ≤ stepErr φ δ M := by
  have := uR_pos φ
  have := wR_pos φ
  unfold stepErr
  positivity

/-- What an implementation may compute for the next `q1`: the model of the code on expressions. -/
def NextQ1 (g : Gz (FVal φ)) (p q x y : FVal φ) : Prop :=
  Eval (Gz.step { coeff := lf g.coeff, cos := lf g.cos, sin := lf g.sin, q1 := lf p, q2 := lf q, q1i := 0, q2i := 0 }
    (lf x)).q1 y

/-- What the detector holds after the samples `xs`. -/
theorem gz_err (h : φ.Ok) {g : Gz (FVal φ)} {w δ X M : ℝ} (hg : g.TunedTo w δ) (hδ0 : 0 ≤ δ)
    (hδ : δ ≤ 1 / 4) (hX : 0 < X) (hM0 : 0 ≤ M) (hM : 8 * M + 4 ≤ 2 ^ φ.emax) (hε : stepErr φ δ M ≤ X) {n : Nat}
    (xs : List (FVal φ)) (hxs : ∀ x ∈ xs, Finite x ∧ |val x| ≤ X) (hn : xs.length ≤ n) (hR : Room w n X M)
    {s : FVal φ × FVal φ} (hs : Runs (NextQ1 g) xs s) :
    Finite s.1 ∧ Finite s.2 ∧ |val s.1| ≤ M ∧ |val s.2| ≤ M ∧
      ‖phasor w s - exactPhasor w (vals xs)‖ ≤ xs.length * stepErr φ δ M := by
  obtain ⟨h1, h2, h3, h4, -, h5⟩ := pair_err (R := NextQ1 g) (w := w) (X := X) (M := M) (ε := stepErr φ δ M)
    (fun p q x y hy hp hq hx hpM hqM hxM => step_err h hy hg.fcoeff hp hq hx hδ hg.coeff hpM hqM hxM hM)
    hX hM0 (stepErr_nonneg (φ := φ) hδ0 hM0) hε n hR xs hxs hn s hs
  exact ⟨h1, h2, h3, h4, h5⟩

theorem gz_runs (g : Gz (FVal φ)) (hf : g.FreshR) (xs : List (FVal φ)) :
    Runs (NextQ1 g) xs ((xs.foldl Gz.step g).q1, (xs.foldl Gz.step g).q2) := by
  have e := gz_fold g xs
  rw [hf.1, hf.2] at e
  rw [e]
  exact runs_fold _ _ (fun p q x => eval_unfused (lf g.coeff * lf p - lf q + lf x)) xs

/-- The results `re`, `im` that may be computed from `s`. -/
theorem complex_err (h : φ.Ok) {g : Gz (FVal φ)} {w δ X M : ℝ} (hg : g.TunedTo w δ) (hδ0 : 0 ≤ δ)
    (hδ : δ ≤ 1 / 4) (hX : 0 < X) (hM0 : 0 ≤ M) (hM : 8 * M + 4 ≤ 2 ^ φ.emax)
    (hε : stepErr φ δ M ≤ X) {xs : List (FVal φ)} (hxs : ∀ x ∈ xs, Finite x ∧ |val x| ≤ X) (hR : Room w xs.length X M)
    {s : FVal φ × FVal φ} (hs : Runs (NextQ1 g) xs s) {re im : FVal φ} (hre : Eval (lf s.1 * lf g.cos - lf s.2) re)
    (him : Eval (lf s.1 * lf g.sin) im) :
    Finite re ∧ Finite im ∧
      ‖(⟨val re, val im⟩ : ℂ) - exp ((w * xs.length : ℝ) * I) * fourierSum w xs.length (sampleR (vals xs))‖
        ≤ (xs.length + 1) * ((2 * δ + 14 * uR φ) * M + 4 * wR φ) := by
  obtain ⟨h1, h2, h3, h4, h5⟩ := gz_err h hg hδ0 hδ hX hM0 hM hε xs hxs le_rfl hR hs
  have k1 := re_err h hre hg.fcos h1 h2 hδ (Real.abs_cos_le_one w) hg.cos h3 h4 hM
  have k2 := im_err h him hg.fsin h1 hδ (Real.abs_sin_le_one w) hg.sin h3 hM
  refine ⟨k1.1, k2.1, ?_⟩
  have e := exactPhasor_fourier w (vals xs)
  rw [vals_length] at e
  rw [← e]
  have hu := uR_pos φ
  have hw := wR_pos φ
  have huM0 : 0 ≤ uR φ * M := by positivity
  have k3 : ‖(⟨val re, val im⟩ : ℂ) - phasor w s‖ ≤ (2 * δ + 14 * uR φ) * M + 4 * wR φ := by
    refine (norm_le_parts _ (a := (δ + 4 * uR φ) * M + 3 * wR φ) (b := (δ + 2 * uR φ) * M + wR φ) k1.2 k2.2).trans ?_
    linarith
  have t : (⟨val re, val im⟩ : ℂ) - exactPhasor w (vals xs)
      = ((⟨val re, val im⟩ : ℂ) - phasor w s) + (phasor w s - exactPhasor w (vals xs)) := by ring
  rw [t]
  refine (norm_add_le _ _).trans ((add_le_add k3 h5).trans ?_)
  unfold stepErr
  linarith

/-- C97: `Goertzel.Complex` (dsp/goertzel.go:127-132) after any samples `xs`.  Both parts are finite and the result
differs from the exact Fourier sum at `w`, times the phase factor `e^{jwn}`, by at most `n + 1` times the error of one
step. -/
theorem C97_complex (h : φ.Ok) (g : Gz (FVal φ)) (w δ X M : ℝ) (hg : g.TunedTo w δ) (hf : g.FreshR) (hδ0 : 0 ≤ δ)
    (hδ : δ ≤ 1 / 4) (hX : 0 < X) (hM0 : 0 ≤ M) (hM : 8 * M + 4 ≤ 2 ^ φ.emax)
    (hε : (2 * δ + 14 * uR φ) * M + 4 * wR φ ≤ X)
    (xs : List (FVal φ)) (hxs : ∀ x ∈ xs, Finite x ∧ |val x| ≤ X) (hR : Room w xs.length X M) :
    ∃ c, complex id (feed id [g] xs) = [c] ∧ Finite c.1 ∧ Finite c.2 ∧
      ‖(⟨val c.1, val c.2⟩ : ℂ) - exp ((w * xs.length : ℝ) * I) * fourierSum w xs.length (sampleR (vals xs))‖
        ≤ (xs.length + 1) * ((2 * δ + 14 * uR φ) * M + 4 * wR φ) := by
  simp only [complex, feed_eq, List.map_cons, List.map_nil, List.map_id_fun, id, (step_coef g xs).2.1,
    (step_coef g xs).2.2.1]
  refine ⟨_, rfl, ?_⟩
  have hs := gz_runs g hf xs
  set r := xs.foldl Gz.step g
  exact complex_err h hg hδ0 hδ hX hM0 hM hε hxs hR hs (eval_unfused (lf r.q1 * lf g.cos - lf r.q2))
    (eval_unfused (lf r.q1 * lf g.sin))

/-- C97: a detector tuned to bin `k` of blocks of `n` samples reports bin `k` of the DFT. -/
theorem C97_dft (h : φ.Ok) (g : Gz (FVal φ)) (k : Nat) (δ X M : ℝ) (xs : List (FVal φ)) (hn : 0 < xs.length)
    (hg : g.TunedTo (2 * Real.pi * k / xs.length) δ) (hf : g.FreshR) (hδ0 : 0 ≤ δ)
    (hδ : δ ≤ 1 / 4) (hX : 0 < X) (hM0 : 0 ≤ M) (hM : 8 * M + 4 ≤ 2 ^ φ.emax)
    (hε : (2 * δ + 14 * uR φ) * M + 4 * wR φ ≤ X) (hxs : ∀ x ∈ xs, Finite x ∧ |val x| ≤ X)
    (hR : Room (2 * Real.pi * k / xs.length) xs.length X M) :
    ∃ c, complex id (feed id [g] xs) = [c] ∧ Finite c.1 ∧ Finite c.2 ∧
      ‖(⟨val c.1, val c.2⟩ : ℂ) - dft xs.length k (sampleR (vals xs))‖
        ≤ (xs.length + 1) * ((2 * δ + 14 * uR φ) * M + 4 * wR φ) := by
  obtain ⟨c, h1, h2, h3, h4⟩ := C97_complex h g _ δ X M hg hf hδ0 hδ hX hM0 hM hε xs hxs hR
  rw [whole_cycles _ _ hn, one_mul, fourier_dft] at h4
  exact ⟨c, h1, h2, h3, h4⟩

/-- `q1² + q2² - q1 q2 coeff`. -/
theorem mag_err (h : φ.Ok) {c p q v : FVal φ} (hv : Eval (lf p * lf p + lf q * lf q - lf p * lf q * lf c) v)
    (hc : Finite c) (hp : Finite p) (hq : Finite q) {w δ M : ℝ} (hδ : δ ≤ 1 / 4)
    (hcw : |val c - 2 * Real.cos w| ≤ 2 * δ) (hpM : |val p| ≤ M) (hqM : |val q| ≤ M) (hM : 8 * M ^ 2 + 4 ≤ 2 ^ φ.emax) :
    Within v (‖phasor w (p, q)‖ ^ 2) ((2 * δ + 18 * uR φ) * M ^ 2 + 12 * wR φ) := by
  have hu := uR_pos φ
  have hu4 := uR_le h
  have hw := wR_pos φ
  have hw4 := wR_le h
  have hM0 : 0 ≤ M := (abs_nonneg _).trans hpM
  have h2c : |2 * Real.cos w| ≤ 2 := by
    rw [abs_mul, abs_two]
    have := Real.abs_cos_le_one w
    linarith
  have hc5 : |val c| ≤ 5 / 2 := (abs_near hcw h2c).trans (by linarith)
  have eM : M * M = M ^ 2 := by ring
  have hM2 : 0 ≤ M ^ 2 := by positivity
  have huM0 : 0 ≤ uR φ * M ^ 2 := by positivity
  have huw : uR φ * wR φ ≤ 1 / 4 * wR φ := mul_le_mul_of_nonneg_right hu4 hw.le
  have b1 := bd_mul h (bd_leaf hp hpM) (bd_leaf hp hpM) (by rw [eM]; linarith)
  have b2 := bd_mul h (bd_leaf hq hqM) (bd_leaf hq hqM) (by rw [eM]; linarith)
  have b3 := bd_mul h (bd_leaf hp hpM) (bd_leaf hq hqM) (by rw [eM]; linarith)
  rw [eM] at b1 b2 b3
  have b4 := bd_add h b1 b2 (by linarith)
  have b5 := bd_mul h b3 (bd_leaf hc hc5) (by linarith)
  have b6 := bd_sub h b4 b5 (by linarith)
  have en : ‖phasor w (p, q)‖ ^ 2 = val p * val p + val q * val q - val p * val q * (2 * Real.cos w) := by
    rw [Complex.sq_norm, phasor, normSq_mk]
    linear_combination (val p) ^ 2 * Real.sin_sq_add_cos_sq w
  have e7 : |val p * val p + val q * val q - val p * val q * val c - ‖phasor w (p, q)‖ ^ 2| ≤ M ^ 2 * (2 * δ) := by
    have : val p * val p + val q * val q - val p * val q * val c - ‖phasor w (p, q)‖ ^ 2
      = -(val p * val q * (val c - 2 * Real.cos w)) := by rw [en]; ring
    rw [this, abs_neg, abs_mul]
    refine mul_le_mul ?_ hcw (abs_nonneg _) hM2
    rw [abs_mul, ← eM]
    exact mul_le_mul hpM hqM (abs_nonneg _) hM0
  refine within_trans (b6.eval h hv) e7 ?_
  linarith

/-- The magnitude that may be computed from `s`. -/
theorem magnitude_err (h : φ.Ok) {g : Gz (FVal φ)} {w δ X M : ℝ} (hg : g.TunedTo w δ) (hδ0 : 0 ≤ δ)
    (hδ : δ ≤ 1 / 4) (hX : 0 < X) (hM0 : 0 ≤ M) (hM : 8 * M + 4 ≤ 2 ^ φ.emax) (hM2 : 8 * M ^ 2 + 4 ≤ 2 ^ φ.emax)
    (hε : stepErr φ δ M ≤ X) {xs : List (FVal φ)} (hxs : ∀ x ∈ xs, Finite x ∧ |val x| ≤ X) (hR : Room w xs.length X M)
    {s : FVal φ × FVal φ} (hs : Runs (NextQ1 g) xs s) {m : FVal φ}
    (hm : Eval (lf s.1 * lf s.1 + lf s.2 * lf s.2 - lf s.1 * lf s.2 * lf g.coeff) m) :
    Finite m ∧ |val m - ‖fourierSum w xs.length (sampleR (vals xs))‖ ^ 2|
        ≤ 3 * xs.length ^ 2 * X * ((2 * δ + 14 * uR φ) * M + 4 * wR φ) + ((2 * δ + 18 * uR φ) * M ^ 2 + 12 * wR φ) := by
  obtain ⟨h1, h2, h3, h4, h5⟩ := gz_err h hg hδ0 hδ hX hM0 hM hε xs hxs le_rfl hR hs
  have k := mag_err h hm hg.fcoeff h1 h2 hδ hg.coeff h3 h4 hM2
  refine ⟨k.1, ?_⟩
  have e := exactPhasor_fourier w (vals xs)
  rw [vals_length] at e
  have hn : ‖fourierSum w xs.length (sampleR (vals xs))‖ = ‖exactPhasor w (vals xs)‖ := by
    rw [e, norm_mul, norm_exp_ofReal_mul_I, one_mul]
  rw [hn]
  have hle := exactPhasor_le w (X := X) (vals xs) (vals_le hxs)
  rw [vals_length] at hle
  have hd := (abs_norm_sub_norm_le (phasor w s) (exactPhasor w (vals xs))).trans h5
  have k2 : |val m - ‖phasor w s‖ ^ 2| ≤ (2 * δ + 18 * uR φ) * M ^ 2 + 12 * wR φ := k.2
  set a := ‖phasor w s‖
  set b := ‖exactPhasor w (vals xs)‖
  have hb0 : 0 ≤ b := norm_nonneg _
  have ha0 : 0 ≤ a := norm_nonneg _
  have hε0 := stepErr_nonneg (φ := φ) hδ0 hM0
  set n : ℝ := (xs.length : ℝ)
  have hn0 : 0 ≤ n := Nat.cast_nonneg _
  have hnε : n * stepErr φ δ M ≤ n * X := mul_le_mul_of_nonneg_left hε hn0
  have hab : |a + b| ≤ 3 * n * X := by
    rw [abs_of_nonneg (by linarith)]
    have := (abs_le.1 hd).2
    linarith
  have hsq : |a ^ 2 - b ^ 2| ≤ 3 * n ^ 2 * X * stepErr φ δ M := by
    have : a ^ 2 - b ^ 2 = (a + b) * (a - b) := by ring
    rw [this, abs_mul]
    refine (mul_le_mul hab hd (abs_nonneg _) (by positivity)).trans (le_of_eq ?_)
    ring
  have t : val m - b ^ 2 = (val m - a ^ 2) + (a ^ 2 - b ^ 2) := by ring
  rw [t]
  refine (abs_add_le _ _).trans ((add_le_add k2 hsq).trans ?_)
  unfold stepErr
  linarith

/-- C97: `Goertzel.Magnitude` (dsp/goertzel.go:120-125) differs from the squared modulus of the exact Fourier sum by at
most `3 n² X` times the error of one step, and the rounding of the final expression.  Missing: that it is never negative,
which is false (`C97_violated`). -/
theorem C97_magnitude_partial (h : φ.Ok) (g : Gz (FVal φ)) (w δ X M : ℝ) (hg : g.TunedTo w δ) (hf : g.FreshR) (hδ0 : 0 ≤ δ)
    (hδ : δ ≤ 1 / 4) (hX : 0 < X) (hM0 : 0 ≤ M) (hM : 8 * M + 4 ≤ 2 ^ φ.emax) (hM2 : 8 * M ^ 2 + 4 ≤ 2 ^ φ.emax)
    (hε : (2 * δ + 14 * uR φ) * M + 4 * wR φ ≤ X)
    (xs : List (FVal φ)) (hxs : ∀ x ∈ xs, Finite x ∧ |val x| ≤ X) (hR : Room w xs.length X M) :
    ∃ m, magnitude id (feed id [g] xs) = [m] ∧ Finite m ∧
      |val m - ‖fourierSum w xs.length (sampleR (vals xs))‖ ^ 2|
        ≤ 3 * xs.length ^ 2 * X * ((2 * δ + 14 * uR φ) * M + 4 * wR φ) + ((2 * δ + 18 * uR φ) * M ^ 2 + 12 * wR φ) := by
  simp only [magnitude, feed_eq, List.map_cons, List.map_nil, List.map_id_fun, id, (step_coef g xs).1]
  refine ⟨_, rfl, ?_⟩
  have hs := gz_runs g hf xs
  set r := xs.foldl Gz.step g
  exact magnitude_err h hg hδ0 hδ hX hM0 hM hM2 hε hxs hR hs
    (eval_unfused (lf r.q1 * lf r.q1 + lf r.q2 * lf r.q2 - lf r.q1 * lf r.q2 * lf g.coeff))

/-! ## The complex detector -/

theorem gz_foldC (g : Gz (FVal φ)) (xs : List (FVal φ × FVal φ)) :
    ((xs.foldl Gz.stepC g).q1, (xs.foldl Gz.stepC g).q2)
      = (xs.map Prod.fst).foldl (pairStep (rec g.coeff)) (g.q1, g.q2) ∧
    ((xs.foldl Gz.stepC g).q1i, (xs.foldl Gz.stepC g).q2i)
      = (xs.map Prod.snd).foldl (pairStep (rec g.coeff)) (g.q1i, g.q2i) := by
  induction xs generalizing g with
  | nil => exact ⟨rfl, rfl⟩
  | cons x xs ih => exact ih (g.stepC x)

/-- The complex samples. -/
noncomputable def valsC (xs : List (FVal φ × FVal φ)) : List (ℝ × ℝ) := xs.map fun x => (val x.1, val x.2)

theorem vals_map (f : FVal φ × FVal φ → FVal φ) (xs : List (FVal φ × FVal φ)) :
    vals (xs.map f) = xs.map fun x => val (f x) := by
  induction xs with
  | nil => rfl
  | cons x xs ih => simp [vals, ih]

/-- The Fourier sum of complex samples from those of the parts. -/
theorem fourier_parts (w : ℝ) (xs : List (FVal φ × FVal φ)) :
    fourierSum w xs.length (sampleC (valsC xs))
      = fourierSum w xs.length (sampleR (vals (xs.map Prod.fst)))
        + I * fourierSum w xs.length (sampleR (vals (xs.map Prod.snd))) := by
  unfold fourierSum
  rw [Finset.mul_sum, ← Finset.sum_add_distrib]
  refine Finset.sum_congr rfl fun m hm => ?_
  have hm' : m < xs.length := Finset.mem_range.1 hm
  have e : sampleC (valsC xs) m = sampleR (vals (xs.map Prod.fst)) m + I * sampleR (vals (xs.map Prod.snd)) m := by
    simp only [sampleC, sampleR, valsC, vals_map, List.getD_eq_getElem?_getD, List.getElem?_map,
      List.getElem?_eq_getElem hm', Option.map_some, Option.getD_some]
    apply Complex.ext <;> simp
  rw [e]
  ring

/-- `q1 cos - q2 - q1i sin`. -/
theorem reC_err (h : φ.Ok) {c s p q r v : FVal φ} (hv : Eval (lf p * lf c - lf q - lf r * lf s) v) (hc : Finite c)
    (hs : Finite s) (hp : Finite p) (hq : Finite q)
    (hr : Finite r) {a b δ M : ℝ} (hδ : δ ≤ 1 / 4) (ha : |a| ≤ 1) (hb : |b| ≤ 1) (hca : |val c - a| ≤ δ)
    (hsb : |val s - b| ≤ δ) (hpM : |val p| ≤ M) (hqM : |val q| ≤ M) (hrM : |val r| ≤ M) (hM : 8 * M + 4 ≤ 2 ^ φ.emax) :
    Within v (val p * a - val q - val r * b) ((2 * δ + 14 * uR φ) * M + 6 * wR φ) := by
  have hu := uR_pos φ
  have hu4 := uR_le h
  have hw := wR_pos φ
  have hw4 := wR_le h
  have hM0 : 0 ≤ M := (abs_nonneg _).trans hpM
  have hc5 : |val c| ≤ 5 / 4 := abs_le_of_near hca ha hδ rfl
  have hs5 : |val s| ≤ 5 / 4 := abs_le_of_near hsb hb hδ rfl
  have huM0 : 0 ≤ uR φ * M := by positivity
  have huw : uR φ * wR φ ≤ 1 / 4 * wR φ := mul_le_mul_of_nonneg_right hu4 hw.le
  have b1 := bd_mul h (bd_leaf hp hpM) (bd_leaf hc hc5) (by linarith)
  have b2 := bd_sub h b1 (bd_leaf hq hqM) (by linarith)
  have b3 := bd_mul h (bd_leaf hr hrM) (bd_leaf hs hs5) (by linarith)
  have b4 := bd_sub h b2 b3 (by linarith)
  have e : |val p * val c - val q - val r * val s - (val p * a - val q - val r * b)| ≤ M * δ + M * δ := by
    have : val p * val c - val q - val r * val s - (val p * a - val q - val r * b)
      = val p * (val c - a) - val r * (val s - b) := by ring
    rw [this]
    refine (abs_sub _ _).trans (add_le_add ?_ ?_)
    · rw [abs_mul]
      exact mul_le_mul hpM hca (abs_nonneg _) hM0
    · rw [abs_mul]
      exact mul_le_mul hrM hsb (abs_nonneg _) hM0
  refine within_trans (b4.eval h hv) e ?_
  linarith

/-- `q1 sin + q1i cos - q2i`. -/
theorem imC_err (h : φ.Ok) {c s p q r v : FVal φ} (hv : Eval (lf p * lf s + lf r * lf c - lf q) v) (hc : Finite c)
    (hs : Finite s) (hp : Finite p) (hq : Finite q)
    (hr : Finite r) {a b δ M : ℝ} (hδ : δ ≤ 1 / 4) (ha : |a| ≤ 1) (hb : |b| ≤ 1) (hca : |val c - a| ≤ δ)
    (hsb : |val s - b| ≤ δ) (hpM : |val p| ≤ M) (hqM : |val q| ≤ M) (hrM : |val r| ≤ M) (hM : 8 * M + 4 ≤ 2 ^ φ.emax) :
    Within v (val p * b + val r * a - val q) ((2 * δ + 14 * uR φ) * M + 6 * wR φ) := by
  have hu := uR_pos φ
  have hu4 := uR_le h
  have hw := wR_pos φ
  have hw4 := wR_le h
  have hM0 : 0 ≤ M := (abs_nonneg _).trans hpM
  have hc5 : |val c| ≤ 5 / 4 := abs_le_of_near hca ha hδ rfl
  have hs5 : |val s| ≤ 5 / 4 := abs_le_of_near hsb hb hδ rfl
  have huM0 : 0 ≤ uR φ * M := by positivity
  have huw : uR φ * wR φ ≤ 1 / 4 * wR φ := mul_le_mul_of_nonneg_right hu4 hw.le
  have b1 := bd_mul h (bd_leaf hp hpM) (bd_leaf hs hs5) (by linarith)
  have b2 := bd_mul h (bd_leaf hr hrM) (bd_leaf hc hc5) (by linarith)
  have b3 := bd_add h b1 b2 (by linarith)
  have b4 := bd_sub h b3 (bd_leaf hq hqM) (by linarith)
  have e : |val p * val s + val r * val c - val q - (val p * b + val r * a - val q)| ≤ M * δ + M * δ := by
    have : val p * val s + val r * val c - val q - (val p * b + val r * a - val q)
      = val p * (val s - b) + val r * (val c - a) := by ring
    rw [this]
    refine (abs_add_le _ _).trans (add_le_add ?_ ?_)
    · rw [abs_mul]
      exact mul_le_mul hpM hsb (abs_nonneg _) hM0
    · rw [abs_mul]
      exact mul_le_mul hrM hca (abs_nonneg _) hM0
  refine within_trans (b4.eval h hv) e ?_
  linarith

/-- The results `re`, `im` that may be computed by the complex detector from the pairs `s` and `t` of its two halves. -/
theorem complexC_err (h : φ.Ok) {g : Gz (FVal φ)} {w δ X M : ℝ} (hg : g.TunedTo w δ) (hδ0 : 0 ≤ δ)
    (hδ : δ ≤ 1 / 4) (hX : 0 < X) (hM0 : 0 ≤ M) (hM : 8 * M + 4 ≤ 2 ^ φ.emax)
    (hε : stepErr φ δ M ≤ X) {xs : List (FVal φ × FVal φ)}
    (hxs : ∀ x ∈ xs, (Finite x.1 ∧ |val x.1| ≤ X) ∧ Finite x.2 ∧ |val x.2| ≤ X) (hR : Room w xs.length X M)
    {s t : FVal φ × FVal φ} (hs : Runs (NextQ1 g) (xs.map Prod.fst) s) (ht : Runs (NextQ1 g) (xs.map Prod.snd) t)
    {re im : FVal φ} (hre : Eval (lf s.1 * lf g.cos - lf s.2 - lf t.1 * lf g.sin) re)
    (him : Eval (lf s.1 * lf g.sin + lf t.1 * lf g.cos - lf t.2) im) :
    Finite re ∧ Finite im ∧
      ‖(⟨val re, val im⟩ : ℂ) - exp ((w * xs.length : ℝ) * I) * fourierSum w xs.length (sampleC (valsC xs))‖
        ≤ (2 * xs.length + 3) * ((2 * δ + 14 * uR φ) * M + 4 * wR φ) := by
  obtain ⟨a1, a2, a3, a4, a5⟩ := gz_err h hg hδ0 hδ hX hM0 hM hε (xs.map Prod.fst) (by
    intro y hy
    obtain ⟨z, hz, rfl⟩ := List.mem_map.1 hy
    exact (hxs z hz).1) (n := xs.length) (by simp) hR hs
  obtain ⟨b1, b2, b3, b4, b5⟩ := gz_err h hg hδ0 hδ hX hM0 hM hε (xs.map Prod.snd) (by
    intro y hy
    obtain ⟨z, hz, rfl⟩ := List.mem_map.1 hy
    exact (hxs z hz).2) (n := xs.length) (by simp) hR ht
  rw [List.length_map] at a5 b5
  have o1 := reC_err h hre hg.fcos hg.fsin a1 a2 b1 hδ (Real.abs_cos_le_one w) (Real.abs_sin_le_one w) hg.cos hg.sin a3 a4 b3 hM
  have o2 := imC_err h him hg.fcos hg.fsin a1 b2 b1 hδ (Real.abs_cos_le_one w) (Real.abs_sin_le_one w) hg.cos hg.sin a3 b4 b3 hM
  refine ⟨o1.1, o2.1, ?_⟩
  have f1 := exactPhasor_fourier w (vals (xs.map Prod.fst))
  have f2 := exactPhasor_fourier w (vals (xs.map Prod.snd))
  rw [vals_length, List.length_map] at f1 f2
  have f3 : exp ((w * xs.length : ℝ) * I) * fourierSum w xs.length (sampleC (valsC xs))
      = exactPhasor w (vals (xs.map Prod.fst)) + I * exactPhasor w (vals (xs.map Prod.snd)) := by
    rw [fourier_parts, f1, f2]
    ring
  rw [f3]
  have hu := uR_pos φ
  have hw := wR_pos φ
  have huM0 : 0 ≤ uR φ * M := by positivity
  have hδM0 : 0 ≤ δ * M := by positivity
  set oc : ℂ := ⟨val re, val im⟩
  have o3 : ‖oc - (phasor w s + I * phasor w t)‖ ≤ 3 * ((2 * δ + 14 * uR φ) * M + 4 * wR φ) := by
    have er : (phasor w s + I * phasor w t).re
        = val s.1 * Real.cos w - val s.2 - val t.1 * Real.sin w := by simp [phasor]; ring
    have ei : (phasor w s + I * phasor w t).im
        = val s.1 * Real.sin w + val t.1 * Real.cos w - val t.2 := by simp [phasor]; ring
    refine (norm_le_parts _ (a := (2 * δ + 14 * uR φ) * M + 6 * wR φ) (b := (2 * δ + 14 * uR φ) * M + 6 * wR φ) ?_ ?_).trans ?_
    · rw [sub_re, er]
      exact o1.2
    · rw [sub_im, ei]
      exact o2.2
    · linarith
  have e : oc - (exactPhasor w (vals (xs.map Prod.fst)) + I * exactPhasor w (vals (xs.map Prod.snd)))
      = (oc - (phasor w s + I * phasor w t))
        + (phasor w s - exactPhasor w (vals (xs.map Prod.fst)))
        + I * (phasor w t - exactPhasor w (vals (xs.map Prod.snd))) := by ring
  rw [e]
  have b6 : ‖I * (phasor w t - exactPhasor w (vals (xs.map Prod.snd)))‖ ≤ xs.length * stepErr φ δ M := by
    rw [norm_mul, norm_I, one_mul]
    exact b5
  refine (norm_add_le _ _).trans ((add_le_add ((norm_add_le _ _).trans (add_le_add o3 a5)) b6).trans ?_)
  unfold stepErr
  linarith

/-- C97: `ComplexGoertzel.Complex` (dsp/goertzel.go:186-194) after any samples `xs` whose parts are at most `X`. -/
theorem C97_complex_detector (h : φ.Ok) (g : Gz (FVal φ)) (w δ X M : ℝ) (hg : g.TunedTo w δ) (hf : g.Fresh) (hδ0 : 0 ≤ δ)
    (hδ : δ ≤ 1 / 4) (hX : 0 < X) (hM0 : 0 ≤ M) (hM : 8 * M + 4 ≤ 2 ^ φ.emax)
    (hε : (2 * δ + 14 * uR φ) * M + 4 * wR φ ≤ X) (xs : List (FVal φ × FVal φ))
    (hxs : ∀ x ∈ xs, (Finite x.1 ∧ |val x.1| ≤ X) ∧ Finite x.2 ∧ |val x.2| ≤ X) (hR : Room w xs.length X M) :
    ∃ c, complexC (feedC [g] xs) = [c] ∧ Finite c.1 ∧ Finite c.2 ∧
      ‖(⟨val c.1, val c.2⟩ : ℂ) - exp ((w * xs.length : ℝ) * I) * fourierSum w xs.length (sampleC (valsC xs))‖
        ≤ (2 * xs.length + 3) * ((2 * δ + 14 * uR φ) * M + 4 * wR φ) := by
  simp only [complexC, feedC_eq, List.map_cons, List.map_nil, (stepC_coef g xs).2.1, (stepC_coef g xs).2.2]
  refine ⟨_, rfl, ?_⟩
  obtain ⟨e1, e2⟩ := gz_foldC g xs
  rw [hf.1, hf.2.1] at e1
  rw [hf.2.2.1, hf.2.2.2] at e2
  have k1 := runs_fold (rec g.coeff) (NextQ1 g) (fun p q x => eval_unfused (lf g.coeff * lf p - lf q + lf x)) (xs.map Prod.fst)
  have k2 := runs_fold (rec g.coeff) (NextQ1 g) (fun p q x => eval_unfused (lf g.coeff * lf p - lf q + lf x)) (xs.map Prod.snd)
  rw [← e1] at k1
  rw [← e2] at k2
  set r := xs.foldl Gz.stepC g with hr
  exact complexC_err h hg hδ0 hδ hX hM0 hM hε hxs hR k1 k2
    (eval_unfused (lf r.q1 * lf g.cos - lf r.q2 - lf r.q1i * lf g.sin))
    (eval_unfused (lf r.q1 * lf g.sin + lf r.q1i * lf g.cos - lf r.q2i))

/-- C97: `ComplexGoertzel.Magnitude` (dsp/goertzel.go:176-184) is the squared modulus of what `ComplexGoertzel.Complex`
returns, to three units of rounding, and is never negative. -/
theorem C97_complex_magnitude (h : φ.Ok) (freq : List (Gz (FVal φ))) (i : Nat) (c : FVal φ × FVal φ)
    (hc : (complexC freq)[i]? = some c) (h1 : Finite c.1) (h2 : Finite c.2)
    (ht : 2 * (val c.1 ^ 2 + val c.2 ^ 2) + 2 ≤ 2 ^ φ.emax) :
    ∃ m, (magnitudeC freq)[i]? = some m ∧ Finite m ∧ 0 ≤ val m ∧
      |val m - ‖(⟨val c.1, val c.2⟩ : ℂ)‖ ^ 2| ≤ 3 * uR φ * ‖(⟨val c.1, val c.2⟩ : ℂ)‖ ^ 2 + 4 * wR φ := by
  have hm : (magnitudeC freq)[i]? = some (c.1 * c.1 + c.2 * c.2) := by
    simp only [complexC, magnitudeC, List.getElem?_map] at hc ⊢
    cases hi : freq[i]? with
    | none => rw [hi] at hc; exact absurd hc (by simp)
    | some g =>
      rw [hi, Option.map_some, Option.some.injEq] at hc
      rw [← hc]
      rfl
  refine ⟨_, hm, ?_⟩
  have hu := uR_pos φ
  have hu4 := uR_le h
  have hw := wR_pos φ
  have hw4 := wR_le h
  rw [Complex.sq_norm, normSq_mk]
  have sq : ∀ a : ℝ, |a * a| = a * a := fun a => abs_of_nonneg (mul_self_nonneg a)
  set A := val c.1 * val c.1 with hA
  set B := val c.2 * val c.2 with hB
  have hA0 : 0 ≤ A := mul_self_nonneg _
  have hB0 : 0 ≤ B := mul_self_nonneg _
  have e : 2 * (A + B) + 2 ≤ 2 ^ φ.emax := by
    have : val c.1 ^ 2 + val c.2 ^ 2 = A + B := by rw [hA, hB]; ring
    rwa [this] at ht
  have huA : uR φ * A ≤ 1 / 4 * A := mul_le_mul_of_nonneg_right hu4 hA0
  have huB : uR φ * B ≤ 1 / 4 * B := mul_le_mul_of_nonneg_right hu4 hB0
  have huA0 : 0 ≤ uR φ * A := by positivity
  have huB0 : 0 ≤ uR φ * B := by positivity
  have huw : uR φ * wR φ ≤ 1 / 4 * wR φ := mul_le_mul_of_nonneg_right hu4 hw.le
  obtain ⟨p1, p2⟩ := mul_val h h1 h1 (by rw [sq]; linarith)
  obtain ⟨q1, q2⟩ := mul_val h h2 h2 (by rw [sq]; linarith)
  rw [sq] at p2 q2
  have nonneg : ∀ {v : FVal φ}, Finite v → |val v * val v| ≤ 2 ^ φ.emax → 0 ≤ val (v * v : FVal φ) := by
    intro v hv hle
    have er : val v * val v = ((Val.toRat v * Val.toRat v : ℚ) : ℝ) := by unfold val; push_cast; rfl
    rw [er] at hle
    obtain ⟨g1, -⟩ := rd_real h hle
    have hi := mul_rd φ (v := v) (w := v) ⟨hv, rfl⟩ ⟨hv, rfl⟩ g1
    have : val (v * v : FVal φ) = ((rd φ (Val.toRat v * Val.toRat v) : ℚ) : ℝ) := val_of_is hi
    rw [this]
    exact_mod_cast rd_nonneg φ (mul_self_nonneg _)
  have p3 := nonneg h1 (by rw [sq]; linarith)
  have q3 := nonneg h2 (by rw [sq]; linarith)
  have p4 := abs_near p2 (le_of_eq (sq (val c.1)))
  have q4 := abs_near q2 (le_of_eq (sq (val c.2)))
  rw [← hA] at p4
  rw [← hB] at q4
  have hs : |val (c.1 * c.1 : FVal φ) + val (c.2 * c.2 : FVal φ)| ≤ 5 / 4 * A + 5 / 4 * B + 2 * wR φ :=
    (abs_add_le _ _).trans (by linarith)
  obtain ⟨s1, s2⟩ := add_val h p1 q1 (hs.trans (by linarith))
  refine ⟨s1, ?_, ?_⟩
  · have er : val (c.1 * c.1 : FVal φ) + val (c.2 * c.2 : FVal φ)
        = ((Val.toRat (c.1 * c.1 : FVal φ) + Val.toRat (c.2 * c.2 : FVal φ) : ℚ) : ℝ) := by unfold val; push_cast; rfl
    have hle := hs.trans (show _ ≤ (2 : ℝ) ^ φ.emax by linarith)
    rw [er] at hle
    obtain ⟨g1, -⟩ := rd_real h hle
    have hi := add_rd φ (v := (c.1 * c.1 : FVal φ)) (w := (c.2 * c.2 : FVal φ)) ⟨p1, rfl⟩ ⟨q1, rfl⟩ g1
    have ev : val (c.1 * c.1 + c.2 * c.2 : FVal φ)
        = ((rd φ (Val.toRat (c.1 * c.1 : FVal φ) + Val.toRat (c.2 * c.2 : FVal φ)) : ℚ) : ℝ) := val_of_is hi
    rw [ev]
    have p3' : (0 : ℚ) ≤ Val.toRat (c.1 * c.1 : FVal φ) := by unfold val at p3; exact_mod_cast p3
    have q3' : (0 : ℚ) ≤ Val.toRat (c.2 * c.2 : FVal φ) := by unfold val at q3; exact_mod_cast q3
    exact_mod_cast rd_nonneg φ (add_nonneg p3' q3')
  · have t : val (c.1 * c.1 + c.2 * c.2 : FVal φ) - (A + B)
        = (val (c.1 * c.1 + c.2 * c.2 : FVal φ) - (val (c.1 * c.1 : FVal φ) + val (c.2 * c.2 : FVal φ)))
          + (val (c.1 * c.1 : FVal φ) - A) + (val (c.2 * c.2 : FVal φ) - B) := by ring
    rw [t]
    have hus := mul_le_mul_of_nonneg_left hs hu.le
    refine (abs_add_le _ _).trans ((add_le_add ((abs_add_le _ _).trans (add_le_add s2 p2)) q2).trans ?_)
    linarith

/-! ## The coefficients -/

/-- The constant `2.0`. -/
def two : FVal φ := Val.fin false 2

/-- One detector as built in dsp/goertzel.go:36-42 (also 88-94 and 139-145) from the values `cos` and `sin` of
`math.Cos(w)` and `math.Sin(w)`, which are not modelled. -/
def gzOf (cos sin : FVal φ) : Gz (FVal φ) :=
  { coeff := two * cos, cos := cos, sin := sin, q1 := 0, q2 := 0, q1i := 0, q2i := 0 }

/-- Doubling a datum is exact. -/
theorem grid_double {x : ℚ} (h : Grid φ x) : Grid φ (2 * x) := by
  obtain ⟨m, e, h1, h2, h3⟩ := h
  refine ⟨m, e + 1, h1, by omega, ?_⟩
  rw [abs_mul, h3, zpow_add_one₀ (by norm_num)]
  norm_num
  ring

/-- C97: the coefficient `2.0 * cos` loses nothing, so if the library's sine and cosine are within `δ` the detector is
tuned to within `δ`, and it is in its initial state. -/
theorem C97_tuned (h : φ.Ok) (cos sin : FVal φ) (w δ : ℝ) (hδ : δ ≤ 1 / 4) (hc : Finite cos) (hs : Finite sin)
    (hg : Grid φ cos.toRat) (h1 : |val cos - Real.cos w| ≤ δ) (h2 : |val sin - Real.sin w| ≤ δ) :
    (gzOf cos sin).TunedTo w δ ∧ (gzOf cos sin).Fresh ∧ val (gzOf cos sin).coeff = 2 * val (gzOf cos sin).cos := by
  have hc5 : |val cos| ≤ 5 / 4 := abs_le_of_near h1 (Real.abs_cos_le_one w) hδ rfl
  have hq : |cos.toRat| ≤ 5 / 4 := by
    unfold val at hc5
    rw [← Rat.cast_le (K := ℝ)]
    push_cast
    exact hc5
  have e := rd_grid φ (by have := h.hp; omega) (grid_double hg)
  have htop : |rd φ (2 * cos.toRat)| < 2 ^ (φ.emax + 1) := by
    rw [e, abs_mul, abs_two]
    have : (2 : ℚ) ^ (3 : ℤ) ≤ 2 ^ (φ.emax + 1) := zpow_le_zpow_right₀ (by norm_num) (by have := h.hmax; omega)
    norm_num at this
    linarith
  have h2f : Is (Val.fin false 2) 2 := ⟨⟨false, 2, rfl, by norm_num⟩, rfl⟩
  have hi := mul_rd φ h2f (w := cos) ⟨hc, rfl⟩ htop
  rw [e] at hi
  have ev : val (gzOf cos sin).coeff = 2 * val cos := by
    have : val (gzOf cos sin).coeff = ((2 * cos.toRat : ℚ) : ℝ) := val_of_is hi
    rw [this]
    unfold val
    push_cast
    rfl
  refine ⟨⟨hi.1, hc, hs, ?_, h1, h2⟩, ⟨rfl, rfl, rfl, rfl⟩, ev⟩
  rw [ev, ← mul_sub, abs_mul, abs_two]
  linarith

/-! ## Single precision samples and results -/

open Verif.Filt in
theorem widen_val {v : FVal binary32} (hv : Finite v) (hg : Grid binary32 v.toRat) {X : ℝ} (hX : |val v| ≤ X)
    (hX' : X ≤ 2 ^ 127) : Finite (widen v) ∧ val (widen v) = val v := by
  have e := rd_grid binary64 (by decide) (grid_mono hg)
  have hlt : |rd binary64 v.toRat| < 2 ^ (binary64.emax + 1) := by
    rw [e]
    have h1 : |v.toRat| ≤ 2 ^ (127 : ℤ) := by
      rw [← Rat.cast_le (K := ℝ)]
      push_cast
      unfold val at hX
      exact_mod_cast hX.trans hX'
    exact h1.trans_lt (zpow_lt_zpow_right₀ (by norm_num) (by decide))
  have := convert_rd (φ := binary64) (v := v) ⟨hv, rfl⟩ hlt
  rw [e] at this
  exact ⟨this.1, val_of_is this⟩

open Verif.Filt in
theorem narrow_val {v : FVal binary64} (hv : Finite v) (hX : |val v| ≤ 2 ^ 127) :
    Finite (narrow v) ∧ |val (narrow v) - val v| ≤ uR binary32 * |val v| + wR binary32 := by
  obtain ⟨h1, h2⟩ := rd_real binary32_ok (x := v.toRat) (by
    unfold val at hX
    refine hX.trans (le_of_eq ?_)
    have : binary32.emax = (127 : ℕ) := rfl
    rw [this, zpow_natCast])
  have := convert_rd (φ := binary32) (v := v) ⟨hv, rfl⟩ h1
  refine ⟨this.1, ?_⟩
  have e : val (narrow v) = ((rd binary32 v.toRat : ℚ) : ℝ) := val_of_is this
  rw [e]
  exact h2

theorem vals_widen (xs : List (FVal binary32)) {X : ℝ} (hX' : X ≤ 2 ^ 127)
    (hxs : ∀ x ∈ xs, Finite x ∧ Grid binary32 x.toRat ∧ |val x| ≤ X) :
    vals (xs.map Verif.Filt.widen) = vals xs ∧ ∀ y ∈ xs.map Verif.Filt.widen, Finite y ∧ |val y| ≤ X := by
  induction xs with
  | nil => exact ⟨rfl, by simp⟩
  | cons x xs ih =>
    obtain ⟨h1, h2, h3⟩ := hxs x (by simp)
    obtain ⟨i1, i2⟩ := ih fun y hy => hxs y (by simp [hy])
    obtain ⟨w1, w2⟩ := widen_val h1 h2 h3 hX'
    refine ⟨?_, ?_⟩
    · rw [List.map_cons]
      simp only [vals]
      rw [i1, w2]
    · intro y hy
      rw [List.map_cons] at hy
      rcases List.mem_cons.1 hy with rfl | hy
      · exact ⟨w1, by rw [w2]; exact h3⟩
      · exact i2 y hy

/-- C97: `Goertzel32.Complex` (dsp/goertzel.go:75-80): samples in single precision, computation in double precision,
results rounded to single precision.  The bound is that of `C97_complex` in double precision, and the rounding of the two
parts to single precision. -/
theorem C97_single (g : Gz (FVal binary64)) (w δ X M : ℝ) (hg : g.TunedTo w δ) (hf : g.FreshR) (hδ0 : 0 ≤ δ)
    (hδ : δ ≤ 1 / 4) (hX : 0 < X) (hM0 : 0 ≤ M) (hM : 8 * M + 4 ≤ 2 ^ 127)
    (hε : (2 * δ + 14 * uR binary64) * M + 4 * wR binary64 ≤ X)
    (xs : List (FVal binary32)) (hxs : ∀ x ∈ xs, Finite x ∧ Grid binary32 x.toRat ∧ |val x| ≤ X)
    (hR : Room w xs.length X M) (hn : 0 < xs.length) :
    ∃ c, complex Verif.Filt.narrow (feed Verif.Filt.widen [g] xs) = [c] ∧ Finite c.1 ∧ Finite c.2 ∧
      ‖(⟨val c.1, val c.2⟩ : ℂ) - exp ((w * xs.length : ℝ) * I) * fourierSum w xs.length (sampleR (vals xs))‖
        ≤ (xs.length + 1) * ((2 * δ + 14 * uR binary64) * M + 4 * wR binary64) + 6 * uR binary32 * M + 2 * wR binary32 := by
  have hXM := room_le hn hX.le hM0 hR
  have hM' : 8 * M + 4 ≤ 2 ^ binary64.emax := by
    refine hM.trans ?_
    have : (2 : ℝ) ^ (127 : ℤ) ≤ 2 ^ binary64.emax := zpow_le_zpow_right₀ (by norm_num) (by decide)
    exact_mod_cast this
  obtain ⟨v1, v2⟩ := vals_widen xs (X := X) (by linarith) hxs
  have hR' : Room w (xs.map Verif.Filt.widen).length X M := by rwa [List.length_map]
  obtain ⟨h1, h2, h3, h4, h5⟩ := gz_err binary64_ok hg hδ0 hδ hX hM0 hM' hε (xs.map Verif.Filt.widen) v2 le_rfl hR'
    (gz_runs g hf (xs.map Verif.Filt.widen))
  obtain ⟨c, c1, c2, c3, c4⟩ := C97_complex binary64_ok g w δ X M hg hf hδ0 hδ hX hM0 hM' hε (xs.map Verif.Filt.widen) v2 hR'
  rw [v1, List.length_map] at c4
  have hfeed : feed Verif.Filt.widen [g] xs = feed id [g] (xs.map Verif.Filt.widen) := by
    simp only [feed_eq, List.map_id_fun, id]
  have hcx : ∀ freq : List (Gz (FVal binary64)), complex Verif.Filt.narrow freq
      = (complex id freq).map fun p => (Verif.Filt.narrow p.1, Verif.Filt.narrow p.2) := by
    intro freq
    simp only [complex, List.map_map]
    rfl
  rw [hfeed, hcx, c1]
  refine ⟨_, rfl, ?_⟩
  -- the sizes of the two parts
  have hcr := c1
  simp only [complex, feed_eq, List.map_cons, List.map_nil, List.map_id_fun, id, (step_coef g _).2.1,
    (step_coef g _).2.2.1, List.cons.injEq, and_true] at hcr
  set r := (xs.map Verif.Filt.widen).foldl Gz.step g with hr
  have hu := uR_pos binary64
  have hu4 := uR_le binary64_ok
  have hw4 := wR_le binary64_ok
  have hw := wR_pos binary64
  have k1 := re_err binary64_ok (eval_unfused (lf r.q1 * lf g.cos - lf r.q2)) hg.fcos h1 h2 hδ (Real.abs_cos_le_one w) hg.cos h3 h4 hM'
  have k2 := im_err binary64_ok (eval_unfused (lf r.q1 * lf g.sin)) hg.fsin h1 hδ (Real.abs_sin_le_one w) hg.sin h3 hM'
  have huM : uR binary64 * M ≤ 1 / 4 * M := mul_le_mul_of_nonneg_right hu4 hM0
  have hδM : δ * M ≤ 1 / 4 * M := mul_le_mul_of_nonneg_right hδ hM0
  have hδM0 : 0 ≤ δ * M := by positivity
  have huM0 : 0 ≤ uR binary64 * M := by positivity
  -- half a step's error bounds the absolute part
  have hmul : ∀ {a b : ℝ}, |a| ≤ M → |b| ≤ 1 → |a * b| ≤ M := by
    intro a b ha hb
    rw [abs_mul]
    exact (mul_le_mul ha hb (abs_nonneg _) hM0).trans (by linarith)
  have a1 : |val c.1| ≤ 3 * M := by
    rw [← hcr]
    refine (k1.abs (a := M + M) ((abs_sub _ _).trans (add_le_add (hmul h3 (Real.abs_cos_le_one w)) h4))).trans ?_
    linarith
  have a2 : |val c.2| ≤ 3 * M := by
    rw [← hcr]
    refine (k2.abs (a := M) (hmul h3 (Real.abs_sin_le_one w))).trans ?_
    linarith
  obtain ⟨n1, n2⟩ := narrow_val c2 (a1.trans (by linarith))
  obtain ⟨n3, n4⟩ := narrow_val c3 (a2.trans (by linarith))
  refine ⟨n1, n3, ?_⟩
  have hu32 := uR_pos binary32
  have m1 := mul_le_mul_of_nonneg_left a1 hu32.le
  have m2 := mul_le_mul_of_nonneg_left a2 hu32.le
  set F := exp ((w * xs.length : ℝ) * I) * fourierSum w xs.length (sampleR (vals xs))
  have s : (⟨val (Verif.Filt.narrow c.1), val (Verif.Filt.narrow c.2)⟩ : ℂ) - F
      = ((⟨val (Verif.Filt.narrow c.1), val (Verif.Filt.narrow c.2)⟩ : ℂ) - ⟨val c.1, val c.2⟩)
        + ((⟨val c.1, val c.2⟩ : ℂ) - F) := by ring
  have d : ‖(⟨val (Verif.Filt.narrow c.1), val (Verif.Filt.narrow c.2)⟩ : ℂ) - ⟨val c.1, val c.2⟩‖
      ≤ (uR binary32 * |val c.1| + wR binary32) + (uR binary32 * |val c.2| + wR binary32) := norm_le_parts _ n2 n4
  show ‖(⟨val (Verif.Filt.narrow c.1), val (Verif.Filt.narrow c.2)⟩ : ℂ) - F‖ ≤ _
  rw [s]
  refine (norm_add_le _ _).trans ((add_le_add d c4).trans ?_)
  linarith

/-! ## Where the magnitude fails -/

/-- A whole number in double precision. -/
def int64 (n : ℤ) : FVal binary64 := Val.fin (decide (n < 0)) n.natAbs

/-- C97, violated: a power should never be negative, but `Goertzel.Magnitude` computes `q1² + q2² - 2 q1 q2` with
rounding.  The detector for 0 Hz (`cos = 1`, `sin = 0`, both exact) fed two samples reports `-16`, while the complex
result is exactly `1` and the detector for complex samples reports `1`. -/
theorem C97_violated :
    let g : Gz (FVal binary64) := gzOf (int64 1) (int64 0)
    let xs := [int64 191484786, int64 (-191484785)]
    magnitude id (feed id [g] xs) = [int64 (-16)] ∧ complex id (feed id [g] xs) = [(int64 1, int64 0)] ∧
      magnitudeC (feedC [g] (xs.map fun x => (x, int64 0))) = [int64 1] := by
  decide +kernel

/-! ## Examples of the hypotheses -/

theorem val_int64 (n : ℤ) : val (int64 n) = n := by
  unfold int64
  rw [val_fin]
  have : ((n.natAbs : ℚ) : ℝ) = |(n : ℝ)| := by
    rw [Rat.cast_natCast, ← Int.cast_natCast, Int.natCast_natAbs, Int.cast_abs]
  rw [this]
  by_cases h : n < 0
  · have h' : (n : ℝ) < 0 := by exact_mod_cast h
    simp [h, abs_of_neg h']
  · have h' : (0 : ℝ) ≤ n := by exact_mod_cast (not_lt.1 h)
    simp [h, abs_of_nonneg h']

theorem finite_int64 (n : ℤ) : Finite (int64 n) := ⟨_, _, rfl, by positivity⟩

/-- The detector for a quarter of the sample rate fed one block of four samples, any values of magnitude at most 2. -/
example : ∃ (g : Gz (FVal binary64)) (xs : List (FVal binary64)), g.TunedTo (2 * Real.pi * (1 : ℕ) / xs.length) 0 ∧ g.FreshR ∧
    xs.length = 4 ∧ (∀ x ∈ xs, Finite x ∧ |val x| ≤ 2) ∧ Room (2 * Real.pi * (1 : ℕ) / xs.length) xs.length 2 16 ∧
    (2 * 0 + 14 * uR binary64) * 16 + 4 * wR binary64 ≤ 2 ∧ (8 : ℝ) * 16 + 4 ≤ 2 ^ binary64.emax ∧
    (8 : ℝ) * 16 ^ 2 + 4 ≤ 2 ^ binary64.emax := by
  have ew : 2 * Real.pi * ((1 : ℕ) : ℝ) / (([int64 1, int64 2, int64 (-1), int64 0] : List (FVal binary64)).length : ℕ)
      = Real.pi / 2 := by
    simp
    ring
  have big : ∀ x : ℝ, x ≤ 4096 → x ≤ 2 ^ binary64.emax := by
    intro x hx
    have : (2 : ℝ) ^ (12 : ℤ) ≤ 2 ^ binary64.emax := zpow_le_zpow_right₀ (by norm_num) (by decide)
    norm_num at this
    linarith
  refine ⟨gzOf (int64 0) (int64 1), [int64 1, int64 2, int64 (-1), int64 0], ?_, ⟨rfl, rfl⟩, rfl, ?_, ?_, ?_, ?_, ?_⟩
  · rw [ew]
    refine (C97_tuned binary64_ok (int64 0) (int64 1) _ 0 (by norm_num) (finite_int64 0) (finite_int64 1) ?_ ?_ ?_).1
    · exact ⟨0, 0, by decide, by decide, by simp [int64, Val.toRat]⟩
    · rw [val_int64]; simp
    · rw [val_int64]; simp
  · intro x hx
    fin_cases hx <;> refine ⟨finite_int64 _, ?_⟩ <;> simp only [val_int64] <;> norm_num
  · rw [ew]
    right
    norm_num
  · have hu : uR binary64 ≤ 2 ^ (-10 : ℤ) := zpow_le_zpow_right₀ (by norm_num) (by decide)
    have hw := wR_le binary64_ok
    norm_num at hu ⊢
    linarith
  · exact big _ (by norm_num)
  · exact big _ (by norm_num)

end Verif.Dft
