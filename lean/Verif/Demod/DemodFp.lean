import Verif.Demod.DemodProps
import Verif.Angle.AtanFpProps
import Verif.Fp.FpProduct
import Mathlib.Data.List.GetD
import Mathlib.Analysis.SpecialFunctions.Complex.Arg

/-!
# C90 and C141: the FM demodulator in single precision

`disc` and `fmDemodulate` of `DemodModel` with the arithmetic of binary32 and the arctangent `fastAtan2Go`: for C90 products and sums are rounded one by
one.  For C141 they may be fused: the numbers of the same `disc` and `fmDemodulate` are expressions, which the arctangent evaluates.
-/

namespace Verif.Demod

open Verif.Fp Verif.Arm Verif.Angle Real

/-- The arithmetic of `float32`. -/
scoped instance mul32Inst : Mul Val := ⟨Fp.mul binary32⟩
scoped instance sub32Inst : Sub Val := ⟨Fp.sub binary32⟩
scoped instance add32Inst : Add Val := ⟨Fp.add binary32⟩

/-- Finite samples and their values. -/
def FinC (a : Val × Val) : Prop := Finite a.1 ∧ Finite a.2
noncomputable def cval (a : Val × Val) : ℂ := ⟨val a.1, val a.2⟩

/-- Two products and their sum or difference, whatever is fused. -/
theorem dot_eval {e : Expr binary32} {a b c d v : Val} (he : e = diffOf binary32 a b c d ∨ e = sumTwo binary32 a b c d) (hv : Expr.Eval e v)
    (ha : Finite a) (hb : Finite b) (hc : Finite c) (hd : Finite d) (h : |val a * val b| + |val c * val d| ≤ 1.1e38) :
    Finite v ∧ |val v - e.exact| ≤ 1.21e-7 * (|val a * val b| + |val c * val d|) + 1e-44 := by
  obtain ⟨h1, h2⟩ := two_err binary32_ok he hv ha hb hc hd le_rfl (by norm_num [binary32] at *; linarith)
  refine ⟨h1, h2.trans ?_⟩
  have hw : wR binary32 ≤ 1e-45 := by norm_num [wR, binary32]
  have h3 := abs_nonneg (val a * val b)
  have h4 := abs_nonneg (val c * val d)
  rw [uR32]
  norm_num at *
  linarith

/-- Nothing fused. -/
theorem dot_near {a b c d : Val} (ha : Finite a) (hb : Finite b) (hc : Finite c) (hd : Finite d)
    (h : |val a * val b| + |val c * val d| ≤ 1.1e38) :
    (Finite (Fp.add binary32 (Fp.mul binary32 a b) (Fp.mul binary32 c d)) ∧
      |val (Fp.add binary32 (Fp.mul binary32 a b) (Fp.mul binary32 c d)) - (val a * val b + val c * val d)|
        ≤ 1.21e-7 * (|val a * val b| + |val c * val d|) + 1e-44) ∧
    (Finite (Fp.sub binary32 (Fp.mul binary32 a b) (Fp.mul binary32 c d)) ∧
      |val (Fp.sub binary32 (Fp.mul binary32 a b) (Fp.mul binary32 c d)) - (val a * val b - val c * val d)|
        ≤ 1.21e-7 * (|val a * val b| + |val c * val d|) + 1e-44) :=
  ⟨dot_eval (Or.inr rfl) (Expr.eval_unfused (sumTwo binary32 a b c d)) ha hb hc hd h,
    dot_eval (Or.inl rfl) (Expr.eval_unfused (diffOf binary32 a b c d)) ha hb hc hd h⟩

/-- Cauchy and Schwarz. -/
theorem cs (a b c d : ℝ) : |a * c| + |b * d| ≤ √(a ^ 2 + b ^ 2) * √(c ^ 2 + d ^ 2) := by
  rw [← Real.sqrt_mul (by positivity)]
  apply Real.le_sqrt_of_sq_le
  have h1 := sq_abs (a * c)
  have h2 := sq_abs (b * d)
  have h3 : |a * c| * |b * d| = |a * d| * |b * c| := by rw [← abs_mul, ← abs_mul]; congr 1; ring
  have h4 := sq_abs (a * d)
  have h5 := sq_abs (b * c)
  nlinarith [sq_nonneg (|a * d| - |b * c|)]

theorem norm_cval (a : Val × Val) : ‖cval a‖ = √(val a.1 ^ 2 + val a.2 ^ 2) := by
  rw [Complex.norm_def, Complex.normSq_apply, cval]
  simp only [pow_two]

/-- A point near another one: the angles agree up to whole turns. -/
theorem arg_close {z w : ℂ} {ρ ε : ℝ} (hε : ε ≤ 1 / 10) (hρ : 0 < ρ) (hz : ‖z‖ = ρ) (h : ‖w - z‖ ≤ ε * ρ) :
    ∃ k : ℤ, |w.arg - (z.arg + 2 * π * k)| ≤ 3 / 2 * ε := by
  have hz0 : z ≠ 0 := by rintro rfl; rw [norm_zero] at hz; linarith
  set u := w / z with hu
  have hw : w = z * u := by rw [hu]; field_simp
  have hu1 : ‖u - 1‖ ≤ ε := by
    have : u - 1 = (w - z) / z := by rw [hu]; field_simp
    rw [this, norm_div, hz, div_le_iff₀ hρ]
    exact h
  have hε0 : 0 ≤ ε := (norm_nonneg _).trans hu1
  have hre := (Complex.abs_re_le_norm (u - 1)).trans hu1
  have him := (Complex.abs_im_le_norm (u - 1)).trans hu1
  simp only [Complex.sub_re, Complex.sub_im, Complex.one_re, Complex.one_im, sub_zero] at hre him
  have hre' := abs_le.1 hre
  have hre0 : 0.9 ≤ u.re := by norm_num at hre' ⊢; linarith [hre'.1]
  have hu0 : u ≠ 0 := by
    intro h0; rw [h0] at hre0; norm_num at hre0
  have ha : |u.arg| ≤ 3 / 2 * ε := by
    have e : u.arg = arctan (u.im / u.re) := angle_right (x := u.re) (y := u.im) (by linarith)
    rw [e]
    have := arctan_lipschitz (u.im / u.re) 0
    rw [arctan_zero, sub_zero, sub_zero] at this
    refine this.trans ?_
    rw [abs_div, abs_of_pos (show 0 < u.re by linarith), div_le_iff₀ (by linarith)]
    nlinarith
  have hc := Complex.arg_mul_coe_angle hz0 hu0
  rw [← hw, ← Real.Angle.coe_add, Real.Angle.angle_eq_iff_two_pi_dvd_sub] at hc
  obtain ⟨k, hk⟩ := hc
  refine ⟨k, ?_⟩
  rw [show w.arg - (z.arg + 2 * π * k) = u.arg by linarith]
  exact ha

/-- Only near half a turn. -/
theorem no_turn {z w : ℂ} {k : ℤ} {ε : ℝ} (hε : ε < 1) (hk : |w.arg - (z.arg + 2 * π * k)| ≤ ε) (hz : |z.arg| < π - ε) : k = 0 := by
  have hw := abs_le.1 (Complex.abs_arg_le_pi w)
  have hε0 : 0 ≤ ε := (abs_nonneg _).trans hk
  rw [abs_le] at hk
  rw [abs_lt] at hz
  have hp := pi_gt_three
  by_contra hk0
  rcases lt_or_gt_of_ne hk0 with h | h
  · have : (k : ℝ) ≤ -1 := by exact_mod_cast (by omega : k ≤ -1)
    have : 2 * π * k ≤ -(2 * π) := by nlinarith
    linarith [hk.1, hk.2, hz.1, hz.2, hw.1, hw.2]
  · have : (1 : ℝ) ≤ k := by exact_mod_cast (by omega : 1 ≤ k)
    have : 2 * π ≤ 2 * π * k := by nlinarith
    linarith [hk.1, hk.2, hz.1, hz.2, hw.1, hw.2]

/-- The arctangent of two expressions. -/
def atanBy (ev : Expr binary32 → Val) (y x : Expr binary32) : Expr binary32 := .leaf (fastAtan2By ev (ev y) (ev x))

/-- A sample as a pair of expressions. -/
def lift (a : Val × Val) : Expr binary32 × Expr binary32 := (.leaf a.1, .leaf a.2)

/-- A number as an expression. -/
def datum (v : Val) : Expr binary32 := .leaf v

/-- `disc` of two samples. -/
def discBy (ev : Expr binary32 → Val) (a b : Val × Val) : Val :=
  fastAtan2By ev (ev (diffOf binary32 a.2 b.1 a.1 b.2)) (ev (sumTwo binary32 a.1 b.1 a.2 b.2))

theorem disc_lift (ev : Expr binary32 → Val) (a b : Val × Val) : disc (atanBy ev) (lift a) (lift b) = datum (discBy ev a b) := rfl

/-- The sample, the previous one, and what the discriminator returns for them: within 0.01021 of the phase
step, up to a whole turn. -/
theorem disc_by {ev : Expr binary32 → Val} (hev : ∀ e, Expr.Eval e (ev e)) (a b : Val × Val) (ha : FinC a) (hb : FinC b)
    (hlow : 3e-15 ≤ ‖cval a‖ * ‖cval b‖) (hhigh : ‖cval a‖ * ‖cval b‖ ≤ 1e38) :
    Finite (discBy ev a b) ∧
      ∃ k : ℤ, |val (discBy ev a b) - ((cval a * (starRingEnd ℂ) (cval b)).arg + 2 * π * k)| ≤ 0.01021 ∧
        (|(cval a * (starRingEnd ℂ) (cval b)).arg| ≤ π - 1e-6 → k = 0) := by
  obtain ⟨ha1, ha2⟩ := ha
  obtain ⟨hb1, hb2⟩ := hb
  have n1 := cs (val a.1) (val a.2) (val b.1) (val b.2)
  have n2 := cs (val a.2) (val a.1) (val b.1) (val b.2)
  rw [← norm_cval, ← norm_cval] at n1
  rw [add_comm (val a.2 ^ 2), ← norm_cval, ← norm_cval] at n2
  have hzn : ‖cval a * (starRingEnd ℂ) (cval b)‖ = ‖cval a‖ * ‖cval b‖ := by
    rw [norm_mul, RCLike.norm_conj]
  have hre : (cval a * (starRingEnd ℂ) (cval b)).re = val a.1 * val b.1 + val a.2 * val b.2 := by
    simp [cval]
  have him : (cval a * (starRingEnd ℂ) (cval b)).im = val a.2 * val b.1 - val a.1 * val b.2 := by
    simp [cval]; ring
  generalize cval a * (starRingEnd ℂ) (cval b) = z at *
  generalize ‖cval a‖ * ‖cval b‖ = ρ at *
  have hρ : 0 < ρ := by linarith
  obtain ⟨fx, ex⟩ := dot_eval (Or.inr rfl) (hev (sumTwo binary32 a.1 b.1 a.2 b.2)) ha1 hb1 ha2 hb2 (by norm_num at *; linarith)
  obtain ⟨fy, ey⟩ := dot_eval (Or.inl rfl) (hev (diffOf binary32 a.2 b.1 a.1 b.2)) ha2 hb1 ha1 hb2 (by norm_num at *; linarith)
  rw [discBy]
  change |_ - (val a.1 * val b.1 + val a.2 * val b.2)| ≤ _ at ex
  change |_ - (val a.2 * val b.1 - val a.1 * val b.2)| ≤ _ at ey
  generalize ev (diffOf binary32 a.2 b.1 a.1 b.2) = y at *
  generalize ev (sumTwo binary32 a.1 b.1 a.2 b.2) = x at *
  rw [← hre] at ex
  rw [← him] at ey
  have ex' : |val x - z.re| ≤ 1.3e-7 * ρ := by norm_num at *; linarith
  have ey' : |val y - z.im| ≤ 1.3e-7 * ρ := by norm_num at *; linarith
  have hsq : z.re ^ 2 + z.im ^ 2 = ρ ^ 2 := by
    rw [← hzn, ← Complex.normSq_eq_norm_sq, Complex.normSq_apply]; ring
  have hdist : ‖(⟨val x, val y⟩ : ℂ) - z‖ ≤ 2e-7 * ρ := by
    rw [Complex.norm_def, Complex.normSq_apply]
    refine Real.sqrt_le_iff.2 ⟨by positivity, ?_⟩
    simp only [Complex.sub_re, Complex.sub_im]
    have q1 : (val x - z.re) * (val x - z.re) ≤ (1.3e-7 * ρ) ^ 2 := by
      rw [← pow_two, ← sq_abs]; exact pow_le_pow_left₀ (abs_nonneg _) ex' 2
    have q2 : (val y - z.im) * (val y - z.im) ≤ (1.3e-7 * ρ) ^ 2 := by
      rw [← pow_two, ← sq_abs]; exact pow_le_pow_left₀ (abs_nonneg _) ey' 2
    nlinarith
  obtain ⟨k, hk⟩ := arg_close (by norm_num) hρ hzn hdist
  have zx : |z.re| ≤ ρ := by rw [← hzn]; exact Complex.abs_re_le_norm z
  have zy : |z.im| ≤ ρ := by rw [← hzn]; exact Complex.abs_im_le_norm z
  have hx' : |val x| ≤ 1.01 * ρ := by
    have := abs_sub_abs_le_abs_sub (val x) z.re
    norm_num at *; linarith
  have hy' : |val y| ≤ 1.01 * ρ := by
    have := abs_sub_abs_le_abs_sub (val y) z.im
    norm_num at *; linarith
  obtain ⟨fr, er⟩ := C141_fast_partial hev y x fy fx
    (by
      have hm := max_of_norm z.re z.im ρ hsq.ge
      have t1 := abs_sub_abs_le_abs_sub z.re (val x)
      have t2 := abs_sub_abs_le_abs_sub z.im (val y)
      rw [abs_sub_comm] at t1 t2
      rcases max_choice |z.re| |z.im| with h | h <;> rw [h] at hm
      · refine le_trans ?_ (le_max_left _ _)
        norm_num at *; linarith
      · refine le_trans ?_ (le_max_right _ _)
        norm_num at *; linarith)
    (by norm_num at *; linarith)
  refine ⟨fr, k, ?_, ?_⟩
  · rw [abs_le] at *
    constructor <;> linarith [er.1, er.2, hk.1, hk.2]
  · intro hz
    exact no_turn (by norm_num) hk (by norm_num at *; linarith)

/-- The sample, the previous one, and what the discriminator returns for them: within 0.01021 of the phase
step, up to a whole turn. -/
theorem disc_near (a b : Val × Val) (ha : FinC a) (hb : FinC b) (hlow : 3e-15 ≤ ‖cval a‖ * ‖cval b‖)
    (hhigh : ‖cval a‖ * ‖cval b‖ ≤ 1e38) :
    Finite (disc (fastAtan2Go go32) a b) ∧
      ∃ k : ℤ, |val (disc (fastAtan2Go go32) a b) - ((cval a * (starRingEnd ℂ) (cval b)).arg + 2 * π * k)| ≤ 0.01021 ∧
        (|(cval a * (starRingEnd ℂ) (cval b)).arg| ≤ π - 1e-6 → k = 0) :=
  disc_by Expr.eval_unfused a b ha hb hlow hhigh

/-- The product of a sample and the conjugate of the sample before. -/
noncomputable def step (pre : Val × Val) (input : List (Val × Val)) (i : Nat) : ℂ :=
  cval (input.getD i pre) * (starRingEnd ℂ) (cval ((pre :: input).getD i pre))

/-- C90 (part).  The demodulator in single precision.  Samples are finite, and the product of the magnitudes
of two successive samples lies between 3e-15 and 1e38.  Then every output is finite and within 0.01021 radian
of the phase step from one sample to the next; the result may be off by a whole turn, and only if the step is
within a millionth of half a turn. -/
theorem C90_demodulate_partial (pre : Val × Val) (input : List (Val × Val)) (output : List Val)
    (hpre : FinC pre) (hin : ∀ a ∈ input, FinC a) (hlen : input.length ≤ output.length)
    (hmag : ∀ i, i < input.length → 3e-15 ≤ ‖step pre input i‖ ∧ ‖step pre input i‖ ≤ 1e38) :
    ∃ out, fmDemodulate (fastAtan2Go go32) pre input output =
        some ((pre :: input).getLast (by simp), out ++ output.drop input.length, input.length) ∧
      out.length = input.length ∧
      ∀ i, ∀ h : i < out.length, Finite out[i] ∧
        ∃ k : ℤ, |val out[i] - ((step pre input i).arg + 2 * π * k)| ≤ 0.01021 ∧
          (|(step pre input i).arg| ≤ π - 1e-6 → k = 0) := by
  refine ⟨_, C57_value _ _ _ _ hlen, increments_length _ _ _, ?_⟩
  intro i h
  have hl := h
  rw [increments_length] at hl
  have hm := hmag i hl
  have e : (increments (fastAtan2Go go32) pre input)[i] =
      disc (fastAtan2Go go32) (input.getD i pre) ((pre :: input).getD i pre) := by
    have e1 : (increments (fastAtan2Go go32) pre input)[i] =
        disc (fastAtan2Go go32) input[i] ((pre :: input)[i]'(by simp; omega)) := by
      simp only [increments, List.getElem_zipWith]
    rw [e1, List.getD_eq_getElem _ _ hl,
      List.getD_eq_getElem _ _ (show i < (pre :: input).length by simp; omega)]
  have f1 : FinC (input.getD i pre) := by
    rw [List.getD_eq_getElem _ _ hl]; exact hin _ (List.getElem_mem _)
  have f2 : FinC ((pre :: input).getD i pre) := by
    rw [List.getD_eq_getElem _ _ (show i < (pre :: input).length by simp; omega)]
    rcases List.mem_cons.1 (List.getElem_mem (show i < (pre :: input).length by simp; omega)) with h1 | h1
    · rw [h1]; exact hpre
    · exact hin _ h1
  have hn : ‖step pre input i‖ = ‖cval (input.getD i pre)‖ * ‖cval ((pre :: input).getD i pre)‖ := by
    rw [step, norm_mul, RCLike.norm_conj]
  rw [hn] at hm
  rw [e]
  exact disc_near _ _ f1 f2 hm.1 hm.2

/-- C141, FM demodulator (part).  As `C90_demodulate_partial`, whatever products are fused. -/
theorem C141_demodulate_partial {ev : Expr binary32 → Val} (hev : ∀ e, Expr.Eval e (ev e)) (pre : Val × Val) (input : List (Val × Val))
    (output : List Val) (hpre : FinC pre) (hin : ∀ a ∈ input, FinC a) (hlen : input.length ≤ output.length)
    (hmag : ∀ i, i < input.length → 3e-15 ≤ ‖step pre input i‖ ∧ ‖step pre input i‖ ≤ 1e38) :
    ∃ out : List Val, fmDemodulate (atanBy ev) (lift pre) (input.map lift) (output.map datum) =
        some (lift ((pre :: input).getLast (by simp)), (out ++ output.drop input.length).map datum, input.length) ∧
      out.length = input.length ∧
      ∀ i, ∀ h : i < out.length, Finite out[i] ∧
        ∃ k : ℤ, |val out[i] - ((step pre input i).arg + 2 * π * k)| ≤ 0.01021 ∧
          (|(step pre input i).arg| ≤ π - 1e-6 → k = 0) := by
  have hinc : increments (atanBy ev) (lift pre) (input.map lift) = (List.zipWith (discBy ev) input (pre :: input)).map datum := by
    show List.zipWith (disc (atanBy ev)) (input.map lift) ((pre :: input).map lift) = _
    rw [List.zipWith_map, List.map_zipWith]
    rfl
  have hlast : (lift pre :: input.map lift).getLast (by simp) = lift ((pre :: input).getLast (by simp)) :=
    List.getLast_map (f := lift) (l := pre :: input) (by simp)
  refine ⟨List.zipWith (discBy ev) input (pre :: input), ?_, by simp, ?_⟩
  · rw [C57_value _ _ _ _ (by rw [List.length_map, List.length_map]; exact hlen), hinc, hlast, List.length_map, List.map_append, List.map_drop]
  intro i h
  have hl : i < input.length := by simpa using h
  have hm := hmag i hl
  have hl2 : i < (pre :: input).length := by simp; omega
  have e : (List.zipWith (discBy ev) input (pre :: input))[i] = discBy ev (input.getD i pre) ((pre :: input).getD i pre) := by
    rw [List.getElem_zipWith, List.getD_eq_getElem _ _ hl, List.getD_eq_getElem _ _ hl2]
  have f1 : FinC (input.getD i pre) := by
    rw [List.getD_eq_getElem _ _ hl]; exact hin _ (List.getElem_mem _)
  have f2 : FinC ((pre :: input).getD i pre) := by
    rw [List.getD_eq_getElem _ _ hl2]
    rcases List.mem_cons.1 (List.getElem_mem hl2) with h1 | h1
    · rw [h1]; exact hpre
    · exact hin _ h1
  have hn : ‖step pre input i‖ = ‖cval (input.getD i pre)‖ * ‖cval ((pre :: input).getD i pre)‖ := by
    rw [step, norm_mul, RCLike.norm_conj]
  rw [hn] at hm
  rw [e]
  exact disc_by hev _ _ f1 f2 hm.1 hm.2

/-- Neither above nor below zero. -/
theorem not_lt_zero {v : Val} (h : v = .nan ∨ ∃ s, v = .fin s 0) :
    ¬ go32.lt v (go32.lit .zero) = true ∧ ¬ go32.gt v (go32.lit .zero) = true := by
  rw [lit0]
  rcases h with rfl | ⟨s, rfl⟩
  · decide
  · cases s <;> decide

theorem mul_zero32 (v : Val) : Fp.mul binary32 v (.fin false 0) = .nan ∨ ∃ s, Fp.mul binary32 v (.fin false 0) = .fin s 0 := by
  cases v with
  | nan => exact Or.inl rfl
  | inf s => exact Or.inl (by simp [Fp.mul])
  | fin s q => exact Or.inr ⟨s, by simp [Fp.mul, Fp.round]⟩

theorem add_zero32 {v w : Val} (hv : v = .nan ∨ ∃ s, v = .fin s 0) (hw : w = .nan ∨ ∃ s, w = .fin s 0) :
    (Fp.add binary32 v w = .nan ∨ ∃ s, Fp.add binary32 v w = .fin s 0) ∧
    (Fp.sub binary32 v w = .nan ∨ ∃ s, Fp.sub binary32 v w = .fin s 0) := by
  rcases hv with rfl | ⟨s, rfl⟩
  · exact ⟨Or.inl rfl, Or.inl rfl⟩
  · rcases hw with rfl | ⟨t, rfl⟩
    · exact ⟨Or.inl rfl, Or.inl rfl⟩
    · refine ⟨Or.inr ⟨s && t, ?_⟩, Or.inr ⟨s && !t, ?_⟩⟩ <;> cases s <;> cases t <;> decide +kernel

/-- C90: the first output of a new demodulator is 0, whatever the sample, also if it is infinite or a NaN. -/
theorem C90_first (a : Val × Val) : disc (fastAtan2Go go32) a (.fin false 0, .fin false 0) = .fin false 0 := by
  have m1 := mul_zero32 a.1
  have m2 := mul_zero32 a.2
  have hx := not_lt_zero (add_zero32 m1 m2).1
  have hy := not_lt_zero (add_zero32 m2 m1).2
  have hd : disc (fastAtan2Go go32) a (.fin false 0, .fin false 0) = fastAtan2Go go32
      (Fp.sub binary32 (Fp.mul binary32 a.2 (.fin false 0)) (Fp.mul binary32 a.1 (.fin false 0)))
      (Fp.add binary32 (Fp.mul binary32 a.1 (.fin false 0)) (Fp.mul binary32 a.2 (.fin false 0))) := rfl
  rw [hd, fastAtan2Go]
  dsimp only
  rw [if_neg hx.1, if_neg hx.2, if_neg hy.1, if_neg hy.2, lit0]

/-- Products with zero, whatever is fused. -/
theorem dot_zero {e : Expr binary32} {a c v : Val}
    (he : e = diffOf binary32 a (.fin false 0) c (.fin false 0) ∨ e = sumTwo binary32 a (.fin false 0) c (.fin false 0)) (hv : Expr.Eval e v) :
    v = .nan ∨ ∃ s, v = .fin s 0 := by
  have mx : ∀ w : Val, mulExact w (.fin false 0) = .nan ∨ ∃ s, mulExact w (.fin false 0) = .fin s 0 := by
    intro w
    cases w with
    | nan => exact Or.inl rfl
    | inf s => exact Or.inl (by simp [mulExact])
    | fin s q => exact Or.inr ⟨s, by simp [mulExact]⟩
  have ng : ∀ w : Val, (w = .nan ∨ ∃ s, w = .fin s 0) → (Fp.neg w = .nan ∨ ∃ s, Fp.neg w = .fin s 0) := by
    rintro w (rfl | ⟨s, rfl⟩)
    · exact Or.inl rfl
    · exact Or.inr ⟨!s, rfl⟩
  have lf : ∀ {w u : FVal binary32}, Expr.Eval (.leaf w) u → u = w := by intro w u h; cases h; rfl
  have ml : ∀ {w u : FVal binary32}, Expr.Eval (.mul (.leaf w) (.leaf (.fin false 0))) u → (u = .nan ∨ ∃ s, u = .fin s 0) := by
    intro w u h
    cases h with
    | mul h1 h2 => rw [lf h1, lf h2]; exact mul_zero32 w
  rcases he with rfl | rfl
  · cases hv with
    | sub h1 h2 => exact (add_zero32 (ml h1) (ml h2)).2
    | fmsub h1 h2 h3 => rw [lf h1, lf h2]; exact (add_zero32 (mx _) (ng _ (ml h3))).1
    | fnmsub h1 h2 h3 => rw [lf h1, lf h2]; exact (add_zero32 (mx _) (ml h3)).1
  · cases hv with
    | add h1 h2 => exact (add_zero32 (ml h1) (ml h2)).1
    | fmadd h1 h2 h3 => rw [lf h1, lf h2]; exact (add_zero32 (mx _) (ml h3)).1
    | fmadd' h1 h2 h3 => rw [lf h1, lf h2]; exact (add_zero32 (mx _) (ml h3)).1

/-- C141: the first output of a new demodulator is 0, whatever the sample and whatever is fused. -/
theorem C141_first {ev : Expr binary32 → Val} (hev : ∀ e, Expr.Eval e (ev e)) (a : Val × Val) :
    disc (atanBy ev) (lift a) (lift (.fin false 0, .fin false 0)) = datum (.fin false 0) := by
  rw [disc_lift, discBy]
  have hx := not_lt_zero (dot_zero (.inr rfl) (hev (sumTwo binary32 a.1 (.fin false 0) a.2 (.fin false 0))))
  have hy := not_lt_zero (dot_zero (.inl rfl) (hev (diffOf binary32 a.2 (.fin false 0) a.1 (.fin false 0))))
  rw [fastAtan2By]
  dsimp only
  rw [if_neg hx.1, if_neg hx.2, if_neg hy.1, if_neg hy.2, lit0]

/-- C141: the output is not determined by the source alone.  Here are two samples for which the demodulator returns different numbers with
and without fusing. -/
theorem C141_differs : ∃ a b : Val × Val, FinC a ∧ FinC b ∧ (∃ v w : Val, v ≠ w ∧ disc (atanBy Expr.fuse) (lift a) (lift b) = datum v ∧
    disc (atanBy Expr.unfused) (lift a) (lift b) = datum w) := by
  refine ⟨(.fin false 1, .fin false 2), (.fin false 1, .fin false 0), ⟨⟨_, _, rfl, by norm_num⟩, ⟨_, _, rfl, by norm_num⟩⟩,
    ⟨⟨_, _, rfl, by norm_num⟩, ⟨_, _, rfl, by norm_num⟩⟩, _, _, ?_, disc_lift _ _ _, disc_lift _ _ _⟩
  decide +kernel

/-- Two samples after a zero state would not do; a state and two samples of magnitude one and two do. -/
example : ∃ pre : Val × Val, ∃ input : List (Val × Val), ∃ output : List Val, FinC pre ∧ (∀ a ∈ input, FinC a) ∧
    input.length = 2 ∧ input.length ≤ output.length ∧
    ∀ i, i < input.length → 3e-15 ≤ ‖step pre input i‖ ∧ ‖step pre input i‖ ≤ 1e38 := by
  refine ⟨(.fin false 1, .fin false 0), [(.fin false 0, .fin true 1), (.fin true 2, .fin false 0)],
    [.nan, .nan], ⟨⟨_, _, rfl, by norm_num⟩, ⟨_, _, rfl, le_refl _⟩⟩, ?_, rfl, le_refl _, ?_⟩
  · intro a ha
    simp only [List.mem_cons, List.not_mem_nil, or_false] at ha
    rcases ha with rfl | rfl <;> exact ⟨⟨_, _, rfl, by norm_num⟩, ⟨_, _, rfl, by norm_num⟩⟩
  · intro i hi
    have hn : ∀ a b : Val × Val, ‖cval a * (starRingEnd ℂ) (cval b)‖ = ‖cval a‖ * ‖cval b‖ := by
      intro a b; rw [norm_mul, RCLike.norm_conj]
    have hi' : i = 0 ∨ i = 1 := by simp only [List.length_cons, List.length_nil] at hi; omega
    rcases hi' with rfl | rfl
    · simp only [step, List.getD_cons_zero]
      rw [hn, norm_cval, norm_cval]
      simp [val_fin]; norm_num
    · simp only [step, List.getD_cons_zero, List.getD_cons_succ]
      rw [hn, norm_cval, norm_cval]
      simp [val_fin]; norm_num

/-- The hypothesis on `ev` holds if everything is fused, and the one on the magnitudes for this sample and state. -/
example : (∀ e : Expr binary32, Expr.Eval e e.fuse) ∧
    3e-15 ≤ ‖step (.fin false 1, .fin false 0) [(.fin false 0, .fin true 3)] 0‖ ∧
    ‖step (.fin false 1, .fin false 0) [(.fin false 0, .fin true 3)] 0‖ ≤ 1e38 := by
  refine ⟨Expr.eval_fuse, ?_⟩
  simp only [step, List.getD_cons_zero, norm_mul, RCLike.norm_conj, norm_cval]
  simp [val_fin]; norm_num

/-- C90 does not hold for all finite samples: two equal samples of magnitude `2^-40` give more than one
radian instead of 0. -/
theorem C90_violated_small : ∃ a : Val × Val, FinC a ∧ cval a ≠ 0 ∧
    1 < val (disc (fastAtan2Go go32) a a) ∧ (cval a * (starRingEnd ℂ) (cval a)).arg = 0 := by
  refine ⟨(.fin false (1 / 2 ^ 40), .fin false 0), ⟨⟨_, _, rfl, by norm_num⟩, ⟨_, _, rfl, le_refl _⟩⟩, ?_, ?_, ?_⟩
  · intro h
    have := congrArg Complex.re h
    simp [cval, val_fin] at this
  · have e : ∃ q : ℚ, disc (fastAtan2Go go32) ((Val.fin false (1 / 2 ^ 40), Val.fin false 0) : Val × Val)
        (.fin false (1 / 2 ^ 40), .fin false 0) = .fin false q ∧ 1 < q := by
      have hc : (match disc (fastAtan2Go go32) ((Val.fin false (1 / 2 ^ 40), Val.fin false 0) : Val × Val)
          (.fin false (1 / 2 ^ 40), .fin false 0) with
          | .fin false q => decide (1 < q) | _ => false) = true := by decide +kernel
      split at hc
      · exact ⟨_, by assumption, by simpa using hc⟩
      · cases hc
    obtain ⟨q, hq, h1⟩ := e
    rw [hq, val_fin]
    have h2 : (1 : ℝ) < q := by exact_mod_cast h1
    simpa using h2
  · rw [Complex.mul_conj, Complex.arg_ofReal_of_nonneg (Complex.normSq_nonneg _)]

/-- The whole turn is needed: here the phase step is just above half a turn downwards and the output is just
below half a turn upwards, because the product underflows. -/
theorem C90_violated_turn : ∃ a b : Val × Val, FinC a ∧ FinC b ∧ 3e-15 ≤ ‖cval a‖ * ‖cval b‖ ∧
    ‖cval a‖ * ‖cval b‖ ≤ 1e38 ∧ 3 < val (disc (fastAtan2Go go32) a b) ∧
    (cval a * (starRingEnd ℂ) (cval b)).arg < 0 := by
  refine ⟨(.fin true 1, .fin true (1 / 2 ^ 140)), (.fin false (1 / 2 ^ 20), .fin false 0),
    ⟨⟨_, _, rfl, by norm_num⟩, ⟨_, _, rfl, by norm_num⟩⟩, ⟨⟨_, _, rfl, by norm_num⟩, ⟨_, _, rfl, le_refl _⟩⟩, ?_, ?_, ?_, ?_⟩
  · rw [norm_cval, norm_cval]
    simp only [val_fin, if_true, Bool.false_eq_true, if_false]
    have h1 : 1 ≤ √((-((1 : ℚ) : ℝ)) ^ 2 + (-((1 / 2 ^ 140 : ℚ) : ℝ)) ^ 2) := by
      apply Real.le_sqrt_of_sq_le; push_cast; norm_num
    have h2 : 9e-7 ≤ √((((1 / 2 ^ 20 : ℚ) : ℝ)) ^ 2 + (((0 : ℚ) : ℝ)) ^ 2) := by
      apply Real.le_sqrt_of_sq_le; push_cast; norm_num
    nlinarith
  · rw [norm_cval, norm_cval]
    simp only [val_fin, if_true, Bool.false_eq_true, if_false]
    have h1 : √((-((1 : ℚ) : ℝ)) ^ 2 + (-((1 / 2 ^ 140 : ℚ) : ℝ)) ^ 2) ≤ 2 := by
      apply Real.sqrt_le_iff.2; constructor
      · norm_num
      · push_cast; norm_num
    have h2 : √((((1 / 2 ^ 20 : ℚ) : ℝ)) ^ 2 + (((0 : ℚ) : ℝ)) ^ 2) ≤ 1 := by
      apply Real.sqrt_le_iff.2; constructor
      · norm_num
      · push_cast; norm_num
    have h3 := Real.sqrt_nonneg ((-((1 : ℚ) : ℝ)) ^ 2 + (-((1 / 2 ^ 140 : ℚ) : ℝ)) ^ 2)
    have h4 := Real.sqrt_nonneg ((((1 / 2 ^ 20 : ℚ) : ℝ)) ^ 2 + (((0 : ℚ) : ℝ)) ^ 2)
    nlinarith
  · have e : ∃ q : ℚ, disc (fastAtan2Go go32) ((Val.fin true 1, Val.fin true (1 / 2 ^ 140)) : Val × Val)
        (.fin false (1 / 2 ^ 20), .fin false 0) = .fin false q ∧ 3 < q := by
      have hc : (match disc (fastAtan2Go go32) ((Val.fin true 1, Val.fin true (1 / 2 ^ 140)) : Val × Val)
          (.fin false (1 / 2 ^ 20), .fin false 0) with
          | .fin false q => decide (3 < q) | _ => false) = true := by decide +kernel
      split at hc
      · exact ⟨_, by assumption, by simpa using hc⟩
      · cases hc
    obtain ⟨q, hq, h1⟩ := e
    rw [hq, val_fin]
    have h2 : (3 : ℝ) < q := by exact_mod_cast h1
    simpa using h2
  · rw [Complex.arg_neg_iff]
    simp [cval, val_fin]

end Verif.Demod
