import Verif.Filt.GainFp
import Verif.Filt.IirFp

/-!
# Property C144: a biquad designed and run in `float64`

The coefficients that a design computes with rounding, run by `BiQuadFilter.Filter` with rounding, against the exact filter of
the exact design: C108 bounds the error of the coefficients, C141 that of the filter run with them; here the effect of the
wrong coefficients on the output is added.
-/

namespace Verif.Filt
open Verif.Conv Verif.Fp Finset

/-! ### How a recurrence of second order amplifies errors -/

theorem gain_real {a0 a1 a2 : ℝ} (h0 : a0 ≠ 0) {p1 p2 : ℂ} (hp1 : ‖p1‖ < 1) (hp2 : ‖p2‖ < 1)
    (e1 : (a1 : ℂ) / a0 = -(p1 + p2)) (e2 : (a2 : ℂ) / a0 = p1 * p2) {e : ℕ → ℝ} {N : ℕ} {δ : ℝ}
    (hδ : ∀ n < N, |a0 * delayed e n 0 + a1 * delayed e n 1 + a2 * delayed e n 2| ≤ |a0| * δ) (n : ℕ) (hn : n < N) :
    |e n| ≤ 1 / (1 - ‖p1‖) / (1 - ‖p2‖) * δ := by
  have hA0 : (a0 : ℂ) ≠ 0 := by exact_mod_cast h0
  let y : Nat → ℂ := fun n => ((e n : ℝ) : ℂ)
  let u : Nat → ℂ := fun n => ((a0 * delayed e n 0 + a1 * delayed e n 1 + a2 * delayed e n 2 : ℝ) : ℂ) / a0
  let v : Nat → ℂ := fun n => y n - p2 * delayed y n 1
  have hu : ∀ n < N, ‖u n‖ ≤ δ := by
    intro n hn
    have h1 := hδ n hn
    simp only [u]
    rw [norm_div, Complex.norm_real, Complex.norm_real, Real.norm_eq_abs, Real.norm_eq_abs, div_le_iff₀ (abs_pos.2 h0)]
    linarith
  have hdy : ∀ n k, ((delayed e n k : ℝ) : ℂ) = delayed y n k := by
    intro n k
    unfold delayed
    split <;> simp [y]
  have hy : ∀ n, y n = u n - (-(p1 + p2)) * delayed y n 1 - (p1 * p2) * delayed y n 2 := by
    intro n
    rw [← e1, ← e2, ← hdy, ← hdy]
    simp only [u]
    rw [show delayed e n 0 = e n by simp [delayed]]
    push_cast
    field_simp
    simp only [y]
    ring
  have hv : ∀ n, v n = u n + p1 * delayed v n 1 := by
    intro n
    have e := hy n
    match n with
    | 0 =>
      simp only [delayed] at e
      simp at e
      simp only [v, delayed]
      simp
      rw [e]
    | 1 =>
      simp only [delayed] at e
      simp at e
      simp only [v, delayed]
      simp
      rw [e]
      ring
    | n + 2 =>
      simp only [delayed] at e
      simp at e
      simp only [v, delayed]
      simp
      rw [e]
      ring
  have b1 := first_order_bound_lt hp1 hu fun n _ => hv n
  have b2 := first_order_bound_lt hp2 (u := v) (v := y) b1 (fun n _ => by simp only [v]; ring) n hn
  simp only [y] at b2
  rw [Complex.norm_real, Real.norm_eq_abs] at b2
  refine b2.trans (le_of_eq ?_)
  ring

/-- Two conjugate poles: the amplification is at most the square of twice the ratio of `a0` to `a0 - a2`. -/
theorem gain_conj {a0 a1 a2 β : ℝ} (h2 : 0 ≤ a2) (hd : a1 ^ 2 ≤ 4 * a0 * a2) (hβ : 0 < β)
    (hβ2 : β * (2 * a0) ≤ a0 - a2) (h0 : 0 < a0) {e : ℕ → ℝ} {N : ℕ} {δ : ℝ}
    (hδ : ∀ n < N, |a0 * delayed e n 0 + a1 * delayed e n 1 + a2 * delayed e n 2| ≤ |a0| * δ) (n : ℕ) (hn : n < N) :
    |e n| ≤ 1 / β ^ 2 * δ := by
  have h0c : (a0 : ℂ) ≠ 0 := by exact_mod_cast h0.ne'
  set D := √(4 * a0 * a2 - a1 ^ 2) with hD
  have hD2 : D ^ 2 = 4 * a0 * a2 - a1 ^ 2 := Real.sq_sqrt (by linarith)
  let p1 : ℂ := ⟨-a1 / (2 * a0), D / (2 * a0)⟩
  let p2 : ℂ := ⟨-a1 / (2 * a0), -(D / (2 * a0))⟩
  have nsq : ∀ s : ℝ, s ^ 2 = (D / (2 * a0)) ^ 2 → (-a1 / (2 * a0)) ^ 2 + s ^ 2 = a2 / a0 := by
    intro s hs
    rw [hs, div_pow, div_pow, ← add_div, hD2]
    field_simp
    ring
  have hr : √(a2 / a0) ≤ 1 - β := by
    rw [Real.sqrt_le_left]
    · rw [div_le_iff₀ h0]
      nlinarith [sq_nonneg β]
    · nlinarith
  have n1 : ‖p1‖ ≤ 1 - β := by
    rw [Complex.norm_eq_sqrt_sq_add_sq, nsq _ rfl]
    exact hr
  have n2 : ‖p2‖ ≤ 1 - β := by
    rw [Complex.norm_eq_sqrt_sq_add_sq, nsq _ (by ring)]
    exact hr
  have key := gain_real (p1 := p1) (p2 := p2) h0.ne' (by linarith) (by linarith) (a1 := a1) (a2 := a2) (by
      rw [div_eq_iff h0c]
      apply Complex.ext
      · simp [p1, p2]
        field_simp
        ring
      · simp [p1, p2]) (by
      rw [div_eq_iff h0c]
      have := nsq _ rfl
      rw [eq_div_iff h0.ne'] at this
      apply Complex.ext
      · simp [p1, p2]
        linarith
      · simp [p1, p2]
        left
        ring) hδ n hn
  have hδ0 : 0 ≤ δ := by
    have := (abs_nonneg _).trans (hδ n hn)
    exact nonneg_of_mul_nonneg_right this (abs_pos.2 h0.ne')
  refine key.trans (mul_le_mul_of_nonneg_right ?_ hδ0)
  rw [div_div, pow_two]
  exact one_div_le_one_div_of_le (by positivity) (mul_le_mul (by linarith) (by linarith) hβ.le (by linarith))

/-- Two poles, with the conditions of Jury: the amplification is at most `1 / κ^2` when `a0 - a2` is at least `2 κ a0` and the
product of the values of the polynomial at 1 and -1 at least the square of that. -/
theorem gain_jury {a0 a1 a2 κ : ℝ} (h0 : 0 < a0) (hκ : 0 < κ) (hd : κ * (2 * a0) ≤ a0 - a2) (hp : 0 < a0 + a1 + a2)
    (hm : 0 < a0 - a1 + a2) (hpm : (κ * (2 * a0)) ^ 2 ≤ (a0 + a1 + a2) * (a0 - a1 + a2)) {e : ℕ → ℝ} {N : ℕ} {δ : ℝ}
    (hδ : ∀ n < N, |a0 * delayed e n 0 + a1 * delayed e n 1 + a2 * delayed e n 2| ≤ |a0| * δ) (n : ℕ) (hn : n < N) :
    |e n| ≤ 1 / κ ^ 2 * δ := by
  by_cases hdisc : a1 ^ 2 ≤ 4 * a0 * a2
  · have h2 : 0 ≤ a2 := by
      by_contra h
      push Not at h
      nlinarith [sq_nonneg a1, mul_pos h0 (neg_pos.2 h)]
    exact gain_conj h2 hdisc hκ hd h0 hδ n hn
  push Not at hdisc
  have h0c : (a0 : ℂ) ≠ 0 := by exact_mod_cast h0.ne'
  set D := √(a1 ^ 2 - 4 * a0 * a2) with hD
  have hD2 : D ^ 2 = a1 ^ 2 - 4 * a0 * a2 := Real.sq_sqrt (by linarith)
  have hD0 : 0 ≤ D := Real.sqrt_nonneg _
  set p1 : ℝ := (-a1 + D) / (2 * a0) with hp1
  set p2 : ℝ := (-a1 - D) / (2 * a0) with hp2
  have hs : a1 = -(p1 + p2) * a0 := by
    rw [hp1, hp2]
    field_simp
    ring
  have hm' : a2 = p1 * p2 * a0 := by
    rw [hp1, hp2]
    field_simp
    linear_combination hD2
  have hle : p2 ≤ p1 := by
    rw [hp1, hp2]
    exact div_le_div_of_nonneg_right (by linarith) (by positivity)
  have e1 : a0 + a1 + a2 = ((1 - p1) * (1 - p2)) * a0 := by rw [hs, hm']; ring
  have e2 : a0 - a1 + a2 = ((1 + p1) * (1 + p2)) * a0 := by rw [hs, hm']; ring
  have q1 : 0 < (1 - p1) * (1 - p2) := by
    rw [e1] at hp
    exact pos_of_mul_pos_left hp h0.le
  have q2 : 0 < (1 + p1) * (1 + p2) := by
    rw [e2] at hm
    exact pos_of_mul_pos_left hm h0.le
  have q3 : p1 * p2 < 1 := by
    have h1 : p1 * p2 * a0 ≤ (1 - 2 * κ) * a0 := by rw [← hm']; linarith
    have := le_of_mul_le_mul_right h1 h0
    linarith
  have b1 : p1 < 1 := by
    by_contra h
    push Not at h
    have h2 : p2 > 1 := by
      by_contra h3
      push Not at h3
      have := mul_nonpos_of_nonpos_of_nonneg (sub_nonpos.2 h) (sub_nonneg.2 h3)
      linarith
    nlinarith
  have b2 : -1 < p2 := by
    by_contra h
    push Not at h
    have h2 : p1 < -1 := by
      by_contra h3
      push Not at h3
      have := mul_nonpos_of_nonneg_of_nonpos (by linarith : 0 ≤ 1 + p1) (by linarith : 1 + p2 ≤ 0)
      linarith
    nlinarith
  have c1 : |p1| < 1 := abs_lt.2 ⟨by linarith, b1⟩
  have c2 : |p2| < 1 := abs_lt.2 ⟨b2, by linarith⟩
  have key := gain_real (p1 := (p1 : ℂ)) (p2 := (p2 : ℂ)) h0.ne' (by rwa [Complex.norm_real]) (by rwa [Complex.norm_real])
    (a1 := a1) (a2 := a2) (by
      rw [div_eq_iff h0c]
      exact_mod_cast hs) (by
      rw [div_eq_iff h0c]
      exact_mod_cast hm') hδ n hn
  rw [Complex.norm_real, Complex.norm_real, Real.norm_eq_abs, Real.norm_eq_abs] at key
  have hδ0 : 0 ≤ δ := by
    have := (abs_nonneg _).trans (hδ n hn)
    exact nonneg_of_mul_nonneg_right this (abs_pos.2 h0.ne')
  refine key.trans (mul_le_mul_of_nonneg_right ?_ hδ0)
  rw [div_div]
  refine one_div_le_one_div_of_le (by positivity) ?_
  have f1 : (2 * κ) ^ 2 ≤ ((1 - p1) * (1 - p2)) * ((1 + p1) * (1 + p2)) := by
    rw [e1, e2] at hpm
    have : (2 * κ) ^ 2 * a0 ^ 2 ≤ ((1 - p1) * (1 - p2)) * ((1 + p1) * (1 + p2)) * a0 ^ 2 := by linarith
    exact le_of_mul_le_mul_right this (by positivity)
  have f2 : ((1 - p1) * (1 - p2)) * ((1 + p1) * (1 + p2)) = ((1 - |p1|) * (1 - |p2|)) * ((1 + |p1|) * (1 + |p2|)) := by
    have := sq_abs p1
    have := sq_abs p2
    calc _ = (1 - p1 ^ 2) * (1 - p2 ^ 2) := by ring
      _ = (1 - |p1| ^ 2) * (1 - |p2| ^ 2) := by rw [sq_abs, sq_abs]
      _ = _ := by ring
  have f3 : (1 + |p1|) * (1 + |p2|) ≤ 2 * 2 := mul_le_mul (by linarith) (by linarith) (by positivity) (by norm_num)
  have f4 : 0 ≤ (1 - |p1|) * (1 - |p2|) := mul_nonneg (by linarith) (by linarith)
  have := mul_le_mul_of_nonneg_left f3 f4
  rw [f2] at f1
  linarith

/-- The same for rational coefficients, as C92 uses it. -/
theorem gain_jury_rat {g : BQ ℚ} {r : ℚ} (h0 : 0 < g.A0) (hr : 0 < r) (hd : (r : ℝ) * (2 * g.A0) ≤ g.A0 - g.A2)
    (hp : (0 : ℝ) < g.A0 + g.A1 + g.A2) (hm : (0 : ℝ) < g.A0 - g.A1 + g.A2)
    (hpm : ((r : ℝ) * (2 * g.A0)) ^ 2 ≤ (g.A0 + g.A1 + g.A2) * (g.A0 - g.A1 + g.A2)) : Gain 3 g.aSeq (1 / r ^ 2) := by
  intro e N δ hδ n hn
  have key := gain_jury (a0 := g.A0) (a1 := g.A1) (a2 := g.A2) (κ := r) (by exact_mod_cast h0) (by exact_mod_cast hr) hd hp hm
    hpm (e := fun n => (e n : ℝ)) (N := N) (δ := δ) (by
      intro n hn
      have h1 := hδ n hn
      simp only [sum_range_succ, sum_range_zero, zero_add, BQ.aSeq, if_true, one_ne_zero, if_false, OfNat.ofNat_ne_zero,
        OfNat.ofNat_ne_one] at h1
      have hc : ∀ k, delayed (fun n => (e n : ℝ)) n k = ((delayed e n k : ℚ) : ℝ) := by
        intro k
        unfold delayed
        split <;> simp
      rw [hc, hc, hc]
      exact_mod_cast h1) n hn
  have : ((|e n| : ℚ) : ℝ) ≤ ((1 / r ^ 2 * δ : ℚ) : ℝ) := by
    push_cast
    exact key
  exact_mod_cast this

/-! ### The effect of wrong coefficients -/

theorem delayed_cast (x : ℕ → ℚ) (n k : ℕ) : delayed (fun i => (x i : ℝ)) n k = ((delayed x n k : ℚ) : ℝ) := by
  unfold delayed
  split <;> simp

theorem delayed_le {x : ℕ → ℝ} {X : ℝ} {N n : ℕ} (hX : 0 ≤ X) (hx : ∀ i < N, |x i| ≤ X) (hn : n < N) (k : ℕ) :
    |delayed x n k| ≤ X := by
  unfold delayed
  split
  · exact hx _ (by omega)
  · simpa using hX

theorem mul_abs_le {a b A B : ℝ} (h1 : |a| ≤ A) (h2 : |b| ≤ B) : |a * b| ≤ A * B := by
  rw [abs_mul]
  exact mul_le_mul h1 h2 (abs_nonneg _) ((abs_nonneg _).trans h1)

/-- What is asked of an exact design: it is stable with some room (`κ`, and 512 times the error `ε` of the coefficients), and `S`
bounds its numerator. -/
structure Margins (G : BQ ℝ) (ε κ S : ℝ) : Prop where
  lead : 2 ^ 9 * ε ≤ G.A0
  pos : 0 < G.A0
  low : 1 / 2 ^ 20 ≤ κ
  diff : κ * (2 * G.A0) ≤ G.A0 - G.A2
  diffε : 2 ^ 9 * ε ≤ G.A0 - G.A2
  plus : 0 < G.A0 + G.A1 + G.A2
  plusε : 2 ^ 9 * ε ≤ G.A0 + G.A1 + G.A2
  minus : 0 < G.A0 - G.A1 + G.A2
  minusε : 2 ^ 9 * ε ≤ G.A0 - G.A1 + G.A2
  prod : (κ * (2 * G.A0)) ^ 2 ≤ (G.A0 + G.A1 + G.A2) * (G.A0 - G.A1 + G.A2)
  one_le : 1 ≤ S
  le_big : S ≤ 2 ^ 20
  num : |G.B0| + |G.B1| + |G.B2| ≤ S * G.A0

/-- The difference of the solutions of two difference equations whose coefficients are within `ε`. -/
theorem solutions_near {G F : BQ ℝ} {N : ℕ} {x y y' : ℕ → ℝ} {ε X Y κ S : ℝ} (hG : Margins G ε κ S) (hX : 0 ≤ X) (hY : 0 ≤ Y)
    (b0 : |F.B0 - G.B0| ≤ ε) (b1 : |F.B1 - G.B1| ≤ ε) (b2 : |F.B2 - G.B2| ≤ ε)
    (a0 : |F.A0 - G.A0| ≤ ε) (a1 : |F.A1 - G.A1| ≤ ε) (a2 : |F.A2 - G.A2| ≤ ε)
    (hx : ∀ i < N, |x i| ≤ X) (hy' : ∀ i < N, |y' i| ≤ Y) (h : Recurrence 3 N G.bSeq G.aSeq x y)
    (h' : Recurrence 3 N F.bSeq F.aSeq x y') (n : ℕ) (hn : n < N) :
    |y' n - y n| ≤ 1 / κ ^ 2 * (3 * (ε / G.A0) * (X + Y)) := by
  refine gain_jury (a0 := G.A0) (a1 := G.A1) (a2 := G.A2) (κ := κ) (e := fun n => y' n - y n) (N := N)
    (δ := 3 * (ε / G.A0) * (X + Y)) hG.pos (lt_of_lt_of_le (by norm_num) hG.low) hG.diff hG.plus hG.minus hG.prod ?_ n hn
  intro n hn
  have e1 := h n hn
  have e2 := h' n hn
  simp only [sum_range_succ, sum_range_zero, zero_add, BQ.aSeq, BQ.bSeq, if_true, one_ne_zero, if_false,
    OfNat.ofNat_ne_zero, OfNat.ofNat_ne_one] at e1 e2
  have hs : ∀ k, delayed (fun n => y' n - y n) n k = delayed y' n k - delayed y n k := by
    intro k
    unfold delayed
    split <;> simp
  rw [hs, hs, hs]
  have e3 : G.A0 * (delayed y' n 0 - delayed y n 0) + G.A1 * (delayed y' n 1 - delayed y n 1) +
      G.A2 * (delayed y' n 2 - delayed y n 2) =
      ((F.B0 - G.B0) * delayed x n 0 + (F.B1 - G.B1) * delayed x n 1 + (F.B2 - G.B2) * delayed x n 2) -
      ((F.A0 - G.A0) * delayed y' n 0 + (F.A1 - G.A1) * delayed y' n 1 + (F.A2 - G.A2) * delayed y' n 2) := by
    linear_combination e2 - e1
  rw [e3]
  have p0 := abs_le.1 (mul_abs_le b0 (delayed_le hX hx hn 0))
  have p1 := abs_le.1 (mul_abs_le b1 (delayed_le hX hx hn 1))
  have p2 := abs_le.1 (mul_abs_le b2 (delayed_le hX hx hn 2))
  have q0 := abs_le.1 (mul_abs_le a0 (delayed_le hY hy' hn 0))
  have q1 := abs_le.1 (mul_abs_le a1 (delayed_le hY hy' hn 1))
  have q2 := abs_le.1 (mul_abs_le a2 (delayed_le hY hy' hn 2))
  have r : |G.A0| * (3 * (ε / G.A0) * (X + Y)) = 3 * ε * (X + Y) := by
    rw [abs_of_pos hG.pos]
    have := hG.pos.ne'
    field_simp
  rw [r]
  refine abs_le.2 ⟨?_, ?_⟩ <;> linarith [p0.1, p0.2]

/-- The values of the coefficients, as a filter at rest. -/
def BQ.rats (f : BQ (FVal binary64)) : BQ ℚ :=
  ⟨Val.toRat f.B0, Val.toRat f.B1, Val.toRat f.B2, Val.toRat f.A0, Val.toRat f.A1, Val.toRat f.A2, 0, 0, 0, 0⟩

/-- Coefficients near those of a design: how much the filter amplifies errors, and sizes. -/
theorem design_gain {F : BQ (FVal binary64)} {G : BQ ℝ} {ε κ S : ℝ} (hN : CoeffsNear F G ε) (hM : Margins G ε κ S) :
    0 < F.rats.A0 ∧ (|F.rats.A1 / F.rats.A0| + |F.rats.A2 / F.rats.A0| ≤ 31 / 10) ∧
    ∃ SB : ℚ, (|F.rats.B0 / F.rats.A0| + |F.rats.B1 / F.rats.A0| + |F.rats.B2 / F.rats.A0| ≤ SB) ∧ 1 ≤ SB ∧ (SB : ℝ) ≤ 1.02 * S ∧
    ∃ H : ℚ, Gain 3 F.rats.aSeq H ∧ 1 ≤ H ∧ H ≤ 2 ^ 41 ∧ (H : ℝ) ≤ 1.0323 / κ ^ 2 := by
  obtain ⟨⟨f1, b0⟩, ⟨f2, b1⟩, ⟨f3, b2⟩, ⟨f4, a0⟩, ⟨f5, a1⟩, ⟨f6, a2⟩⟩ := hN
  obtain ⟨m1, m2, m3, m4, m5, m6, m7, m8, m9, m10, m11, m12, m13⟩ := hM
  have hε0 : 0 ≤ ε := (abs_nonneg _).trans b0
  have hκ0 : 0 < κ := lt_of_lt_of_le (by norm_num) m3
  obtain ⟨r, r1, r2⟩ := exists_rat_btwn (show 63 / 64 * κ < 127 / 128 * κ by linarith)
  have hr0 : (0 : ℝ) < r := by linarith
  have hrq : 0 < r := by exact_mod_cast hr0
  obtain ⟨SB, S1, S2⟩ := exists_rat_btwn (show 1.01 * S < 1.02 * S by linarith)
  have A0 := abs_le.1 a0
  have A1 := abs_le.1 a1
  have A2 := abs_le.1 a2
  set g := F.rats with hg
  have w0 : (g.A0 : ℝ) = val F.A0 := rfl
  have w1 : (g.A1 : ℝ) = val F.A1 := rfl
  have w2 : (g.A2 : ℝ) = val F.A2 := rfl
  have v0 : (g.B0 : ℝ) = val F.B0 := rfl
  have v1 : (g.B1 : ℝ) = val F.B1 := rfl
  have v2 : (g.B2 : ℝ) = val F.B2 := rfl
  have lead : 511 / 512 * G.A0 ≤ g.A0 := by rw [w0]; linarith
  have lead' : g.A0 ≤ 513 / 512 * G.A0 := by rw [w0]; linarith
  have hA0 : (0 : ℝ) < g.A0 := by linarith
  have hA0' : 0 < g.A0 := by exact_mod_cast hA0
  have pl : 509 / 512 * (G.A0 + G.A1 + G.A2) ≤ g.A0 + g.A1 + g.A2 := by rw [w0, w1, w2]; linarith
  have mi : 509 / 512 * (G.A0 - G.A1 + G.A2) ≤ g.A0 - g.A1 + g.A2 := by rw [w0, w1, w2]; linarith
  have ra : (r : ℝ) * (2 * g.A0) ≤ 509 / 512 * (κ * (2 * G.A0)) := by
    have : (r : ℝ) * (2 * g.A0) ≤ (127 / 128 * κ) * (2 * (513 / 512 * G.A0)) :=
      mul_le_mul r2.le (by linarith) (by linarith) (by positivity)
    have : 0 < κ * G.A0 := by positivity
    linarith
  have hG : Gain 3 g.aSeq (1 / r ^ 2) := by
    refine gain_jury_rat hA0' hrq ?_ (by linarith) (by linarith) ?_
    · rw [w2]
      rw [w0] at ra ⊢
      linarith
    · calc ((r : ℝ) * (2 * g.A0)) ^ 2 ≤ (509 / 512 * (κ * (2 * G.A0))) ^ 2 := pow_le_pow_left₀ (by positivity) ra 2
        _ = (509 / 512) ^ 2 * (κ * (2 * G.A0)) ^ 2 := by ring
        _ ≤ (509 / 512) ^ 2 * ((G.A0 + G.A1 + G.A2) * (G.A0 - G.A1 + G.A2)) := by linarith
        _ = (509 / 512 * (G.A0 + G.A1 + G.A2)) * (509 / 512 * (G.A0 - G.A1 + G.A2)) := by ring
        _ ≤ _ := mul_le_mul pl mi (by linarith) (by linarith)
  set H : ℚ := 1 / r ^ 2 with hH
  have rlow : (63 / 64 * (1 / 2 ^ 20) : ℚ) ≤ r := by
    have : ((63 / 64 * (1 / 2 ^ 20) : ℚ) : ℝ) ≤ r := by push_cast; linarith
    exact_mod_cast this
  have Hhigh : H ≤ 2 ^ 41 := by
    rw [hH, div_le_iff₀ (by positivity)]
    have : (63 / 64 * (1 / 2 ^ 20) : ℚ) ^ 2 ≤ r ^ 2 := pow_le_pow_left₀ (by norm_num) rlow 2
    norm_num at this ⊢
    linarith
  have absnear : ∀ {v w : ℝ}, |v - w| ≤ ε → |v| ≤ |w| + ε := by
    intro v w h
    have := abs_sub_abs_le_abs_sub v w
    linarith
  have hSB : |g.B0 / g.A0| + |g.B1 / g.A0| + |g.B2 / g.A0| ≤ SB := by
    rw [abs_div, abs_div, abs_div, abs_of_pos hA0', ← add_div, ← add_div, div_le_iff₀ hA0']
    have : ((|g.B0| + |g.B1| + |g.B2| : ℚ) : ℝ) ≤ ((SB * g.A0 : ℚ) : ℝ) := by
      push_cast
      rw [v0, v1, v2]
      have i1 : 1.01 * S * (511 / 512 * G.A0) ≤ SB * g.A0 := mul_le_mul S1.le lead (by positivity) (by linarith)
      have i2 : G.A0 ≤ S * G.A0 := by
        have := mul_le_mul_of_nonneg_right m11 m2.le
        linarith
      linarith [absnear b0, absnear b1, absnear b2]
    exact_mod_cast this
  have hSA : |g.A1 / g.A0| + |g.A2 / g.A0| ≤ 31 / 10 := by
    rw [abs_div, abs_div, abs_of_pos hA0', ← add_div, div_le_iff₀ hA0']
    have : ((|g.A1| + |g.A2| : ℚ) : ℝ) ≤ ((31 / 10 * g.A0 : ℚ) : ℝ) := by
      push_cast
      rw [w1, w2]
      have k0 : 0 < κ * G.A0 := by positivity
      have i1 : |G.A1| ≤ G.A0 + G.A2 := abs_le.2 ⟨by linarith, by linarith⟩
      have i2 : |G.A2| ≤ G.A0 := abs_le.2 ⟨by linarith, by linarith⟩
      linarith [absnear a1, absnear a2, abs_le.1 i2]
    exact_mod_cast this
  have HR : (H : ℝ) ≤ 1.0323 / κ ^ 2 := by
    rw [hH]
    push_cast
    rw [div_le_div_iff₀ (by positivity) (by positivity)]
    have : (63 / 64 * κ) ^ 2 ≤ (r : ℝ) ^ 2 := pow_le_pow_left₀ (by positivity) r1.le 2
    have : 0 < κ ^ 2 := by positivity
    nlinarith
  refine ⟨hA0', hSA, SB, hSB, ?_, S2.le, H, hG, gain_one (by norm_num) hG, Hhigh, HR⟩
  have : ((1 : ℚ) : ℝ) ≤ SB := by push_cast; linarith
  exact_mod_cast this

/-- The sum of the two errors. -/
theorem design_total {H X e κ S SB : ℝ} (he0 : 0 ≤ e) (hκ0 : 0 < κ) (hκ1 : κ ≤ 1) (HR : H ≤ 1.0323 / κ ^ 2) (HL : 1 ≤ H)
    (h1 : 1 ≤ SB) (hS : SB ≤ 1.02 * S) (XR : 0 < X) :
    24 * (1 / 2 ^ 53) * H * (1 + 31 / 10 * H) * (SB * X) + 1 / κ ^ 2 * (3 * e * (X + H * SB * X)) ≤
      (S / 2 ^ 46 + 4 * e * (1 + S)) / κ ^ 4 * X := by
  set P := 1 / κ ^ 2 with hP
  have hP1 : 1 ≤ P := by
    rw [hP, le_div_iff₀ (by positivity)]
    nlinarith
  have e1 : (S / 2 ^ 46 + 4 * e * (1 + S)) / κ ^ 4 * X = (S / 2 ^ 46 + 4 * e * (1 + S)) * (P * P * X) := by
    rw [hP]
    field_simp
  have e3 : H ≤ 1.0323 * P := HR.trans (le_of_eq (by rw [hP]; ring))
  rw [e1]
  have s1 : H * (1 + 31 / 10 * H) ≤ (1.0323 * P) * (41 / 10 * (1.0323 * P)) :=
    mul_le_mul e3 (by linarith) (by linarith) (by positivity)
  have s2 : H * (1 + 31 / 10 * H) * (SB * X) ≤ (1.0323 * P) * (41 / 10 * (1.0323 * P)) * (1.02 * S * X) :=
    mul_le_mul s1 (mul_le_mul_of_nonneg_right hS XR.le) (by positivity) (by positivity)
  have s3 : H * SB ≤ 1.0323 * P * (1.02 * S) := mul_le_mul e3 hS (by linarith) (by positivity)
  have s4 : 1 + H * SB ≤ P * (1 + 1.06 * S) := by
    have : 0 ≤ P * S := mul_nonneg (by linarith) (by linarith)
    linarith
  have s5 := mul_le_mul_of_nonneg_left s4 (show 0 ≤ P * (3 * e * X) by positivity)
  have t1 : 0 ≤ P * P * X := by positivity
  have t2 : 0 ≤ S * (P * P * X) := mul_nonneg (by linarith) t1
  have t3 : 0 ≤ e * (P * P * X) := by positivity
  have t4 : 0 ≤ e * (S * (P * P * X)) := by positivity
  linarith

/-- C144: running the filter `F` of `float64` coefficients, from rest, over samples of magnitude at most `X`, whatever products
are fused at each sample, returns finite samples that differ from the output of the real difference equation with the
coefficients `G` by at most `E X`. -/
def RunsNear (F : BQ (FVal binary64)) (G : BQ ℝ) (E : ℝ) : Prop :=
  ∀ ev : ℕ → Expr binary64 → FVal binary64, (∀ i e, Expr.Eval e (ev i e)) →
  ∀ (m : ℕ → FVal binary64) (input output : Slice), OutputOk input output →
  ∀ (x : ℕ → ℚ) (X : ℚ), 1 / 2 ^ 180 ≤ X → X ≤ 2 ^ 180 → (∀ i < input.len, Is (m (input.base + i)) (x i) ∧ |x i| ≤ X) →
  ∀ y : ℕ → ℝ, (∀ n < input.len, G.A0 * delayed y n 0 + G.A1 * delayed y n 1 + G.A2 * delayed y n 2 =
    G.B0 * delayed (fun i => (x i : ℝ)) n 0 + G.B1 * delayed (fun i => (x i : ℝ)) n 1 +
      G.B2 * delayed (fun i => (x i : ℝ)) n 2) →
  ∃ m' h, F.filterBy ev m input output = some (m', h) ∧ ∀ i < input.len, ∃ z, Is (m' (output.base + i)) z ∧
    |(z : ℝ) - y i| ≤ E * X

/-- C144: coefficients computed within `ε` of an exact design that is stable with some room. -/
theorem C144_run {F : BQ (FVal binary64)} {G : BQ ℝ} {ε κ S : ℝ} (hN : CoeffsNear F G ε) (hM : Margins G ε κ S)
    (rest : F.prevIn0 = 0 ∧ F.prevIn1 = 0 ∧ F.prevOut0 = 0 ∧ F.prevOut1 = 0) :
    RunsNear F G ((S / 2 ^ 46 + 4 * (ε / G.A0) * (1 + S)) / κ ^ 4) := by
  intro ev hev m input output hio x X hX1 hX2 hx y hy0
  have hy : Recurrence 3 input.len G.bSeq G.aSeq (fun i => (x i : ℝ)) y := by
    intro n hn
    simpa [sum_range_succ, BQ.aSeq, BQ.bSeq] using hy0 n hn
  obtain ⟨hA0, hSA, SB, hSB, SB1, SB2, H, hG, Hlow, Hhigh, HR⟩ := design_gain hN hM
  obtain ⟨⟨f1, b0⟩, ⟨f2, b1⟩, ⟨f3, b2⟩, ⟨f4, a0⟩, ⟨f5, a1⟩, ⟨f6, a2⟩⟩ := hN
  have hε0 : 0 ≤ ε := (abs_nonneg _).trans b0
  have hκ0 : 0 < κ := lt_of_lt_of_le (by norm_num) hM.low
  have hκ1 : κ ≤ 1 := by
    have h1 : κ * (2 * G.A0) ≤ 1 * (2 * G.A0) := by linarith [hM.diff, hM.plus, hM.minus]
    exact le_of_mul_le_mul_right h1 (by linarith [hM.pos])
  have hX0 : 0 < X := lt_of_lt_of_le (by norm_num) hX1
  have SB3 : SB ≤ 2 ^ 21 := by
    have : (SB : ℝ) ≤ ((2 ^ 21 : ℚ) : ℝ) := by push_cast; linarith [hM.le_big]
    exact_mod_cast this
  set g := F.rats with hg
  have hy1 := g.out_recurrence ⟨rfl, rfl, rfl, rfl⟩ hA0.ne' x input.len
  set y1 := g.out x with hy1e
  have hxa : ∀ i < input.len, |x i| ≤ X := fun i hi => (hx i hi).2
  have y1le := solution_le hG (by simpa [BQ.aSeq] using hA0.ne') hX0.le hxa (by
    simpa [sum_range_succ, BQ.aSeq, BQ.bSeq] using hSB) hy1
  have ew : (2 : ℚ) ^ binary64.emin ≤ 1 / 2 ^ 250 := by
    have : (2 : ℚ) ^ binary64.emin ≤ 2 ^ (-250 : ℤ) := zpow_le_zpow_right₀ (by norm_num) (by decide)
    refine this.trans (le_of_eq ?_)
    norm_num
  have ew0 : (0 : ℚ) < 2 ^ binary64.emin := by positivity
  have eb : (2 : ℚ) ^ 250 ≤ 2 ^ binary64.emax := by
    have : (2 : ℚ) ^ (250 : ℤ) ≤ 2 ^ binary64.emax := zpow_le_zpow_right₀ (by norm_num) (by decide)
    exact_mod_cast this
  have eu : (2 : ℚ) ^ (-(binary64.p : ℤ)) = 1 / 2 ^ 53 := by
    show (2 : ℚ) ^ (-(53 : ℤ)) = _
    norm_num
  have hSBX : X ≤ SB * X := by
    have := mul_le_mul_of_nonneg_right SB1 hX0.le
    linarith
  have hHX : H * (SB * X) ≤ 2 ^ 41 * (SB * X) := mul_le_mul_of_nonneg_right Hhigh (by positivity)
  have hSX : SB * X ≤ 2 ^ 21 * 2 ^ 180 := mul_le_mul SB3 hX2 hX0.le (by norm_num)
  obtain ⟨m', h', e, hall⟩ := C141_biquad_partial hev F g ⟨⟨f1, rfl⟩, ⟨f2, rfl⟩, ⟨f3, rfl⟩, ⟨f4, rfl⟩, ⟨f5, rfl⟩, ⟨f6, rfl⟩,
    rest.1, rest.2.1, rest.2.2.1, rest.2.2.2⟩ hA0.ne' m input output hio x y1 X SB (31 / 10) H hX0.le hx hSB hSA hG
    (by rw [eu]; linarith) (by
      have i1 : (2 : ℚ) ^ binary64.emin * (X + H * SB * X + 1) ≤ 1 / 2 ^ 250 * (SB * X + 2 ^ 41 * (SB * X) + 1) := by
        refine mul_le_mul ew ?_ (by positivity) (by positivity)
        linarith
      linarith) (by linarith) hy1
  refine ⟨m', h', e, fun i hi => ?_⟩
  obtain ⟨z, hz1, hz2⟩ := hall i hi
  refine ⟨z, hz1, ?_⟩
  have step1 : |(z : ℝ) - y1 i| ≤ 24 * (1 / 2 ^ 53) * H * (1 + 31 / 10 * H) * (SB * X) := by
    rw [eu] at hz2
    have : ((|z - y1 i| : ℚ) : ℝ) ≤ ((24 * (1 / 2 ^ 53) * H * (1 + 31 / 10 * H) * (SB * X) : ℚ) : ℝ) := Rat.cast_le.2 hz2
    push_cast at this
    exact this
  have hy1R : Recurrence 3 input.len g.real.bSeq g.real.aSeq (fun i => (x i : ℝ)) (fun i => (y1 i : ℝ)) := by
    intro n hn
    have := hy1 n hn
    simp only [sum_range_succ, sum_range_zero, zero_add, BQ.aSeq, BQ.bSeq, if_true, one_ne_zero, if_false,
      OfNat.ofNat_ne_zero, OfNat.ofNat_ne_one, delayed_cast, BQ.real] at this ⊢
    exact_mod_cast this
  have step2 := solutions_near (G := G) (F := g.real) (X := (X : ℝ)) (Y := ((H * SB * X : ℚ) : ℝ)) hM
    (by exact_mod_cast hX0.le) (by exact_mod_cast (by positivity : 0 ≤ H * SB * X)) b0 b1 b2 a0 a1 a2
    (fun i hi => by exact_mod_cast hxa i hi) (fun i hi => by exact_mod_cast y1le i hi) hy hy1R i hi
  have tri : |(z : ℝ) - y i| ≤ |(z : ℝ) - y1 i| + |(y1 i : ℝ) - y i| := by
    rw [show (z : ℝ) - y i = (z - y1 i) + (y1 i - y i) by ring]
    exact abs_add_le _ _
  refine tri.trans ((add_le_add step1 step2).trans ?_)
  push_cast
  exact design_total (div_nonneg hε0 hM.pos.le) hκ0 hκ1 HR (by exact_mod_cast Hlow) (by exact_mod_cast SB1) SB2
    (by exact_mod_cast hX0)

theorem RunsNear.mono {F : BQ (FVal binary64)} {G : BQ ℝ} {E E' : ℝ} (h : RunsNear F G E) (hE : E ≤ E') : RunsNear F G E' := by
  intro ev hev m input output hio x X hX1 hX2 hx y hy
  obtain ⟨m', h', e, hall⟩ := h ev hev m input output hio x X hX1 hX2 hx y hy
  refine ⟨m', h', e, fun i hi => ?_⟩
  obtain ⟨z, z1, z2⟩ := hall i hi
  have hX0 : (0 : ℝ) ≤ X := by exact_mod_cast (lt_of_lt_of_le (by norm_num) hX1 : (0 : ℚ) < X).le
  exact ⟨z, z1, z2.trans (mul_le_mul_of_nonneg_right hE hX0)⟩

/-! ### The designs with a quality factor -/

theorem quality_margins {G : BQ ℝ} {α s c ε S : ℝ} (g0 : G.A0 = 1 + α) (g1 : G.A1 = -2 * c) (g2 : G.A2 = 1 - α) (hs : 0 < s)
    (hsc : s ^ 2 + c ^ 2 = 1) (hα : 0 < α) (hε : 2 ^ 9 * ε ≤ (min α s) ^ 2) (hlow : 1 + α ≤ 2 ^ 20 * min α s) (S1 : 1 ≤ S)
    (S2 : S ≤ 2 ^ 20) (gb : |G.B0| + |G.B1| + |G.B2| ≤ S * (1 + α)) : Margins G ε (min α s / (1 + α)) S := by
  set μ := min α s with hμ
  have u1 : μ ≤ α := min_le_left _ _
  have u2 : μ ≤ s := min_le_right _ _
  have u0 : 0 < μ := lt_min hα hs
  have s1 : s ≤ 1 := by nlinarith [sq_nonneg c]
  have v1 : μ ^ 2 ≤ μ := by nlinarith
  have v2 : μ ^ 2 ≤ s ^ 2 := pow_le_pow_left₀ u0.le u2 2
  have c1 : |c| ≤ 1 := by
    rw [← sq_le_one_iff_abs_le_one]
    nlinarith
  have c2 := abs_le.1 c1
  have c3 : s ^ 2 ≤ 2 - 2 * c := by nlinarith
  have c4 : s ^ 2 ≤ 2 + 2 * c := by nlinarith
  have hs2 : 0 < s ^ 2 := by positivity
  have e : μ / (1 + α) * (2 * (1 + α)) = 2 * μ := by field_simp
  constructor
  · rw [g0]; linarith
  · rw [g0]; linarith
  · rw [div_le_div_iff₀ (by norm_num) (by linarith)]; linarith
  · rw [g0, g2, e]; linarith
  · rw [g0, g2]; linarith
  · rw [g0, g1, g2]; linarith
  · rw [g0, g1, g2]; linarith
  · rw [g0, g1, g2]; linarith
  · rw [g0, g1, g2]; linarith
  · rw [g0, g1, g2, e]
    have : (1 + α + -2 * c + (1 - α)) * (1 + α - -2 * c + (1 - α)) = 4 * s ^ 2 := by linear_combination (-4) * hsc
    rw [this]
    nlinarith
  · exact S1
  · exact S2
  · rw [g0]; exact gb

/-- The amplification of a design with quality factor. -/
theorem quality_low {α s r R : ℝ} (hr : 1 ≤ r) (hμ : r / 2 ^ 36 ≤ (min α s) ^ 2) (hα : 0 < α) (hs : 0 < s) (hR : α ≤ R * s)
    (hR2 : R ≤ 2 ^ 19) : 1 + α ≤ 2 ^ 20 * min α s := by
  have u0 : 0 < min α s := lt_min hα hs
  have h1 : 1 / 2 ^ 18 ≤ min α s := by
    by_contra h
    push Not at h
    have := pow_lt_pow_left₀ h u0.le (two_ne_zero)
    norm_num at this hμ
    linarith
  rcases min_cases α s with ⟨e, -⟩ | ⟨e, -⟩
  · rw [e] at h1 ⊢
    norm_num at h1 ⊢
    linarith
  · rw [e] at h1 ⊢
    have := mul_le_mul_of_nonneg_right hR2 hs.le
    norm_num at h1 ⊢
    linarith

theorem over_pow (x a b : ℝ) : x / (a / b) ^ 4 = x * (b / a) ^ 4 := by
  rw [div_eq_mul_inv, ← inv_pow, inv_div]

theorem runs_quality {F : BQ (FVal binary64)} {G : BQ ℝ} {w q : ℝ} (hN : CoeffsNear F G ((1 + 1 / q) / 2 ^ 45))
    (rest : F.prevIn0 = 0 ∧ F.prevIn1 = 0 ∧ F.prevOut0 = 0 ∧ F.prevOut1 = 0) (hq : 1 / 2 ^ 10 ≤ q)
    (g0 : G.A0 = 1 + Real.sin w / (2 * q)) (g1 : G.A1 = -2 * Real.cos w) (g2 : G.A2 = 1 - Real.sin w / (2 * q))
    (gb : ∀ s c α : ℝ, s = Real.sin w → c = Real.cos w → α = Real.sin w / (2 * q) → 0 ≤ α → |s| ≤ 1 → |c| ≤ 1 →
      |G.B0| + |G.B1| + |G.B2| ≤ 4 * (1 + α)) (hs : 0 < Real.sin w)
    (hμ : (1 + 1 / q) / 2 ^ 36 ≤ (min (Real.sin w / (2 * q)) (Real.sin w)) ^ 2) :
    RunsNear F G ((1 + 1 / q) * ((1 + Real.sin w / (2 * q)) / min (Real.sin w / (2 * q)) (Real.sin w)) ^ 4 / 2 ^ 40) := by
  have hq0 : 0 < q := lt_of_lt_of_le (by norm_num) hq
  have hi0 : 0 < 1 / q := by positivity
  have hi : 1 / q ≤ 2 ^ 10 := by rw [div_le_iff₀ hq0]; norm_num at hq ⊢; linarith
  have hα0 : 0 < Real.sin w / (2 * q) := by positivity
  have ha : Real.sin w / (2 * q) = (1 / q / 2) * Real.sin w := by field_simp
  have hb := gb _ _ _ rfl rfl rfl hα0.le (Real.abs_sin_le_one w) (Real.abs_cos_le_one w)
  have hlow := quality_low (r := 1 + 1 / q) (by linarith) hμ hα0 hs (le_of_eq ha) (by linarith)
  have hu0 : 0 < min (Real.sin w / (2 * q)) (Real.sin w) := lt_min hα0 hs
  have hM := quality_margins (ε := (1 + 1 / q) / 2 ^ 45) g0 g1 g2 hs (Real.sin_sq_add_cos_sq w) hα0 (by linarith) hlow
    (by norm_num : (1 : ℝ) ≤ 4) (by norm_num) hb
  refine (C144_run hN hM rest).mono ?_
  have e : (1 + 1 / q) / 2 ^ 45 / G.A0 ≤ (1 + 1 / q) / 2 ^ 45 := div_le_self (by positivity) (by rw [g0]; linarith)
  rw [over_pow, mul_div_right_comm]
  exact mul_le_mul_of_nonneg_right (by linarith) (by positivity)

/-- C144, low-pass: with `α = sin(w0)/(2 q)` and `μ` the smaller of `α` and `sin(w0)`. -/
theorem C144_low_pass {sin cos sqrt pow} {η : ℝ} (hη : η ≤ 1 / 2 ^ 50) (hT : Dft.Trig cos sin 4 η)
    {fs f q : FVal binary64} (h : FreqOk64 20 fs f) (hq : QOk q) {s α μ : ℝ} (hs : s = Real.sin (2 * Real.pi * val f / val fs))
    (hα : α = s / (2 * val q)) (hm : μ = min α s) (hs0 : 0 < s) (hμ : (1 + 1 / val q) / 2 ^ 36 ≤ μ ^ 2) :
    RunsNear ((lib64 sin cos sqrt pow).lowPass fs f q) (newLowPass (val fs) (val f) (val q))
      ((1 + 1 / val q) * ((1 + α) / μ) ^ 4 / 2 ^ 40) := by
  subst hm hα hs
  refine runs_quality (C108_near_low_pass hη hT h hq) ⟨rfl, rfl, rfl, rfl⟩ hq.low rfl rfl rfl ?_ hs0 hμ
  · intro s c α hse hce hae ha0 hs hc
    have c2 := abs_le.1 hc
    simp only [newLowPass, bq]
    rw [← hce, abs_of_nonneg (by linarith), abs_of_nonneg (by linarith)]
    linarith

/-- C144, high-pass: with `α = sin(w0)/(2 q)` and `μ` the smaller of `α` and `sin(w0)`. -/
theorem C144_high_pass {sin cos sqrt pow} {η : ℝ} (hη : η ≤ 1 / 2 ^ 50) (hT : Dft.Trig cos sin 4 η)
    {fs f q : FVal binary64} (h : FreqOk64 20 fs f) (hq : QOk q) {s α μ : ℝ} (hs : s = Real.sin (2 * Real.pi * val f / val fs))
    (hα : α = s / (2 * val q)) (hm : μ = min α s) (hs0 : 0 < s) (hμ : (1 + 1 / val q) / 2 ^ 36 ≤ μ ^ 2) :
    RunsNear ((lib64 sin cos sqrt pow).highPass fs f q) (newHighPass (val fs) (val f) (val q))
      ((1 + 1 / val q) * ((1 + α) / μ) ^ 4 / 2 ^ 40) := by
  subst hm hα hs
  refine runs_quality (C108_near_high_pass hη hT h hq) ⟨rfl, rfl, rfl, rfl⟩ hq.low rfl rfl rfl ?_ hs0 hμ
  · intro s c α hse hce hae ha0 hs hc
    have c2 := abs_le.1 hc
    simp only [newHighPass, bq]
    rw [← hce, abs_neg, abs_of_nonneg (by linarith), abs_of_nonneg (by linarith)]
    linarith

/-- C144, band-pass with constant skirt gain: with `α = sin(w0)/(2 q)` and `μ` the smaller of `α` and `sin(w0)`. -/
theorem C144_band_pass_skirt {sin cos sqrt pow} {η : ℝ} (hη : η ≤ 1 / 2 ^ 50) (hT : Dft.Trig cos sin 4 η)
    {fs f q : FVal binary64} (h : FreqOk64 20 fs f) (hq : QOk q) {s α μ : ℝ} (hs : s = Real.sin (2 * Real.pi * val f / val fs))
    (hα : α = s / (2 * val q)) (hm : μ = min α s) (hs0 : 0 < s) (hμ : (1 + 1 / val q) / 2 ^ 36 ≤ μ ^ 2) :
    RunsNear ((lib64 sin cos sqrt pow).bandPassSkirt fs f q) (newBandPassSkirt (val fs) (val f) (val q))
      ((1 + 1 / val q) * ((1 + α) / μ) ^ 4 / 2 ^ 40) := by
  subst hm hα hs
  refine runs_quality (C108_near_band_pass_skirt hη hT h hq) ⟨rfl, rfl, rfl, rfl⟩ hq.low rfl rfl rfl ?_ hs0 hμ
  · intro s c α hse hce hae ha0 hs hc
    simp only [newBandPassSkirt, bq]
    rw [← hse, neg_div, abs_neg, abs_zero, abs_div, abs_two]
    linarith

/-- C144, band-pass with constant peak gain: with `α = sin(w0)/(2 q)` and `μ` the smaller of `α` and `sin(w0)`. -/
theorem C144_band_pass_peak {sin cos sqrt pow} {η : ℝ} (hη : η ≤ 1 / 2 ^ 50) (hT : Dft.Trig cos sin 4 η)
    {fs f q : FVal binary64} (h : FreqOk64 20 fs f) (hq : QOk q) {s α μ : ℝ} (hs : s = Real.sin (2 * Real.pi * val f / val fs))
    (hα : α = s / (2 * val q)) (hm : μ = min α s) (hs0 : 0 < s) (hμ : (1 + 1 / val q) / 2 ^ 36 ≤ μ ^ 2) :
    RunsNear ((lib64 sin cos sqrt pow).bandPassPeak fs f q) (newBandPassPeak (val fs) (val f) (val q))
      ((1 + 1 / val q) * ((1 + α) / μ) ^ 4 / 2 ^ 40) := by
  subst hm hα hs
  refine runs_quality (C108_near_band_pass_peak hη hT h hq) ⟨rfl, rfl, rfl, rfl⟩ hq.low rfl rfl rfl ?_ hs0 hμ
  · intro s c α hse hce hae ha0 hs hc
    simp only [newBandPassPeak, bq]
    rw [← hae, abs_neg, abs_zero, abs_of_nonneg ha0]
    linarith

/-- C144, notch: with `α = sin(w0)/(2 q)` and `μ` the smaller of `α` and `sin(w0)`. -/
theorem C144_notch {sin cos sqrt pow} {η : ℝ} (hη : η ≤ 1 / 2 ^ 50) (hT : Dft.Trig cos sin 4 η)
    {fs f q : FVal binary64} (h : FreqOk64 20 fs f) (hq : QOk q) {s α μ : ℝ} (hs : s = Real.sin (2 * Real.pi * val f / val fs))
    (hα : α = s / (2 * val q)) (hm : μ = min α s) (hs0 : 0 < s) (hμ : (1 + 1 / val q) / 2 ^ 36 ≤ μ ^ 2) :
    RunsNear ((lib64 sin cos sqrt pow).notch fs f q) (newNotch (val fs) (val f) (val q))
      ((1 + 1 / val q) * ((1 + α) / μ) ^ 4 / 2 ^ 40) := by
  subst hm hα hs
  refine runs_quality (C108_near_notch hη hT h hq) ⟨rfl, rfl, rfl, rfl⟩ hq.low rfl rfl rfl ?_ hs0 hμ
  · intro s c α hse hce hae ha0 hs hc
    simp only [newNotch, bq]
    rw [← hce, abs_mul, abs_neg, abs_two, abs_one]
    linarith

/-- C144, all-pass: with `α = sin(w0)/(2 q)` and `μ` the smaller of `α` and `sin(w0)`. -/
theorem C144_all_pass {sin cos sqrt pow} {η : ℝ} (hη : η ≤ 1 / 2 ^ 50) (hT : Dft.Trig cos sin 4 η)
    {fs f q : FVal binary64} (h : FreqOk64 20 fs f) (hq : QOk q) {s α μ : ℝ} (hs : s = Real.sin (2 * Real.pi * val f / val fs))
    (hα : α = s / (2 * val q)) (hm : μ = min α s) (hs0 : 0 < s) (hμ : (1 + 1 / val q) / 2 ^ 36 ≤ μ ^ 2) :
    RunsNear ((lib64 sin cos sqrt pow).allPass fs f q) (newAllPass (val fs) (val f) (val q))
      ((1 + 1 / val q) * ((1 + α) / μ) ^ 4 / 2 ^ 40) := by
  subst hm hα hs
  refine runs_quality (C108_near_all_pass hη hT h hq) ⟨rfl, rfl, rfl, rfl⟩ hq.low rfl rfl rfl ?_ hs0 hμ
  · intro s c α hse hce hae ha0 hs hc
    simp only [newAllPass, bq]
    rw [← hce, ← hae, abs_mul, abs_neg, abs_two, abs_of_nonneg (by linarith : 0 ≤ 1 + α)]
    have : |1 - α| ≤ 1 + α := abs_le.2 ⟨by linarith, by linarith⟩
    linarith

/-! ### Peaking and shelves -/

theorem gain_size {d : ℝ} (h : |d| ≤ 40) : 1 / 10 ≤ (10 : ℝ) ^ (d / 40) ∧ (10 : ℝ) ^ (d / 40) ≤ 10 := by
  have h2 := abs_le.1 h
  constructor
  · have := Real.rpow_le_rpow_of_exponent_le (by norm_num : (1 : ℝ) ≤ 10) (show (-1 : ℝ) ≤ d / 40 by linarith)
    rw [Real.rpow_neg_one] at this
    rw [one_div]
    exact this
  · have := Real.rpow_le_rpow_of_exponent_le (by norm_num : (1 : ℝ) ≤ 10) (show d / 40 ≤ 1 by linarith)
    rwa [Real.rpow_one] at this

/-- C144, peaking equaliser, whichever products are fused in its design: with `a` the amplitude, `α = sin(w0)/(2 q a)` and `μ` the
smaller of `α` and `sin(w0)`. -/
theorem C144_peaking {sin cos sqrt pow} {η δ : ℝ} (hη : η ≤ 1 / 2 ^ 50) (hT : Dft.Trig cos sin 4 η) (hp : PowWithin pow δ)
    (hδ0 : 0 ≤ δ) (hδ : δ ≤ 1 / 2 ^ 40) {fs f q dB : FVal binary64} (h : FreqOk64 20 fs f) (hq : QOk q) (hg : GainOk dB)
    {F : BQ (FVal binary64)} (hF : PeakingBy (lib64 sin cos sqrt pow) fs f q dB F)
    (rest : F.prevIn0 = 0 ∧ F.prevIn1 = 0 ∧ F.prevOut0 = 0 ∧ F.prevOut1 = 0) {s a α μ ε : ℝ}
    (hs : s = Real.sin (2 * Real.pi * val f / val fs)) (ha : a = (10 : ℝ) ^ (val dB / 40)) (hα : α = s / (2 * val q) / a)
    (hm : μ = min α s) (hs0 : 0 < s) (hε : ε = 2 ^ 8 * (δ + 1 / 2 ^ 46) * (1 + 1 / val q)) (hμ : 2 ^ 9 * ε ≤ μ ^ 2) :
    RunsNear F (newPeaking (val fs) (val f) (val q) (val dB)) (2 ^ 5 * ε * (1 + a ^ 2) * ((1 + α) / μ) ^ 4) := by
  have hN := C143_peaking hη hT hp hδ0 hδ h hq hg hF
  rw [← hε] at hN
  obtain ⟨a1, a2⟩ := gain_size hg.size
  rw [← ha] at a1 a2
  have hq0 : 0 < val q := lt_of_lt_of_le (by norm_num) hq.low
  have hi0 : 0 < 1 / val q := by positivity
  have hi : 1 / val q ≤ 2 ^ 10 := by
    have := hq.low
    rw [div_le_iff₀ hq0]; norm_num at this ⊢; linarith
  have hα0 : 0 < α := by rw [hα]; positivity
  have hae : α = (1 / val q / 2 / a) * s := by rw [hα]; field_simp
  have hR : 1 / val q / 2 / a ≤ 2 ^ 19 := by
    rw [div_le_iff₀ (by linarith)]
    linarith
  have ε1 : 1 / 2 ^ 38 ≤ ε := by
    rw [hε]
    nlinarith
  have hlow : 1 + α ≤ 2 ^ 20 * μ := by
    rw [hm]
    refine quality_low (r := 1) le_rfl ?_ hα0 hs0 (le_of_eq hae) hR
    rw [← hm]
    linarith
  have hu0 : 0 < μ := by rw [hm]; exact lt_min hα0 hs0
  have e0 : (newPeaking (val fs) (val f) (val q) (val dB)).A0 = 1 + α := by rw [hα, hs, ha]; rfl
  have hM : Margins (newPeaking (val fs) (val f) (val q) (val dB)) ε (min α s / (1 + α)) (4 * (1 + a ^ 2)) := by
    refine quality_margins (c := Real.cos (2 * Real.pi * val f / val fs)) e0 rfl (by rw [hα, hs, ha]; rfl) hs0
      (by rw [hs]; exact Real.sin_sq_add_cos_sq _) hα0 (by rw [← hm]; exact hμ) (by rw [← hm]; exact hlow)
      (by nlinarith) (by nlinarith) ?_
    simp only [newPeaking, bq]
    rw [← hs, ← ha, show s / (2 * val q) * a = α * a ^ 2 by rw [hα]; field_simp, abs_mul, abs_neg, abs_two]
    have c1 := Real.abs_cos_le_one (2 * Real.pi * val f / val fs)
    have p : 0 ≤ α * a ^ 2 := by positivity
    have p1 : |1 + α * a ^ 2| = 1 + α * a ^ 2 := abs_of_nonneg (by linarith)
    have p2 : |1 - α * a ^ 2| ≤ 1 + α * a ^ 2 := abs_le.2 ⟨by linarith, by linarith⟩
    have p3 : 0 ≤ a ^ 2 := sq_nonneg a
    linarith
  rw [← hm] at hM
  refine (C144_run hN hM rest).mono ?_
  have e : ε / (newPeaking (val fs) (val f) (val q) (val dB)).A0 ≤ ε := div_le_self (by linarith) (by rw [e0]; linarith)
  rw [over_pow]
  refine mul_le_mul_of_nonneg_right ?_ (by positivity)
  have p3 : 0 ≤ a ^ 2 := sq_nonneg a
  have q1 := mul_le_mul_of_nonneg_right e (by linarith : 0 ≤ 1 + 4 * (1 + a ^ 2))
  have q2 := mul_le_mul_of_nonneg_right ε1 (by linarith : 0 ≤ 1 + a ^ 2)
  have q3 : 0 ≤ ε * a ^ 2 := mul_nonneg (by linarith) p3
  linarith

/-- The exact shelves: `P = a(1+c) + (1-c)` is the half sum of the outer coefficients of the denominator, `Q` that of the numerator over
`a` (or the other way round for the high shelf, where `c` has the other sign), `T` the half difference. -/
theorem shelf_margins {G : BQ ℝ} {a c s T ε : ℝ} (ha1 : 1 / 10 ≤ a) (ha2 : a ≤ 10) (hs : 0 < s) (hsc : s ^ 2 + c ^ 2 = 1)
    (hT : √(2 * a) * s ≤ T) (hT2 : T ≤ 2 ^ 9) (hε1 : 1 / 2 ^ 32 ≤ ε) (hε : 2 ^ 14 * ε ≤ s ^ 2)
    (g0 : G.A0 = a * (1 + c) + (1 - c) + T) (g2 : G.A2 = a * (1 + c) + (1 - c) - T)
    (hpm : (G.A0 + G.A1 + G.A2) * (G.A0 - G.A1 + G.A2) = 16 * a * s ^ 2)
    (hp : (G.A0 + G.A1 + G.A2 = 4 * (1 - c) ∧ G.A0 - G.A1 + G.A2 = 4 * a * (1 + c)) ∨
      (G.A0 + G.A1 + G.A2 = 4 * a * (1 + c) ∧ G.A0 - G.A1 + G.A2 = 4 * (1 - c)))
    (b0 : |G.B0| ≤ a * (a * (1 - c) + (1 + c) + T)) (b1 : |G.B1| ≤ 2 * a * (a * (1 - c) + (1 + c)))
    (b2 : |G.B2| ≤ a * (a * (1 - c) + (1 + c) + T)) :
    Margins G ε (√(2 * a) * s / G.A0) (4 * (1 + a ^ 2)) := by
  have ha0 : 0 < a := by linarith
  have s1 : s ≤ 1 := by nlinarith [sq_nonneg c]
  have c1 : |c| ≤ 1 := by
    rw [← sq_le_one_iff_abs_le_one]
    nlinarith
  have c2 := abs_le.1 c1
  have c3 : s ^ 2 ≤ 2 * (1 - c) := by nlinarith
  have c4 : s ^ 2 ≤ 2 * (1 + c) := by nlinarith
  have hs2 : 0 < s ^ 2 := by positivity
  have c5 : s ^ 2 / 20 ≤ a * (1 + c) := by nlinarith
  have sle : s ^ 2 ≤ s := by nlinarith
  have slow : 1 / 2 ^ 9 ≤ s := by
    by_contra h
    push Not at h
    have := pow_lt_pow_left₀ h hs.le two_ne_zero
    norm_num at this hε1 hε
    linarith
  have r1 : 2 / 5 ≤ √(2 * a) := Real.le_sqrt_of_sq_le (by linarith)
  have r2 : √(2 * a) ^ 2 = 2 * a := Real.sq_sqrt (by linarith)
  have r3 : 2 / 5 * s ≤ √(2 * a) * s := mul_le_mul_of_nonneg_right r1 hs.le
  have T0 : 0 < T := by linarith
  have asq0 : 0 ≤ a ^ 2 := sq_nonneg a
  have asq : a ^ 2 ≤ 10 ^ 2 := pow_le_pow_left₀ ha0.le ha2 2
  have A0p : 0 < G.A0 := by rw [g0]; linarith
  have e : √(2 * a) * s / G.A0 * (2 * G.A0) = 2 * (√(2 * a) * s) := by field_simp
  have A0b : G.A0 ≤ 2 ^ 9 + 2 ^ 5 := by
    rw [g0]
    nlinarith
  have hD : G.A0 - G.A2 = 2 * T := by rw [g0, g2]; ring
  have main : 0 < G.A0 + G.A1 + G.A2 ∧ 2 ^ 9 * ε ≤ G.A0 + G.A1 + G.A2 ∧ 0 < G.A0 - G.A1 + G.A2 ∧
      2 ^ 9 * ε ≤ G.A0 - G.A1 + G.A2 := by
    rcases hp with ⟨h1, h2⟩ | ⟨h1, h2⟩
    · rw [h1, h2]
      refine ⟨?_, ?_, ?_, ?_⟩ <;> linarith
    · rw [h1, h2]
      refine ⟨?_, ?_, ?_, ?_⟩ <;> linarith
  obtain ⟨k1, k2, k3, k4⟩ := main
  constructor
  · rw [g0]; linarith
  · exact A0p
  · rw [div_le_div_iff₀ (by norm_num) A0p]
    linarith
  · rw [e, hD]; linarith
  · rw [hD]; linarith
  · exact k1
  · exact k2
  · exact k3
  · exact k4
  · rw [e, hpm, mul_pow, mul_pow, r2]
    have : 0 < a * s ^ 2 := by positivity
    linarith
  · linarith
  · linarith
  · -- the numerator
    have n1 : a * (a * (1 - c) + (1 + c)) ≤ (1 + a ^ 2) * (a * (1 + c) + (1 - c)) := by
      have d1 : 0 ≤ 1 - c := by linarith
      have d2 : 0 ≤ 1 + c := by linarith
      have d3 : 0 ≤ a ^ 3 * (1 + c) := by positivity
      linarith
    have n2 : a * T ≤ (1 + a ^ 2) * T := mul_le_mul_of_nonneg_right (by nlinarith [sq_nonneg (a - 1)]) T0.le
    have n3 : 0 ≤ (1 + a ^ 2) * T := by positivity
    rw [g0]
    linarith

/-- The numbers in a shelf. -/
theorem shelf_T {a s σ : ℝ} (ha1 : 1 / 10 ≤ a) (ha2 : a ≤ 10) (hs : 0 < s) (hs1 : s ≤ 1) (hσ1 : 1 / 2 ^ 10 ≤ σ) (hσ2 : σ ≤ 1) :
    √(2 * a) * s ≤ 2 * √a * (s / 2 * √((a + 1 / a) * (1 / σ - 1) + 2)) ∧
      2 * √a * (s / 2 * √((a + 1 / a) * (1 / σ - 1) + 2)) ≤ 2 ^ 9 := by
  have ha0 : 0 < a := by linarith
  have hσ0 : 0 < σ := lt_of_lt_of_le (by norm_num) hσ1
  have h1 : 1 ≤ 1 / σ := by rw [le_div_iff₀ hσ0]; linarith
  have h2 : 1 / σ ≤ 2 ^ 10 := by rw [div_le_iff₀ hσ0]; norm_num at hσ1 ⊢; linarith
  have h3 : 0 < 1 / a := by positivity
  have h4 : 1 / a ≤ 10 := by rw [div_le_iff₀ ha0]; linarith
  have e : 2 * √a * (s / 2 * √((a + 1 / a) * (1 / σ - 1) + 2)) = √a * √((a + 1 / a) * (1 / σ - 1) + 2) * s := by ring
  have p : 0 ≤ (a + 1 / a) * (1 / σ - 1) := mul_nonneg (by linarith) (by linarith)
  rw [e]
  constructor
  · refine mul_le_mul_of_nonneg_right ?_ hs.le
    rw [mul_comm 2 a, Real.sqrt_mul ha0.le]
    exact mul_le_mul_of_nonneg_left (Real.sqrt_le_sqrt (by linarith)) (Real.sqrt_nonneg _)
  · have q1 : √a ≤ 3.2 := by
      rw [Real.sqrt_le_left (by norm_num)]
      linarith
    have q2 : √((a + 1 / a) * (1 / σ - 1) + 2) ≤ 144 := by
      rw [Real.sqrt_le_left (by norm_num)]
      have : (a + 1 / a) * (1 / σ - 1) ≤ 20 * (2 ^ 10 - 1) := mul_le_mul (by linarith) (by linarith) (by linarith) (by norm_num)
      linarith
    have q3 := mul_le_mul q1 q2 (Real.sqrt_nonneg _) (by norm_num)
    have q4 := mul_le_mul q3 hs1 hs.le (by norm_num)
    linarith

theorem shelf_bound {a s ε A0 : ℝ} (ha : 0 < a) (hs : 0 < s) (hε : 0 ≤ ε) (hA : 0 < A0) :
    (4 * (1 + a ^ 2) / 2 ^ 46 + 4 * (ε / A0) * (1 + 4 * (1 + a ^ 2))) / (√(2 * a) * s / A0) ^ 4 ≤
      (1 + a ^ 2) * (1 / 2 ^ 46 + 5 * ε / A0) * A0 ^ 4 / (a ^ 2 * s ^ 4) := by
  have r : √(2 * a) ^ 4 = 4 * a ^ 2 := by
    rw [show √(2 * a) ^ 4 = (√(2 * a) ^ 2) ^ 2 by ring, Real.sq_sqrt (by linarith)]
    ring
  have e1 : (√(2 * a) * s / A0) ^ 4 = 4 * (a ^ 2 * s ^ 4 / A0 ^ 4) := by rw [div_pow, mul_pow, r]; ring
  have e2 : (1 + a ^ 2) * (1 / 2 ^ 46 + 5 * ε / A0) * A0 ^ 4 / (a ^ 2 * s ^ 4) =
      (1 + a ^ 2) * (1 / 2 ^ 46 + 5 * (ε / A0)) / (a ^ 2 * s ^ 4 / A0 ^ 4) := by
    field_simp
  rw [e1, e2, ← div_div]
  refine div_le_div_of_nonneg_right ?_ (by positivity)
  have h1 : 0 ≤ ε / A0 := by positivity
  have h2 : 0 ≤ ε / A0 * a ^ 2 := by positivity
  linarith

open Real in
/-- C144, low shelf, whichever products are fused in its design: with `a` the amplitude, `s = sin(w0)` and `A0` the exact leading
coefficient. -/
theorem C144_low_shelf {sin cos sqrt pow} {η δ : ℝ} (hη : η ≤ 1 / 2 ^ 50) (hT : Dft.Trig cos sin 4 η) (hp : PowWithin pow δ)
    (hδ0 : 0 ≤ δ) (hδ : δ ≤ 1 / 2 ^ 40) (hsq : SqrtOk sqrt) {fs f slope dB X : FVal binary64} (h : FreqOk64 10 fs f)
    (hsl : ShelfOk slope) (hg : GainOk dB) {F : BQ (FVal binary64)} (hF : LowShelfBy (lib64 sin cos sqrt pow) fs f slope dB X F)
    (rest : F.prevIn0 = 0 ∧ F.prevIn1 = 0 ∧ F.prevOut0 = 0 ∧ F.prevOut1 = 0) {s a ε A0 : ℝ}
    (hs : s = Real.sin (2 * π * val f / val fs)) (ha : a = (10 : ℝ) ^ (val dB / 40)) (hs0 : 0 < s)
    (hε : ε = 2 ^ 14 * (δ + 1 / 2 ^ 46) / val slope) (hsmall : 2 ^ 14 * ε ≤ s ^ 2)
    (hA0 : A0 = (newLowShelf (val fs) (val f) (val slope) (val dB)).A0) :
    RunsNear F (newLowShelf (val fs) (val f) (val slope) (val dB))
      ((1 + a ^ 2) * (1 / 2 ^ 46 + 5 * ε / A0) * A0 ^ 4 / (a ^ 2 * s ^ 4)) := by
  have hN := C143_low_shelf hη hT hp hδ0 hδ hsq h hsl hg hF
  rw [← hε] at hN
  obtain ⟨a1, a2⟩ := gain_size hg.size
  rw [← ha] at a1 a2
  have hsl0 : 0 < val slope := lt_of_lt_of_le (by norm_num) hsl.low
  have ε1 : 1 / 2 ^ 32 ≤ ε := by
    rw [hε, le_div_iff₀ hsl0]
    linarith [hsl.high]
  obtain ⟨t1, t2⟩ := shelf_T a1 a2 hs0 (by rw [hs]; exact Real.sin_le_one _) hsl.low hsl.high
  set T := 2 * √a * (s / 2 * √((a + 1 / a) * (1 / val slope - 1) + 2)) with hTd
  set c := Real.cos (2 * π * val f / val fs) with hc
  have hsc : s ^ 2 + c ^ 2 = 1 := by rw [hs, hc]; exact Real.sin_sq_add_cos_sq _
  have hcab := abs_le.1 (Real.abs_cos_le_one (2 * π * val f / val fs))
  rw [← hc] at hcab
  have hT0 : 0 ≤ T := le_trans (by positivity) t1
  have eG : newLowShelf (val fs) (val f) (val slope) (val dB) =
      bq (a * ((a + 1) - (a - 1) * c + T)) (2 * a * ((a - 1) - (a + 1) * c)) (a * ((a + 1) - (a - 1) * c - T))
        ((a + 1) + (a - 1) * c + T) (-2 * ((a - 1) + (a + 1) * c)) ((a + 1) + (a - 1) * c - T) := by
    rw [hTd, ha, hs]
    rfl
  have ha0 : 0 < a := by linarith
  have w : 0 ≤ a * (1 - c) := mul_nonneg ha0.le (by linarith)
  have hM : Margins (newLowShelf (val fs) (val f) (val slope) (val dB)) ε (√(2 * a) * s / A0) (4 * (1 + a ^ 2)) := by
    rw [hA0]
    refine shelf_margins (c := c) (T := T) a1 a2 hs0 hsc t1 t2 ε1 hsmall ?_ ?_ ?_ ?_ ?_ ?_ ?_
    · rw [eG]; simp only [bq]; ring
    · rw [eG]; simp only [bq]; ring
    · rw [eG]; simp only [bq]; linear_combination (-16 * a) * hsc
    · left
      rw [eG]; simp only [bq]; constructor <;> ring
    · rw [eG]; simp only [bq]
      rw [abs_mul, abs_of_pos ha0]
      exact mul_le_mul_of_nonneg_left (abs_le.2 ⟨by linarith, by linarith⟩) ha0.le
    · rw [eG]; simp only [bq]
      rw [abs_mul, abs_of_pos (by linarith : 0 < 2 * a)]
      exact mul_le_mul_of_nonneg_left (abs_le.2 ⟨by linarith, by linarith⟩) (by linarith)
    · rw [eG]; simp only [bq]
      rw [abs_mul, abs_of_pos ha0]
      exact mul_le_mul_of_nonneg_left (abs_le.2 ⟨by linarith, by linarith⟩) ha0.le
  refine (C144_run hN hM rest).mono ?_
  rw [← hA0]
  have hA0p : 0 < A0 := by rw [hA0]; exact hM.pos
  exact shelf_bound ha0 hs0 (by linarith) hA0p

open Real in
/-- C144, high shelf, whichever products are fused in its design: with `a` the amplitude, `s = sin(w0)` and `A0` the exact leading
coefficient. -/
theorem C144_high_shelf {sin cos sqrt pow} {η δ : ℝ} (hη : η ≤ 1 / 2 ^ 50) (hT : Dft.Trig cos sin 4 η) (hp : PowWithin pow δ)
    (hδ0 : 0 ≤ δ) (hδ : δ ≤ 1 / 2 ^ 40) (hsq : SqrtOk sqrt) {fs f slope dB X : FVal binary64} (h : FreqOk64 10 fs f)
    (hsl : ShelfOk slope) (hg : GainOk dB) {F : BQ (FVal binary64)} (hF : HighShelfBy (lib64 sin cos sqrt pow) fs f slope dB X F)
    (rest : F.prevIn0 = 0 ∧ F.prevIn1 = 0 ∧ F.prevOut0 = 0 ∧ F.prevOut1 = 0) {s a ε A0 : ℝ}
    (hs : s = Real.sin (2 * π * val f / val fs)) (ha : a = (10 : ℝ) ^ (val dB / 40)) (hs0 : 0 < s)
    (hε : ε = 2 ^ 14 * (δ + 1 / 2 ^ 46) / val slope) (hsmall : 2 ^ 14 * ε ≤ s ^ 2)
    (hA0 : A0 = (newHighShelf (val fs) (val f) (val slope) (val dB)).A0) :
    RunsNear F (newHighShelf (val fs) (val f) (val slope) (val dB))
      ((1 + a ^ 2) * (1 / 2 ^ 46 + 5 * ε / A0) * A0 ^ 4 / (a ^ 2 * s ^ 4)) := by
  have hN := C143_high_shelf hη hT hp hδ0 hδ hsq h hsl hg hF
  rw [← hε] at hN
  obtain ⟨a1, a2⟩ := gain_size hg.size
  rw [← ha] at a1 a2
  have hsl0 : 0 < val slope := lt_of_lt_of_le (by norm_num) hsl.low
  have ε1 : 1 / 2 ^ 32 ≤ ε := by
    rw [hε, le_div_iff₀ hsl0]
    linarith [hsl.high]
  obtain ⟨t1, t2⟩ := shelf_T a1 a2 hs0 (by rw [hs]; exact Real.sin_le_one _) hsl.low hsl.high
  set T := 2 * √a * (s / 2 * √((a + 1 / a) * (1 / val slope - 1) + 2)) with hTd
  set c := Real.cos (2 * π * val f / val fs) with hc
  have hsc : s ^ 2 + c ^ 2 = 1 := by rw [hs, hc]; exact Real.sin_sq_add_cos_sq _
  have hcab := abs_le.1 (Real.abs_cos_le_one (2 * π * val f / val fs))
  rw [← hc] at hcab
  have hT0 : 0 ≤ T := le_trans (by positivity) t1
  have eG : newHighShelf (val fs) (val f) (val slope) (val dB) =
      bq (a * ((a + 1) + (a - 1) * c + T)) (-2 * a * ((a - 1) + (a + 1) * c)) (a * ((a + 1) + (a - 1) * c - T))
        ((a + 1) - (a - 1) * c + T) (2 * ((a - 1) - (a + 1) * c)) ((a + 1) - (a - 1) * c - T) := by
    rw [hTd, ha, hs]
    rfl
  have ha0 : 0 < a := by linarith
  have w : 0 ≤ a * (1 + c) := mul_nonneg ha0.le (by linarith)
  have hM : Margins (newHighShelf (val fs) (val f) (val slope) (val dB)) ε (√(2 * a) * s / A0) (4 * (1 + a ^ 2)) := by
    rw [hA0]
    refine shelf_margins (c := -c) (T := T) a1 a2 hs0 (by rw [neg_sq]; exact hsc) t1 t2 ε1 hsmall ?_ ?_ ?_ ?_ ?_ ?_ ?_
    · rw [eG]; simp only [bq]; ring
    · rw [eG]; simp only [bq]; ring
    · rw [eG]; simp only [bq]; linear_combination (-16 * a) * hsc
    · right
      rw [eG]; simp only [bq]; constructor <;> ring
    · rw [eG]; simp only [bq]
      rw [abs_mul, abs_of_pos ha0]
      exact mul_le_mul_of_nonneg_left (abs_le.2 ⟨by linarith, by linarith⟩) ha0.le
    · rw [eG]; simp only [bq]
      rw [show -2 * a * (a - 1 + (a + 1) * c) = -(2 * a * (a - 1 + (a + 1) * c)) by ring, abs_neg, abs_mul,
        abs_of_pos (by linarith : 0 < 2 * a)]
      exact mul_le_mul_of_nonneg_left (abs_le.2 ⟨by linarith, by linarith⟩) (by linarith)
    · rw [eG]; simp only [bq]
      rw [abs_mul, abs_of_pos ha0]
      exact mul_le_mul_of_nonneg_left (abs_le.2 ⟨by linarith, by linarith⟩) ha0.le
  refine (C144_run hN hM rest).mono ?_
  rw [← hA0]
  have hA0p : 0 < A0 := by rw [hA0]; exact hM.pos
  exact shelf_bound ha0 hs0 (by linarith) hA0p

/-- A quarter of the sample rate, quality factor one: `α = 1/2` meets the condition on `μ`, and the output is within `2^-32` of the
largest sample. -/
example : FreqOk64 20 (ofInt binary64 48000) (ofInt binary64 12000) ∧ FreqOk64 10 (ofInt binary64 48000) (ofInt binary64 12000) ∧
    QOk (ofInt binary64 1) ∧ ShelfOk (ofInt binary64 1) ∧ GainOk (ofInt binary64 20) ∧
    Real.sin (2 * Real.pi * val (ofInt binary64 12000) / val (ofInt binary64 48000)) = 1 ∧
    min ((1 : ℝ) / (2 * val (ofInt binary64 1))) 1 = 1 / 2 ∧ (1 + 1 / val (ofInt binary64 1)) / 2 ^ 36 ≤ (1 / 2 : ℝ) ^ 2 ∧
    (1 + 1 / val (ofInt binary64 1)) * ((1 + 1 / 2) / (1 / 2 : ℝ)) ^ 4 / 2 ^ 40 ≤ 1 / 2 ^ 32 ∧
    2 ^ 9 * (2 ^ 8 * (1 / 2 ^ 50 + 1 / 2 ^ 46) * (1 + 1 / val (ofInt binary64 1))) ≤ (1 / 20 : ℝ) ^ 2 ∧
    2 ^ 14 * (2 ^ 14 * (1 / 2 ^ 50 + 1 / 2 ^ 46) / val (ofInt binary64 1)) ≤ (1 : ℝ) ^ 2 := by
  obtain ⟨a1, a2⟩ := val_ofInt64 (n := 48000) (by norm_num)
  obtain ⟨b1, b2⟩ := val_ofInt64 (n := 12000) (by norm_num)
  obtain ⟨c1, c2⟩ := val_ofInt64 (n := 1) (by norm_num)
  obtain ⟨d1, d2⟩ := val_ofInt64 (n := 20) (by norm_num)
  push_cast at a2 b2 c2 d2
  refine ⟨⟨⟨a1, b1⟩, ?_, ?_, ?_, ?_⟩, ⟨⟨a1, b1⟩, ?_, ?_, ?_, ?_⟩, ⟨c1, ?_, ?_, ?_⟩, ⟨c1, ?_, ?_⟩, ⟨d1, ?_⟩, ?_, ?_, ?_, ?_, ?_, ?_⟩
  all_goals try (simp only [a2, b2, c2, d2]; norm_num)
  · rw [(is_ofInt64 (n := 1) (by norm_num)).2]
    exact ⟨1, 0, by decide, by decide, by norm_num⟩
  · rw [show 2 * Real.pi * 12000 / 48000 = Real.pi / 2 by ring, Real.sin_pi_div_two]

/-- Samples, a number `X` and an exact output that meet what `RunsNear` asks: a unit step of any length. -/
example (G : BQ ℝ) (h : G.A0 ≠ 0) (N : ℕ) : (∀ i < N, Is (ofInt binary64 1) 1 ∧ |(1 : ℚ)| ≤ 1) ∧
    OutputOk ⟨0, N⟩ ⟨N, N⟩ ∧
    ∃ y : ℕ → ℝ, ∀ n < N, G.A0 * delayed y n 0 + G.A1 * delayed y n 1 + G.A2 * delayed y n 2 =
      G.B0 * delayed (fun _ => (((1 : ℚ)) : ℝ)) n 0 + G.B1 * delayed (fun _ => ((1 : ℚ) : ℝ)) n 1 +
        G.B2 * delayed (fun _ => ((1 : ℚ) : ℝ)) n 2 := by
  refine ⟨fun i _ => ⟨is_ofInt64 (n := 1) (by norm_num), by norm_num⟩, by constructor <;> simp,
    BQ.out { G with prevIn0 := 0, prevIn1 := 0, prevOut0 := 0, prevOut1 := 0 } (fun _ => ((1 : ℚ) : ℝ)), fun n hn => ?_⟩
  have := BQ.out_recurrence { G with prevIn0 := 0, prevIn1 := 0, prevOut0 := 0, prevOut1 := 0 } ⟨rfl, rfl, rfl, rfl⟩ h
    (fun _ => ((1 : ℚ) : ℝ)) N n hn
  simpa [sum_range_succ, BQ.aSeq, BQ.bSeq] using this

end Verif.Filt
