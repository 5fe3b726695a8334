import Verif.Ax25.EarBall

/-!
# The computed part of C139

For a block of 36 samples at 44100 Hz, `m` of one tone and the rest of the other, the numbers `P` and `Q` below determine the two bins.  Here
bounds for `|X₁|² - |X₂|²` and `|X₁|² + |X₂|²` are computed for all `m` and for 80 phases at the change.
-/

namespace Verif.Ax25.Ear

open Complex Ball

/-- Enclosure of `e^{i e unit}`. -/
def pw (e : Int) : Ball := if 0 ≤ e then pow root e.toNat else conj (pow root (-e).toNat)

/-- Enclosures of `1 + ρ + … + ρ^(36-i)` with `ρ = e^{i e unit}`, for `i = 0, …, 37`. -/
def tab (e : Int) : List Ball := (geoUp (pw e) 37).1

/-- `D ± 2 |E|` is at most `4 h / 100`. -/
def under (D : Int) (E : Ball) (h : Int) : Bool :=
  let r := h * 40000000000 - D
  decide (0 ≤ r ∧ 4 * ((|E.re| + E.err) ^ 2 + (|E.im| + E.err) ^ 2) ≤ r ^ 2)

/-- The bounds `lo` and `hi` for one block. -/
def blockOk (P1 Q1 P2 Q2 : Ball) (lo hi : Int) : Bool :=
  let p1 := mul P1 (conj P1)
  let q1 := mul Q1 (conj Q1)
  let p2 := mul P2 (conj P2)
  let q2 := mul Q2 (conj Q2)
  let e1 := mul P1 (conj Q1)
  let e2 := mul P2 (conj Q2)
  let err := p1.err + q1.err + p2.err + q2.err
  let D := p1.re + q1.re - p2.re - q2.re
  let N := p1.re + q1.re + p2.re + q2.re
  under (D + err) (sub e1 e2) hi && under (-D + err) (sub e1 e2) (-lo) && under (N + err) (add e1 e2) 36500

/-- The sums `Σ_{l<36-m} ρ^l` and `Σ_{1≤l≤m} ρ^l` from a table. -/
def part (t : List Ball) (m : Nat) : Ball := t.getD (m + 1) one

@[inherit_doc part]
def rest (t : List Ball) (m : Nat) : Ball := sub (t.getD (36 - m) one) one

/-- One block: `m` samples of tone `a`, then tone `b`, with the extra phase `e` there.  The tables are those of `192 - 196 k`, `192 + 196 k` or of
`352 - 196 k`, `352 + 196 k` for `k = 1, 2`. -/
def rowOk (a1 a1' a2 a2' b1 b1' b2 b2' : List Ball) (m : Nat) (es : List Ball) (lo hi : Int) : Bool :=
  let pa1 := conj (rest a1 m)
  let qa1 := rest a1' m
  let pa2 := conj (rest a2 m)
  let qa2 := rest a2' m
  let pb1 := part b1 m
  let qb1 := conj (part b1' m)
  let pb2 := part b2 m
  let qb2 := conj (part b2' m)
  es.all fun e => blockOk (add pa1 (turn pb1 e)) (add qa1 (turn qb1 (conj e))) (add pa2 (turn pb2 e)) (add qa2 (turn qb2 (conj e))) lo hi

/-! ### What the checks mean -/

/-- `e^{i e unit}`. -/
noncomputable def zeta (e : ℤ) : ℂ := exp (((e * unit : ℝ) : ℂ) * I)

theorem norm_zeta (e : ℤ) : ‖zeta e‖ = 1 := Complex.norm_exp_ofReal_mul_I _

theorem zeta_zero : zeta 0 = 1 := by simp [zeta]

theorem zeta_add (e f : ℤ) : zeta (e + f) = zeta e * zeta f := by
  unfold zeta
  rw [← Complex.exp_add]
  congr 1
  push_cast
  ring

theorem zeta_pow (e : ℤ) (n : ℕ) : zeta e ^ n = zeta (e * n) := by
  unfold zeta
  rw [← Complex.exp_nat_mul]
  congr 1
  push_cast
  ring

theorem zeta_neg (e : ℤ) : zeta (-e) = (starRingEnd ℂ) (zeta e) := by
  unfold zeta
  rw [← Complex.exp_conj]
  congr 1
  simp

theorem has_pw (e : ℤ) : (pw e).Has (zeta e) := by
  have h1 : ∀ n : ℕ, (pow root n).Has (zeta n) := by
    intro n
    have e1 : zeta n = exp ((unit : ℂ) * I) ^ n := by
      rw [← Complex.exp_nat_mul, zeta]
      congr 1
      push_cast
      ring
    rw [e1]
    exact has_pow has_root (Complex.norm_exp_ofReal_mul_I _) n
  unfold pw
  split
  · rename_i h
    have := h1 e.toNat
    rwa [Int.toNat_of_nonneg h] at this
  · rename_i h
    have := has_conj (h1 (-e).toNat)
    rw [Int.toNat_of_nonneg (by omega), ← zeta_neg, neg_neg] at this
    exact this

theorem has_part (e : ℤ) {m : ℕ} (hm : m ≤ 36) : (part (tab e) m).Has (∑ l ∈ Finset.range (36 - m), zeta (e * l)) := by
  obtain ⟨-, h2, h3⟩ := geoUp_spec (has_pw e) (norm_zeta e) 37
  have := h3 (m + 1) (by omega)
  simp only [zeta_pow] at this
  unfold part tab
  rw [List.getD_eq_getElem?_getD, List.getElem?_eq_getElem (by omega), Option.getD_some]
  rw [List.getD_eq_getElem?_getD, List.getElem?_eq_getElem (by omega), Option.getD_some] at this
  have e2 : 37 - (m + 1) = 36 - m := by omega
  rwa [e2] at this

theorem has_rest (e : ℤ) {m : ℕ} (hm : m ≤ 36) : (rest (tab e) m).Has (∑ l ∈ Finset.range m, zeta (e * (l + 1 : ℕ))) := by
  obtain ⟨-, h2, h3⟩ := geoUp_spec (has_pw e) (norm_zeta e) 37
  have := h3 (36 - m) (by omega)
  simp only [zeta_pow] at this
  unfold rest tab
  rw [List.getD_eq_getElem?_getD, List.getElem?_eq_getElem (by omega), Option.getD_some]
  rw [List.getD_eq_getElem?_getD, List.getElem?_eq_getElem (by omega), Option.getD_some] at this
  have e2 : 37 - (36 - m) = m + 1 := by omega
  rw [e2, Finset.sum_range_succ'] at this
  have e3 := has_sub this has_one
  simpa [zeta_zero] using e3

theorem has_re {b : Ball} {z : ℂ} (h : b.Has z) : |z.re * scale - b.re| ≤ b.err := by
  have := (Complex.abs_re_le_norm _).trans h
  rw [sub_re, re_mul_ofReal] at this
  exact this

theorem has_im {b : Ball} {z : ℂ} (h : b.Has z) : |z.im * scale - b.im| ≤ b.err := by
  have := (Complex.abs_im_le_norm _).trans h
  rw [sub_im, im_mul_ofReal] at this
  exact this

theorem under_spec {D : ℝ} {Di : Int} {E : Ball} {z : ℂ} {h : Int} (hu : under Di E h = true) (hD : D * scale ≤ Di) (hE : E.Has z) :
    D + 2 * ‖z‖ ≤ 4 * (h / 100 : ℝ) := by
  have hs := scale_pos
  simp only [under, decide_eq_true_eq] at hu
  obtain ⟨u1, u2⟩ := hu
  have u1' : (0 : ℝ) ≤ (h * 40000000000 - Di : ℝ) := by exact_mod_cast u1
  have u2' : 4 * ((|(E.re : ℝ)| + E.err) ^ 2 + (|(E.im : ℝ)| + E.err) ^ 2) ≤ (h * 40000000000 - Di : ℝ) ^ 2 := by exact_mod_cast u2
  have r := has_re hE
  have i := has_im hE
  have r' : |z.re * scale| ≤ |(E.re : ℝ)| + E.err := by
    have e : z.re * scale = (z.re * scale - E.re) + E.re := by ring
    rw [e]
    exact (abs_add_le _ _).trans (by linarith)
  have i' : |z.im * scale| ≤ |(E.im : ℝ)| + E.err := by
    have e : z.im * scale = (z.im * scale - E.im) + E.im := by ring
    rw [e]
    exact (abs_add_le _ _).trans (by linarith)
  have r2 : (z.re * scale) ^ 2 ≤ (|(E.re : ℝ)| + E.err) ^ 2 := by
    rw [← sq_abs]; exact pow_le_pow_left₀ (abs_nonneg _) r' 2
  have i2 : (z.im * scale) ^ 2 ≤ (|(E.im : ℝ)| + E.err) ^ 2 := by
    rw [← sq_abs]; exact pow_le_pow_left₀ (abs_nonneg _) i' 2
  have hn : (2 * (‖z‖ * scale)) ^ 2 ≤ (h * 40000000000 - Di : ℝ) ^ 2 := by
    have e : (2 * (‖z‖ * scale)) ^ 2 = 4 * ((z.re * scale) ^ 2 + (z.im * scale) ^ 2) := by
      have : ‖z‖ ^ 2 = z.re ^ 2 + z.im ^ 2 := by rw [← Complex.normSq_eq_norm_sq, Complex.normSq_apply]; ring
      have e2 : (2 * (‖z‖ * scale)) ^ 2 = 4 * (‖z‖ ^ 2 * (scale : ℝ) ^ 2) := by ring
      rw [e2, this]
      ring
    rw [e]
    linarith
  have hn' := le_of_sq_le_sq hn u1'
  have : (D + 2 * ‖z‖) * scale ≤ 4 * (h / 100 : ℝ) * scale := by
    have e : (4 * (h / 100 : ℝ) * scale) = h * 40000000000 := by norm_num [scale]; ring
    rw [e]
    linarith
  exact le_of_mul_le_mul_right this hs

theorem sq_turned {u P Q : ℂ} (hu : ‖u‖ = 1) :
    ‖u * P - (starRingEnd ℂ) u * Q‖ ^ 2 = (P * (starRingEnd ℂ) P).re + (Q * (starRingEnd ℂ) Q).re - 2 * (u * u * (P * (starRingEnd ℂ) Q)).re := by
  have h1 : u.re * u.re + u.im * u.im = 1 := by
    have : Complex.normSq u = 1 := by rw [Complex.normSq_eq_norm_sq, hu]; norm_num
    rwa [Complex.normSq_apply] at this
  rw [← Complex.normSq_eq_norm_sq, Complex.normSq_apply]
  simp only [sub_re, sub_im, mul_re, mul_im, conj_re, conj_im]
  linear_combination (P.re ^ 2 + P.im ^ 2 + Q.re ^ 2 + Q.im ^ 2) * h1

theorem re_le_norm {u z : ℂ} (hu : ‖u‖ = 1) : |(u * u * z).re| ≤ ‖z‖ := by
  refine (Complex.abs_re_le_norm _).trans ?_
  rw [norm_mul, norm_mul, hu]
  simp

theorem blockOk_spec {B1 C1 B2 C2 : Ball} {P1 Q1 P2 Q2 u : ℂ} {lo hi : Int} (hu : ‖u‖ = 1) (h : blockOk B1 C1 B2 C2 lo hi = true)
    (h1 : B1.Has P1) (h2 : C1.Has Q1) (h3 : B2.Has P2) (h4 : C2.Has Q2) :
    4 * (lo / 100 : ℝ) ≤ ‖u * P1 - (starRingEnd ℂ) u * Q1‖ ^ 2 - ‖u * P2 - (starRingEnd ℂ) u * Q2‖ ^ 2 ∧
    ‖u * P1 - (starRingEnd ℂ) u * Q1‖ ^ 2 - ‖u * P2 - (starRingEnd ℂ) u * Q2‖ ^ 2 ≤ 4 * (hi / 100 : ℝ) ∧
    ‖u * P1 - (starRingEnd ℂ) u * Q1‖ ^ 2 + ‖u * P2 - (starRingEnd ℂ) u * Q2‖ ^ 2 ≤ 4 * 365 := by
  simp only [blockOk, Bool.and_eq_true] at h
  obtain ⟨⟨a1, a2⟩, a3⟩ := h
  have p1 := abs_le.1 (has_re (has_mul h1 (has_conj h1)))
  have q1 := abs_le.1 (has_re (has_mul h2 (has_conj h2)))
  have p2 := abs_le.1 (has_re (has_mul h3 (has_conj h3)))
  have q2 := abs_le.1 (has_re (has_mul h4 (has_conj h4)))
  have e1 := has_mul h1 (has_conj h2)
  have e2 := has_mul h3 (has_conj h4)
  have hm := has_sub e1 e2
  have hp := has_add e1 e2
  rw [sq_turned hu, sq_turned hu]
  generalize (P1 * (starRingEnd ℂ) P1).re = x1 at *
  generalize (Q1 * (starRingEnd ℂ) Q1).re = y1 at *
  generalize (P2 * (starRingEnd ℂ) P2).re = x2 at *
  generalize (Q2 * (starRingEnd ℂ) Q2).re = y2 at *
  have b1 := under_spec (D := x1 + y1 - x2 - y2) a1 (by push_cast; linarith) hm
  have b2 := under_spec (D := -(x1 + y1 - x2 - y2)) a2 (by push_cast; linarith) hm
  have b3 := under_spec (D := x1 + y1 + x2 + y2) a3 (by push_cast; linarith) hp
  have n1 := abs_le.1 (re_le_norm (z := P1 * (starRingEnd ℂ) Q1 - P2 * (starRingEnd ℂ) Q2) hu)
  have n2 := abs_le.1 (re_le_norm (z := P1 * (starRingEnd ℂ) Q1 + P2 * (starRingEnd ℂ) Q2) hu)
  have s1 : (u * u * (P1 * (starRingEnd ℂ) Q1 - P2 * (starRingEnd ℂ) Q2)).re
      = (u * u * (P1 * (starRingEnd ℂ) Q1)).re - (u * u * (P2 * (starRingEnd ℂ) Q2)).re := by rw [mul_sub, sub_re]
  have s2 : (u * u * (P1 * (starRingEnd ℂ) Q1 + P2 * (starRingEnd ℂ) Q2)).re
      = (u * u * (P1 * (starRingEnd ℂ) Q1)).re + (u * u * (P2 * (starRingEnd ℂ) Q2)).re := by rw [mul_add, add_re]
  rw [s1] at n1
  rw [s2] at n2
  push_cast at b2
  norm_num at b3
  refine ⟨?_, ?_, ?_⟩ <;> linarith

/-- The two sums that make up bin `k` of a block: `m` samples at `a` units per sample, then the others at `b`, turned by `d`. -/
noncomputable def sumP (a b : ℤ) (k m : ℕ) (d : ℤ) : ℂ :=
  (starRingEnd ℂ) (∑ l ∈ Finset.range m, zeta ((a - 196 * k) * (l + 1 : ℕ))) + (∑ l ∈ Finset.range (36 - m), zeta ((b - 196 * k) * l)) * zeta d

@[inherit_doc sumP]
noncomputable def sumQ (a b : ℤ) (k m : ℕ) (d : ℤ) : ℂ :=
  (∑ l ∈ Finset.range m, zeta ((a + 196 * k) * (l + 1 : ℕ))) + (starRingEnd ℂ) (∑ l ∈ Finset.range (36 - m), zeta ((b + 196 * k) * l)) * (starRingEnd ℂ) (zeta d)

theorem rowOk_spec {a b : ℤ} {m : ℕ} (hm : m ≤ 36) {es : List Ball} {lo hi : Int}
    (h : rowOk (tab (a - 196 * (1 : ℕ))) (tab (a + 196 * (1 : ℕ))) (tab (a - 196 * (2 : ℕ))) (tab (a + 196 * (2 : ℕ)))
      (tab (b - 196 * (1 : ℕ))) (tab (b + 196 * (1 : ℕ))) (tab (b - 196 * (2 : ℕ))) (tab (b + 196 * (2 : ℕ))) m es lo hi = true)
    {d : ℤ} {e : Ball} (he : e ∈ es) (hd : e.Has (zeta d)) {u : ℂ} (hu : ‖u‖ = 1) :
    4 * (lo / 100 : ℝ) ≤ ‖u * sumP a b 1 m d - (starRingEnd ℂ) u * sumQ a b 1 m d‖ ^ 2 - ‖u * sumP a b 2 m d - (starRingEnd ℂ) u * sumQ a b 2 m d‖ ^ 2 ∧
    ‖u * sumP a b 1 m d - (starRingEnd ℂ) u * sumQ a b 1 m d‖ ^ 2 - ‖u * sumP a b 2 m d - (starRingEnd ℂ) u * sumQ a b 2 m d‖ ^ 2 ≤ 4 * (hi / 100 : ℝ) ∧
    ‖u * sumP a b 1 m d - (starRingEnd ℂ) u * sumQ a b 1 m d‖ ^ 2 + ‖u * sumP a b 2 m d - (starRingEnd ℂ) u * sumQ a b 2 m d‖ ^ 2 ≤ 4 * 365 := by
  simp only [rowOk, List.all_eq_true] at h
  have hn := norm_zeta d
  have hn' : ‖(starRingEnd ℂ) (zeta d)‖ = 1 := by rw [Complex.norm_conj, hn]
  have hd' := has_conj hd
  have hP : ∀ k : ℕ, (add (conj (rest (tab (a - 196 * k)) m)) (turn (part (tab (b - 196 * k)) m) e)).Has (sumP a b k m d) := fun k =>
    has_add (has_conj (has_rest _ hm)) (has_turn (has_part _ hm) hd hn)
  have hQ : ∀ k : ℕ, (add (rest (tab (a + 196 * k)) m) (turn (conj (part (tab (b + 196 * k)) m)) (conj e))).Has (sumQ a b k m d) := fun k =>
    has_add (has_rest _ hm) (has_turn (has_conj (has_part _ hm)) hd' hn')
  exact blockOk_spec hu (h e he) (hP 1) (hQ 1) (hP 2) (hQ 2)

end Verif.Ax25.Ear
