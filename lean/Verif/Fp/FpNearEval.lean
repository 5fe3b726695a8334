import Verif.Fp.FpFma
import Verif.Fp.FpNear

/-!
# Accumulation of rounding errors, whatever is fused

`NE e x t k`: by the rules for separate operations the expression `e` has the exact value `x`, and its computed value is
within `((1+u)^k - 1) t` of it.  `NE.eval`: every value an implementation may compute for `e` is.
-/

namespace Verif.Fp
open Expr

variable {φ : Format}

/-- A product before rounding. -/
theorem near_prod {v w : Val} {x y t s : ℚ} {k l : ℕ} (hv : Near φ v x t k) (hw : Near φ w y s l)
    (hx : |x| ≤ t) (hy : |y| ≤ s) :
    |v.toRat * w.toRat - x * y| ≤ ((1 + unit φ) ^ (k + l) - 1) * (t * s + tiny φ) := by
  have ht0 := (abs_nonneg x).trans hx
  have hω := tiny_pos φ
  have e : v.toRat * w.toRat - x * y = (v.toRat - x) * w.toRat + x * (w.toRat - y) := by ring
  rw [e]
  refine (abs_add_le _ _).trans ?_
  rw [abs_mul, abs_mul]
  have h1 : |v.toRat - x| * |w.toRat| ≤ (((1 + unit φ) ^ k - 1) * t) * ((1 + unit φ) ^ l * s) :=
    mul_le_mul hv.2 (hw.bound hy) (abs_nonneg _) ((abs_nonneg _).trans hv.2)
  have h2 : |x| * |w.toRat - y| ≤ t * (((1 + unit φ) ^ l - 1) * s) := mul_le_mul hx hw.2 (abs_nonneg _) ht0
  have h3 := one_le_pow_unit φ (k + l)
  have h4 : 0 ≤ ((1 + unit φ) ^ (k + l) - 1) * tiny φ := mul_nonneg (by linarith) hω.le
  rw [pow_add] at h4 ⊢
  nlinarith

/-- A fused operation is within the bound of the two separate ones. -/
theorem near_fma {a b c : Val} {x y z t s r T : ℚ} {k l j : ℕ} (ha : Near φ a x t k) (hb : Near φ b y s l)
    (hc : Near φ c z r j) (hx : |x| ≤ t) (hy : |y| ≤ s) (hT : t * s + tiny φ ≤ T) (hj : k + l + 1 ≤ j)
    (ht : |x * y| + |z| + tiny φ ≤ T + r) (hk : (1 + unit φ) ^ (j + 1) ≤ 2) (htop : T + r < 2 ^ φ.emax) :
    Near φ (fma φ a b c) (x * y + z) (T + r) (j + 1) := by
  have hts : 0 ≤ t * s + tiny φ := by
    have := tiny_pos φ
    have := mul_nonneg ((abs_nonneg x).trans hx) ((abs_nonneg y).trans hy)
    linarith
  have h1 : |a.toRat * b.toRat - x * y| ≤ ((1 + unit φ) ^ j - 1) * T := by
    refine (near_prod ha hb hx hy).trans ?_
    have := pow_unit_mono φ (show k + l ≤ j by omega)
    have := one_le_pow_unit φ (k + l)
    exact mul_le_mul (by linarith) hT hts (by linarith)
  have hz : |a.toRat * b.toRat + c.toRat - (x * y + z)| ≤ ((1 + unit φ) ^ j - 1) * (T + r) := by
    rw [add_sub_add_comm, mul_add]
    exact (abs_add_le _ _).trans (add_le_add h1 hc.2)
  have hxy := abs_add_le (x * y) z
  obtain ⟨h2, h3⟩ := rd_near hz (by linarith)
  have h0 : 0 ≤ T + r := by linarith [abs_nonneg (x * y), abs_nonneg z, tiny_pos φ]
  have := fma_rd φ (a := a) (b := b) (c := c) ⟨ha.1, rfl⟩ ⟨hb.1, rfl⟩ ⟨hc.1, rfl⟩ (top_lt h3 hk h0 htop)
  exact ⟨this.1, by rw [this.2]; exact h2⟩

theorem near_neg {v : Val} {x t : ℚ} {k : ℕ} (h : Near φ v x t k) : Near φ (neg v) (-x) t k := by
  have := is_neg (v := v) ⟨h.1, rfl⟩
  refine ⟨this.1, ?_⟩
  rw [this.2, ← abs_neg]
  convert h.2 using 2
  ring

/-- The rules for separate operations. -/
inductive NE : Expr φ → ℚ → ℚ → ℕ → Prop where
  | leaf {v : FVal φ} {x t : ℚ} {k : ℕ} : Near φ v x t k → |x| ≤ t → NE (.leaf v) x t k
  | weaken {e : Expr φ} {x t s : ℚ} {k l : ℕ} : NE e x t k → k ≤ l → t ≤ s → NE e x s l
  | add {a b : Expr φ} {x y t s : ℚ} {k : ℕ} : NE a x t k → NE b y s k → |x| + |y| + tiny φ ≤ t + s →
      (1 + unit φ) ^ (k + 1) ≤ 2 → t + s < 2 ^ φ.emax → NE (.add a b) (x + y) (t + s) (k + 1)
  | sub {a b : Expr φ} {x y t s : ℚ} {k : ℕ} : NE a x t k → NE b y s k → |x| + |y| + tiny φ ≤ t + s →
      (1 + unit φ) ^ (k + 1) ≤ 2 → t + s < 2 ^ φ.emax → NE (.sub a b) (x - y) (t + s) (k + 1)
  | mul {a b : Expr φ} {x y t s : ℚ} {k l : ℕ} : NE a x t k → NE b y s l →
      (1 + unit φ) ^ (k + l + 1) ≤ 2 → t * s + tiny φ < 2 ^ φ.emax → NE (.mul a b) (x * y) (t * s + tiny φ) (k + l + 1)

theorem NE.abs_le {e : Expr φ} {x t : ℚ} {k : ℕ} (h : NE e x t k) : |x| ≤ t := by
  have hω := tiny_pos φ
  induction h with
  | leaf _ h => exact h
  | weaken _ _ h ih => exact ih.trans h
  | add _ _ h _ _ _ _ => exact (abs_add_le _ _).trans (by linarith)
  | sub _ _ h _ _ _ _ => exact (abs_sub _ _).trans (by linarith)
  | mul _ _ _ _ h1 h2 =>
    rw [abs_mul]
    have := mul_le_mul h1 h2 (abs_nonneg _) ((abs_nonneg _).trans h1)
    linarith

theorem NE.mul_inv {e : Expr φ} {x t : ℚ} {k : ℕ} (h : NE e x t k) : ∀ {a b : Expr φ}, e = .mul a b →
    ∃ x' y' t' s' k' l', NE a x' t' k' ∧ NE b y' s' l' ∧ x = x' * y' ∧ t' * s' + tiny φ ≤ t ∧ k' + l' + 1 ≤ k ∧
      (1 + unit φ) ^ (k' + l' + 1) ≤ 2 ∧ t' * s' + tiny φ < 2 ^ φ.emax := by
  induction h with
  | weaken _ hk ht ih =>
    intro a b e
    obtain ⟨x', y', t', s', k', l', h1, h2, h3, h4, h5, h6, h7⟩ := ih e
    exact ⟨x', y', t', s', k', l', h1, h2, h3, h4.trans ht, h5.trans hk, h6, h7⟩
  | mul h1 h2 h3 h4 =>
    intro a b e
    cases e
    exact ⟨_, _, _, _, _, _, h1, h2, rfl, le_rfl, le_rfl, h3, h4⟩
  | _ => intro a b e; cases e

theorem NE.add_inv {e : Expr φ} {x t : ℚ} {k : ℕ} (h : NE e x t k) : ∀ {a b : Expr φ}, e = .add a b →
    ∃ x' y' t' s' k', NE a x' t' k' ∧ NE b y' s' k' ∧ x = x' + y' ∧ t' + s' ≤ t ∧ k' + 1 ≤ k ∧
      |x'| + |y'| + tiny φ ≤ t' + s' ∧ (1 + unit φ) ^ (k' + 1) ≤ 2 ∧ t' + s' < 2 ^ φ.emax := by
  induction h with
  | weaken _ hk ht ih =>
    intro a b e
    obtain ⟨x', y', t', s', k', h1, h2, h3, h4, h5, h6⟩ := ih e
    exact ⟨x', y', t', s', k', h1, h2, h3, h4.trans ht, h5.trans hk, h6⟩
  | add h1 h2 h3 h4 h5 =>
    intro a b e
    cases e
    exact ⟨_, _, _, _, _, h1, h2, rfl, le_rfl, le_rfl, h3, h4, h5⟩
  | _ => intro a b e; cases e

theorem NE.sub_inv {e : Expr φ} {x t : ℚ} {k : ℕ} (h : NE e x t k) : ∀ {a b : Expr φ}, e = .sub a b →
    ∃ x' y' t' s' k', NE a x' t' k' ∧ NE b y' s' k' ∧ x = x' - y' ∧ t' + s' ≤ t ∧ k' + 1 ≤ k ∧
      |x'| + |y'| + tiny φ ≤ t' + s' ∧ (1 + unit φ) ^ (k' + 1) ≤ 2 ∧ t' + s' < 2 ^ φ.emax := by
  induction h with
  | weaken _ hk ht ih =>
    intro a b e
    obtain ⟨x', y', t', s', k', h1, h2, h3, h4, h5, h6⟩ := ih e
    exact ⟨x', y', t', s', k', h1, h2, h3, h4.trans ht, h5.trans hk, h6⟩
  | sub h1 h2 h3 h4 h5 =>
    intro a b e
    cases e
    exact ⟨_, _, _, _, _, h1, h2, rfl, le_rfl, le_rfl, h3, h4, h5⟩
  | _ => intro a b e; cases e

theorem NE.leaf_inv {e : Expr φ} {x t : ℚ} {k : ℕ} (h : NE e x t k) : ∀ {v : FVal φ}, e = .leaf v → Near φ v x t k := by
  induction h with
  | leaf h _ => intro v e; cases e; exact h
  | weaken h hk ht ih =>
    intro v e
    exact (ih e).weaken hk ht ((abs_nonneg _).trans h.abs_le)
  | _ => intro v e; cases e

/-- Every value an implementation may compute is within the bound. -/
theorem NE.eval {e : Expr φ} {v : FVal φ} (hv : Eval e v) : ∀ {x t : ℚ} {k : ℕ}, NE e x t k → Near φ v x t k := by
  induction hv with
  | leaf v => intro x t k h; exact h.leaf_inv rfl
  | add _ _ iha ihb =>
    intro x t k h
    obtain ⟨x', y', t', s', k', h1, h2, rfl, h4, h5, h6, h7, h8⟩ := h.add_inv rfl
    have h0 := (abs_nonneg _).trans h1.abs_le
    have h0' := (abs_nonneg _).trans h2.abs_le
    exact (near_add (iha h1) (ihb h2) h6 h7 h8).weaken h5 h4 (by linarith)
  | sub _ _ iha ihb =>
    intro x t k h
    obtain ⟨x', y', t', s', k', h1, h2, rfl, h4, h5, h6, h7, h8⟩ := h.sub_inv rfl
    have h0 := (abs_nonneg _).trans h1.abs_le
    have h0' := (abs_nonneg _).trans h2.abs_le
    exact (near_sub (iha h1) (ihb h2) h6 h7 h8).weaken h5 h4 (by linarith)
  | mul _ _ iha ihb =>
    intro x t k h
    obtain ⟨x', y', t', s', k', l', h1, h2, rfl, h4, h5, h6, h7⟩ := h.mul_inv rfl
    have h0 := mul_nonneg ((abs_nonneg _).trans h1.abs_le) ((abs_nonneg _).trans h2.abs_le)
    have hω := tiny_pos φ
    exact (near_mul (iha h1) (ihb h2) h1.abs_le h2.abs_le h6 h7).weaken h5 h4 (by linarith)
  | fmadd _ _ _ iha ihb ihc =>
    intro x t k h
    obtain ⟨x', y', t', s', k', h1, h2, rfl, h4, h5, h6, h7, h8⟩ := h.add_inv rfl
    obtain ⟨p, q, tp, sq, kp, lq, p1, p2, rfl, p4, p5, -, -⟩ := h1.mul_inv rfl
    have h0 := (abs_nonneg _).trans h1.abs_le
    have h0' := (abs_nonneg _).trans h2.abs_le
    exact (near_fma (iha p1) (ihb p2) (ihc h2) p1.abs_le p2.abs_le p4 p5 h6 h7 h8).weaken h5 h4 (by linarith)
  | fmadd' _ _ _ iha ihb ihc =>
    intro x t k h
    obtain ⟨x', y', t', s', k', h1, h2, rfl, h4, h5, h6, h7, h8⟩ := h.add_inv rfl
    obtain ⟨p, q, tp, sq, kp, lq, p1, p2, rfl, p4, p5, -, -⟩ := h2.mul_inv rfl
    have h0 := (abs_nonneg _).trans h1.abs_le
    have h0' := (abs_nonneg _).trans h2.abs_le
    rw [add_comm x']
    exact (near_fma (iha p1) (ihb p2) (ihc h1) p1.abs_le p2.abs_le p4 p5 (by linarith) h7 (by linarith)).weaken h5
      (by linarith) (by linarith)
  | fmsub _ _ _ iha ihb ihc =>
    intro x t k h
    obtain ⟨x', y', t', s', k', h1, h2, rfl, h4, h5, h6, h7, h8⟩ := h.sub_inv rfl
    obtain ⟨p, q, tp, sq, kp, lq, p1, p2, rfl, p4, p5, -, -⟩ := h1.mul_inv rfl
    have h0 := (abs_nonneg _).trans h1.abs_le
    have h0' := (abs_nonneg _).trans h2.abs_le
    rw [sub_eq_add_neg]
    exact (near_fma (iha p1) (ihb p2) (near_neg (ihc h2)) p1.abs_le p2.abs_le p4 p5 (by rwa [abs_neg]) h7 h8).weaken h5 h4
      (by linarith)
  | fnmsub _ _ _ iha ihb ihc =>
    intro x t k h
    obtain ⟨x', y', t', s', k', h1, h2, rfl, h4, h5, h6, h7, h8⟩ := h.sub_inv rfl
    obtain ⟨p, q, tp, sq, kp, lq, p1, p2, rfl, p4, p5, -, -⟩ := h2.mul_inv rfl
    have h0 := (abs_nonneg _).trans h1.abs_le
    have h0' := (abs_nonneg _).trans h2.abs_le
    have e : x' - p * q = -p * q + x' := by ring
    rw [e]
    exact (near_fma (near_neg (iha p1)) (ihb p2) (ihc h1) (by rw [abs_neg]; exact p1.abs_le) p2.abs_le p4 p5
      (by rw [neg_mul, abs_neg]; linarith) h7 (by linarith)).weaken h5 (by linarith) (by linarith)

end Verif.Fp
