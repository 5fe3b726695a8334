import Verif.Filt.IirProps
import Verif.Fp.FpNearEval

/-!
# Feedback of rounding errors

`Gain L a H` says by how much the feedback coefficients `a` can amplify errors made in each step.
-/

namespace Verif.Filt
open Verif.Conv Verif.Fp Finset

/-- Errors of magnitude at most `δ` made in each step of the recurrence with the coefficients `a` add up to at most
`H δ`. -/
def Gain (L : ℕ) (a : ℕ → ℚ) (H : ℚ) : Prop :=
  ∀ (e : ℕ → ℚ) (N : ℕ) (δ : ℚ), (∀ n < N, |∑ k ∈ range L, a k * delayed e n k| ≤ |a 0| * δ) → ∀ n < N, |e n| ≤ H * δ

theorem gain_one {L : ℕ} (hL : 0 < L) {a : ℕ → ℚ} {H : ℚ} (h : Gain L a H) : 1 ≤ H := by
  obtain ⟨d, rfl⟩ : ∃ d, L = d + 1 := ⟨L - 1, by omega⟩
  have := h (fun _ => 1) 1 1 (fun n hn => by
    have h0 : n = 0 := by omega
    subst h0
    rw [sum_range_succ', sum_eq_zero (fun k _ => by simp [delayed])]
    simp [delayed]) 0 (by omega)
  simpa using this

/-- A sequence that satisfies the recurrence up to `δ` in each step differs from the solution by at most `H δ`. -/
theorem gain_core {L : ℕ} {a : ℕ → ℚ} {H : ℚ} (hG : Gain L a H) (out : ℕ → Val) (N : ℕ) (r y : ℕ → ℚ) {Y Z δ : ℚ}
    (hy : ∀ n < N, ∑ k ∈ range L, a k * delayed y n k = r n) (hY : ∀ n < N, |y n| ≤ Y) (hZ : H * δ + Y ≤ Z)
    (hstep : ∀ n < N, (∀ i < n, Finite (out i) ∧ |(out i).toRat| ≤ Z) → Finite (out n) ∧
      |∑ k ∈ range L, a k * delayed (fun i => (out i).toRat) n k - r n| ≤ |a 0| * δ) :
    ∀ n < N, Finite (out n) ∧ |(out n).toRat - y n| ≤ H * δ := by
  intro n
  induction n using Nat.strong_induction_on with
  | _ n ih =>
    intro hn
    have hb : ∀ i < n, Finite (out i) ∧ |(out i).toRat| ≤ Z := by
      intro i hi
      obtain ⟨h1, h2⟩ := ih i hi (by omega)
      refine ⟨h1, ?_⟩
      have := abs_add_le ((out i).toRat - y i) (y i)
      rw [sub_add_cancel] at this
      have := hY i (by omega)
      linarith
    refine ⟨(hstep n hn hb).1, ?_⟩
    refine hG (fun i => (out i).toRat - y i) (n + 1) δ (fun j hj => ?_) n (by omega)
    have h1 := (hstep j (by omega) fun i hi => hb i (by omega)).2
    rw [← hy j (by omega), ← sum_sub_distrib] at h1
    convert h1 using 2
    refine sum_congr rfl fun k _ => ?_
    unfold delayed
    split <;> ring

/-- Feedback coefficients that are small in total amplify little. -/
theorem gain_of_small {d : ℕ} {a : ℕ → ℚ} (h0 : a 0 ≠ 0) {S : ℚ} (hS : ∑ k ∈ range d, |a (k + 1) / a 0| ≤ S)
    (h1 : S < 1) : Gain (d + 1) a (1 / (1 - S)) := by
  intro e N δ h n
  have hp : 0 < 1 - S := by linarith
  have ha : 0 < |a 0| := abs_pos.2 h0
  induction n using Nat.strong_induction_on with
  | _ n ih =>
    intro hn
    have hδ : 0 ≤ δ := by
      have := (abs_nonneg _).trans (h n hn)
      exact nonneg_of_mul_nonneg_right (by linarith) ha
    have hd : ∀ k, |delayed e n (k + 1)| ≤ 1 / (1 - S) * δ := by
      intro k
      unfold delayed
      split
      · exact ih _ (by omega) (by omega)
      · rw [abs_zero]; positivity
    have hn' := h n hn
    rw [sum_range_succ', show delayed e n 0 = e n by simp [delayed]] at hn'
    have e1 : ∑ k ∈ range d, a (k + 1) * delayed e n (k + 1) + a 0 * e n =
        a 0 * (∑ k ∈ range d, a (k + 1) / a 0 * delayed e n (k + 1) + e n) := by
      rw [mul_add, mul_sum]
      congr 1
      refine sum_congr rfl fun k _ => ?_
      field_simp
    rw [e1, abs_mul, mul_le_mul_iff_of_pos_left ha] at hn'
    have h2 : |∑ k ∈ range d, a (k + 1) / a 0 * delayed e n (k + 1)| ≤ S * (1 / (1 - S) * δ) := by
      refine (abs_sum_le_sum_abs _ _).trans ?_
      calc _ ≤ ∑ k ∈ range d, |a (k + 1) / a 0| * (1 / (1 - S) * δ) := by
            refine sum_le_sum fun k _ => ?_
            rw [abs_mul]
            exact mul_le_mul_of_nonneg_left (hd k) (abs_nonneg _)
        _ = (∑ k ∈ range d, |a (k + 1) / a 0|) * (1 / (1 - S) * δ) := by rw [sum_mul]
        _ ≤ _ := mul_le_mul_of_nonneg_right hS (by positivity)
    have h3 : |e n| ≤ δ + S * (1 / (1 - S) * δ) := by
      have := abs_sub (∑ k ∈ range d, a (k + 1) / a 0 * delayed e n (k + 1) + e n)
        (∑ k ∈ range d, a (k + 1) / a 0 * delayed e n (k + 1))
      rw [add_sub_cancel_left] at this
      linarith
    refine h3.trans (le_of_eq ?_)
    field_simp
    ring

/-! ### The sum of the IIR filter, with rounding -/

section
variable {F : Type} [Add F] [Sub F] [Mul F] [Zero F]

/-- From rest the delay lines hold the previous samples, in any arithmetic. -/
theorem lines_rest (b a : Nat → F) (d : Nat) (x : Nat → F) (n k : Nat) (hk : k < d) :
    (lines b a d (fun _ => 0) (fun _ => 0) x n).1 k = delayed x n (k + 1) ∧
    (lines b a d (fun _ => 0) (fun _ => 0) x n).2 k = delayed (outAt b a d (fun _ => 0) (fun _ => 0) x) n (k + 1) := by
  induction n generalizing k with
  | zero => simp [lines, delayed]
  | succ n ih =>
    by_cases h0 : k = 0
    · subst h0
      simp only [lines, shiftOf, delayed, if_true]
      rw [if_pos (by omega), if_pos (by omega)]
      exact ⟨rfl, rfl⟩
    · have ih' := ih (k - 1) (by omega)
      simp only [lines, shiftOf, if_neg h0, if_pos hk]
      rw [ih'.1, ih'.2]
      simp only [delayed]
      rw [show k - 1 + 1 = k by omega]
      constructor <;> by_cases hkn : k ≤ n <;> simp [hkn]

end

/-- The bound on the magnitudes that enter the sum. -/
def magSum (φ : Format) (β α x z : ℕ → ℚ) (s : ℚ) : ℕ → ℚ
  | 0 => (|β 0| + tiny φ) * |s| + tiny φ
  | d + 1 => magSum φ β α x z s d +
      (((|β (d + 1)| + tiny φ) * |x d| + tiny φ) + ((|α (d + 1)| + tiny φ) * |z d| + tiny φ))

theorem sumOf_ne {φ : Format} (b a p q : ℕ → FVal φ) (s : FVal φ) (β α x z : ℕ → ℚ) (sx : ℚ) (d : ℕ)
    (hb : ∀ k ≤ d, Near φ (b k) (β k) (|β k| + tiny φ) 1)
    (ha : ∀ k < d, Near φ (a (k + 1)) (α (k + 1)) (|α (k + 1)| + tiny φ) 1)
    (hs : Is s sx) (hp : ∀ k < d, Is (p k) (x k)) (hq : ∀ k < d, Is (q k) (z k))
    (hk : (1 + unit φ) ^ (d + 3) ≤ 2) (htop : magSum φ β α x z sx d < 2 ^ φ.emax) :
    NE (sumOf (F := Expr φ) (fun k => .leaf (b k)) (fun k => .leaf (a k)) (fun k => .leaf (p k)) (fun k => .leaf (q k))
          (.leaf s) d) (β 0 * sx + ∑ j ∈ range d, (β (j + 1) * x j - α (j + 1) * z j))
        (magSum φ β α x z sx d) (d + 3) ∧
      |β 0 * sx + ∑ j ∈ range d, (β (j + 1) * x j - α (j + 1) * z j)| + tiny φ ≤ magSum φ β α x z sx d := by
  have hω := tiny_pos φ
  have pow_le : ∀ k ≤ d + 3, (1 + unit φ) ^ k ≤ 2 := fun k h => (pow_unit_mono φ h).trans hk
  have prod : ∀ (v w : FVal φ) (x y : ℚ), Near φ v x (|x| + tiny φ) 1 → Is w y →
      (|x| + tiny φ) * |y| + tiny φ < 2 ^ φ.emax →
      NE (.mul (.leaf v) (.leaf w) : Expr φ) (x * y) ((|x| + tiny φ) * |y| + tiny φ) 2 ∧
        |x * y| + tiny φ ≤ (|x| + tiny φ) * |y| + tiny φ := by
    intro v w x y hv hw ht
    refine ⟨NE.mul (k := 1) (l := 0) (.leaf hv (by linarith)) (.leaf (near_of_is hw |y|) le_rfl)
      (pow_le (1 + 0 + 1) (by omega)) ht, ?_⟩
    rw [abs_mul]
    have := mul_nonneg hω.le (abs_nonneg y)
    linarith
  induction d with
  | zero =>
    obtain ⟨h1, h2⟩ := prod (b 0) s (β 0) sx (hb 0 le_rfl) hs htop
    simp only [range_zero, sum_empty, add_zero]
    exact ⟨h1.weaken (by omega) le_rfl, h2⟩
  | succ d ih =>
    have t1 : 0 ≤ (|β (d + 1)| + tiny φ) * |x d| + tiny φ := by positivity
    have t2 : 0 ≤ (|α (d + 1)| + tiny φ) * |z d| + tiny φ := by positivity
    have hM : magSum φ β α x z sx (d + 1) = magSum φ β α x z sx d +
      (((|β (d + 1)| + tiny φ) * |x d| + tiny φ) + ((|α (d + 1)| + tiny φ) * |z d| + tiny φ)) := rfl
    obtain ⟨i1, i2⟩ := ih (fun k hk => hb k (by omega)) (fun k hk => ha k (by omega)) (fun k hk => hp k (by omega))
      (fun k hk => hq k (by omega)) (pow_le _ (by omega)) (by linarith) (fun k hk => pow_le k (by omega))
    have hM0 : 0 ≤ magSum φ β α x z sx d := by
      have := abs_nonneg (β 0 * sx + ∑ j ∈ range d, (β (j + 1) * x j - α (j + 1) * z j))
      linarith
    obtain ⟨p1, p2⟩ := prod (b (d + 1)) (p d) (β (d + 1)) (x d) (hb _ le_rfl) (hp d (by omega)) (by linarith)
    obtain ⟨q1, q2⟩ := prod (a (d + 1)) (q d) (α (d + 1)) (z d) (ha d (by omega)) (hq d (by omega)) (by linarith)
    have s1 := NE.sub p1 q1 (by linarith) (pow_le (2 + 1) (by omega)) (by linarith)
    have s2 := s1.weaken (show 3 ≤ d + 3 by omega) le_rfl
    have hsub := abs_sub (β (d + 1) * x d) (α (d + 1) * z d)
    have s3 := NE.add i1 s2 (by linarith) (pow_le (d + 3 + 1) (by omega)) (by linarith)
    rw [sum_range_succ, ← add_assoc, hM]
    refine ⟨s3, ?_⟩
    have := abs_add_le (β 0 * sx + ∑ j ∈ range d, (β (j + 1) * x j - α (j + 1) * z j))
      (β (d + 1) * x d - α (d + 1) * z d)
    linarith

/-- The sum when nothing is fused. -/
theorem sumOf_unfused {φ : Format} (b a p q p' q' : ℕ → FVal φ) (s : FVal φ) (d : ℕ) (hp : ∀ k < d, p k = p' k)
    (hq : ∀ k < d, q k = q' k) :
    (sumOf (F := Expr φ) (fun k => .leaf (b k)) (fun k => .leaf (a k)) (fun k => .leaf (p k)) (fun k => .leaf (q k))
      (.leaf s) d).unfused = sumOf (F := FVal φ) b a p' q' s d := by
  induction d with
  | zero => rfl
  | succ d ih =>
    have e := ih (fun k hk => hp k (by omega)) (fun k hk => hq k (by omega))
    show _ + (b (d + 1) * p d - a (d + 1) * q d : FVal φ) = _ + (b (d + 1) * p' d - a (d + 1) * q' d : FVal φ)
    rw [hp d (by omega), hq d (by omega)]
    exact congrArg (fun t : FVal φ => t + (b (d + 1) * p' d - a (d + 1) * q' d : FVal φ)) e

theorem magSum_eq (φ : Format) (β α x z : ℕ → ℚ) (s : ℚ) (d : ℕ) : magSum φ β α x z s d =
    (|β 0| + tiny φ) * |s| + tiny φ + ∑ k ∈ range d,
      (((|β (k + 1)| + tiny φ) * |x k| + tiny φ) + ((|α (k + 1)| + tiny φ) * |z k| + tiny φ)) := by
  induction d with
  | zero => simp [magSum]
  | succ d ih => rw [magSum, ih, sum_range_succ]; ring

theorem magSum_le (φ : Format) {β α x z : ℕ → ℚ} {s X Z SB SA : ℚ} {d : ℕ}
    (hs : |s| ≤ X) (hx : ∀ k < d, |x k| ≤ X) (hz : ∀ k < d, |z k| ≤ Z) (hX : 0 ≤ X) (hZ : 0 ≤ Z)
    (hB : ∑ k ∈ range (d + 1), |β k| ≤ SB) (hA : ∑ k ∈ range d, |α (k + 1)| ≤ SA) :
    magSum φ β α x z s d ≤ SB * X + SA * Z + tiny φ * ((d + 1) * X + d * Z + (2 * d + 1)) := by
  have hω := tiny_pos φ
  rw [magSum_eq]
  have h0 : (|β 0| + tiny φ) * |s| ≤ (|β 0| + tiny φ) * X := mul_le_mul_of_nonneg_left hs (by positivity)
  have h1 : ∑ k ∈ range d, (((|β (k + 1)| + tiny φ) * |x k| + tiny φ) + ((|α (k + 1)| + tiny φ) * |z k| + tiny φ)) ≤
      ∑ k ∈ range d, (((|β (k + 1)| + tiny φ) * X + tiny φ) + ((|α (k + 1)| + tiny φ) * Z + tiny φ)) := by
    refine sum_le_sum fun k hk => ?_
    have hk' := mem_range.1 hk
    have a1 := mul_le_mul_of_nonneg_left (hx k hk') (by positivity : 0 ≤ |β (k + 1)| + tiny φ)
    have a2 := mul_le_mul_of_nonneg_left (hz k hk') (by positivity : 0 ≤ |α (k + 1)| + tiny φ)
    linarith
  have h2 : ∑ k ∈ range d, (((|β (k + 1)| + tiny φ) * X + tiny φ) + ((|α (k + 1)| + tiny φ) * Z + tiny φ)) =
      (∑ k ∈ range d, |β (k + 1)|) * X + (∑ k ∈ range d, |α (k + 1)|) * Z + tiny φ * (d * X + d * Z + 2 * d) := by
    rw [sum_mul, sum_mul, ← sum_add_distrib]
    have : tiny φ * (d * X + d * Z + 2 * d) = ∑ _k ∈ range d, tiny φ * (X + Z + 2) := by
      rw [sum_const, card_range, nsmul_eq_mul]; ring
    rw [this, ← sum_add_distrib]
    refine sum_congr rfl fun k _ => ?_
    ring
  have h3 : (|β 0| + ∑ k ∈ range d, |β (k + 1)|) * X ≤ SB * X := by
    refine mul_le_mul_of_nonneg_right ?_ hX
    rw [sum_range_succ'] at hB
    linarith
  have h4 := mul_le_mul_of_nonneg_right hA hZ
  linarith

end Verif.Filt
