import Verif.Filt.FusedLemmas
import Verif.Filt.StableProps
import Verif.Fp.FpConvert

/-!
# Properties C92 and C141: IIR and biquad filters with rounding

`FVal φ` is the arithmetic of the format `φ` (`binary64` for `IIRFilter` and `BiQuadFilter`).  The theorems `C141_…` are
about every way of fusing products, the theorems `C92_…` about the models in which each operation is rounded.
-/

namespace Verif.Filt
open Verif.Conv Verif.Fp Finset

/-- The sizes that occur in the proof. -/
theorem sizes {φ : Format} {K d : ℕ} {X SB SA H : ℚ} (hX : 0 ≤ X) (hSB : 0 ≤ SB) (hSA : 0 ≤ SA) (hH : 1 ≤ H)
    (hu : 8 * K * unit φ * (1 + SA * H) ≤ 1) (hsmall : 200 * (d + 1) * tiny φ * (X + H * SB * X + 1) ≤ SB * X)
    (hbig : 4 * (SB + SA + SB * X * (1 + SA * H)) ≤ 2 ^ φ.emax) :
    (1 + unit φ) ^ K ≤ 2 ∧
    SB * X + SA * (2 * (H * SB * X)) + tiny φ * ((d + 1) * X + d * (2 * (H * SB * X)) + (2 * d + 1)) < 2 ^ φ.emax ∧
    SB + tiny φ < 2 ^ φ.emax ∧ SA + tiny φ < 2 ^ φ.emax ∧
    H * (((1 + unit φ) ^ K - 1) *
      (SB * X + SA * (2 * (H * SB * X)) + tiny φ * ((d + 1) * X + d * (2 * (H * SB * X)) + (2 * d + 1)))) + H * SB * X ≤
        2 * (H * SB * X) ∧
    H * (((1 + unit φ) ^ K - 1) *
      (SB * X + SA * (2 * (H * SB * X)) + tiny φ * ((d + 1) * X + d * (2 * (H * SB * X)) + (2 * d + 1)))) ≤
        4 * K * unit φ * H * (1 + SA * H) * (SB * X) := by
  have hω := tiny_pos φ
  have hup := unit_pos φ
  set s := SB * X with hs
  have eH : H * SB * X = H * s := by rw [hs]; ring
  rw [eH] at hsmall ⊢
  have hs0 : 0 ≤ s := by positivity
  have hHs : 0 ≤ H * s := by positivity
  have hAH : 0 ≤ SA * H := by positivity
  have hω1 : 200 * tiny φ ≤ s := by
    refine le_trans ?_ hsmall
    have h1 : (1 : ℚ) ≤ (d + 1) * (X + H * s + 1) := by nlinarith [Nat.cast_nonneg (α := ℚ) d]
    have := mul_le_mul_of_nonneg_left h1 hω.le
    linarith
  have hspos : 0 < s := by linarith
  have htail : tiny φ * ((d + 1) * X + d * (2 * (H * s)) + (2 * d + 1)) ≤ s / 100 := by
    have hd0 : (0 : ℚ) ≤ d := Nat.cast_nonneg d
    have h1 : (d + 1) * X + d * (2 * (H * s)) + (2 * d + 1) ≤ 2 * ((d + 1) * (X + H * s + 1)) := by nlinarith
    have := mul_le_mul_of_nonneg_left h1 hω.le
    linarith
  set tail := tiny φ * ((d + 1) * X + d * (2 * (H * s)) + (2 * d + 1)) with htaildef
  have htail0 : 0 ≤ tail := by
    have hd0 : (0 : ℚ) ≤ d := Nat.cast_nonneg d
    positivity
  have hT : s + SA * (2 * (H * s)) + tail ≤ 2 * ((1 + SA * H) * s) := by nlinarith
  set T := s + SA * (2 * (H * s)) + tail with hTdef
  have hT0 : 0 ≤ T := by positivity
  have hKu : K * unit φ ≤ 1 / 8 := by
    have : 8 * (K * unit φ) * 1 ≤ 8 * (K * unit φ) * (1 + SA * H) :=
      mul_le_mul_of_nonneg_left (by linarith) (by positivity)
    linarith
  have hγ := pow_unit_le hup.le K (by linarith)
  have hγ0 := one_le_pow_unit φ K
  have hmain : ((1 + unit φ) ^ K - 1) * T ≤ (2 * (K * unit φ)) * (2 * ((1 + SA * H) * s)) :=
    mul_le_mul (by linarith) hT hT0 (by positivity)
  have hAHs : 0 ≤ SA * H * s := by positivity
  have hbig' : 4 * SB + 4 * SA + 4 * s + 4 * (SA * H * s) ≤ 2 ^ φ.emax := by linarith
  refine ⟨by linarith, by linarith, by linarith, by linarith, ?_, ?_⟩
  · have h1 : ((1 + unit φ) ^ K - 1) * T ≤ s := by
      refine hmain.trans ?_
      have := mul_le_mul_of_nonneg_right hu hs0
      linarith
    have := mul_le_mul_of_nonneg_left h1 (by linarith : 0 ≤ H)
    linarith
  · have := mul_le_mul_of_nonneg_left hmain (by linarith : 0 ≤ H)
    linarith

theorem sum_mul_delayed_le {L : ℕ} {b x : ℕ → ℚ} {X S : ℚ} {n : ℕ} (hX : 0 ≤ X) (hx : ∀ i ≤ n, |x i| ≤ X)
    (hS : ∑ k ∈ range L, |b k| ≤ S) : |∑ k ∈ range L, b k * delayed x n k| ≤ S * X := by
  refine (abs_sum_le_sum_abs _ _).trans ?_
  calc _ ≤ ∑ k ∈ range L, |b k| * X := by
        refine sum_le_sum fun k _ => ?_
        rw [abs_mul]
        refine mul_le_mul_of_nonneg_left ?_ (abs_nonneg _)
        unfold delayed
        split
        · exact hx _ (by omega)
        · rwa [abs_zero]
    _ = (∑ k ∈ range L, |b k|) * X := by rw [sum_mul]
    _ ≤ _ := mul_le_mul_of_nonneg_right hS hX

theorem delayed_is {φ : Format} {v : ℕ → FVal φ} {x : ℕ → ℚ} {n k : ℕ} (h : ∀ i ≤ n - k, k ≤ n → Is (v i) (x i)) :
    Is (delayed (K := FVal φ) v n k) (delayed x n k) := by
  unfold delayed
  by_cases hk : k ≤ n
  · rw [if_pos hk, if_pos hk]; exact h _ le_rfl hk
  · rw [if_neg hk, if_neg hk]; exact ⟨⟨false, 0, rfl, le_rfl⟩, rfl⟩

/-- The magnitude of the solution. -/
theorem solution_le {L N : ℕ} {B A x y : ℕ → ℚ} {H X SB : ℚ} (hG : Gain L A H) (hA0 : A 0 ≠ 0) (hX : 0 ≤ X)
    (hx : ∀ i < N, |x i| ≤ X) (hSB : ∑ k ∈ range L, |B k / A 0| ≤ SB) (hy : Recurrence L N B A x y) :
    ∀ n < N, |y n| ≤ H * SB * X := by
  intro n hn
  rw [mul_assoc]
  refine hG y N (SB * X) (fun i hi => ?_) n hn
  rw [hy i hi]
  have h1 := sum_mul_delayed_le (b := fun k => B k / A 0) (n := i) hX (fun j hj => hx j (by omega)) hSB
  have e : ∑ k ∈ range L, B k * delayed x i k = A 0 * ∑ k ∈ range L, B k / A 0 * delayed x i k := by
    rw [mul_sum]
    refine sum_congr rfl fun k _ => ?_
    field_simp
  rw [e, abs_mul]
  exact mul_le_mul_of_nonneg_left h1 (abs_nonneg _)

/-- The outputs of a filter at rest, with coefficients that are rounded quotients, whatever is fused. -/
theorem iir_run {φ : Format} (d N : ℕ) (b a v out : ℕ → FVal φ) (B A x y : ℕ → ℚ) (hA0 : A 0 ≠ 0)
    (hb1 : ∀ k ≤ d, Near φ (b k) (B k / A 0) (|B k / A 0| + tiny φ) 1)
    (ha1 : ∀ k < d, Near φ (a (k + 1)) (A (k + 1) / A 0) (|A (k + 1) / A 0| + tiny φ) 1)
    (X SB SA H : ℚ) (hX : 0 ≤ X) (hx1 : ∀ i < N, Is (v i) (x i)) (hx : ∀ i < N, |x i| ≤ X)
    (hSB : ∑ k ∈ range (d + 1), |B k / A 0| ≤ SB) (hSA : ∑ k ∈ range d, |A (k + 1) / A 0| ≤ SA)
    (hG : Gain (d + 1) A H) (hu : 8 * (d + 3) * unit φ * (1 + SA * H) ≤ 1)
    (hsmall : 200 * (d + 1) * tiny φ * (X + H * SB * X + 1) ≤ SB * X)
    (hbig : 4 * (SB + SA + SB * X * (1 + SA * H)) ≤ 2 ^ φ.emax) (hy : Recurrence (d + 1) N B A x y)
    (hout : ∀ n < N, Expr.Eval (sumOf (F := Expr φ) (fun k => .leaf (b k)) (fun k => .leaf (a k))
      (fun k => .leaf (delayed (K := FVal φ) v n (k + 1))) (fun k => .leaf (delayed (K := FVal φ) out n (k + 1)))
      (.leaf (v n)) d) (out n)) (i : ℕ)
    (hi : i < N) : ∃ z, Is (out i) z ∧
      |z - y i| ≤ 4 * (d + 3) * unit φ * H * (1 + SA * H) * (SB * X) := by
  have hω := tiny_pos φ
  have hSB0 : 0 ≤ SB := (sum_nonneg fun _ _ => abs_nonneg _).trans hSB
  have hSA0 : 0 ≤ SA := (sum_nonneg fun _ _ => abs_nonneg _).trans hSA
  have hH := gain_one (by omega) hG
  obtain ⟨z1, z2, z3, z4, z5, z6⟩ := sizes (K := d + 3) (d := d) hX hSB0 hSA0 hH (by push_cast; exact hu) hsmall hbig
  have key := gain_core hG out N (fun n => ∑ k ∈ range (d + 1), B k * delayed x n k) y
    hy (solution_le hG hA0 hX hx hSB hy) z5 (by
      intro n hn hb
      have hZ : 0 ≤ 2 * (H * SB * X) := by positivity
      have hd1 : ∀ k < d, |delayed x n (k + 1)| ≤ X := by
        intro k _
        unfold delayed
        split
        · exact hx _ (by omega)
        · rwa [abs_zero]
      have hd2 : ∀ k < d, |delayed (fun i => Val.toRat (out i)) n (k + 1)| ≤ 2 * (H * SB * X) := by
        intro k _
        unfold delayed
        split
        · exact (hb _ (by omega)).2
        · rwa [abs_zero]
      have hmag := magSum_le φ (β := fun k => B k / A 0) (α := fun k => A k / A 0) (s := x n)
        (hx n hn) hd1 hd2 hX hZ hSB hSA
      obtain ⟨hne, -⟩ := sumOf_ne (φ := φ) b a (fun k => delayed (K := FVal φ) v n (k + 1))
        (fun k => delayed (K := FVal φ) out n (k + 1)) (v n)
        (fun k => B k / A 0) (fun k => A k / A 0) (fun k => delayed x n (k + 1))
        (fun k => delayed (fun i => Val.toRat (out i)) n (k + 1)) (x n) d hb1 ha1 (hx1 n hn)
        (fun k hk => delayed_is fun i hi _ => hx1 i (by omega))
        (fun k hk => delayed_is fun i hi _ => ⟨(hb i (by omega)).1, rfl⟩)
        z1 (hmag.trans_lt z2)
      have hs := NE.eval (hout n hn) hne
      refine ⟨hs.1, ?_⟩
      have h1 := hs.2
      change |Val.toRat (out n) - _| ≤ _ at h1
      have e : ∑ k ∈ range (d + 1), A k * delayed (fun i => Val.toRat (out i)) n k -
          ∑ k ∈ range (d + 1), B k * delayed x n k = A 0 * (Val.toRat (out n) - (B 0 / A 0 * x n +
            ∑ j ∈ range d, (B (j + 1) / A 0 * delayed x n (j + 1) -
              A (j + 1) / A 0 * delayed (fun i => Val.toRat (out i)) n (j + 1)))) := by
        rw [sum_range_succ', sum_range_succ' (fun k => B k * delayed x n k), sum_sub_distrib, mul_sub, mul_add, mul_sub,
          mul_sum, mul_sum]
        have e1 : ∀ j ∈ range d, A 0 * (B (j + 1) / A 0 * delayed x n (j + 1)) = B (j + 1) * delayed x n (j + 1) :=
          fun j _ => by field_simp
        have e2 : ∀ j ∈ range d, A 0 * (A (j + 1) / A 0 * delayed (fun i => Val.toRat (out i)) n (j + 1)) =
            A (j + 1) * delayed (fun i => Val.toRat (out i)) n (j + 1) := fun j _ => by field_simp
        rw [sum_congr rfl e1, sum_congr rfl e2, show delayed x n 0 = x n by simp [delayed],
          show delayed (fun i => Val.toRat (out i)) n 0 = Val.toRat (out n) by simp [delayed]]
        field_simp
        ring
      rw [e, abs_mul]
      refine mul_le_mul_of_nonneg_left (h1.trans ?_) (abs_nonneg _)
      refine mul_le_mul_of_nonneg_left hmag ?_
      have := one_le_pow_unit φ (d + 3)
      linarith) i hi
  refine ⟨_, ⟨key.1, rfl⟩, key.2.trans (z6.trans (le_of_eq ?_))⟩
  push_cast
  ring

/-- The same for the model without fused operations. -/
theorem iir_core {φ : Format} (d N : ℕ) (b a v : ℕ → FVal φ) (B A x y : ℕ → ℚ) (hA0 : A 0 ≠ 0)
    (hb1 : ∀ k ≤ d, Near φ (b k) (B k / A 0) (|B k / A 0| + tiny φ) 1)
    (ha1 : ∀ k < d, Near φ (a (k + 1)) (A (k + 1) / A 0) (|A (k + 1) / A 0| + tiny φ) 1)
    (X SB SA H : ℚ) (hX : 0 ≤ X) (hx1 : ∀ i < N, Is (v i) (x i)) (hx : ∀ i < N, |x i| ≤ X)
    (hSB : ∑ k ∈ range (d + 1), |B k / A 0| ≤ SB) (hSA : ∑ k ∈ range d, |A (k + 1) / A 0| ≤ SA)
    (hG : Gain (d + 1) A H) (hu : 8 * (d + 3) * unit φ * (1 + SA * H) ≤ 1)
    (hsmall : 200 * (d + 1) * tiny φ * (X + H * SB * X + 1) ≤ SB * X)
    (hbig : 4 * (SB + SA + SB * X * (1 + SA * H)) ≤ 2 ^ φ.emax) (hy : Recurrence (d + 1) N B A x y) (i : ℕ)
    (hi : i < N) : ∃ z, Is (outAt (F := FVal φ) b a d (fun _ => 0) (fun _ => 0) v i) z ∧
      |z - y i| ≤ 4 * (d + 3) * unit φ * H * (1 + SA * H) * (SB * X) := by
  refine iir_run d N b a v _ B A x y hA0 hb1 ha1 X SB SA H hX hx1 hx hSB hSA hG hu hsmall hbig hy (fun n hn => ?_) i hi
  have hl := fun k hk => lines_rest b a d v n k hk
  have := sumOf_unfused b a (fun k => delayed (K := FVal φ) v n (k + 1))
    (fun k => delayed (K := FVal φ) (outAt b a d (fun _ => 0) (fun _ => 0) v) n (k + 1)) _ _ (v n) d
    (fun k hk => (hl k hk).1.symm) (fun k hk => (hl k hk).2.symm)
  show Expr.Eval _ (sumOf (F := FVal φ) b a _ _ (v n) d)
  rw [← this]
  exact Expr.eval_unfused _

/-- C141 for `IIRFilter` (`d + 1` coefficients each, `d ≥ 1`): the filter made of the finite coefficients `B`, `A` and
run on finite samples of magnitude at most `X` gives finite outputs that differ from the solution of the difference
equation by at most `4 (d+3) u H (1 + SA H) SB X`, for streams of every length and whatever products are fused at each
sample.  `H` is the amplification of errors by the feedback, `SB` and `SA` are the sums of the magnitudes of the
normalised coefficients.  Missing for the full statement: feedback so strong that `8 (d+3) u (1 + SA H)` exceeds one,
samples or coefficients near underflow or overflow. -/
theorem C141_iir_partial {φ : Format} {ev : ℕ → Expr φ → FVal φ} (hev : ∀ i e, Expr.Eval e (ev i e))
    (d : ℕ) (hd : 0 < d) (bc ac input output : Slice) (hbl : bc.len = d + 1)
    (hal : ac.len = d + 1) (hdisj : Disj bc ac) (hib : Disj input bc) (hia : Disj input ac)
    (hio : OutputOk input output) (hob : Disj ⟨output.base, input.len⟩ bc) (hoa : Disj ⟨output.base, input.len⟩ ac)
    (m : ℕ → FVal φ) (B A x y : ℕ → ℚ) (hB : ∀ k ≤ d, Is (m (bc.base + k)) (B k))
    (hA : ∀ k ≤ d, Is (m (ac.base + k)) (A k)) (hA0 : A 0 ≠ 0) (X SB SA H : ℚ) (hX : 0 ≤ X)
    (hx : ∀ i < input.len, Is (m (input.base + i)) (x i) ∧ |x i| ≤ X)
    (hSB : ∑ k ∈ range (d + 1), |B k / A 0| ≤ SB) (hSA : ∑ k ∈ range d, |A (k + 1) / A 0| ≤ SA)
    (hG : Gain (d + 1) A H) (hu : 8 * (d + 3) * 2 ^ (-(φ.p : ℤ)) * (1 + SA * H) ≤ 1)
    (hsmall : 200 * (d + 1) * 2 ^ φ.emin * (X + H * SB * X + 1) ≤ SB * X)
    (hbig : 4 * (SB + SA + SB * X * (1 + SA * H)) ≤ 2 ^ φ.emax) (hy : Recurrence (d + 1) input.len B A x y) :
    ∃ m1 f m2 g, newIIR bc ac m = some (m1, f) ∧ f.filterBy ev m1 input output = some (m2, g) ∧
      ∀ i < input.len, ∃ z, Is (m2 (output.base + i)) z ∧
        |z - y i| ≤ 4 * (d + 3) * 2 ^ (-(φ.p : ℤ)) * H * (1 + SA * H) * (SB * X) := by
  have hω := tiny_pos φ
  have hSB0 : 0 ≤ SB := (sum_nonneg fun _ _ => abs_nonneg _).trans hSB
  have hSA0 : 0 ≤ SA := (sum_nonneg fun _ _ => abs_nonneg _).trans hSA
  have hH := gain_one (by omega) hG
  have eu : (2 : ℚ) ^ (-(φ.p : ℤ)) = unit φ := rfl
  have eω : (2 : ℚ) ^ φ.emin = tiny φ := rfl
  rw [eu] at hu ⊢
  rw [eω] at hsmall
  obtain ⟨z1, z2, z3, z4, z5, z6⟩ := sizes (K := d + 3) (d := d) hX hSB0 hSA0 hH (by push_cast; exact hu) hsmall hbig
  -- the coefficients
  have hle : ∀ k ≤ d, |B k / A 0| ≤ SB := fun k hk =>
    (single_le_sum (f := fun k => |B k / A 0|) (fun _ _ => abs_nonneg _) (mem_range.2 (by omega))).trans hSB
  have hle' : ∀ k < d, |A (k + 1) / A 0| ≤ SA := fun k hk =>
    (single_le_sum (f := fun k => |A (k + 1) / A 0|) (fun _ _ => abs_nonneg _) (mem_range.2 hk)).trans hSA
  have h12 : 1 + unit φ ≤ 2 := by
    have := pow_unit_mono φ (show 1 ≤ d + 3 by omega)
    rw [pow_one] at this
    linarith
  have hn := normalise_eq bc ac m (by omega) (by omega) hdisj
  generalize hM : fill (fill m bc.base bc.len fun i => m (bc.base + i) / m ac.base)
      (ac.base + 1) (ac.len - 1) (fun i => m (ac.base + 1 + i) / m ac.base) = m1 at hn
  unfold Disj at hdisj hib hia hob hoa
  simp only at hob hoa
  have hb1 : ∀ k ≤ d, Near φ (m1 (bc.base + k)) (B k / A 0) (|B k / A 0| + tiny φ) 1 := by
    intro k hk
    rw [← hM, fill_out (by omega), fill_in (by omega)]
    exact near_div (hB k hk) (hA 0 (by omega)) hA0 h12 (by have := hle k hk; linarith)
  have ha1 : ∀ k < d, Near φ (m1 (ac.base + (k + 1))) (A (k + 1) / A 0) (|A (k + 1) / A 0| + tiny φ) 1 := by
    intro k hk
    rw [← hM, show ac.base + (k + 1) = ac.base + 1 + k by omega, fill_in (by omega)]
    refine near_div ?_ (hA 0 (by omega)) hA0 h12 (by have := hle' k hk; linarith)
    rw [show ac.base + 1 + k = ac.base + (k + 1) by omega]
    exact hA (k + 1) (by omega)
  have hx1 : ∀ i < input.len, Is (m1 (input.base + i)) (x i) := by
    intro i hi
    rw [← hM, fill_out (by omega), fill_out (by omega)]
    exact (hx i hi).1
  have hfe := IIR.filterBy_eq ev (⟨bc, ac, d, fun _ => 0, fun _ => 0⟩ : IIR (FVal φ)) m1 input output (by simp only; omega)
    (by simp only; omega) (by simp only; omega) hio.1 (by simp only; omega) (by simp only; omega) hio.2
  refine ⟨m1, ⟨bc, ac, d, fun _ => 0, fun _ => 0⟩, _, _, ?_, hfe, fun i hi => ?_⟩
  · unfold newIIR
    rw [hn]
    simp only [Option.bind_eq_bind, Option.bind_some]
    rw [show bc.len - 1 = d by omega]
  rw [fill_in hi]
  dsimp only
  exact iir_run d input.len _ (fun k => m1 (ac.base + k)) (fun i => m1 (input.base + i)) _ B A x y hA0 hb1 ha1 X SB SA H hX
    hx1 (fun i hi => (hx i hi).2) hSB hSA hG hu hsmall hbig hy (fun n _ => outBy_eval hev _ _ d _ n) i hi

/-- C92 for `IIRFilter`: the case of `C141_iir_partial` where nothing is fused.  Missing for the full statement: as
there. -/
theorem C92_iir_partial {φ : Format} (d : ℕ) (hd : 0 < d) (bc ac input output : Slice) (hbl : bc.len = d + 1)
    (hal : ac.len = d + 1) (hdisj : Disj bc ac) (hib : Disj input bc) (hia : Disj input ac)
    (hio : OutputOk input output) (hob : Disj ⟨output.base, input.len⟩ bc) (hoa : Disj ⟨output.base, input.len⟩ ac)
    (m : ℕ → FVal φ) (B A x y : ℕ → ℚ) (hB : ∀ k ≤ d, Is (m (bc.base + k)) (B k))
    (hA : ∀ k ≤ d, Is (m (ac.base + k)) (A k)) (hA0 : A 0 ≠ 0) (X SB SA H : ℚ) (hX : 0 ≤ X)
    (hx : ∀ i < input.len, Is (m (input.base + i)) (x i) ∧ |x i| ≤ X)
    (hSB : ∑ k ∈ range (d + 1), |B k / A 0| ≤ SB) (hSA : ∑ k ∈ range d, |A (k + 1) / A 0| ≤ SA)
    (hG : Gain (d + 1) A H) (hu : 8 * (d + 3) * 2 ^ (-(φ.p : ℤ)) * (1 + SA * H) ≤ 1)
    (hsmall : 200 * (d + 1) * 2 ^ φ.emin * (X + H * SB * X + 1) ≤ SB * X)
    (hbig : 4 * (SB + SA + SB * X * (1 + SA * H)) ≤ 2 ^ φ.emax) (hy : Recurrence (d + 1) input.len B A x y) :
    ∃ m1 f m2 g, newIIR bc ac m = some (m1, f) ∧ f.filter m1 input output = some (m2, g) ∧
      ∀ i < input.len, ∃ z, Is (m2 (output.base + i)) z ∧
        |z - y i| ≤ 4 * (d + 3) * 2 ^ (-(φ.p : ℤ)) * H * (1 + SA * H) * (SB * X) := by
  obtain ⟨m1, f, m2, g, h1, h2, h3⟩ := C141_iir_partial (ev := fun _ => Expr.unfused) (fun _ e => e.eval_unfused) d hd bc ac
    input output hbl hal hdisj hib hia hio hob hoa m B A x y hB hA hA0 X SB SA H hX hx hSB hSA hG hu hsmall hbig hy
  rw [IIR.filterBy_unfused] at h2
  exact ⟨m1, f, m2, g, h1, h2, h3⟩

/-! ### The biquad -/

theorem first_order_bound_lt {p : ℂ} (hp : ‖p‖ < 1) {u v : Nat → ℂ} {U : ℝ} {N : ℕ} (hU : ∀ n < N, ‖u n‖ ≤ U)
    (h : ∀ n < N, v n = u n + p * delayed v n 1) (n : Nat) (hn : n < N) : ‖v n‖ ≤ U / (1 - ‖p‖) := by
  have hU0 : 0 ≤ U := (norm_nonneg _).trans (hU n hn)
  have h1 : 0 < 1 - ‖p‖ := by linarith
  induction n with
  | zero =>
    have e0 : v 0 = u 0 := by
      rw [h 0 hn]
      simp [delayed]
    rw [e0]
    refine (hU 0 hn).trans ?_
    rw [le_div_iff₀ h1]
    nlinarith [norm_nonneg p]
  | succ n ih =>
    rw [h (n + 1) hn]
    have : delayed v (n + 1) 1 = v n := by simp [delayed]
    rw [this]
    calc ‖u (n + 1) + p * v n‖ ≤ ‖u (n + 1)‖ + ‖p‖ * ‖v n‖ := by
          rw [← norm_mul]; exact norm_add_le _ _
      _ ≤ U + ‖p‖ * (U / (1 - ‖p‖)) := by gcongr; exacts [hU _ hn, ih (by omega)]
      _ = U / (1 - ‖p‖) := by field_simp; ring

/-- A biquad, with its coefficients as real numbers. -/
noncomputable def BQ.real (g : BQ ℚ) : BQ ℝ :=
  ⟨g.B0, g.B1, g.B2, g.A0, g.A1, g.A2, g.prevIn0, g.prevIn1, g.prevOut0, g.prevOut1⟩

/-- A biquad with both poles inside the unit circle amplifies errors by a finite factor. -/
theorem gain_poles (g : BQ ℚ) (h : PolesInside g.real) : ∃ H, Gain 3 g.aSeq H := by
  obtain ⟨p1, p2, hp1, hp2, e1, e2⟩ := exists_poles h
  have hA0 : (g.A0 : ℂ) ≠ 0 := by
    have := h.1
    simp only [BQ.real] at this
    exact_mod_cast this
  have hA0' : g.A0 ≠ 0 := by exact_mod_cast hA0
  have q1 : 0 < 1 - ‖p1‖ := by linarith
  have q2 : 0 < 1 - ‖p2‖ := by linarith
  obtain ⟨H, hH⟩ := exists_rat_gt (1 / (1 - ‖p1‖) / (1 - ‖p2‖))
  refine ⟨H, fun e N δ hδ n hn => ?_⟩
  let y : Nat → ℂ := fun n => ((e n : ℚ) : ℂ)
  let u : Nat → ℂ := fun n => ((∑ k ∈ range 3, g.aSeq k * delayed e n k : ℚ) : ℂ) / g.A0
  let v : Nat → ℂ := fun n => y n - p2 * delayed y n 1
  have hδ0 : 0 ≤ δ := by
    have := (abs_nonneg _).trans (hδ n hn)
    exact nonneg_of_mul_nonneg_right (by linarith) (abs_pos.2 hA0' : 0 < |g.aSeq 0|)
  have hu : ∀ n < N, ‖u n‖ ≤ δ := by
    intro n hn
    have h1 := hδ n hn
    have e0 : g.aSeq 0 = g.A0 := rfl
    rw [e0] at h1
    simp only [u]
    rw [← Complex.ofReal_ratCast, ← Complex.ofReal_ratCast, norm_div, Complex.norm_real, Complex.norm_real,
      Real.norm_eq_abs, Real.norm_eq_abs]
    have hA : (0 : ℝ) < |(g.A0 : ℝ)| := abs_pos.2 (by exact_mod_cast hA0')
    rw [div_le_iff₀ hA, mul_comm]
    exact_mod_cast h1
  have hdy : ∀ n k, ((delayed e n k : ℚ) : ℂ) = delayed y n k := by
    intro n k
    unfold delayed
    split <;> simp [y]
  simp only [BQ.real] at e1 e2
  have hy : ∀ n, y n = u n - (-(p1 + p2)) * delayed y n 1 - (p1 * p2) * delayed y n 2 := by
    intro n
    rw [← e1, ← e2, ← hdy, ← hdy]
    simp only [u, sum_range_succ, sum_range_zero, zero_add, BQ.aSeq]
    simp only [if_true, one_ne_zero, if_false, OfNat.ofNat_ne_zero, OfNat.ofNat_ne_one]
    rw [show delayed e n 0 = e n by simp [delayed]]
    push_cast
    field_simp
    ring
  have hv : ∀ n, v n = u n + p1 * delayed v n 1 := by
    intro n
    have e := hy n
    match n with
    | 0 =>
      simp only [delayed] at e
      simp at e
      simp only [v, delayed]
      simp
      rw [e]
    | 1 =>
      simp only [delayed] at e
      simp at e
      simp only [v, delayed]
      simp
      rw [e]
      ring
    | n + 2 =>
      simp only [delayed] at e
      simp at e
      simp only [v, delayed]
      simp
      rw [e]
      ring
  have b1 := first_order_bound_lt hp1 hu fun n _ => hv n
  have b2 := first_order_bound_lt hp2 (u := v) (v := y) b1 (fun n _ => by simp only [v]; ring) n hn
  simp only [y] at b2
  rw [← Complex.ofReal_ratCast, Complex.norm_real, Real.norm_eq_abs] at b2
  have h3 : |(e n : ℝ)| ≤ H * δ := by
    refine b2.trans ?_
    have := mul_le_mul_of_nonneg_right hH.le (show (0 : ℝ) ≤ δ by exact_mod_cast hδ0)
    refine le_trans (le_of_eq ?_) this
    ring
  exact_mod_cast h3

/-- A biquad of finite data with the values `g`, that has not been used. -/
structure BQ.HasValues {φ : Format} (f : BQ (FVal φ)) (g : BQ ℚ) : Prop where
  B0 : Is f.B0 g.B0
  B1 : Is f.B1 g.B1
  B2 : Is f.B2 g.B2
  A0 : Is f.A0 g.A0
  A1 : Is f.A1 g.A1
  A2 : Is f.A2 g.A2
  in0 : f.prevIn0 = 0
  in1 : f.prevIn1 = 0
  out0 : f.prevOut0 = 0
  out1 : f.prevOut1 = 0

theorem BQ.rest_state {φ : Format} (ev : ℕ → Expr φ → FVal φ) {f : BQ (FVal φ)} {g : BQ ℚ} (h : f.HasValues g)
    (x : ℕ → FVal φ) (n : ℕ) :
    (f.afterBy ev x n).prevIn0 = delayed x n 1 ∧ (f.afterBy ev x n).prevIn1 = delayed x n 2 ∧
    (f.afterBy ev x n).prevOut0 = delayed (fun i => (f.afterBy ev x (i + 1)).prevOut0) n 1 ∧
    (f.afterBy ev x n).prevOut1 = delayed (fun i => (f.afterBy ev x (i + 1)).prevOut0) n 2 := by
  match n with
  | 0 => exact ⟨h.in0, h.in1, h.out0, h.out1⟩
  | 1 => exact ⟨rfl, h.in0, rfl, h.out0⟩
  | n + 2 => exact ⟨rfl, rfl, rfl, rfl⟩

/-- The sum of the biquad, with rounding. -/
theorem bq_ne {φ : Format} (v0 v1 v2 w1 w2 s i0 i1 o0 o1 : FVal φ) (β α x z : ℕ → ℚ) (sx : ℚ)
    (h0 : Near φ v0 (β 0) (|β 0| + tiny φ) 1) (h1 : Near φ v1 (β 1) (|β 1| + tiny φ) 1)
    (h2 : Near φ v2 (β 2) (|β 2| + tiny φ) 1) (h3 : Near φ w1 (α 1) (|α 1| + tiny φ) 1)
    (h4 : Near φ w2 (α 2) (|α 2| + tiny φ) 1) (hs : Is s sx) (hi0 : Is i0 (x 0)) (hi1 : Is i1 (x 1))
    (ho0 : Is o0 (z 0)) (ho1 : Is o1 (z 1)) (hk : (1 + unit φ) ^ 6 ≤ 2) (htop : magSum φ β α x z sx 2 < 2 ^ φ.emax) :
    NE (bqExpr v0 v1 v2 w1 w2 s i0 i1 o0 o1)
      (β 0 * sx + ∑ j ∈ range 2, (β (j + 1) * x j - α (j + 1) * z j)) (magSum φ β α x z sx 2) 6 := by
  have hω := tiny_pos φ
  have pow_le : ∀ k ≤ 6, (1 + unit φ) ^ k ≤ 2 := fun k h => (pow_unit_mono φ h).trans hk
  have prod : ∀ (v w : FVal φ) (x y : ℚ), Near φ v x (|x| + tiny φ) 1 → Is w y →
      (|x| + tiny φ) * |y| + tiny φ < 2 ^ φ.emax →
      NE (.mul (.leaf v) (.leaf w) : Expr φ) (x * y) ((|x| + tiny φ) * |y| + tiny φ) 2 ∧
        |x * y| + tiny φ ≤ (|x| + tiny φ) * |y| + tiny φ := by
    intro v w x y hv hw ht
    refine ⟨NE.mul (k := 1) (l := 0) (.leaf hv (by linarith)) (.leaf (near_of_is hw |y|) le_rfl)
      (pow_le (1 + 0 + 1) (by omega)) ht, ?_⟩
    rw [abs_mul]
    have := mul_nonneg hω.le (abs_nonneg y)
    linarith
  have eM : magSum φ β α x z sx 2 = ((|β 0| + tiny φ) * |sx| + tiny φ) + ((|β 1| + tiny φ) * |x 0| + tiny φ) +
      ((|β 2| + tiny φ) * |x 1| + tiny φ) + ((|α 1| + tiny φ) * |z 0| + tiny φ) +
      ((|α 2| + tiny φ) * |z 1| + tiny φ) := by
    simp only [magSum]; ring
  rw [eM] at htop ⊢
  have t0 : 0 ≤ (|β 0| + tiny φ) * |sx| + tiny φ := by positivity
  have t1 : 0 ≤ (|β 1| + tiny φ) * |x 0| + tiny φ := by positivity
  have t2 : 0 ≤ (|β 2| + tiny φ) * |x 1| + tiny φ := by positivity
  have t3 : 0 ≤ (|α 1| + tiny φ) * |z 0| + tiny φ := by positivity
  have t4 : 0 ≤ (|α 2| + tiny φ) * |z 1| + tiny φ := by positivity
  obtain ⟨a0, b0⟩ := prod v0 s (β 0) sx h0 hs (by linarith)
  obtain ⟨a1, b1⟩ := prod v1 i0 (β 1) (x 0) h1 hi0 (by linarith)
  obtain ⟨a2, b2⟩ := prod v2 i1 (β 2) (x 1) h2 hi1 (by linarith)
  obtain ⟨a3, b3⟩ := prod w1 o0 (α 1) (z 0) h3 ho0 (by linarith)
  obtain ⟨a4, b4⟩ := prod w2 o1 (α 2) (z 1) h4 ho1 (by linarith)
  have c1 := NE.add a0 a1 (by linarith) (pow_le (2 + 1) (by omega)) (by linarith)
  have d1 := abs_add_le (β 0 * sx) (β 1 * x 0)
  have c2 := NE.add c1 (a2.weaken (show 2 ≤ 2 + 1 by omega) le_rfl) (by linarith) (pow_le (2 + 1 + 1) (by omega))
    (by linarith)
  have d2 := abs_add_le (β 0 * sx + β 1 * x 0) (β 2 * x 1)
  have c3 := NE.sub c2 (a3.weaken (show 2 ≤ 2 + 1 + 1 by omega) le_rfl) (by linarith)
    (pow_le (2 + 1 + 1 + 1) (by omega)) (by linarith)
  have d3 := abs_sub (β 0 * sx + β 1 * x 0 + β 2 * x 1) (α 1 * z 0)
  have c4 := NE.sub c3 (a4.weaken (show 2 ≤ 2 + 1 + 1 + 1 by omega) le_rfl) (by linarith)
    (pow_le (2 + 1 + 1 + 1 + 1) (by omega)) (by linarith)
  have ev : β 0 * sx + ∑ j ∈ range 2, (β (j + 1) * x j - α (j + 1) * z j) =
      β 0 * sx + β 1 * x 0 + β 2 * x 1 - α 1 * z 0 - α 2 * z 1 := by
    simp only [sum_range_succ, sum_range_zero]; ring
  rw [ev]
  exact c4

/-- The outputs of a biquad on a stream of finite samples, whatever is fused. -/
theorem bq_run {φ : Format} (f : BQ (FVal φ)) (g : BQ ℚ) (hf : f.HasValues g) (hA0 : g.A0 ≠ 0) (v out : ℕ → FVal φ)
    (N : ℕ) (x y : ℕ → ℚ) (X SB SA H : ℚ) (hX : 0 ≤ X) (hx : ∀ i < N, Is (v i) (x i) ∧ |x i| ≤ X)
    (hSB : |g.B0 / g.A0| + |g.B1 / g.A0| + |g.B2 / g.A0| ≤ SB) (hSA : |g.A1 / g.A0| + |g.A2 / g.A0| ≤ SA)
    (hG : Gain 3 g.aSeq H) (hu : 48 * unit φ * (1 + SA * H) ≤ 1)
    (hsmall : 600 * tiny φ * (X + H * SB * X + 1) ≤ SB * X)
    (hbig : 4 * (SB + SA + SB * X * (1 + SA * H)) ≤ 2 ^ φ.emax) (hy : Recurrence 3 N g.bSeq g.aSeq x y)
    (hout : ∀ n < N, Expr.Eval (bqExpr (f.B0 / f.A0) (f.B1 / f.A0) (f.B2 / f.A0) (f.A1 / f.A0) (f.A2 / f.A0) (v n)
      (delayed v n 1) (delayed v n 2) (delayed out n 1) (delayed out n 2)) (out n)) :
    ∀ n < N, Finite (out n) ∧
      |Val.toRat (out n) - y n| ≤ 24 * unit φ * H * (1 + SA * H) * (SB * X) := by
  have hω := tiny_pos φ
  have hSB0 : 0 ≤ SB := le_trans (by positivity) hSB
  have hSA0 : 0 ≤ SA := le_trans (by positivity) hSA
  have hH := gain_one (by omega) hG
  obtain ⟨z1, z2, z3, z4, z5, z6⟩ := sizes (φ := φ) (K := 6) (d := 2) hX hSB0 hSA0 hH
    (by norm_num; linarith) (by norm_num; linarith) hbig
  have hSB' : ∑ k ∈ range 3, |g.bSeq k / g.aSeq 0| ≤ SB := by
    simpa [sum_range_succ, BQ.bSeq, BQ.aSeq] using hSB
  have hSB2 : ∑ k ∈ range (2 + 1), |g.bSeq k / g.A0| ≤ SB := hSB'
  have hSA2 : ∑ k ∈ range 2, |g.aSeq (k + 1) / g.A0| ≤ SA := by
    simpa [sum_range_succ, BQ.aSeq] using hSA
  have h12 : 1 + unit φ ≤ 2 := by
    have := pow_unit_mono φ (show 1 ≤ 6 by omega)
    rw [pow_one] at this
    linarith
  have n1 := abs_nonneg (g.B0 / g.A0)
  have n2 := abs_nonneg (g.B1 / g.A0)
  have n3 := abs_nonneg (g.B2 / g.A0)
  have n4 := abs_nonneg (g.A1 / g.A0)
  have n5 := abs_nonneg (g.A2 / g.A0)
  have c0 := near_div hf.B0 hf.A0 hA0 h12 (by linarith)
  have c1 := near_div hf.B1 hf.A0 hA0 h12 (by linarith)
  have c2 := near_div hf.B2 hf.A0 hA0 h12 (by linarith)
  have c3 := near_div hf.A1 hf.A0 hA0 h12 (by linarith)
  have c4 := near_div hf.A2 hf.A0 hA0 h12 (by linarith)
  intro n hn
  have key := gain_core hG out N
    (fun n => ∑ k ∈ range 3, g.bSeq k * delayed x n k) y hy
    (solution_le hG hA0 hX (fun i hi => (hx i hi).2) hSB' hy) z5 (by
      intro n hn hb
      have hZ : 0 ≤ 2 * (H * SB * X) := by positivity
      have hd1 : ∀ k < 2, |delayed x n (k + 1)| ≤ X := by
        intro k _
        unfold delayed
        split
        · exact (hx _ (by omega)).2
        · rwa [abs_zero]
      have hd2 : ∀ k < 2, |delayed (fun i => Val.toRat (out i)) n (k + 1)| ≤ 2 * (H * SB * X) := by
        intro k _
        unfold delayed
        split
        · exact (hb _ (by omega)).2
        · rwa [abs_zero]
      have hmag := magSum_le φ (β := fun k => g.bSeq k / g.A0) (α := fun k => g.aSeq k / g.A0) (s := x n)
        (hx n hn).2 hd1 hd2 hX hZ hSB2 hSA2
      have hne := bq_ne (φ := φ) (f.B0 / f.A0) (f.B1 / f.A0) (f.B2 / f.A0) (f.A1 / f.A0) (f.A2 / f.A0) (v n)
        (delayed v n 1) (delayed v n 2) (delayed out n 1) (delayed out n 2)
        (fun k => g.bSeq k / g.A0) (fun k => g.aSeq k / g.A0) (fun k => delayed x n (k + 1))
        (fun k => delayed (fun i => Val.toRat (out i)) n (k + 1)) (x n) c0 c1 c2 c3 c4 (hx n hn).1
        (delayed_is fun i hi _ => (hx i (by omega)).1) (delayed_is fun i hi _ => (hx i (by omega)).1)
        (delayed_is fun i hi _ => ⟨(hb i (by omega)).1, rfl⟩) (delayed_is fun i hi _ => ⟨(hb i (by omega)).1, rfl⟩)
        z1 (hmag.trans_lt z2)
      have hs := NE.eval (hout n hn) hne
      refine ⟨hs.1, ?_⟩
      have h1 := hs.2
      have e : ∑ k ∈ range 3, g.aSeq k * delayed (fun i => Val.toRat (out i)) n k -
          ∑ k ∈ range 3, g.bSeq k * delayed x n k = g.A0 * (Val.toRat (out n) - (g.bSeq 0 / g.A0 * x n +
            ∑ j ∈ range 2, (g.bSeq (j + 1) / g.A0 * delayed x n (j + 1) -
              g.aSeq (j + 1) / g.A0 * delayed (fun i => Val.toRat (out i)) n (j + 1)))) := by
        simp only [sum_range_succ, sum_range_zero, zero_add]
        rw [show delayed x n 0 = x n by simp [delayed],
          show delayed (fun i => Val.toRat (out i)) n 0 = Val.toRat (out n) by simp [delayed],
          show g.aSeq 0 = g.A0 from rfl]
        field_simp
        ring
      rw [e, abs_mul]
      refine mul_le_mul_of_nonneg_left (h1.trans ?_) (abs_nonneg _)
      refine mul_le_mul_of_nonneg_left hmag ?_
      have := one_le_pow_unit φ 6
      linarith) n hn
  refine ⟨key.1, key.2.trans (z6.trans (le_of_eq ?_))⟩
  push_cast
  ring

/-- The same for the loop of the filter. -/
theorem bq_core {φ : Format} {ev : ℕ → Expr φ → FVal φ} (hev : ∀ i e, Expr.Eval e (ev i e)) (f : BQ (FVal φ)) (g : BQ ℚ) (hf : f.HasValues g) (hA0 : g.A0 ≠ 0) (v : ℕ → FVal φ)
    (N : ℕ) (x y : ℕ → ℚ) (X SB SA H : ℚ) (hX : 0 ≤ X) (hx : ∀ i < N, Is (v i) (x i) ∧ |x i| ≤ X)
    (hSB : |g.B0 / g.A0| + |g.B1 / g.A0| + |g.B2 / g.A0| ≤ SB) (hSA : |g.A1 / g.A0| + |g.A2 / g.A0| ≤ SA)
    (hG : Gain 3 g.aSeq H) (hu : 48 * unit φ * (1 + SA * H) ≤ 1)
    (hsmall : 600 * tiny φ * (X + H * SB * X + 1) ≤ SB * X)
    (hbig : 4 * (SB + SA + SB * X * (1 + SA * H)) ≤ 2 ^ φ.emax) (hy : Recurrence 3 N g.bSeq g.aSeq x y) :
    ∀ n < N, Finite (f.afterBy ev v (n + 1)).prevOut0 ∧
      |Val.toRat (f.afterBy ev v (n + 1)).prevOut0 - y n| ≤ 24 * unit φ * H * (1 + SA * H) * (SB * X) := by
  refine bq_run f g hf hA0 v (fun i => (f.afterBy ev v (i + 1)).prevOut0) N x y X SB SA H hX hx hSB hSA hG hu hsmall hbig hy
    fun n _ => ?_
  obtain ⟨s1, s2, s3, s4⟩ := BQ.rest_state ev hf v n
  obtain ⟨k0, k1, k2, k3, k4, k5⟩ := f.afterBy_coef ev v n
  rw [← s1, ← s2, ← s3, ← s4]
  have := hev n (bqExpr (f.B0 / f.A0) (f.B1 / f.A0) (f.B2 / f.A0) (f.A1 / f.A0) (f.A2 / f.A0) (v n)
    (f.afterBy ev v n).prevIn0 (f.afterBy ev v n).prevIn1 (f.afterBy ev v n).prevOut0 (f.afterBy ev v n).prevOut1)
  show Expr.Eval _ ((f.afterBy ev v n).stepBy (ev n) (v n)).prevOut0
  unfold BQ.stepBy
  simp only [k0, k1, k2, k3, k4, k5]
  exact this

/-- C141 for `BiQuadFilter.Filter`: an unused biquad of finite coefficients, run on finite samples of magnitude at most
`X`, gives finite outputs that differ from the solution of its difference equation by at most
`24 u H (1 + SA H) SB X`, for streams of every length and whatever products are fused at each sample.  By `C92_gain` a
finite `H` exists when the poles are inside the unit circle.  Missing for the full statement: feedback so strong that
`48 u (1 + SA H)` exceeds one, samples or coefficients near underflow or overflow. -/
theorem C141_biquad_partial {φ : Format} {ev : ℕ → Expr φ → FVal φ} (hev : ∀ i e, Expr.Eval e (ev i e))
    (f : BQ (FVal φ)) (g : BQ ℚ) (hf : f.HasValues g) (hA0 : g.A0 ≠ 0)
    (m : ℕ → FVal φ) (input output : Slice) (hio : OutputOk input output) (x y : ℕ → ℚ) (X SB SA H : ℚ) (hX : 0 ≤ X)
    (hx : ∀ i < input.len, Is (m (input.base + i)) (x i) ∧ |x i| ≤ X)
    (hSB : |g.B0 / g.A0| + |g.B1 / g.A0| + |g.B2 / g.A0| ≤ SB) (hSA : |g.A1 / g.A0| + |g.A2 / g.A0| ≤ SA)
    (hG : Gain 3 g.aSeq H) (hu : 48 * 2 ^ (-(φ.p : ℤ)) * (1 + SA * H) ≤ 1)
    (hsmall : 600 * 2 ^ φ.emin * (X + H * SB * X + 1) ≤ SB * X)
    (hbig : 4 * (SB + SA + SB * X * (1 + SA * H)) ≤ 2 ^ φ.emax)
    (hy : Recurrence 3 input.len g.bSeq g.aSeq x y) :
    ∃ m' h, f.filterBy ev m input output = some (m', h) ∧ ∀ i < input.len, ∃ z, Is (m' (output.base + i)) z ∧
      |z - y i| ≤ 24 * 2 ^ (-(φ.p : ℤ)) * H * (1 + SA * H) * (SB * X) := by
  refine ⟨_, _, BQ.filterF32By_eq (fun s => s) (fun s => s) ev f m input output hio, fun i hi => ?_⟩
  rw [fill_in hi]
  obtain ⟨h1, h2⟩ := bq_core hev f g hf hA0 (fun i => m (input.base + i)) input.len x y X SB SA H hX hx hSB hSA hG hu
    hsmall hbig hy i hi
  exact ⟨_, ⟨h1, rfl⟩, h2⟩

/-- C92 for `BiQuadFilter.Filter`: the case of `C141_biquad_partial` where nothing is fused.  Missing for the full
statement: as there. -/
theorem C92_biquad_partial {φ : Format} (f : BQ (FVal φ)) (g : BQ ℚ) (hf : f.HasValues g) (hA0 : g.A0 ≠ 0)
    (m : ℕ → FVal φ) (input output : Slice) (hio : OutputOk input output) (x y : ℕ → ℚ) (X SB SA H : ℚ) (hX : 0 ≤ X)
    (hx : ∀ i < input.len, Is (m (input.base + i)) (x i) ∧ |x i| ≤ X)
    (hSB : |g.B0 / g.A0| + |g.B1 / g.A0| + |g.B2 / g.A0| ≤ SB) (hSA : |g.A1 / g.A0| + |g.A2 / g.A0| ≤ SA)
    (hG : Gain 3 g.aSeq H) (hu : 48 * 2 ^ (-(φ.p : ℤ)) * (1 + SA * H) ≤ 1)
    (hsmall : 600 * 2 ^ φ.emin * (X + H * SB * X + 1) ≤ SB * X)
    (hbig : 4 * (SB + SA + SB * X * (1 + SA * H)) ≤ 2 ^ φ.emax)
    (hy : Recurrence 3 input.len g.bSeq g.aSeq x y) :
    ∃ m' h, f.filter m input output = some (m', h) ∧ ∀ i < input.len, ∃ z, Is (m' (output.base + i)) z ∧
      |z - y i| ≤ 24 * 2 ^ (-(φ.p : ℤ)) * H * (1 + SA * H) * (SB * X) :=
  C141_biquad_partial (ev := fun _ => Expr.unfused) (fun _ e => e.eval_unfused) f g hf hA0 m input output hio x y X SB SA H
    hX hx hSB hSA hG hu hsmall hbig hy

/-- A biquad with both poles inside the unit circle has a finite amplification of errors. -/
theorem C92_gain (g : BQ ℚ) (h : PolesInside g.real) : ∃ H, Gain 3 g.aSeq H := gain_poles g h

/-- C141 for `BiQuadFilter.FilterF32`: samples in single precision, computation in double precision, outputs rounded
to single precision, whatever products are fused.  The bound is that of `C141_biquad_partial` and half a unit in the last
place of single precision.  Missing for the full statement: as there. -/
theorem C141_f32_partial {ev : ℕ → Expr binary64 → FVal binary64}
    (hev : ∀ i e, Expr.Eval e (ev i e)) (f : BQ (FVal binary64)) (g : BQ ℚ) (hf : f.HasValues g) (hA0 : g.A0 ≠ 0)
    (m : ℕ → FVal binary32) (input output : Slice) (hio : OutputOk input output) (x y : ℕ → ℚ) (X SB SA H : ℚ)
    (hX : 0 ≤ X) (hXtop : X < 2 ^ 127)
    (hx : ∀ i < input.len, Is (m (input.base + i)) (x i) ∧ Grid binary32 (x i) ∧ |x i| ≤ X)
    (hSB : |g.B0 / g.A0| + |g.B1 / g.A0| + |g.B2 / g.A0| ≤ SB) (hSA : |g.A1 / g.A0| + |g.A2 / g.A0| ≤ SA)
    (hG : Gain 3 g.aSeq H) (hu : 48 * 2 ^ (-53 : ℤ) * (1 + SA * H) ≤ 1)
    (hsmall : 600 * 2 ^ (-1022 : ℤ) * (X + H * SB * X + 1) ≤ SB * X)
    (hbig : 4 * (SB + SA + SB * X * (1 + SA * H)) ≤ 2 ^ 1023) (hbig2 : 4 * (H * SB * X) ≤ 2 ^ 127)
    (hy : Recurrence 3 input.len g.bSeq g.aSeq x y) :
    ∃ m' h, f.filterF32By widen narrow ev m input output = some (m', h) ∧
      ∀ i < input.len, ∃ z, Is (m' (output.base + i)) z ∧ Grid binary32 z ∧
        |z - y i| ≤ 24 * 2 ^ (-53 : ℤ) * H * (1 + SA * H) * (SB * X) + (2 * (H * SB * X) * 2 ^ (-24 : ℤ) + 2 ^ (-150 : ℤ)) := by
  refine ⟨_, _, BQ.filterF32By_eq widen narrow ev f m input output hio, fun i hi => ?_⟩
  rw [fill_in hi]
  have hX64 : X < 2 ^ (binary64.emax + 1) := by
    refine hXtop.trans ?_
    have : (2 : ℚ) ^ (127 : ℤ) < 2 ^ (binary64.emax + 1) := zpow_lt_zpow_right₀ (by norm_num) (by decide)
    exact_mod_cast this
  have hv : ∀ i < input.len, Is (widen (m (input.base + i))) (x i) ∧ |x i| ≤ X := by
    intro i hi
    obtain ⟨h1, h2, h3⟩ := hx i hi
    have e := rd_grid binary64 (by decide) (grid_mono h2)
    have := convert_rd (φ := binary64) h1 (by rw [e]; exact h3.trans_lt hX64)
    rw [e] at this
    exact ⟨this, h3⟩
  obtain ⟨h1, h2⟩ := bq_core hev f g hf hA0 (fun i => widen (m (input.base + i))) input.len x y X SB SA H hX hv
    hSB hSA hG hu hsmall hbig hy i hi
  change |_| ≤ 24 * 2 ^ (-53 : ℤ) * H * (1 + SA * H) * (SB * X) at h2
  set z := Val.toRat (BQ.afterBy ev f (fun i => widen (m (input.base + i))) (i + 1)).prevOut0 with hz
  have hSB0 : 0 ≤ SB := le_trans (by positivity) hSB
  have hSA0 : 0 ≤ SA := le_trans (by positivity) hSA
  have hH := gain_one (by omega) hG
  have hSB' : ∑ k ∈ range 3, |g.bSeq k / g.aSeq 0| ≤ SB := by
    simpa [sum_range_succ, BQ.bSeq, BQ.aSeq] using hSB
  have hyb := solution_le hG hA0 hX (fun i hi => (hx i hi).2.2) hSB' hy i hi
  have hYs : 0 ≤ H * SB * X := by positivity
  have hE : 24 * 2 ^ (-53 : ℤ) * H * (1 + SA * H) * (SB * X) ≤ H * SB * X := by
    have := mul_le_mul_of_nonneg_right hu hYs
    linarith
  have hzb : |z| ≤ 2 * (H * SB * X) := by
    have := abs_add_le (z - y i) (y i)
    rw [sub_add_cancel] at this
    linarith
  have herr := rd_err binary32 z
  have h24 : |z| * 2 ^ (-(binary32.p : ℤ)) ≤ 2 * (H * SB * X) * 2 ^ (-24 : ℤ) :=
    mul_le_mul_of_nonneg_right hzb (by positivity)
  have htop : |rd binary32 z| < 2 ^ (binary32.emax + 1) := by
    refine lt_of_le_of_lt (abs_rd_le binary32 (by decide) (grid_pow binary32 (by decide) 127 (by decide)) ?_)
      (by norm_num [binary32])
    refine hzb.trans ?_
    have : (2 : ℚ) ^ (127 : ℤ) = 2 ^ 127 := by norm_num
    rw [this]
    linarith
  refine ⟨rd binary32 z, convert_rd (φ := binary32) ⟨h1, rfl⟩ htop, grid_rd binary32 (by decide) z, ?_⟩
  have e150 : (2 : ℚ) ^ (binary32.emin - binary32.p) = 2 ^ (-150 : ℤ) := by norm_num [binary32]
  rw [e150] at herr
  have := abs_add_le (rd binary32 z - z) (z - y i)
  rw [sub_add_sub_cancel] at this
  linarith

/-- C92 for `BiQuadFilter.FilterF32`: the case of `C141_f32_partial` where nothing is fused.  Missing for the full
statement: as there. -/
theorem C92_f32_partial (f : BQ (FVal binary64)) (g : BQ ℚ) (hf : f.HasValues g) (hA0 : g.A0 ≠ 0)
    (m : ℕ → FVal binary32) (input output : Slice) (hio : OutputOk input output) (x y : ℕ → ℚ) (X SB SA H : ℚ)
    (hX : 0 ≤ X) (hXtop : X < 2 ^ 127)
    (hx : ∀ i < input.len, Is (m (input.base + i)) (x i) ∧ Grid binary32 (x i) ∧ |x i| ≤ X)
    (hSB : |g.B0 / g.A0| + |g.B1 / g.A0| + |g.B2 / g.A0| ≤ SB) (hSA : |g.A1 / g.A0| + |g.A2 / g.A0| ≤ SA)
    (hG : Gain 3 g.aSeq H) (hu : 48 * 2 ^ (-53 : ℤ) * (1 + SA * H) ≤ 1)
    (hsmall : 600 * 2 ^ (-1022 : ℤ) * (X + H * SB * X + 1) ≤ SB * X)
    (hbig : 4 * (SB + SA + SB * X * (1 + SA * H)) ≤ 2 ^ 1023) (hbig2 : 4 * (H * SB * X) ≤ 2 ^ 127)
    (hy : Recurrence 3 input.len g.bSeq g.aSeq x y) :
    ∃ m' h, f.filterF32 widen narrow m input output = some (m', h) ∧
      ∀ i < input.len, ∃ z, Is (m' (output.base + i)) z ∧ Grid binary32 z ∧
        |z - y i| ≤ 24 * 2 ^ (-53 : ℤ) * H * (1 + SA * H) * (SB * X) + (2 * (H * SB * X) * 2 ^ (-24 : ℤ) + 2 ^ (-150 : ℤ)) :=
  C141_f32_partial (ev := fun _ => Expr.unfused) (fun _ e => e.eval_unfused) f g hf hA0 m input output hio x y X SB SA H
    hX hXtop hx hSB hSA hG hu hsmall hbig hbig2 hy

/-! ### Examples of the hypotheses -/

/-- A way of fusing that differs from sample to sample. -/
example : ∃ ev : ℕ → Expr binary64 → FVal binary64, (∀ i e, Expr.Eval e (ev i e)) ∧ ∃ i j e, ev i e ≠ ev j e := by
  refine ⟨fun i e => if i % 2 = 0 then e.fuse else e.unfused, fun i e => ?_, 0, 1,
    .sub (.mul (.leaf (.fin false (1 + 1 / 2 ^ 52))) (.leaf (.fin false (1 + 1 / 2 ^ 52)))) (.leaf (.fin false (1 + 1 / 2 ^ 51))), ?_⟩
  · dsimp only
    split
    · exact e.eval_fuse
    · exact e.eval_unfused
  · exact (by decide +kernel : fma binary64 (.fin false (1 + 1 / 2 ^ 52)) (.fin false (1 + 1 / 2 ^ 52)) (Fp.neg (.fin false (1 + 1 / 2 ^ 51))) ≠
      Fp.sub binary64 (Fp.mul binary64 (.fin false (1 + 1 / 2 ^ 52)) (.fin false (1 + 1 / 2 ^ 52))) (.fin false (1 + 1 / 2 ^ 51)))

/-- A first-order low-pass filter in double precision: `y[n] = x[n] + y[n-1] / 2`. -/
example : ∃ B A : ℕ → ℚ, A 0 ≠ 0 ∧ ∑ k ∈ range 2, |B k / A 0| ≤ 1 ∧ ∑ k ∈ range 1, |A (k + 1) / A 0| ≤ 1 / 2 ∧
    Gain 2 A 2 ∧ 8 * ((1 : ℕ) + 3) * (2 : ℚ) ^ (-(binary64.p : ℤ)) * (1 + 1 / 2 * 2) ≤ 1 ∧
    200 * ((1 : ℕ) + 1) * (2 : ℚ) ^ binary64.emin * (1 + 2 * 1 * 1 + 1) ≤ 1 * 1 ∧
    4 * ((1 : ℚ) + 1 / 2 + 1 * 1 * (1 + 1 / 2 * 2)) ≤ 2 ^ binary64.emax := by
  refine ⟨fun k => if k = 0 then 1 else 0, fun k => if k = 0 then 1 else -(1 / 2), by norm_num, ?_, ?_, ?_, ?_, ?_, ?_⟩
  · norm_num [sum_range_succ]
  · norm_num [sum_range_succ, abs_of_pos]
  · have := gain_of_small (d := 1) (a := fun k => if k = 0 then (1 : ℚ) else -(1 / 2)) (by norm_num) (S := 1 / 2)
      (by norm_num [sum_range_succ, abs_of_pos]) (by norm_num)
    norm_num at this
    exact this
  · norm_num [binary64]
  · have : (2 : ℚ) ^ binary64.emin ≤ 2 ^ (-20 : ℤ) := zpow_le_zpow_right₀ (by norm_num) (by decide)
    norm_num at this ⊢
    linarith
  · have : (2 : ℚ) ^ (10 : ℤ) ≤ 2 ^ binary64.emax := zpow_le_zpow_right₀ (by norm_num) (by decide)
    norm_num at this ⊢
    linarith

/-- A biquad in double precision: `y[n] = x[n] + y[n-1] / 2 - y[n-2] / 4`. -/
example : ∃ (f : BQ (FVal binary64)) (g : BQ ℚ), f.HasValues g ∧ g.A0 ≠ 0 ∧
    |g.B0 / g.A0| + |g.B1 / g.A0| + |g.B2 / g.A0| ≤ 1 ∧ |g.A1 / g.A0| + |g.A2 / g.A0| ≤ 3 / 4 ∧ Gain 3 g.aSeq 4 ∧
    48 * (2 : ℚ) ^ (-53 : ℤ) * (1 + 3 / 4 * 4) ≤ 1 ∧ 600 * (2 : ℚ) ^ (-1022 : ℤ) * (1 + 4 * 1 * 1 + 1) ≤ 1 * 1 ∧
    4 * ((1 : ℚ) + 3 / 4 + 1 * 1 * (1 + 3 / 4 * 4)) ≤ 2 ^ 127 := by
  refine ⟨⟨Val.fin false 1, 0, 0, Val.fin false 1, Val.fin true (1 / 2), Val.fin false (1 / 4), 0, 0, 0, 0⟩,
    ⟨1, 0, 0, 1, -(1 / 2), 1 / 4, 0, 0, 0, 0⟩, ⟨⟨⟨_, _, rfl, by norm_num⟩, rfl⟩, ⟨⟨_, _, rfl, by norm_num⟩, rfl⟩,
    ⟨⟨_, _, rfl, by norm_num⟩, rfl⟩, ⟨⟨_, _, rfl, by norm_num⟩, rfl⟩, ⟨⟨_, _, rfl, by norm_num⟩, by norm_num [Val.toRat]⟩,
    ⟨⟨_, _, rfl, by norm_num⟩, rfl⟩, rfl, rfl, rfl, rfl⟩, by norm_num, by norm_num, ?_, ?_, by norm_num, ?_, by norm_num⟩
  · norm_num [abs_of_pos]
  · have := gain_of_small (d := 2) (a := (⟨1, 0, 0, 1, -(1 / 2), 1 / 4, 0, 0, 0, 0⟩ : BQ ℚ).aSeq) (by norm_num [BQ.aSeq])
      (S := 3 / 4) (by norm_num [sum_range_succ, BQ.aSeq, abs_of_pos]) (by norm_num)
    norm_num at this
    exact this
  · have : (2 : ℚ) ^ (-1022 : ℤ) ≤ 2 ^ (-20 : ℤ) := zpow_le_zpow_right₀ (by norm_num) (by decide)
    have h20 : (2 : ℚ) ^ (-20 : ℤ) = 1 / 1048576 := by norm_num
    rw [h20] at this
    linarith

end Verif.Filt
