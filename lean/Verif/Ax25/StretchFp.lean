import Verif.Ax25.StretchProps
import Verif.Fp.FpErr
import Verif.Fp.FpNear

/-!
# C155 with rounding
-/

namespace Verif.Ax25.Stretch

open Verif.Fp

/-- `float32(interp)`, examples/ax25.go:67. -/
instance : NatCast (FVal binary32) := ⟨fun n => ofInt binary32 n⟩

theorem factor {n : Nat} (hn : n ≤ 2 ^ 20) : Fp.Finite (ofInt binary32 n) ∧ val (ofInt binary32 n) = n := by
  have hg : Grid binary32 (n : ℚ) := grid_small (φ := binary32) (by decide) (n : ℤ) (by
    rw [abs_of_nonneg (by positivity)]
    exact_mod_cast (show n < 2 ^ binary32.p from lt_of_le_of_lt hn (by decide)))
  have e := rd_grid binary32 (by decide) hg
  have h0 : (0 : ℚ) ≤ n := Nat.cast_nonneg n
  have hlt : (n : ℚ) < 2 ^ (binary32.emax + 1) := by
    have h1 : (n : ℚ) ≤ 2 ^ 20 := by exact_mod_cast hn
    refine lt_of_le_of_lt h1 ?_
    norm_num [binary32]
  have h : ofInt binary32 n = .fin (decide ((n : ℚ) < 0)) n := by
    unfold ofInt roundRat
    rw [Int.cast_natCast, abs_of_nonneg h0, round_rd binary32 _ h0 (by rw [e]; exact hlt), e]
  rw [h]
  refine ⟨⟨_, _, rfl, h0⟩, ?_⟩
  rw [val_fin, if_neg (by simp)]
  simp

/-- A sum that grows by nearly the same step. -/
theorem ramp_fp {d : FVal binary32} (hd : Fp.Finite d) {P D η₁ η : ℝ} {N : Nat} (h1 : |val d - D| ≤ η₁) (hη : 6.7e-8 + η₁ ≤ η) (hN : N * η ≤ 0.1) (h0 : 0 ≤ η)
    (hP : ∀ i ≤ N, |P + (i : ℝ) * D| ≤ 1) : ∀ (k i : Nat) (l : FVal binary32), Fp.Finite l → |val l - (P + (i : ℝ) * D)| ≤ i * η → i + k ≤ N →
      ∀ j < k, ∃ x, (ramp d k l)[j]? = some x ∧ Fp.Finite x ∧ |val x - (P + ((i + j + 1 : Nat) : ℝ) * D)| ≤ ((i + j + 1 : Nat) : ℝ) * η
  | 0, _, _, _, _, _, _, h => by simp at h
  | k + 1, i, l, hl, he, hk, j, hj => by
    have hi : (((i + 1 : Nat) : ℝ)) * η ≤ 0.1 := by
      refine le_trans (mul_le_mul_of_nonneg_right ?_ h0) hN
      exact_mod_cast (by omega : i + 1 ≤ N)
    have hb := hP (i + 1) (by omega)
    push_cast at hi hb
    have e2 : |val l + val d - (P + ((i : ℝ) + 1) * D)| ≤ i * η + η₁ := by
      have : val l + val d - (P + ((i : ℝ) + 1) * D) = (val l - (P + (i : ℝ) * D)) + (val d - D) := by ring
      rw [this]
      exact (abs_add_le _ _).trans (add_le_add he h1)
    have e3 : |val l + val d| ≤ 1.1 := by
      have := abs_add_le (val l + val d - (P + ((i : ℝ) + 1) * D)) (P + ((i : ℝ) + 1) * D)
      rw [sub_add_cancel] at this
      linarith
    obtain ⟨f1, f2⟩ := add32 hl hd (e3.trans (by norm_num))
    have f3 : |val (l + d) - (P + ((i : ℝ) + 1) * D)| ≤ ((i : ℝ) + 1) * η := by
      have f2 : |val (l + d) - (val l + val d)| ≤ 6e-8 * |val l + val d| + 1e-45 := f2
      have := abs_add_le (val (l + d) - (val l + val d)) (val l + val d - (P + ((i : ℝ) + 1) * D))
      rw [sub_add_sub_cancel] at this
      nlinarith
    rcases j with _ | j
    · refine ⟨l + d, rfl, f1, ?_⟩
      push_cast
      simpa using f3
    · obtain ⟨x, x1, x2, x3⟩ := ramp_fp hd h1 hη hN h0 hP k (i + 1) (l + d) f1 (by push_cast; exact f3) (by omega) j (by omega)
      refine ⟨x, x1, x2, ?_⟩
      rw [show i + (j + 1) + 1 = i + 1 + j + 1 by omega]
      exact x3

theorem between {P S : ℝ} (hP : |P| ≤ 1) (hS : |S| ≤ 1) {n i : Nat} (hn : 1 ≤ n) (hi : i ≤ n) : |P + (i : ℝ) * ((S - P) / n)| ≤ 1 := by
  have hn' : (0 : ℝ) < n := by exact_mod_cast hn
  have t0 : (0 : ℝ) ≤ i / n := by positivity
  have t1 : (i : ℝ) / n ≤ 1 := by rw [div_le_one hn']; exact_mod_cast hi
  have e : P + (i : ℝ) * ((S - P) / n) = (1 - i / n) * P + (i / n) * S := by field_simp; ring
  rw [e]
  generalize (i : ℝ) / n = t at *
  rw [abs_le] at hP hS ⊢
  constructor <;> nlinarith

/-- The step. -/
theorem step_fp {s p : FVal binary32} (hs : Fp.Finite s) (hp : Fp.Finite p) (h1 : |val s| ≤ 1) (h2 : |val p| ≤ 1) {n : Nat} (hn : 1 ≤ n) (hn' : n ≤ 2 ^ 20) :
    Fp.Finite ((s - p) / (n : FVal binary32)) ∧ |val ((s - p) / (n : FVal binary32)) - (val s - val p) / n| ≤ 2.5e-7 / n + 1e-45 := by
  have hn0 : (1 : ℝ) ≤ n := by exact_mod_cast hn
  have hd : |val s - val p| ≤ 2 := (abs_sub _ _).trans (by linarith)
  obtain ⟨a1, a2⟩ := sub32 hs hp (hd.trans (by norm_num))
  obtain ⟨f1, f2⟩ := factor hn'
  have a2 : |val (s - p) - (val s - val p)| ≤ 1.21e-7 := by
    refine le_trans a2 ?_
    nlinarith
  have a3 : |val (s - p)| ≤ 2.1 := by
    have := abs_add_le (val (s - p) - (val s - val p)) (val s - val p)
    rw [sub_add_cancel] at this
    linarith
  have a4 : |val (s - p) / val (ofInt binary32 n)| ≤ 2.1 / n := by
    rw [f2, abs_div, abs_of_pos (by linarith : (0 : ℝ) < n)]
    gcongr
  have a5 : (2.1 : ℝ) / n ≤ 2.1 := div_le_self (by norm_num) hn0
  obtain ⟨g1, g2⟩ := div32 (v := (s - p : FVal binary32)) a1 f1 (by rw [f2]; linarith) (a4.trans (a5.trans (by norm_num)))
  refine ⟨g1, ?_⟩
  have g2 : |val ((s - p) / (n : FVal binary32)) - val (s - p) / n| ≤ 6e-8 * (2.1 / n) + 1e-45 := by
    rw [f2] at g2 a4
    exact le_trans g2 (by linarith)
  have g3 : |val (s - p) / n - (val s - val p) / n| ≤ 1.21e-7 / n := by
    rw [← sub_div, abs_div, abs_of_pos (by linarith : (0 : ℝ) < n)]
    gcongr
  have := abs_add_le (val ((s - p) / (n : FVal binary32)) - val (s - p) / n) (val (s - p) / n - (val s - val p) / n)
  rw [sub_add_sub_cancel] at this
  have e : 6e-8 * (2.1 / (n : ℝ)) + 1.21e-7 / n ≤ 2.5e-7 / n := by
    rw [← mul_div_assoc, ← add_div]
    gcongr
    norm_num
  linarith

theorem points_fp {interp : Nat} (hi : 1 ≤ interp) (hi' : interp ≤ 2 ^ 20) : ∀ (ss : List (FVal binary32)) (l : FVal binary32),
    (∀ x ∈ l :: ss, Fp.Finite x ∧ |val x| ≤ 1) → ∀ (i j : Nat) (p s : FVal binary32), (l :: ss)[i]? = some p → ss[i]? = some s → 1 ≤ j → j ≤ interp →
      ∃ x, (points interp l ss)[i * interp + j - 1]? = some x ∧ Fp.Finite x ∧
        |val x - (val p + (j : ℝ) / interp * (val s - val p))| ≤ 7e-8 * j + 3e-7
  | [], _, _, i, _, _, _, _, h, _, _ => by simp at h
  | s :: ss, l, hb, 0, j, p, q, hp, hq, h1, h2 => by
    simp only [List.getElem?_cons_zero, Option.some.injEq] at hp hq
    subst hp hq
    obtain ⟨bl1, bl2⟩ := hb l (by simp)
    obtain ⟨bs1, bs2⟩ := hb s (by simp)
    have hn0 : (1 : ℝ) ≤ interp := by exact_mod_cast hi
    have hn1 : (interp : ℝ) ≤ 2 ^ 20 := by exact_mod_cast hi'
    have hj1 : (j : ℝ) ≤ interp := by exact_mod_cast h2
    have hj0 : (0 : ℝ) ≤ j := Nat.cast_nonneg j
    rw [points, Nat.zero_mul, Nat.zero_add]
    by_cases hj : j < interp
    · rw [List.getElem?_append_left (by rw [ramp_length]; omega)]
      obtain ⟨d1, d2⟩ := step_fp bs1 bl1 bs2 bl2 hi hi'
      have hq : ∀ i : ℝ, 0 ≤ i → i ≤ interp → i * (2.5e-7 / interp) ≤ 2.5e-7 := by
        intro i _ hle
        rw [← mul_div_assoc, div_le_iff₀ (by linarith)]
        nlinarith
      have hpos : (0 : ℝ) ≤ 2.5e-7 / interp := by positivity
      have hN : (interp : ℝ) * (6.8e-8 + 2.5e-7 / interp) ≤ 0.1 := by
        have := hq interp (by linarith) (le_refl _)
        nlinarith
      obtain ⟨x, x1, x2, x3⟩ := ramp_fp d1 (P := val l) (D := (val s - val l) / interp) (η₁ := 2.5e-7 / interp + 1e-45) (η := 6.8e-8 + 2.5e-7 / interp)
        (N := interp) d2 (by linarith) hN (by linarith) (fun i hle => between bl2 bs2 hi hle) (interp - 1) 0 l bl1 (by simp) (by omega) (j - 1) (by omega)
      rw [show 0 + (j - 1) + 1 = j by omega] at x3
      refine ⟨x, x1, x2, ?_⟩
      rw [show (j : ℝ) / interp * (val s - val l) = j * ((val s - val l) / interp) by ring]
      refine x3.trans ?_
      have := hq j hj0 hj1
      nlinarith
    · have : j = interp := by omega
      subst this
      refine ⟨s, ?_, bs1, ?_⟩
      · rw [List.getElem?_append_right (by rw [ramp_length]), ramp_length, Nat.sub_self, List.getElem?_cons_zero]
      · rw [div_self (by linarith)]
        ring_nf
        rw [abs_zero]
        positivity
  | s :: ss, l, hb, i + 1, j, p, q, hp, hq, h1, h2 => by
    rw [List.getElem?_cons_succ] at hp hq
    have := points_fp hi hi' ss s (fun x hx => hb x (List.mem_cons_of_mem _ hx)) i j p q hp hq h1 h2
    rw [points, List.getElem?_append_right (by rw [ramp_length, Nat.succ_mul]; omega), ramp_length,
      show (i + 1) * interp + j - 1 - (interp - 1) = (i * interp + j - 1) + 1 by rw [Nat.succ_mul]; omega, List.getElem?_cons_succ]
    exact this

/-- C155, in single precision: with samples of magnitude at most 1, as all samples of the program are, and factors up to a million, the new samples are finite
and the `j`-th of a group lies within `7e-8 * j + 3e-7` of the straight line. -/
theorem C155_rounded (interp window : Nat) (hi : 1 ≤ interp) (hi' : interp ≤ 2 ^ 20) (samples ss : List (FVal binary32)) (last : FVal binary32)
    (hs : ss.length = window) (h : window * interp ≤ samples.length) (hb : ∀ x ∈ last :: ss, Fp.Finite x ∧ |val x| ≤ 1) :
    ∃ new last', block interp window samples last ss = some ⟨samples.drop (window * interp) ++ new, samples.length, last'⟩ ∧ new.length = window * interp ∧
      ∀ (i j : Nat) (p s : FVal binary32), (last :: ss)[i]? = some p → ss[i]? = some s → 1 ≤ j → j ≤ interp →
        ∃ x, new[i * interp + j - 1]? = some x ∧ Fp.Finite x ∧ |val x - (val p + (j : ℝ) / interp * (val s - val p))| ≤ 7e-8 * j + 3e-7 :=
  ⟨_, _, block_eq hi samples ss last hs h, by rw [points_length hi, hs], points_fp hi hi' ss last hb⟩

/-- Examples of samples: zero, a half and minus a half. -/
def zero32 : FVal binary32 := Val.fin false 0
@[inherit_doc zero32] def half32 : FVal binary32 := Val.fin false (1 / 2)
@[inherit_doc zero32] def mhalf32 : FVal binary32 := Val.fin true (1 / 2)

/-- Non-vacuity: a half and minus a half, each made three samples. -/
example : ∃ new last', block 3 2 [zero32, zero32, zero32, zero32, zero32, zero32] zero32 [half32, mhalf32] = some ⟨new, 6, last'⟩ ∧ new.length = 6 := by
  obtain ⟨new, last', h1, h2, -⟩ := C155_rounded 3 2 (by decide) (by decide) [zero32, zero32, zero32, zero32, zero32, zero32] [half32, mhalf32] zero32 rfl
    (le_refl 6) (by
      have a : Fp.Finite zero32 ∧ |val zero32| ≤ 1 := ⟨⟨_, _, rfl, by norm_num⟩, by rw [zero32, val_fin]; norm_num⟩
      have b : Fp.Finite half32 ∧ |val half32| ≤ 1 := ⟨⟨_, _, rfl, by norm_num⟩, by rw [half32, val_fin]; norm_num [abs_le]⟩
      have c : Fp.Finite mhalf32 ∧ |val mhalf32| ≤ 1 := ⟨⟨_, _, rfl, by norm_num⟩, by rw [mhalf32, val_fin]; norm_num [abs_le]⟩
      intro x hx
      rcases List.mem_cons.1 hx with rfl | hx
      · exact a
      rcases List.mem_cons.1 hx with rfl | hx
      · exact b
      rcases List.mem_cons.1 hx with rfl | hx
      · exact c
      · cases hx)
  exact ⟨new, last', h1, h2⟩

end Verif.Ax25.Stretch
