import Verif.Window.WindowFpModel
import Verif.Window.WindowProps
import Verif.Interp.InterpLerp

/-!
# Property C101: the window functions with rounding
-/

namespace Verif.WinFp
open Verif.Fp Verif.Dft Verif.Filt Verif.Window Expr

/-! ## The angles -/

theorem pi64_val (j : Nat) (h1 : 1 ≤ j) (h3 : j ≤ 3) :
    Fp.Finite (pi64 j) ∧ |val (pi64 j) - 2 * j * Real.pi| ≤ 4 * uR binary64 * j ∧ |val (pi64 j)| ≤ 63 / 10 * j := by
  have g1 := Real.pi_gt_d20
  have g2 := Real.pi_lt_d20
  have hu : uR binary64 = 1 / 2 ^ 53 := by unfold uR; norm_num [binary64]
  have key : ∀ q : ℚ, (show Val from pi64 j) = Val.fin false q → 0 ≤ q → |(q : ℝ) - 2 * j * Real.pi| ≤ 4 * uR binary64 * j →
      (q : ℝ) ≤ 63 / 10 * j → Fp.Finite (pi64 j) ∧ |val (pi64 j) - 2 * j * Real.pi| ≤ 4 * uR binary64 * j ∧ |val (pi64 j)| ≤ 63 / 10 * j := by
    intro q e q0 h h'
    have ev : val (pi64 j) = q := by
      show val (show Val from pi64 j) = q
      rw [e, val_fin]
      simp
    refine ⟨?_, ?_, ?_⟩
    · show Fp.Finite (show Val from pi64 j)
      rw [e]
      exact ⟨_, _, rfl, q0⟩
    · rw [ev]; exact h
    · rw [ev, abs_of_nonneg (by exact_mod_cast q0)]; exact h'
  interval_cases j
  · refine key (884279719003555 / 140737488355328) (by decide +kernel) (by norm_num) ?_ (by norm_num)
    rw [hu, abs_le]
    norm_num at g1 g2 ⊢
    constructor <;> linarith
  · refine key (884279719003555 / 70368744177664) (by decide +kernel) (by norm_num) ?_ (by norm_num)
    rw [hu, abs_le]
    norm_num at g1 g2 ⊢
    constructor <;> linarith
  · refine key (2652839157010665 / 140737488355328) (by decide +kernel) (by norm_num) ?_ (by norm_num)
    rw [hu, abs_le]
    norm_num at g1 g2 ⊢
    constructor <;> linarith

/-- The angles computed with rounding are close to the exact ones. -/
theorem phase_err {j len n : Nat} (h1 : 1 ≤ j) (h3 : j ≤ 3) (hl : 2 ≤ len) (hl2 : len < 2 ^ 53) (hn : n < len) :
    Fp.Finite (phaseFp j len n) ∧ |val (phaseFp j len n) - j * angle len n| ≤ 21 * uR binary64 * j ∧
      |val (phaseFp j len n)| ≤ 7 * j := by
  obtain ⟨p1, p2, p3⟩ := pi64_val j h1 h3
  have hki := is_ofNat64 (n := n) (by omega)
  have hni := is_ofNat64 (n := len - 1) (by omega)
  have kv : val (ofNat64 n) = n := by rw [val_of_is hki]; push_cast; rfl
  have nv : val (ofNat64 (len - 1)) = (len : ℝ) - 1 := by
    rw [val_of_is hni, Rat.cast_natCast, Nat.cast_sub (by omega)]
    simp
  have hu := uR_pos binary64
  have hu4 := uR_le binary64_ok
  have hw := wR_pos binary64
  have hw4 := wR_le binary64_ok
  have hwu : 3 * wR binary64 ≤ uR binary64 := by
    have e : wR binary64 = 2 ^ (-1075 : ℤ) := rfl
    have e2 : uR binary64 = 2 ^ (-53 : ℤ) := rfl
    have h55 : (2 : ℝ) ^ (-1075 : ℤ) ≤ 2 ^ (-55 : ℤ) := zpow_le_zpow_right₀ (by norm_num) (by norm_num)
    rw [← e] at h55
    have e3 : uR binary64 = 4 * 2 ^ (-55 : ℤ) := by rw [e2]; norm_num
    linarith
  have hj1 : (1 : ℝ) ≤ j := by exact_mod_cast h1
  have hj3 : (j : ℝ) ≤ 3 := by exact_mod_cast h3
  have hk0 : (0 : ℝ) ≤ n := Nat.cast_nonneg n
  have hN1 : (1 : ℝ) ≤ (len : ℝ) - 1 := by
    have : (2 : ℝ) ≤ len := by exact_mod_cast hl
    linarith
  have hnN : (n : ℝ) ≤ (len : ℝ) - 1 := by
    have : (n : ℝ) + 1 ≤ len := by exact_mod_cast hn
    linarith
  have hNb : (len : ℝ) ≤ 9007199254740992 := by exact_mod_cast hl2.le
  set N : ℝ := (len : ℝ) - 1 with hN
  set r : ℝ := n / N with hr
  have hr0 : 0 ≤ r := by positivity
  have hr1 : r ≤ 1 := div_le_one_of_le₀ hnN (by linarith)
  set K : ℝ := j * n with hK
  have hK0 : 0 ≤ K := by positivity
  have hKb : K ≤ 3 * 9007199254740992 := by
    have := mul_le_mul hj3 (hnN.trans (by linarith : N ≤ 9007199254740992)) hk0 (by norm_num)
    exact this
  have hbig : (1152921504606846976 : ℝ) ≤ 2 ^ binary64.emax := by
    have : (2 : ℝ) ^ (60 : ℤ) ≤ 2 ^ binary64.emax := zpow_le_zpow_right₀ (by norm_num) (by decide)
    exact le_trans (by norm_num) this
  have m1 : |val (pi64 j) * val (ofNat64 n)| ≤ 63 / 10 * K := by
    rw [abs_mul, kv, abs_of_nonneg hk0]
    have := mul_le_mul_of_nonneg_right p3 hk0
    rw [hK]
    linarith
  obtain ⟨a1, a2⟩ := mul_val binary64_ok p1 hki.1 (m1.trans (le_trans (by linarith) hbig))
  set a : FVal binary64 := pi64 j * ofNat64 n with ha
  have huk : uR binary64 * |val (pi64 j) * val (ofNat64 n)| ≤ uR binary64 * (63 / 10 * K) :=
    mul_le_mul_of_nonneg_left m1 hu.le
  have huk0 : 0 ≤ uR binary64 * K := by positivity
  have huk4 : uR binary64 * K ≤ 1 / 4 * K := mul_le_mul_of_nonneg_right hu4 hK0
  have d1 : |val a - 2 * j * Real.pi * n| ≤ 11 * (uR binary64 * K) + wR binary64 := by
    have : val a - 2 * j * Real.pi * n = (val a - val (pi64 j) * val (ofNat64 n)) + (val (pi64 j) - 2 * j * Real.pi) * n := by
      rw [kv]; ring
    rw [this]
    refine (abs_add_le _ _).trans ((add_le_add a2 (d := 4 * uR binary64 * j * n) ?_).trans ?_)
    · rw [abs_mul, abs_of_nonneg hk0]
      exact mul_le_mul_of_nonneg_right p2 hk0
    · have : 4 * uR binary64 * j * n = 4 * (uR binary64 * K) := by rw [hK]; ring
      rw [this]
      linarith
  have a3 : |val a| ≤ 8 * K + wR binary64 := by
    have : val a = (val a - val (pi64 j) * val (ofNat64 n)) + val (pi64 j) * val (ofNat64 n) := by ring
    rw [this]
    exact (abs_add_le _ _).trans (by linarith)
  have hN0 : val (ofNat64 (len - 1)) ≠ 0 := by rw [nv]; linarith
  have hNp : 0 < N := by linarith
  have eK : K / N = j * r := by rw [hK, hr]; ring
  have q1 : |val a / val (ofNat64 (len - 1))| ≤ 8 * (K / N) + wR binary64 := by
    rw [nv, abs_div, abs_of_pos hNp, div_le_iff₀ hNp]
    have e : (8 * (K / N : ℝ) + wR binary64) * N = 8 * K + wR binary64 * N := by field_simp
    rw [e]
    have : wR binary64 ≤ wR binary64 * N := le_mul_of_one_le_right hw.le hN1
    linarith
  have hKN0 : (0 : ℝ) ≤ K / N := by positivity
  have hjr : j * r ≤ j := mul_le_of_le_one_right (by linarith) hr1
  have hKN : K / N ≤ j := by rw [eK]; exact hjr
  obtain ⟨b1, b2⟩ := div_val binary64_ok a1 hni.1 hN0 (q1.trans (le_trans (by linarith) hbig))
  have e : phaseFp j len n = a / ofNat64 (len - 1) := rfl
  have hq := mul_le_mul_of_nonneg_left q1 hu.le
  have huw : uR binary64 * wR binary64 ≤ 1 / 4 * wR binary64 := mul_le_mul_of_nonneg_right hu4 hw.le
  have ean : (j : ℝ) * angle len n = 2 * j * Real.pi * n / N := by unfold angle; rw [← hN]; ring
  have c1 : |val a / val (ofNat64 (len - 1)) - j * angle len n| ≤ 11 * (uR binary64 * (K / N)) + wR binary64 := by
    rw [nv, ean, ← sub_div, abs_div, abs_of_pos hNp, div_le_iff₀ hNp]
    have e : (11 * (uR binary64 * (K / N : ℝ)) + wR binary64) * N = 11 * (uR binary64 * K) + wR binary64 * N := by
      field_simp
    rw [e]
    have : wR binary64 ≤ wR binary64 * N := le_mul_of_one_le_right hw.le hN1
    linarith
  have hf : 0 ≤ uR binary64 * (K / N) := by positivity
  have hf2 : uR binary64 * (K / N) ≤ uR binary64 * j := mul_le_mul_of_nonneg_left hKN hu.le
  have huj : uR binary64 ≤ uR binary64 * j := le_mul_of_one_le_right hu.le hj1
  have err : |val (phaseFp j len n) - j * angle len n| ≤ 21 * uR binary64 * j := by
    rw [e]
    have t : val (a / ofNat64 (len - 1) : FVal binary64) - j * angle len n
        = (val (a / ofNat64 (len - 1) : FVal binary64) - val a / val (ofNat64 (len - 1)))
          + (val a / val (ofNat64 (len - 1)) - j * angle len n) := by ring
    rw [t]
    refine (abs_add_le _ _).trans ((add_le_add b2 c1).trans ?_)
    linarith
  refine ⟨by rw [e]; exact b1, err, ?_⟩
  have hang : |(j : ℝ) * angle len n| ≤ 63 / 10 * j := by
    have hpi : 2 * Real.pi ≤ 63 / 10 := by
      have := Real.pi_lt_d20
      norm_num at this ⊢
      linarith
    have : (j : ℝ) * angle len n = j * (2 * Real.pi * r) := by unfold angle; rw [← hN, hr]; ring
    rw [this, abs_of_nonneg (by have := Real.pi_pos; positivity)]
    have : 2 * Real.pi * r ≤ 2 * Real.pi := mul_le_of_le_one_right (by have := Real.pi_pos; positivity) hr1
    nlinarith
  have : val (phaseFp j len n) = (val (phaseFp j len n) - j * angle len n) + j * angle len n := by ring
  rw [this]
  have hsm : uR binary64 * j ≤ 1 / 60 * j := by
    refine mul_le_mul_of_nonneg_right ?_ (by linarith)
    have hu : uR binary64 = 1 / 2 ^ 53 := by unfold uR; norm_num [binary64]
    rw [hu]
    norm_num
  exact (abs_add_le _ _).trans (by linarith)

/-- What is assumed of `math.Cos`: within `η` of the cosine, for arguments up to 21. -/
def Cos (cos : FVal binary64 → FVal binary64) (η : ℝ) : Prop :=
  ∀ x : FVal binary64, Fp.Finite x → |val x| ≤ 21 → Fp.Finite (cos x) ∧ |val (cos x) - Real.cos (val x)| ≤ η

theorem cos_close (x y : ℝ) : |Real.cos x - Real.cos y| ≤ |x - y| := by
  rw [Real.cos_sub_cos, abs_mul, abs_mul]
  have h1 := Real.abs_sin_le_one ((x + y) / 2)
  have h2 : |Real.sin ((x - y) / 2)| ≤ |(x - y) / 2| := Real.abs_sin_le_abs
  have h3 : |(x - y) / 2| = |x - y| / 2 := by rw [abs_div, abs_of_pos (by norm_num : (0 : ℝ) < 2)]
  have h4 : |(-2 : ℝ)| = 2 := by norm_num
  rw [h4]
  have := mul_le_mul h1 h2 (abs_nonneg _) zero_le_one
  nlinarith [abs_nonneg (Real.sin ((x + y) / 2)), abs_nonneg (Real.sin ((x - y) / 2))]

theorem cos_term {cos : FVal binary64 → FVal binary64} {η : ℝ} (hc : Cos cos η) {j len n : Nat} (h1 : 1 ≤ j) (h3 : j ≤ 3)
    (hl : 2 ≤ len) (hl2 : len < 2 ^ 53) (hn : n < len) :
    Fp.Finite (cos (phaseFp j len n)) ∧
      |val (cos (phaseFp j len n)) - Real.cos (j * angle len n)| ≤ η + 21 * uR binary64 * j := by
  obtain ⟨p1, p2, p3⟩ := phase_err h1 h3 hl hl2 hn
  have hj3 : (j : ℝ) ≤ 3 := by exact_mod_cast h3
  obtain ⟨c1, c2⟩ := hc _ p1 (p3.trans (by linarith))
  refine ⟨c1, ?_⟩
  have := (cos_close (val (phaseFp j len n)) (j * angle len n)).trans p2
  have t := abs_add_le (val (cos (phaseFp j len n)) - Real.cos (val (phaseFp j len n)))
    (Real.cos (val (phaseFp j len n)) - Real.cos (j * angle len n))
  rw [sub_add_sub_cancel] at t
  linarith

/-! ## Sums of cosines -/

theorem scale64_one : Scale binary64 1 :=
  scale64 (by
    have e : wR binary64 = 2 ^ (-1075 : ℤ) := rfl
    have e2 : uR binary64 = 2 ^ (-53 : ℤ) := rfl
    rw [e, e2, mul_one]
    exact zpow_le_zpow_right₀ (by norm_num) (by norm_num)) (by
    have : (2 : ℝ) ^ (6 : ℤ) ≤ 2 ^ binary64.emax := zpow_le_zpow_right₀ (by norm_num) (by decide)
    exact le_trans (by norm_num) this)

/-- A coefficient of a window: at most one, correct to two units. -/
def Coef (a : FVal binary64) (A : ℝ) : Prop := Fp.Finite a ∧ |val a - A| ≤ 2 * uR binary64 ∧ |A| ≤ 1

theorem coef_sca {a : FVal binary64} {A : ℝ} (h : Coef a A) : Sca (.leaf a) A (101 / 100) 2 := by
  obtain ⟨h1, h2, h3⟩ := h
  have hu : uR binary64 = 1 / 2 ^ 53 := by unfold uR; norm_num [binary64]
  refine ⟨.leaf h1 h2 ?_ (by linarith), by norm_num, by norm_num⟩
  have : val a = (val a - A) + A := by ring
  rw [this]
  refine (abs_add_le _ _).trans ?_
  rw [hu] at h2
  norm_num at h2 ⊢
  linarith

theorem coef_vec {a : FVal binary64} {A : ℝ} (h : Coef a A) : Vec 1 (.leaf a) A (101 / 100) 2 := by
  obtain ⟨h1, h2, h3⟩ := coef_sca h
  exact ⟨by rw [mul_one, mul_one]; exact h1, h2, h3⟩

theorem mono_vec {e : Expr binary64} {E s t a b : ℝ} (h : Vec 1 e E s a) (hs : s ≤ t) (hb : a ≤ b) : Vec 1 e E t b := by
  have hu := uR_pos binary64
  obtain ⟨h1, h2, h3⟩ := h
  exact ⟨h1.mono (by linarith) (mul_le_mul_of_nonneg_right hb (by linarith)), by linarith, by linarith⟩

theorem prod_vec {a c : FVal binary64} {A : ℝ} (ha : Coef a A) (c1 : Fp.Finite c) (c2 : |val c| ≤ 2) :
    Vec 1 (.mul (.leaf a) (.leaf c)) (A * val c) (203 / 100) (703 / 100) := by
  have hc : Vec 1 (.leaf c) (val c) 2 0 := by
    refine ⟨.leaf c1 (by simp) ?_ ?_, by norm_num, le_rfl⟩ <;> linarith
  exact Vec.mul' scale64_one (coef_sca ha) hc (by norm_num) _ _ (by norm_num) (by norm_num)

/-- The cosines of one element, as computed. -/
noncomputable def cs (cos : FVal binary64 → FVal binary64) (len n j : Nat) : ℝ := val (cos (phaseFp j len n))

theorem getD_coef {a : List (FVal binary64)} {A : List ℝ} (h : List.Forall₂ Coef a A) (k : Nat) (hk : k < a.length) :
    Coef (a.getD k 0) (A.getD k 0) := by
  induction h generalizing k with
  | nil => simp at hk
  | cons h _ ih =>
    cases k with
    | zero => exact h
    | succ k =>
      rw [List.getD_cons_succ, List.getD_cons_succ]
      exact ih k (by simpa using hk)

theorem getD_none {a : List (FVal binary64)} {A : List ℝ} (h : List.Forall₂ Coef a A) (k : Nat) (hk : ¬ a.length > k) :
    A.getD k 0 = 0 := by
  have := h.length_eq
  rw [List.getD_eq_getElem?_getD, List.getElem?_eq_none (by omega), Option.getD_none]

/-- Rounding the sum. -/
theorem window_vec {cos : FVal binary64 → FVal binary64} {len n : Nat} (a : List (FVal binary64)) (A : List ℝ)
    (hA : List.Forall₂ Coef a A) (h0 : 1 ≤ a.length)
    (hc : ∀ j, 1 ≤ j → j ≤ 3 → Fp.Finite (cos (phaseFp j len n)) ∧ |cs cos len n j| ≤ 2) :
    Vec 1 (windowE cos a len n) (A.getD 0 0 - A.getD 1 0 * cs cos len n 1 + A.getD 2 0 * cs cos len n 2
      - A.getD 3 0 * cs cos len n 3) 8 42 := by
  obtain ⟨f1, b1⟩ := hc 1 (by norm_num) (by norm_num)
  obtain ⟨f2, b2⟩ := hc 2 (by norm_num) (by norm_num)
  obtain ⟨f3, b3⟩ := hc 3 (by norm_num) (by norm_num)
  unfold windowE
  simp only
  have v0 : Vec 1 (.leaf (a.getD 0 0)) (A.getD 0 0) (101 / 100) 2 := coef_vec (getD_coef hA 0 h0)
  have v1 : Vec 1 (if a.length > 1 then (.leaf (a.getD 0 0) : Expr binary64) - .leaf (a.getD 1 0) * .leaf (cos (phaseFp 1 len n))
      else .leaf (a.getD 0 0)) (A.getD 0 0 - A.getD 1 0 * cs cos len n 1) (305 / 100) (131 / 10) := by
    split
    · rename_i hk
      exact Vec.sub scale64_one v0 (prod_vec (getD_coef hA 1 hk) f1 b1) (by norm_num) _ _ (by norm_num) (by norm_num)
    · rename_i hk
      rw [getD_none hA 1 hk, zero_mul, sub_zero]
      exact mono_vec v0 (by norm_num) (by norm_num)
  revert v1
  generalize (if a.length > 1 then (.leaf (a.getD 0 0) : Expr binary64) - .leaf (a.getD 1 0) * .leaf (cos (phaseFp 1 len n))
      else .leaf (a.getD 0 0)) = e1
  intro v1
  have v2 : Vec 1 (if a.length > 2 then e1 + .leaf (a.getD 2 0) * .leaf (cos (phaseFp 2 len n)) else e1)
      (A.getD 0 0 - A.getD 1 0 * cs cos len n 1 + A.getD 2 0 * cs cos len n 2) (509 / 100) (264 / 10) := by
    split
    · rename_i hk
      exact Vec.add scale64_one v1 (prod_vec (getD_coef hA 2 hk) f2 b2) (by norm_num) _ _ (by norm_num) (by norm_num)
    · rename_i hk
      rw [getD_none hA 2 hk, zero_mul, add_zero]
      exact mono_vec v1 (by norm_num) (by norm_num)
  revert v2
  generalize (if a.length > 2 then e1 + .leaf (a.getD 2 0) * .leaf (cos (phaseFp 2 len n)) else e1) = e2
  intro v2
  split
  · rename_i hk
    exact Vec.sub scale64_one v2 (prod_vec (getD_coef hA 3 hk) f3 b3) (by norm_num) _ _ (by norm_num) (by norm_num)
  · rename_i hk
    rw [getD_none hA 3 hk, zero_mul, sub_zero]
    exact mono_vec v2 (by norm_num) (by norm_num)

/-- How far an element of a window may be from its exact value. -/
noncomputable def sumErr (A : List ℝ) (η : ℝ) : ℝ :=
  |A.getD 1 0| * (η + 21 * uR binary64) + |A.getD 2 0| * (η + 42 * uR binary64) + |A.getD 3 0| * (η + 63 * uR binary64)
    + 42 * uR binary64

/-- C101: every element of a sum-of-cosines window, on any platform, for a library cosine accurate to `η`. -/
theorem C101_window (cos : FVal binary64 → FVal binary64) (η : ℝ) (hη : η ≤ 1 / 2) (hc : Cos cos η)
    (a : List (FVal binary64)) (A : List ℝ) (hA : List.Forall₂ Coef a A) (h0 : 1 ≤ a.length) (len n : Nat) (hl : 2 ≤ len)
    (hl2 : len < 2 ^ 53) (hn : n < len) (v : FVal binary64) (hv : Eval (windowE cos a len n) v) :
    ∃ r, windowAt A len n = some r ∧ Fp.Finite v ∧ |val v - r| ≤ sumErr A η := by
  have hu := uR_pos binary64
  have hu64 : uR binary64 = 1 / 2 ^ 53 := by unfold uR; norm_num [binary64]
  have ct : ∀ j, 1 ≤ j → j ≤ 3 → Fp.Finite (cos (phaseFp j len n)) ∧
      |cs cos len n j - Real.cos (j * angle len n)| ≤ η + 21 * uR binary64 * j := fun j h1 h3 => cos_term hc h1 h3 hl hl2 hn
  have hcs : ∀ j, 1 ≤ j → j ≤ 3 → Fp.Finite (cos (phaseFp j len n)) ∧ |cs cos len n j| ≤ 2 := by
    intro j h1 h3
    obtain ⟨c1, c2⟩ := ct j h1 h3
    refine ⟨c1, ?_⟩
    have e : cs cos len n j = (cs cos len n j - Real.cos (j * angle len n)) + Real.cos (j * angle len n) := by ring
    rw [e]
    refine (abs_add_le _ _).trans ?_
    have := Real.abs_cos_le_one (j * angle len n)
    have hj3 : (j : ℝ) ≤ 3 := by exact_mod_cast h3
    have : uR binary64 * j ≤ uR binary64 * 3 := mul_le_mul_of_nonneg_left hj3 hu.le
    rw [hu64] at this c2
    norm_num at this c2
    linarith
  obtain ⟨v1, v2, -⟩ := (window_vec a A hA h0 hcs).eval scale64_one hv
  rw [mul_one] at v2
  refine ⟨_, windowAt_eq A len n hl, v1, ?_⟩
  obtain ⟨-, c1⟩ := ct 1 (by norm_num) (by norm_num)
  obtain ⟨-, c2⟩ := ct 2 (by norm_num) (by norm_num)
  obtain ⟨-, c3⟩ := ct 3 (by norm_num) (by norm_num)
  push_cast at c1 c2 c3
  rw [one_mul] at c1
  rw [Real.cos_two_mul] at c2
  rw [Real.cos_three_mul] at c3
  set C := Real.cos (angle len n) with hC
  have e : val v - (A.getD 0 0 - A.getD 1 0 * C + A.getD 2 0 * (2 * C ^ 2 - 1) - A.getD 3 0 * (4 * C ^ 3 - 3 * C))
      = (val v - (A.getD 0 0 - A.getD 1 0 * cs cos len n 1 + A.getD 2 0 * cs cos len n 2 - A.getD 3 0 * cs cos len n 3))
        - A.getD 1 0 * (cs cos len n 1 - C) + A.getD 2 0 * (cs cos len n 2 - (2 * C ^ 2 - 1))
        - A.getD 3 0 * (cs cos len n 3 - (4 * C ^ 3 - 3 * C)) := by ring
  rw [e]
  have m : ∀ (x y d : ℝ), |y| ≤ d → |x * y| ≤ |x| * d := fun x y d h => by
    rw [abs_mul]; exact mul_le_mul_of_nonneg_left h (abs_nonneg _)
  have m1 := m (A.getD 1 0) _ _ c1
  have m2 := m (A.getD 2 0) _ _ c2
  have m3 := m (A.getD 3 0) _ _ c3
  have t1 := abs_sub (val v - (A.getD 0 0 - A.getD 1 0 * cs cos len n 1 + A.getD 2 0 * cs cos len n 2 - A.getD 3 0 * cs cos len n 3)
        - A.getD 1 0 * (cs cos len n 1 - C) + A.getD 2 0 * (cs cos len n 2 - (2 * C ^ 2 - 1)))
        (A.getD 3 0 * (cs cos len n 3 - (4 * C ^ 3 - 3 * C)))
  have t2 := abs_add_le (val v - (A.getD 0 0 - A.getD 1 0 * cs cos len n 1 + A.getD 2 0 * cs cos len n 2 - A.getD 3 0 * cs cos len n 3)
        - A.getD 1 0 * (cs cos len n 1 - C)) (A.getD 2 0 * (cs cos len n 2 - (2 * C ^ 2 - 1)))
  have t3 := abs_sub (val v - (A.getD 0 0 - A.getD 1 0 * cs cos len n 1 + A.getD 2 0 * cs cos len n 2 - A.getD 3 0 * cs cos len n 3))
        (A.getD 1 0 * (cs cos len n 1 - C))
  unfold sumErr
  linarith

/-! ## The named windows -/

/-- Values close to those of an exact window. -/
def Close {φ : Format} (ε : ℝ) (vs : List (FVal φ)) (ws : List (Option ℝ)) : Prop :=
  List.Forall₂ (fun v w => ∃ r, w = some r ∧ Fp.Finite (show FVal φ from v) ∧ |val (show FVal φ from v) - r| ≤ ε) vs ws

theorem forall₂_mem {α β : Type} {R : α → β → Prop} {l : List α} {u : List β} (h : List.Forall₂ R l u) :
    List.Forall₂ (fun a b => a ∈ l ∧ R a b) l u := by
  induction h with
  | nil => exact .nil
  | cons h _ ih => exact .cons ⟨by simp, h⟩ (ih.imp fun _ _ h => ⟨by simp [h.1], h.2⟩)

theorem forall₂_flip {α β : Type} {R : α → β → Prop} {S : β → α → Prop} {l : List α} {u : List β} (h : List.Forall₂ R l u)
    (hS : ∀ a b, R a b → S b a) : List.Forall₂ S u l := by
  induction h with
  | nil => exact .nil
  | cons h _ ih => exact .cons (hS _ _ h) ih

theorem close_of {φ : Format} {P : Expr binary64 → FVal φ → Prop} {f : Nat → Expr binary64} {g : Nat → Option ℝ} {len : Nat}
    {ε : ℝ} (h : ∀ n < len, ∀ v, P (f n) v → ∃ r, g n = some r ∧ Fp.Finite v ∧ |val v - r| ≤ ε) (vs : List (FVal φ))
    (hs : List.Forall₂ P ((List.range len).map f) vs) : Close ε vs ((List.range len).map g) := by
  rw [List.forall₂_map_left_iff] at hs
  unfold Close
  rw [List.forall₂_map_right_iff]
  refine forall₂_flip (forall₂_mem hs) ?_
  rintro n v ⟨hn, hv⟩
  exact h n (List.mem_range.1 hn) v hv

/-- How far the elements of the four windows may be from their exact values: `η + 64 u`, in single precision another
`2 u`. -/
noncomputable def winErr (η : ℝ) : ℝ := η + 64 * uR binary64

theorem narrow_close {v : FVal binary64} {r η : ℝ} (hη : η ≤ 1 / 2) (h1 : Fp.Finite v) (h2 : |val v - r| ≤ winErr η)
    (hr : |r| ≤ 1) : Fp.Finite (narrow v : FVal binary32) ∧ |val (narrow v) - r| ≤ winErr η + 2 * uR binary32 := by
  have hu : uR binary64 = 1 / 2 ^ 53 := by unfold uR; norm_num [binary64]
  have hu32 : uR binary32 = 1 / 2 ^ 24 := by unfold uR; norm_num [binary32]
  have hw : wR binary32 ≤ 1 / 2 ^ 30 := by
    have e : wR binary32 = 2 ^ (-150 : ℤ) := rfl
    have : (2 : ℝ) ^ (-150 : ℤ) ≤ 2 ^ (-30 : ℤ) := zpow_le_zpow_right₀ (by norm_num) (by norm_num)
    rw [e]
    exact this.trans (by norm_num)
  have hv : |val v| ≤ 16 / 10 := by
    have e : val v = (val v - r) + r := by ring
    rw [e]
    refine (abs_add_le _ _).trans ?_
    unfold winErr at h2
    rw [hu] at h2
    norm_num at h2 ⊢
    linarith
  obtain ⟨n1, n2⟩ := narrow_val h1 (hv.trans (by norm_num))
  refine ⟨n1, ?_⟩
  have t := abs_add_le (val (narrow v) - val v) (val v - r)
  rw [sub_add_sub_cancel] at t
  rw [hu32] at n2 ⊢
  norm_num at n2 hw ⊢
  linarith

theorem window_bounds {ws : List (Option ℝ)} {len : Nat} {lo : ℝ} (h : IsWindow ws len lo) (hlo : -1 ≤ lo) {n : Nat} (hn : n < len)
    {r : ℝ} (hr : ws[n]? = some (some r)) : |r| ≤ 1 := by
  obtain ⟨v, h1, h2, h3⟩ := h.finite n hn
  rw [h1] at hr
  cases hr
  rw [abs_le]
  constructor <;> linarith

/-- From the elements to the lists, for both precisions. -/
theorem lists {f : Nat → Expr binary64} {g : Nat → Option ℝ} {len : Nat} {lo η : ℝ} (hη : η ≤ 1 / 2)
    (hw : IsWindow ((List.range len).map g) len lo) (hlo : -1 ≤ lo)
    (h : ∀ n < len, ∀ v, Eval (f n) v → ∃ r, g n = some r ∧ Fp.Finite v ∧ |val v - r| ≤ winErr η) :
    (∀ vs, Stored ((List.range len).map f) vs → Close (winErr η) vs ((List.range len).map g)) ∧
      ∀ vs, Stored32 ((List.range len).map f) vs → Close (winErr η + 2 * uR binary32) vs ((List.range len).map g) := by
  refine ⟨fun vs hs => close_of h vs hs, fun vs hs => close_of ?_ vs hs⟩
  rintro n hn v ⟨w, hw1, rfl⟩
  obtain ⟨r, r1, r2, r3⟩ := h n hn w hw1
  refine ⟨r, r1, narrow_close hη r2 r3 (window_bounds hw hlo hn ?_)⟩
  rw [List.getElem?_map, List.getElem?_range hn, Option.map_some, r1]

theorem konst_coef (q : ℚ) (hq : |(q : ℝ)| ≤ 1) : Coef (konst binary64 q) q := by
  have hu := uR_pos binary64
  obtain ⟨h, -, -⟩ := Sca.const scale64_one q 1 hq (by norm_num)
  obtain ⟨h1, h2, -⟩ := h.leaf_inv
  exact ⟨h1, h2.trans (by norm_num; linarith), hq⟩

theorem coef_of {v : FVal binary64} {q : ℚ} {A : ℝ} (e : (show Val from v) = Val.fin false q) (q0 : 0 ≤ q)
    (h : |(q : ℝ) - A| ≤ 1 / 2 ^ 52) (hA : |A| ≤ 1) : Coef v A := by
  have hu : uR binary64 = 1 / 2 ^ 53 := by unfold uR; norm_num [binary64]
  have ev : val v = q := by
    show val (show Val from v) = q
    rw [e, val_fin]
    simp
  refine ⟨?_, ?_, hA⟩
  · show Fp.Finite (show Val from v)
    rw [e]
    exact ⟨_, _, rfl, q0⟩
  · rw [ev, hu]
    exact h.trans (by norm_num)

theorem hamming_coef : List.Forall₂ Coef hammingA [0.53836, 1 - 0.53836] := by
  refine .cons ?_ (.cons ?_ .nil)
  · have := konst_coef 0.53836 (by norm_num [abs_le])
    push_cast at this
    exact this
  · have := konst_coef (1 - 0.53836) (by norm_num [abs_le])
    push_cast at this
    exact this

theorem blackman_coef : List.Forall₂ Coef blackmanA [(1 - 0.16) / 2, 1 / 2, 0.16 / 2] := by
  refine .cons ?_ (.cons ?_ (.cons ?_ .nil))
  · exact coef_of (q := 7566047373982433 / 18014398509481984) (by decide +kernel) (by norm_num) (by norm_num [abs_le]) (by norm_num [abs_le])
  · have := konst_coef (1 / 2) (by norm_num [abs_le])
    push_cast at this
    exact this
  · exact coef_of (q := 5764607523034235 / 72057594037927936) (by decide +kernel) (by norm_num) (by norm_num [abs_le]) (by norm_num [abs_le])

theorem nuttall_coef : List.Forall₂ Coef nuttallA [0.355768, 0.487396, 0.144232, 0.012604] := by
  refine .cons ?_ (.cons ?_ (.cons ?_ (.cons ?_ .nil)))
  · have := konst_coef 0.355768 (by norm_num [abs_le])
    push_cast at this
    exact this
  · have := konst_coef 0.487396 (by norm_num [abs_le])
    push_cast at this
    exact this
  · have := konst_coef 0.144232 (by norm_num [abs_le])
    push_cast at this
    exact this
  · have := konst_coef 0.012604 (by norm_num [abs_le])
    push_cast at this
    exact this

/-- C101: `HammingWindow` and `HammingWindowF32`. -/
theorem C101_hamming (cos : FVal binary64 → FVal binary64) (η : ℝ) (hη0 : 0 ≤ η) (hη : η ≤ 1 / 2) (hc : Cos cos η) (len : Nat)
    (hl : 2 ≤ len) (hl2 : len < 2 ^ 53) :
    ∃ es ws, hammingFp cos len = some es ∧ hamming len = some ws ∧ (∀ vs, Stored es vs → Close (winErr η) vs ws) ∧
      ∀ vs, Stored32 es vs → Close (winErr η + 2 * uR binary32) vs ws := by
  have hu := uR_pos binary64
  obtain ⟨ws, w1, w2⟩ := C55_hamming len hl
  have e := window_ok len [0.53836, 1 - 0.53836] (by simp) (by simp)
  have : ws = (List.range len).map (windowAt [0.53836, 1 - 0.53836] len) := by
    have h2 : hamming len = _ := e
    rw [w1] at h2
    exact Option.some.inj h2
  subst this
  refine ⟨_, _, rfl, e, lists hη w2 (by norm_num) fun n hn v hv => ?_⟩
  obtain ⟨r, r1, r2, r3⟩ := C101_window cos η hη hc _ _ hamming_coef (by decide) len n hl hl2 hn v hv
  refine ⟨r, r1, r2, r3.trans ?_⟩
  unfold sumErr winErr
  simp only [List.getD_cons_succ, List.getD_cons_zero, List.getD_nil, abs_zero, zero_mul]
  rw [abs_of_nonneg (by norm_num)]
  norm_num
  linarith

/-- C101: `BlackmanWindow` and `BlackmanWindowF32`. -/
theorem C101_blackman (cos : FVal binary64 → FVal binary64) (η : ℝ) (hη0 : 0 ≤ η) (hη : η ≤ 1 / 2) (hc : Cos cos η) (len : Nat)
    (hl : 2 ≤ len) (hl2 : len < 2 ^ 53) :
    ∃ es ws, blackmanFp cos len = some es ∧ blackman len = some ws ∧ (∀ vs, Stored es vs → Close (winErr η) vs ws) ∧
      ∀ vs, Stored32 es vs → Close (winErr η + 2 * uR binary32) vs ws := by
  have hu := uR_pos binary64
  obtain ⟨ws, w1, w2⟩ := C55_blackman len hl
  have e := window_ok len [(1 - 0.16) / 2, 1 / 2, 0.16 / 2] (by simp) (by simp)
  have : ws = (List.range len).map (windowAt [(1 - 0.16) / 2, 1 / 2, 0.16 / 2] len) := by
    have h2 : blackman len = _ := e
    rw [w1] at h2
    exact Option.some.inj h2
  subst this
  refine ⟨_, _, rfl, e, lists hη w2 (by norm_num) fun n hn v hv => ?_⟩
  obtain ⟨r, r1, r2, r3⟩ := C101_window cos η hη hc _ _ blackman_coef (by decide) len n hl hl2 hn v hv
  refine ⟨r, r1, r2, r3.trans ?_⟩
  unfold sumErr winErr
  simp only [List.getD_cons_succ, List.getD_cons_zero, List.getD_nil, abs_zero, zero_mul]
  rw [abs_of_nonneg (by norm_num), abs_of_nonneg (by norm_num)]
  norm_num
  linarith

/-- C101: `NuttallWindow` and `NuttallWindowF32`. -/
theorem C101_nuttall (cos : FVal binary64 → FVal binary64) (η : ℝ) (hη0 : 0 ≤ η) (hη : η ≤ 1 / 2) (hc : Cos cos η) (len : Nat)
    (hl : 2 ≤ len) (hl2 : len < 2 ^ 53) :
    ∃ es ws, nuttallFp cos len = some es ∧ nuttall len = some ws ∧ (∀ vs, Stored es vs → Close (winErr η) vs ws) ∧
      ∀ vs, Stored32 es vs → Close (winErr η + 2 * uR binary32) vs ws := by
  have hu := uR_pos binary64
  obtain ⟨ws, w1, w2⟩ := C55_nuttall len hl
  have e := window_ok len [0.355768, 0.487396, 0.144232, 0.012604] (by simp) (by simp)
  have : ws = (List.range len).map (windowAt [0.355768, 0.487396, 0.144232, 0.012604] len) := by
    have h2 : nuttall len = _ := e
    rw [w1] at h2
    exact Option.some.inj h2
  subst this
  refine ⟨_, _, rfl, e, lists hη w2 (by norm_num) fun n hn v hv => ?_⟩
  obtain ⟨r, r1, r2, r3⟩ := C101_window cos η hη hc _ _ nuttall_coef (by decide) len n hl hl2 hn v hv
  refine ⟨r, r1, r2, r3.trans ?_⟩
  unfold sumErr winErr
  simp only [List.getD_cons_succ, List.getD_cons_zero]
  rw [abs_of_nonneg (by norm_num), abs_of_nonneg (by norm_num), abs_of_nonneg (by norm_num)]
  norm_num
  linarith

theorem hanningAt_eq (len n : Nat) (hl : 2 ≤ len) : hanningAt len n = some (0.5 * (1 - Real.cos (angle len n))) := by
  rw [hanningAt, fdiv_ok len hl, Option.map_some]
  rfl

/-- C101: `HanningWindow` and `HanningWindowF32`. -/
theorem C101_hanning (cos : FVal binary64 → FVal binary64) (η : ℝ) (hη0 : 0 ≤ η) (hη : η ≤ 1 / 2) (hc : Cos cos η) (len : Nat)
    (hl : 2 ≤ len) (hl2 : len < 2 ^ 53) :
    (∀ vs, Stored (hanningFp cos len) vs → Close (winErr η) vs (hanning len)) ∧
      ∀ vs, Stored32 (hanningFp cos len) vs → Close (winErr η + 2 * uR binary32) vs (hanning len) := by
  have hu := uR_pos binary64
  have hu64 : uR binary64 = 1 / 2 ^ 53 := by unfold uR; norm_num [binary64]
  refine lists hη (C55_hanning len hl) (by norm_num) fun n hn v hv => ?_
  obtain ⟨c1, c2⟩ := cos_term hc (j := 1) (by norm_num) (by norm_num) hl hl2 hn
  push_cast at c2
  rw [one_mul, mul_one] at c2
  set c : FVal binary64 := cos (phaseFp 1 len n) with hcc
  have c3 : |val c| ≤ 2 := by
    have e : val c = (val c - Real.cos (angle len n)) + Real.cos (angle len n) := by ring
    rw [e]
    refine (abs_add_le _ _).trans ?_
    have := Real.abs_cos_le_one (angle len n)
    rw [hu64] at c2
    norm_num at c2
    linarith
  have vc : Vec 1 (.leaf c) (val c) 2 0 := by
    refine ⟨.leaf c1 (by simp) ?_ ?_, by norm_num, le_rfl⟩ <;> linarith
  have k1 := konst_coef 1 (by norm_num)
  have kh := konst_coef (1 / 2) (by norm_num [abs_le])
  have v1 := Vec.sub scale64_one (coef_vec k1) vc (by norm_num) (302 / 100) (602 / 100) (by norm_num) (by norm_num)
  have v2 := Vec.mul' scale64_one (coef_sca kh) v1 (by norm_num) 4 17 (by norm_num) (by norm_num)
  obtain ⟨w1, w2, -⟩ := v2.eval scale64_one hv
  refine ⟨_, hanningAt_eq len n hl, w1, ?_⟩
  push_cast at w2
  rw [mul_one] at w2
  have e : val v - 0.5 * (1 - Real.cos (angle len n)) = (val v - 1 / 2 * (1 - val c)) - (val c - Real.cos (angle len n)) / 2 := by
    norm_num
    ring
  rw [e]
  have t := abs_sub (val v - 1 / 2 * (1 - val c)) ((val c - Real.cos (angle len n)) / 2)
  rw [abs_div, abs_of_pos (by norm_num : (0 : ℝ) < 2)] at t
  unfold winErr
  linarith

/-! ## The Hanning window stays between 0 and 1 -/

theorem is_konst_one : Is (konst binary64 1) 1 := by
  have e : (show Val from konst binary64 1) = Val.fin false 1 := by decide +kernel
  show Is (show Val from konst binary64 1) 1
  rw [e]
  exact ⟨⟨_, _, rfl, by norm_num⟩, rfl⟩

theorem is_konst_two : Is (konst binary64 2) 2 := by
  have e : (show Val from konst binary64 2) = Val.fin false 2 := by decide +kernel
  show Is (show Val from konst binary64 2) 2
  rw [e]
  exact ⟨⟨_, _, rfl, by norm_num⟩, rfl⟩

theorem is_konst_half : Is (konst binary64 (1 / 2)) (1 / 2) := by
  have e : (show Val from konst binary64 (1 / 2)) = Val.fin false (1 / 2) := by decide +kernel
  show Is (show Val from konst binary64 (1 / 2)) (1 / 2)
  rw [e]
  exact ⟨⟨_, _, rfl, by norm_num⟩, rfl⟩

theorem grid_one : Grid binary64 1 := by
  have := grid_pow binary64 (by decide) 0 (by decide)
  rwa [zpow_zero] at this

theorem grid_two : Grid binary64 2 := by
  have := grid_pow binary64 (by decide) 1 (by decide)
  rwa [zpow_one] at this

theorem top64 {x : ℚ} (h : |x| ≤ 2) : |x| < 2 ^ (binary64.emax + 1) := by
  have : (2 : ℚ) ^ (2 : ℤ) ≤ 2 ^ (binary64.emax + 1) := zpow_le_zpow_right₀ (by norm_num) (by decide)
  refine lt_of_lt_of_le ?_ this
  have : (2 : ℚ) ^ (2 : ℤ) = 4 := by norm_num
  rw [this]
  linarith

/-- C101: if the library cosine never exceeds 1 in magnitude, no element of a Hanning window is below 0 or above 1,
rounding included. -/
theorem C101_hanning_range (cos : FVal binary64 → FVal binary64) (len n : Nat)
    (hc : Fp.Finite (cos (phaseFp 1 len n)) ∧ |val (cos (phaseFp 1 len n))| ≤ 1) (v : FVal binary64)
    (hv : Eval (hanningE cos len n) v) : Fp.Finite v ∧ 0 ≤ val v ∧ val v ≤ 1 := by
  obtain ⟨c1, c2⟩ := hc
  change Eval (.mul (.leaf (konst binary64 (1 / 2))) (.sub (.leaf (konst binary64 1)) (.leaf (cos (phaseFp 1 len n))))) v at hv
  cases hv with
  | mul h1 h2 =>
    cases h1
    cases h2 with
    | sub h3 h4 =>
      cases h3
      cases h4
      set c : FVal binary64 := cos (phaseFp 1 len n) with hcc
      have hq : |Val.toRat c| ≤ 1 := by
        unfold val at c2
        exact_mod_cast c2
      obtain ⟨q1, q2⟩ := abs_le.1 hq
      have d0 := rd_nonneg binary64 (x := 1 - Val.toRat c) (by linarith)
      have d2 := rd_le binary64 (by decide) grid_two (x := 1 - Val.toRat c) (by linarith)
      have d := sub_rd binary64 (w := c) is_konst_one ⟨c1, rfl⟩ (top64 (by rw [abs_of_nonneg d0]; exact d2))
      have m0 := rd_nonneg binary64 (x := 1 / 2 * rd binary64 (1 - Val.toRat c)) (by linarith)
      have m1 := rd_le binary64 (by decide) grid_one (x := 1 / 2 * rd binary64 (1 - Val.toRat c)) (by linarith)
      have m := mul_rd binary64 is_konst_half d (top64 (by rw [abs_of_nonneg m0]; linarith))
      have ev : val (konst binary64 (1 / 2) * (konst binary64 1 - c) : FVal binary64)
          = ((rd binary64 (1 / 2 * rd binary64 (1 - Val.toRat c)) : ℚ) : ℝ) := val_of_is m
      refine ⟨m.1, ?_, ?_⟩
      · rw [ev]; exact_mod_cast m0
      · rw [ev]; exact_mod_cast m1

/-! ## The triangle -/

theorem is_abs {v : Val} {x : ℚ} (h : Is v x) : Is (Fp.abs v) |x| := by
  obtain ⟨⟨s, q, rfl, hq⟩, hx⟩ := h
  refine ⟨⟨false, q, rfl, hq⟩, ?_⟩
  rw [← hx]
  cases s
  · show q = |q|
    rw [abs_of_nonneg hq]
  · show q = |-q|
    rw [abs_neg, abs_of_nonneg hq]

theorem grid_half (z : ℤ) (h : |z| < 2 ^ 53) : Grid binary64 ((z : ℚ) / 2) := by
  refine ⟨z.natAbs, -1, ?_, by decide, ?_⟩
  · have : (z.natAbs : ℤ) < 2 ^ 53 := by rw [Int.natCast_natAbs]; exact h
    show z.natAbs < 2 ^ 53
    exact_mod_cast this
  · rw [abs_div, zpow_neg_one]
    have : ((z.natAbs : ℕ) : ℚ) = |(z : ℚ)| := by
      rw [← Int.cast_natCast, Int.natCast_natAbs, Int.cast_abs]
    rw [this]
    norm_num
    exact div_eq_mul_one_div _ _

theorem half_top (z : ℤ) (h : |z| < 2 ^ 53) : |(z : ℚ) / 2| < 2 ^ (binary64.emax + 1) := by
  have h1 : |(z : ℚ)| < 9007199254740992 := by
    rw [← Int.cast_abs]
    exact_mod_cast h
  rw [abs_div, abs_of_pos (by norm_num : (0 : ℚ) < 2)]
  have : (2 : ℚ) ^ (53 : ℤ) ≤ 2 ^ (binary64.emax + 1) := zpow_le_zpow_right₀ (by norm_num) (by decide)
  refine lt_of_lt_of_le ?_ this
  have e : (2 : ℚ) ^ (53 : ℤ) = 9007199254740992 := by norm_num
  rw [e]
  linarith

/-- Half an integer is computed exactly. -/
theorem is_half_nat (n : Nat) (h : n < 2 ^ 53) : Is (ofNat64 n / konst binary64 2 : FVal binary64) ((n : ℤ) / 2 : ℚ) := by
  have hz : |(n : ℤ)| < 2 ^ 53 := by rw [abs_of_nonneg (Int.natCast_nonneg n)]; exact_mod_cast h
  have hg := rd_grid binary64 (by decide) (grid_half n hz)
  have e : ((n : ℤ) : ℚ) = (n : ℚ) := by push_cast; rfl
  rw [e] at hg ⊢
  have := div_rd binary64 (is_ofNat64 h) is_konst_two (by norm_num) (by
    rw [hg]
    have := half_top n hz
    rwa [e] at this)
  rw [hg] at this
  exact this

/-- The distance of an element from the middle, in halves. -/
def dist (len n : Nat) : ℤ := 2 * n - (len - 1)

theorem triangle_is {len n : Nat} (hl : len + 1 < 2 ^ 53) (hn : n < len) :
    Is (triangleV len n) (rd binary64 (1 - rd binary64 (|(dist len n : ℚ)| / (len + 1)))) ∧
      0 ≤ rd binary64 (|(dist len n : ℚ)| / (len + 1)) ∧
      rd binary64 (|(dist len n : ℚ)| / (len + 1)) ≤ 1 - 2 ^ (-(53 : ℤ)) := by
  have hd : |dist len n| ≤ len - 1 := by
    unfold dist
    rw [abs_le]
    constructor <;> omega
  have hd53 : |dist len n| < 2 ^ 53 := by omega
  have h1 := is_half_nat (len - 1) (by omega)
  have h2 := is_half_nat (len + 1) hl
  have hn0 := is_ofNat64 (n := n) (by omega)
  have e1 : (n : ℚ) - (((len - 1 : Nat) : ℤ) : ℚ) / 2 = (dist len n : ℚ) / 2 := by
    unfold dist
    have : ((len - 1 : Nat) : ℤ) = (len : ℤ) - 1 := by omega
    rw [this]
    push_cast
    ring
  have s := sub_rd binary64 hn0 h1 (by
    rw [e1, rd_grid binary64 (by decide) (grid_half _ hd53)]
    exact half_top _ hd53)
  rw [e1, rd_grid binary64 (by decide) (grid_half _ hd53)] at s
  have hlp : (0 : ℚ) < (len : ℚ) + 1 := by positivity
  have e2 : (dist len n : ℚ) / 2 / ((((len + 1 : Nat) : ℤ) : ℚ) / 2) = (dist len n : ℚ) / (len + 1) := by
    push_cast
    field_simp
  -- the exact quotient is at most 1 - 2/(len+1)
  have habs : |(dist len n : ℚ) / (len + 1)| = |(dist len n : ℚ)| / (len + 1) := by rw [abs_div, abs_of_pos hlp]
  have hle : |(dist len n : ℚ)| / (len + 1) ≤ 1 - 2 ^ (-(53 : ℤ)) := by
    have hd' : |(dist len n : ℚ)| ≤ (len : ℚ) - 1 := by
      rw [← Int.cast_abs]
      have : ((|dist len n| : ℤ) : ℚ) ≤ (((len : ℤ) - 1 : ℤ) : ℚ) := by exact_mod_cast hd
      push_cast at this ⊢
      exact this
    have hlb : (len : ℚ) + 1 ≤ 9007199254740992 := by exact_mod_cast hl.le
    rw [div_le_iff₀ hlp]
    have e : (2 : ℚ) ^ (-(53 : ℤ)) = 1 / 9007199254740992 := by norm_num
    rw [e, sub_mul, one_mul]
    have : 1 / 9007199254740992 * ((len : ℚ) + 1) ≤ 1 := by linarith
    linarith
  have hg1 : Grid binary64 (1 - 2 ^ (-(53 : ℤ))) := by
    refine ⟨2 ^ 53 - 1, -53, by decide, by decide, ?_⟩
    rw [abs_of_nonneg (by norm_num)]
    norm_num
  have r0 := rd_nonneg binary64 (x := |(dist len n : ℚ)| / (len + 1)) (by positivity)
  have r1 := rd_le binary64 (by decide) hg1 hle
  have hsm : (0 : ℚ) < 2 ^ (-(53 : ℤ)) := by positivity
  have q := div_rd binary64 s h2 (by push_cast; positivity) (by
    rw [e2, abs_rd, habs]
    have := top64 (x := rd binary64 (|(dist len n : ℚ)| / (len + 1))) (by rw [abs_of_nonneg r0]; linarith)
    rwa [abs_of_nonneg r0] at this)
  rw [e2] at q
  have a := is_abs q
  rw [abs_rd, habs] at a
  have t0 := rd_nonneg binary64 (x := 1 - rd binary64 (|(dist len n : ℚ)| / (len + 1))) (by linarith)
  have t1 := rd_le binary64 (by decide) grid_one (x := 1 - rd binary64 (|(dist len n : ℚ)| / (len + 1))) (by linarith)
  exact ⟨sub_rd binary64 is_konst_one a (top64 (by rw [abs_of_nonneg t0]; linarith)), r0, r1⟩

theorem eq_of_is {v : Val} {x : ℚ} (h : Is v x) (hx : 0 < x) : v = .fin false x := by
  obtain ⟨⟨s, q, rfl, hq⟩, he⟩ := h
  cases s
  · have : q = x := he
    rw [this]
  · have : -q = x := he
    linarith

/-- C101: every element of a triangle window is positive and at most 1, elements at the same distance from the two ends are
the same number, bit for bit, and towards the middle the elements never become smaller. -/
theorem C101_triangle {len : Nat} (hl : len + 1 < 2 ^ 53) {n : Nat} (hn : n < len) :
    triangleV len (len - 1 - n) = triangleV len n ∧ 0 < val (triangleV len n) ∧ val (triangleV len n) ≤ 1 ∧
      ∀ m, m ≤ n → 2 * n + 1 ≤ len → val (triangleV len m) ≤ val (triangleV len n) := by
  obtain ⟨h1, h2, h3⟩ := triangle_is hl hn
  have hsm : (0 : ℚ) < 2 ^ (-(53 : ℤ)) := by positivity
  have hg : Grid binary64 ((2 : ℚ) ^ (-(53 : ℤ))) := grid_pow binary64 (by decide) _ (by decide)
  have pos : 0 < rd binary64 (1 - rd binary64 (|(dist len n : ℚ)| / (len + 1))) := by
    have := rd_mono binary64 (by decide) (show (2 : ℚ) ^ (-(53 : ℤ)) ≤ 1 - rd binary64 (|(dist len n : ℚ)| / (len + 1)) by linarith)
    rw [rd_grid binary64 (by decide) hg] at this
    linarith
  refine ⟨?_, ?_, ?_, ?_⟩
  · obtain ⟨g1, -, -⟩ := triangle_is hl (n := len - 1 - n) (by omega)
    have e : |(dist len (len - 1 - n) : ℚ)| = |(dist len n : ℚ)| := by
      have : dist len (len - 1 - n) = -dist len n := by unfold dist; omega
      rw [this]
      push_cast
      rw [abs_neg]
    rw [e] at g1
    exact (eq_of_is g1 pos).trans (eq_of_is h1 pos).symm
  · rw [val_of_is h1]
    exact_mod_cast pos
  · rw [val_of_is h1]
    have := rd_le binary64 (by decide) grid_one (x := 1 - rd binary64 (|(dist len n : ℚ)| / (len + 1))) (by linarith)
    exact_mod_cast this
  · intro m hm hmid
    obtain ⟨g1, -, -⟩ := triangle_is hl (n := m) (by omega)
    rw [val_of_is h1, val_of_is g1]
    have hd : |dist len n| ≤ |dist len m| := by
      unfold dist
      rw [abs_of_nonpos (by omega), abs_of_nonpos (by omega)]
      omega
    have hd' : |(dist len n : ℚ)| ≤ |(dist len m : ℚ)| := by
      rw [← Int.cast_abs, ← Int.cast_abs]
      exact_mod_cast hd
    have hlp : (0 : ℚ) < (len : ℚ) + 1 := by positivity
    have := rd_mono binary64 (by decide) (div_le_div_of_nonneg_right hd' hlp.le)
    have := rd_mono binary64 (by decide) (show 1 - rd binary64 (|(dist len m : ℚ)| / (len + 1)) ≤ 1 - rd binary64 (|(dist len n : ℚ)| / (len + 1)) by linarith)
    exact_mod_cast this

/-- C101: the elements of a triangle window are correct to three units. -/
theorem C101_triangle_error {len : Nat} (hl : len + 1 < 2 ^ 53) {n : Nat} (hn : n < len) :
    ∃ r, triangleAt len n = some r ∧ Fp.Finite (triangleV len n) ∧ |val (triangleV len n) - r| ≤ 3 * uR binary64 := by
  obtain ⟨h1, h2, h3⟩ := triangle_is hl hn
  have hu := uR_pos binary64
  have hwu : wR binary64 ≤ uR binary64 / 4 := by
    have := scale64_one.w1
    have : uR binary64 / 2 ^ 24 ≤ uR binary64 / 4 := div_le_div_of_nonneg_left hu.le (by norm_num) (by norm_num)
    linarith [scale64_one.w1]
  have hlp : (0 : ℝ) < (len : ℝ) + 1 := by positivity
  have er : ∃ r, triangleAt len n = some r ∧ r = 1 - ((|(dist len n : ℚ)| / (len + 1) : ℚ) : ℝ) := by
    refine ⟨_, ?_, rfl⟩
    unfold triangleAt fdiv
    rw [if_neg (by positivity), Option.map_some]
    refine congrArg some (congrArg (1 - ·) ?_)
    have : ((n : ℝ) - ((len : ℝ) - 1) / 2) / (((len : ℝ) + 1) / 2) = (dist len n : ℝ) / (len + 1) := by
      unfold dist
      push_cast
      field_simp
    rw [this, abs_div, abs_of_pos hlp]
    push_cast
    rfl
  obtain ⟨r, r1, r2⟩ := er
  refine ⟨r, r1, h1.1, ?_⟩
  rw [val_of_is h1, r2]
  have hx0 : (0 : ℚ) ≤ |(dist len n : ℚ)| / (len + 1) := by positivity
  have hx1 : |(dist len n : ℚ)| / (len + 1) ≤ 1 := by
    have hd : |dist len n| ≤ len - 1 := by
      unfold dist
      rw [abs_le]
      constructor <;> omega
    have hlq : (0 : ℚ) < (len : ℚ) + 1 := by positivity
    rw [div_le_one hlq, ← Int.cast_abs]
    have : ((|dist len n| : ℤ) : ℚ) ≤ (((len : ℤ) - 1 : ℤ) : ℚ) := by exact_mod_cast hd
    push_cast at this ⊢
    linarith
  set x : ℚ := |(dist len n : ℚ)| / (len + 1) with hx
  have hx0' : (0 : ℝ) ≤ (x : ℝ) := by exact_mod_cast hx0
  have hx1' : (x : ℝ) ≤ 1 := by exact_mod_cast hx1
  have big : (2 : ℝ) ≤ 2 ^ binary64.emax := by linarith [scale64_one.top1]
  obtain ⟨-, e1⟩ := rd_real binary64_ok (x := x) (by rw [abs_of_nonneg hx0']; linarith)
  have hy0 : (0 : ℝ) ≤ ((rd binary64 x : ℚ) : ℝ) := by exact_mod_cast h2
  have hy1 : ((rd binary64 x : ℚ) : ℝ) ≤ 1 := by
    have : rd binary64 x ≤ 1 := rd_le binary64 (by decide) grid_one hx1
    exact_mod_cast this
  have ey : ((1 - rd binary64 x : ℚ) : ℝ) = 1 - ((rd binary64 x : ℚ) : ℝ) := by push_cast; rfl
  have hy : |((1 - rd binary64 x : ℚ) : ℝ)| ≤ 1 := by
    rw [ey, abs_le]
    constructor <;> linarith
  obtain ⟨-, e2⟩ := rd_real binary64_ok (x := 1 - rd binary64 x) (by linarith)
  have t := abs_add_le (((rd binary64 (1 - rd binary64 x) : ℚ) : ℝ) - ((1 - rd binary64 x : ℚ) : ℝ))
    (-(((rd binary64 x : ℚ) : ℝ) - (x : ℝ)))
  rw [abs_neg] at t
  have e : ((rd binary64 (1 - rd binary64 x) : ℚ) : ℝ) - (1 - (x : ℝ)) = (((rd binary64 (1 - rd binary64 x) : ℚ) : ℝ) - ((1 - rd binary64 x : ℚ) : ℝ))
      + (-(((rd binary64 x : ℚ) : ℝ) - (x : ℝ))) := by
    rw [ey]
    ring
  rw [e]
  have m1 := mul_le_mul_of_nonneg_left hy hu.le
  have m2 := mul_le_mul_of_nonneg_left hx1' hu.le
  rw [abs_of_nonneg hx0'] at e1
  linarith

/-! ## What fails -/

theorem phase_zero (j len : Nat) (h1 : 1 ≤ j) (h3 : j ≤ 3) (hl : 2 ≤ len) (hl2 : len < 2 ^ 53) :
    phaseFp j len 0 = (Val.fin false 0 : FVal binary64) := by
  have e1 : (pi64 j * ofNat64 0 : FVal binary64) = (show FVal binary64 from Val.fin false 0) := by
    show (show Val from (pi64 j * ofNat64 0 : FVal binary64)) = Val.fin false 0
    interval_cases j <;> decide +kernel
  have hp : (0 : ℚ) < ((len - 1 : Nat) : ℚ) := by
    have : 0 < len - 1 := by omega
    exact_mod_cast this
  have e2 : ofNat64 (len - 1) = Val.fin false ((len - 1 : Nat) : ℚ) := eq_of_is (is_ofNat64 (by omega)) hp
  unfold phaseFp
  rw [e1]
  show Fp.div binary64 (Val.fin false 0) (ofNat64 (len - 1)) = Val.fin false 0
  rw [e2]
  show (if ((len - 1 : Nat) : ℚ) = 0 then _ else _) = _
  rw [if_neg hp.ne', zero_div]
  decide +kernel

/-- Every value a platform may compute for the first element. -/
theorem eval_blackman0 (one v : FVal binary64) (h1 : one = (Val.fin false 1 : FVal binary64))
    (hv : Eval (.add (.sub (.leaf ((konst binary64 1 - blackA : FVal binary64) / konst binary64 2))
      (.mul (.leaf (konst binary64 (1 / 2))) (.leaf one))) (.mul (.leaf (blackA / konst binary64 2)) (.leaf one))) v) :
    (show Val from v) = .fin true (1 / 72057594037927936) := by
  subst h1
  have inner : ∀ x, Eval (.sub (.leaf ((konst binary64 1 - blackA : FVal binary64) / konst binary64 2))
      (.mul (.leaf (konst binary64 (1 / 2))) (.leaf (show FVal binary64 from Val.fin false 1)))) x →
      (show Val from x) = .fin true (1441151880758559 / 18014398509481984) := by
    intro x hx
    cases hx with
    | sub a b =>
      cases a
      cases b with
      | mul c d => cases c; cases d; decide +kernel
    | fnmsub a b c => cases a; cases b; cases c; decide +kernel
  cases hv with
  | add a b =>
    have := inner _ a
    rename_i x y
    change x = _ at this
    subst this
    cases b with
    | mul c d => cases c; cases d; decide +kernel
  | fmadd' a b c =>
    have := inner _ c
    rename_i x y z
    change z = _ at this
    subst this
    cases a; cases b; decide +kernel

/-- The same windows are never negative in exact arithmetic (C55).  With rounding, the first element of every Blackman window
of two elements or more is negative, on every platform, if the cosine of 0 is 1. -/
theorem C101_violated_blackman (cos : FVal binary64 → FVal binary64) (h0 : cos (Val.fin false 0 : FVal binary64) = (Val.fin false 1 : FVal binary64))
    (len : Nat) (hl : 2 ≤ len) (hl2 : len < 2 ^ 53) (v : FVal binary64) (hv : Eval (windowE cos blackmanA len 0) v) :
    val v = -(1 / 2 ^ 56) := by
  have e : windowE cos blackmanA len 0 = .add (.sub (.leaf ((konst binary64 1 - blackA : FVal binary64) / konst binary64 2))
      (.mul (.leaf (konst binary64 (1 / 2))) (.leaf (cos (phaseFp 1 len 0))))) (.mul (.leaf (blackA / konst binary64 2)) (.leaf (cos (phaseFp 2 len 0)))) := rfl
  rw [e, phase_zero 1 len (by norm_num) (by norm_num) hl hl2, phase_zero 2 len (by norm_num) (by norm_num) hl hl2, h0] at hv
  have := eval_blackman0 _ v rfl hv
  show val (show Val from v) = _
  rw [this, val_fin]
  norm_num

/-- The first element of every Nuttall window of two elements or more is negative when nothing is fused. -/
theorem C101_violated_nuttall (cos : FVal binary64 → FVal binary64) (h0 : cos (Val.fin false 0 : FVal binary64) = (Val.fin false 1 : FVal binary64))
    (len : Nat) (hl : 2 ≤ len) (hl2 : len < 2 ^ 53) : val (windowE cos nuttallA len 0).unfused < 0 := by
  have e : (windowE cos nuttallA len 0).unfused = (konst binary64 0.355768 - konst binary64 0.487396 * cos (phaseFp 1 len 0)
      + konst binary64 0.144232 * cos (phaseFp 2 len 0) - konst binary64 0.012604 * cos (phaseFp 3 len 0) : FVal binary64) := rfl
  rw [phase_zero 1 len (by norm_num) (by norm_num) hl hl2, phase_zero 2 len (by norm_num) (by norm_num) hl hl2,
    phase_zero 3 len (by norm_num) (by norm_num) hl hl2, h0] at e
  have f : (show Val from (konst binary64 0.355768 - konst binary64 0.487396 * (show FVal binary64 from Val.fin false 1)
      + konst binary64 0.144232 * (show FVal binary64 from Val.fin false 1) - konst binary64 0.012604 * (show FVal binary64 from Val.fin false 1) : FVal binary64))
      = .fin true (7 / 288230376151711744) := by decide +kernel
  rw [e]
  show val (show Val from _) < 0
  rw [f, val_fin]
  norm_num

/-- Not a number. -/
def nan64 : FVal binary64 := Val.nan

/-- Zero. -/
def zero64 : FVal binary64 := Val.fin false 0

theorem mul_nan (x : FVal binary64) : (x * nan64 : FVal binary64) = nan64 := by
  show Fp.mul binary64 x .nan = .nan
  cases x <;> rfl

theorem add_nan (x : FVal binary64) : (x + nan64 : FVal binary64) = nan64 := by
  show Fp.add binary64 x .nan = .nan
  cases x <;> rfl

theorem sub_nan (x : FVal binary64) : (x - nan64 : FVal binary64) = nan64 := by
  show Fp.sub binary64 x .nan = .nan
  cases x <;> rfl

theorem fma_nan (x z : FVal binary64) : fma binary64 x .nan z = .nan := by
  cases x <;> rfl

theorem eval_sub_nan (e : Expr binary64) (a v : FVal binary64) (hv : Eval (.sub e (.mul (.leaf a) (.leaf nan64))) v) :
    v = nan64 := by
  cases hv with
  | sub h1 h2 =>
    cases h2 with
    | mul c d => cases c; cases d; rw [mul_nan, sub_nan]
  | fmsub h1 h2 h3 =>
    cases h3 with
    | mul c d =>
      cases c; cases d; rw [mul_nan]
      rename_i x y
      show Fp.add binary64 (mulExact x y) .nan = .nan
      generalize mulExact x y = m
      cases m <;> rfl
  | fnmsub h1 h2 h3 => cases h1; cases h2; exact fma_nan _ _

theorem eval_add_nan (e : Expr binary64) (a v : FVal binary64) (hv : Eval (.add e (.mul (.leaf a) (.leaf nan64))) v) :
    v = nan64 := by
  cases hv with
  | add h1 h2 =>
    cases h2 with
    | mul c d => cases c; cases d; rw [mul_nan, add_nan]
  | fmadd h1 h2 h3 =>
    cases h3 with
    | mul c d =>
      cases c; cases d; rw [mul_nan]
      rename_i x y
      show Fp.add binary64 (mulExact x y) .nan = .nan
      generalize mulExact x y = m
      cases m <;> rfl
  | fmadd' h1 h2 h3 => cases h1; cases h2; exact fma_nan _ _

theorem phase_one (j : Nat) (h1 : 1 ≤ j) (h3 : j ≤ 3) : phaseFp j 1 0 = nan64 := by
  show (show Val from phaseFp j 1 0) = Val.nan
  interval_cases j <;> decide +kernel

/-- A window of length one is not a number, except the triangle, if the cosine of a NaN is a NaN: every value a platform may
store. -/
theorem C101_violated_one (cos : FVal binary64 → FVal binary64) (h : cos nan64 = nan64) :
    (∀ a : List (FVal binary64), 2 ≤ a.length → a.length ≤ 4 → ∃ es, windowFp cos a 1 = some es ∧
      ∀ vs, Stored es vs → vs = [nan64]) ∧
    ∀ vs, Stored (hanningFp cos 1) vs → vs = [nan64] := by
  have p1 : cos (phaseFp 1 1 0) = nan64 := by rw [phase_one 1 (by norm_num) (by norm_num), h]
  have p2 : cos (phaseFp 2 1 0) = nan64 := by rw [phase_one 2 (by norm_num) (by norm_num), h]
  have p3 : cos (phaseFp 3 1 0) = nan64 := by rw [phase_one 3 (by norm_num) (by norm_num), h]
  constructor
  · intro a h2 h4
    refine ⟨[windowE cos a 1 0], ?_, ?_⟩
    · unfold windowFp
      rw [if_neg (by omega)]
      rfl
    · intro vs hs
      cases hs with
      | cons hv ht =>
        cases ht
        refine congrArg (· :: []) ?_
        unfold windowE at hv
        simp only [p1, p2, p3] at hv
        by_cases g3 : a.length > 3
        · rw [if_pos g3] at hv
          exact eval_sub_nan _ _ _ hv
        · rw [if_neg g3] at hv
          by_cases g2 : a.length > 2
          · rw [if_pos g2] at hv
            exact eval_add_nan _ _ _ hv
          · rw [if_neg g2, if_pos (by omega)] at hv
            exact eval_sub_nan _ _ _ hv
  · intro vs hs
    change List.Forall₂ Eval [hanningE cos 1 0] vs at hs
    cases hs with
    | cons hv ht =>
      cases ht
      refine congrArg (· :: []) ?_
      unfold hanningE at hv
      rw [p1] at hv
      change Eval (.mul (.leaf (konst binary64 (1 / 2))) (.sub (.leaf (konst binary64 1)) (.leaf nan64))) _ at hv
      cases hv with
      | mul c d =>
        cases c
        cases d with
        | sub e f => cases e; cases f; rw [sub_nan, mul_nan]

/-! ## The triangle, as lists -/

theorem close_map {φ : Format} {ε : ℝ} {f : Nat → FVal φ} {g : Nat → Option ℝ} {len : Nat}
    (h : ∀ n < len, ∃ r, g n = some r ∧ Fp.Finite (f n) ∧ |val (f n) - r| ≤ ε) :
    Close ε ((List.range len).map f) ((List.range len).map g) := by
  unfold Close
  rw [List.forall₂_map_left_iff, List.forall₂_map_right_iff, List.forall₂_same]
  intro n hn
  exact h n (List.mem_range.1 hn)

/-- C101: `TriangleWindow` and `TriangleWindowF32`, for every length. -/
theorem C101_triangle_lists (len : Nat) (hl : len + 1 < 2 ^ 53) :
    Close (3 * uR binary64) (triangleFp len) (triangle len) ∧
      Close (winErr 0 + 2 * uR binary32) (triangleFp32 len) (triangle len) := by
  have hu := uR_pos binary64
  refine ⟨close_map fun n hn => C101_triangle_error hl hn, close_map fun n hn => ?_⟩
  obtain ⟨r, r1, r2, r3⟩ := C101_triangle_error hl hn
  refine ⟨r, r1, narrow_close (η := 0) (by norm_num) r2 (r3.trans ?_) ?_⟩
  · unfold winErr
    linarith
  · refine window_bounds (C55_triangle len (by omega)) ?_ hn ?_
    · have : (0 : ℝ) ≤ 2 / (len + 1) := by positivity
      linarith
    · unfold triangle
      rw [List.getElem?_map, List.getElem?_range hn, Option.map_some, r1]

/-- The middle of a triangle of odd length is exactly 1. -/
theorem C101_triangle_middle (k : Nat) (hk : 2 * k + 2 < 2 ^ 53) : triangleV (2 * k + 1) k = (Val.fin false 1 : FVal binary64) := by
  obtain ⟨h1, -, -⟩ := triangle_is (len := 2 * k + 1) (n := k) (by omega) (by omega)
  have e : dist (2 * k + 1) k = 0 := by unfold dist; omega
  rw [e] at h1
  have z : rd binary64 (|((0 : ℤ) : ℚ)| / (((2 * k + 1 : Nat) : ℚ) + 1)) = 0 := by
    rw [Int.cast_zero, abs_zero, zero_div, rd_zero]
  rw [z, sub_zero, rd_grid binary64 (by decide) grid_one] at h1
  exact eq_of_is h1 one_pos

/-- C101: what the bounds above say of the shape.  Values within `ε` of a window are in range within `ε` and symmetric within
`2 ε`. -/
theorem C101_shape {φ : Format} {vs : List (FVal φ)} {ws : List (Option ℝ)} {len : Nat} {lo ε : ℝ} (hw : IsWindow ws len lo)
    (hc : Close ε vs ws) : vs.length = len ∧ ∀ n < len, ∃ v w : FVal φ, vs[n]? = some v ∧ vs[len - 1 - n]? = some w ∧
      lo - ε ≤ val v ∧ val v ≤ 1 + ε ∧ |val v - val w| ≤ 2 * ε := by
  have hlen : vs.length = len := hc.length_eq.trans hw.length
  refine ⟨hlen, fun n hn => ?_⟩
  have get : ∀ m, m < len → ∃ v : FVal φ, ∃ r, vs[m]? = some v ∧ ws[m]? = some (some r) ∧ |val v - r| ≤ ε := by
    intro m hm
    have hm1 : m < vs.length := by omega
    have hm2 : m < ws.length := by rw [hw.length]; exact hm
    obtain ⟨r, r1, -, r3⟩ := (List.forall₂_iff_get.1 hc).2 m hm1 hm2
    refine ⟨vs.get ⟨m, hm1⟩, r, List.getElem?_eq_getElem hm1, ?_, r3⟩
    rw [List.getElem?_eq_getElem hm2]
    exact congrArg some r1
  obtain ⟨v, r, v1, r1, e1⟩ := get n hn
  obtain ⟨w, q, w1, q1, e2⟩ := get (len - 1 - n) (by omega)
  obtain ⟨t, t1, t2, t3⟩ := hw.finite n hn
  have hs := hw.symmetric n hn
  rw [r1] at t1 hs
  cases t1
  rw [q1] at hs
  cases hs
  obtain ⟨a1, a2⟩ := abs_le.1 e1
  obtain ⟨b1, b2⟩ := abs_le.1 e2
  refine ⟨v, w, v1, w1, by linarith, by linarith, ?_⟩
  rw [abs_le]
  constructor <;> linarith

/-! ## The hypotheses can be met -/

/-- There is a library cosine as accurate as `Cos` asks. -/
example : ∃ cos : FVal binary64 → FVal binary64, Cos cos (1 / 2 ^ 50) := by
  choose c c1 _ c3 using fun x : FVal binary64 => exists_float (Real.cos (val x)) (Real.abs_cos_le_one _)
  exact ⟨c, fun x _ _ => ⟨c1 x, c3 x⟩⟩

/-- A function can be 1 at 0 and keep a NaN. -/
example : ∃ cos : FVal binary64 → FVal binary64, cos zero64 = (Val.fin false 1 : FVal binary64) ∧
    cos nan64 = nan64 :=
  ⟨fun x => match x with
    | Val.nan => Val.nan
    | _ => Val.fin false 1, rfl, rfl⟩

/-- Five elements, the third one: its place in the window, and coefficients of four terms. -/
example : 2 ≤ 5 ∧ 5 < 2 ^ 53 ∧ 2 < 5 ∧ List.Forall₂ Coef nuttallA [0.355768, 0.487396, 0.144232, 0.012604] ∧ 1 ≤ nuttallA.length :=
  ⟨by norm_num, by norm_num, by norm_num, nuttall_coef, by decide⟩

/-- The only list of values without fusion, which every platform may store. -/
example (cos : FVal binary64 → FVal binary64) (len : Nat) : Stored (hanningFp cos len) ((hanningFp cos len).map Expr.unfused) := by
  unfold Stored
  rw [List.forall₂_map_right_iff, List.forall₂_same]
  exact fun e _ => eval_unfused e

end Verif.WinFp
