import Verif.Dft.SdftProps
import Verif.Fp.FpProduct

/-!
# Property C93: the sliding DFT with rounding

The constructor and `Filter` of dsp/sdft.go with every operation rounded, the products in any of the ways of `CMul`.  The values of `cmplx.Exp` are a parameter; the
theorems assume how far they are from the roots of unity.
-/

namespace Verif.Dft
open Verif.Conv Verif.Fp

variable {C : Type}

/-- `NewSDFT`, dsp/sdft.go:19-45, and `NewSDFT32`, dsp/sdft.go:71-97, for any arithmetic: `root j n` is the value computed
by line 42 (or 94), `one` is `complex(1, 0)`, and the elements of `window` have been converted to complex numbers. -/
def newSDFTof [Zero C] (root : Int → Int → C) (one : C) (k n : Int) (window : List C) : Option (SDFT C) :=
  let win : List C := if window.length = 0 then [one] else window
  if n < 0 then none else
  some {
    i := 0
    w := win
    x := List.replicate n.toNat 0
    s := List.replicate win.length 0
    e := (List.range win.length).map fun i => root (binIndex k n win.length i) n }

/-- Over the complex numbers it is the constructor of C47. -/
theorem newSDFTof_complex (k n : Int) (window : List ℝ) :
    newSDFTof (fun j n => Complex.exp ((2 * Real.pi * j / n : ℝ) * Complex.I)) 1 k n (window.map Complex.ofReal)
      = newSDFT k n window := by
  unfold newSDFTof newSDFT
  rw [List.length_map]

/-! ## What the filter computes, without any law of arithmetic -/

/-- The sample that leaves the window when sample `t` arrives, zero at the start. -/
def leaving [Zero C] (n : Nat) (x : Nat → C) (t : Nat) : C := if t < n then 0 else x (t - n)

/-- An accumulator with coefficient `e` after `t` samples. -/
def acc [Add C] [Sub C] [Mul C] [Zero C] (n : Nat) (e : C) (x : Nat → C) : Nat → C
  | 0 => 0
  | t + 1 => (x t - leaving n x t + acc n e x t) * e

/-- The output for sample `t`. -/
def outOf [Add C] [Sub C] [Mul C] [Zero C] (w e : List C) (n : Nat) (x : Nat → C) (t : Nat) : Nat → C
  | 0 => 0
  | m + 1 => outOf w e n x t m + w.getD m 0 * acc n (e.getD m 0) x (t + 1)

/-- The state after `t` samples. -/
structure Ran [Add C] [Sub C] [Mul C] [Zero C] (sd : SDFT C) (n : Nat) (x : Nat → C) (t : Nat) : Prop where
  hx : sd.x.length = n
  hi : sd.i = t % n
  hs : sd.s.length = sd.w.length
  he : sd.e.length = sd.w.length
  ring : ∀ p, p < n → sd.x[(t + 1 + p) % n]? = some (if n ≤ t + p then x (t + p - n) else 0)
  acc : ∀ j (hj : j < sd.w.length), sd.s[j] = acc n (sd.e.getD j 0) x t

section
variable [Add C] [Sub C] [Mul C] [Zero C]

theorem filter_ran (sd : SDFT C) (n : Nat) (hn : 0 < n) (x : Nat → C) (t : Nat) (I : Ran sd n x t) :
    ∃ sd', sd.filter (x t) = some (sd', outOf sd.w sd.e n x t sd.w.length) ∧ Ran sd' n x (t + 1) ∧ sd'.w = sd.w ∧ sd'.e = sd.e := by
  have hi : (sd.i + 1) % sd.x.length = (t + 1 + 0) % n := by
    rw [I.hx, I.hi, Nat.add_zero, Nat.mod_add_mod]
  have hx0 : sd.x[(t + 1 + 0) % n]? = some (leaving n x t) := by
    rw [I.ring 0 hn, Nat.add_zero, leaving]
    by_cases h : t < n
    · rw [if_neg (by omega), if_pos h]
    · rw [if_pos (by omega), if_neg h]
  obtain ⟨s', sum, h1, h2, h3, h4⟩ := filter_loop sd.w sd.e sd.s (x t - leaving n x t) 0 I.hs I.he sd.w.length (Nat.le_refl _)
  have hnew : ∀ (j : Nat) (hj : j < sd.w.length), (x t - leaving n x t + sd.s[j]'(by rw [I.hs]; exact hj)) * sd.e[j]'(by rw [I.he]; exact hj)
      = acc n (sd.e.getD j 0) x (t + 1) := by
    intro j hj
    have hj' : j < sd.e.length := by rw [I.he]; exact hj
    rw [I.acc j hj, acc, List.getD_eq_getElem?_getD, List.getElem?_eq_getElem hj', Option.getD_some]
  have hsum : sum = outOf sd.w sd.e n x t sd.w.length := by
    rw [h4]
    have : ∀ m, m ≤ sd.w.length → (List.range m).foldl (fun sum j => addTerm (x t - leaving n x t) sum sd.w[j]? sd.s[j]? sd.e[j]?) 0
        = outOf sd.w sd.e n x t m := by
      intro m
      induction m with
      | zero => intro _; rfl
      | succ m ih =>
        intro hm
        rw [List.range_succ, List.foldl_append, ih (by omega), outOf]
        simp only [List.foldl_cons, List.foldl_nil]
        have a1 : m < sd.w.length := by omega
        have a2 : m < sd.s.length := by rw [I.hs]; exact a1
        have a3 : m < sd.e.length := by rw [I.he]; exact a1
        rw [List.getElem?_eq_getElem a1, List.getElem?_eq_getElem a2, List.getElem?_eq_getElem a3]
        simp only [addTerm]
        rw [hnew m a1]
        congr 2
        rw [List.getD_eq_getElem?_getD, List.getElem?_eq_getElem a1, Option.getD_some]
    exact this _ (Nat.le_refl _)
  refine ⟨{ sd with x := sd.x.set ((t + 1 + 0) % n) (x t), i := (t + 1 + 0) % n, s := s' }, ?_, ?_, rfl, rfl⟩
  · unfold SDFT.filter
    rw [if_neg (by rw [I.hx]; omega), hi]
    simp only [Option.bind_eq_bind, hx0, Option.bind_some]
    simp only [Option.bind_eq_bind] at h1
    rw [h1, Option.bind_some, hsum]
  · refine ⟨?_, rfl, h2, I.he, ?_, ?_⟩
    · simp only [List.length_set, I.hx]
    · intro p hp
      simp only
      rw [List.getElem?_set]
      by_cases hpn : p + 1 = n
      · have : (t + 1 + 1 + p) % n = (t + 1 + 0) % n := by
          rw [show t + 1 + 1 + p = t + 1 + 0 + n by omega, Nat.add_mod_right]
        rw [if_pos this.symm, I.hx, if_pos (Nat.mod_lt _ hn), if_pos (by omega)]
        congr 2
        omega
      · have e : t + 1 + 1 + p = t + 1 + (p + 1) := by omega
        rw [if_neg, e, I.ring (p + 1) (by omega)]
        · congr 2
          · rw [show t + 1 + p = t + (p + 1) by omega]
          · rw [show t + 1 + p = t + (p + 1) by omega]
        intro hc
        rw [e] at hc
        have : (p + 1) % n = 0 % n := by
          have := Nat.ModEq.add_left_cancel' (t + 1) (show t + 1 + 0 ≡ t + 1 + (p + 1) [MOD n] from hc)
          exact this.symm
        rw [Nat.zero_mod, Nat.mod_eq_of_lt (by omega)] at this
        omega
    · intro j hj
      have := h3 j hj
      rw [if_pos hj, hnew j hj, List.getElem?_eq_getElem (by rw [h2]; exact hj)] at this
      exact Option.some.inj this

theorem filterAll_ran (n : Nat) (hn : 0 < n) (x : Nat → C) (N : Nat) : ∀ (sd : SDFT C) (t : Nat), Ran sd n x t →
    ∃ sd' ys, sd.filterAll ((List.range' t N).map x) = some (sd', ys) ∧ ys.length = N ∧
      ∀ i < N, ys[i]? = some (outOf sd.w sd.e n x (t + i) sd.w.length) := by
  induction N with
  | zero => intro sd t _; exact ⟨sd, [], rfl, rfl, by simp⟩
  | succ N ih =>
    intro sd t I
    obtain ⟨sd1, h1, I1, hw, he⟩ := filter_ran sd n hn x t I
    obtain ⟨sd2, ys, h2, h3, h4⟩ := ih sd1 (t + 1) I1
    refine ⟨sd2, outOf sd.w sd.e n x t sd.w.length :: ys, ?_, by rw [List.length_cons, h3], ?_⟩
    · rw [List.range'_succ, List.map_cons]
      simp only [SDFT.filterAll, h1, h2, Option.bind_eq_bind, Option.bind_some]
    · intro i hi
      cases i with
      | zero => rfl
      | succ i =>
        rw [List.getElem?_cons_succ, h4 i (by omega), hw, he, show t + 1 + i = t + (i + 1) by omega]

/-- The coefficients of a new filter. -/
def winFor (one : C) (window : List C) : List C := if window.length = 0 then [one] else window

omit [Add C] [Sub C] [Mul C] in
theorem newSDFTof_eq (root : Int → Int → C) (one : C) (k : Int) (n : Nat) (window : List C) :
    newSDFTof root one k n window = some ⟨0, winFor one window, List.replicate (winFor one window).length 0,
      List.replicate n 0, (List.range (winFor one window).length).map fun i =>
        root (binIndex k n (winFor one window).length i) n⟩ := by
  rw [newSDFTof, if_neg (by omega)]
  rfl

/-- A new filter, run on the samples `x 0`, `x 1`, …. -/
theorem new_ran (root : Int → Int → C) (one : C) (k : Int) (n : Nat) (hn : 0 < n) (window : List C) (x : Nat → C) (N : Nat) :
    ∃ sd sd' ys, newSDFTof root one k n window = some sd ∧ sd.filterAll ((List.range N).map x) = some (sd', ys) ∧
      ys.length = N ∧ ∀ t < N, ys[t]? = some (outOf (winFor one window) ((List.range (winFor one window).length).map fun i =>
        root (binIndex k n (winFor one window).length i) n) n x t (winFor one window).length) := by
  have hring : ∀ p, p < n → (List.replicate n (0 : C))[(0 + 1 + p) % n]? = some (if n ≤ 0 + p then x (0 + p - n) else 0) := by
    intro p hp
    rw [List.getElem?_replicate, if_pos (Nat.mod_lt _ hn), if_neg (by omega)]
  obtain ⟨sd', ys, h1, h2, h3⟩ := filterAll_ran n hn x N ⟨0, winFor one window, List.replicate (winFor one window).length 0,
      List.replicate n 0, (List.range (winFor one window).length).map fun i =>
        root (binIndex k n (winFor one window).length i) n⟩ 0 ⟨by simp, by simp, by simp, by simp, hring, by simp [acc]⟩
  · refine ⟨_, sd', ys, newSDFTof_eq root one k n window, ?_, h2, ?_⟩
    · rw [show (List.range N).map x = (List.range' 0 N).map x by rw [List.range_eq_range']]
      exact h1
    · intro t ht
      have := h3 t ht
      rw [Nat.zero_add] at this
      exact this
end

/-! ## Exact arithmetic -/

/-- Specification: the last `n` of the first `t` samples, oldest first, with zeros before the start. -/
def lastN (n : Nat) (z : Nat → ℂ) (t p : Nat) : ℂ := if n ≤ t + p then z (t + p - n) else 0

theorem recent_map (n : Nat) (z : Nat → ℂ) (t p : Nat) (hp : p < n) :
    recent ((List.range t).map z) n p = lastN n z t p := by
  unfold recent lastN
  rw [List.length_map, List.length_range]
  by_cases h : n ≤ t + p
  · rw [if_pos h, if_pos h, List.getD_eq_getElem?_getD, List.getElem?_map, List.getElem?_range (by omega)]
    rfl
  · rw [if_neg h, if_neg h]

theorem acc_exact (n : Nat) (hn : 0 < n) (e : ℂ) (he : e ^ n = 1) (z : Nat → ℂ) (t : Nat) :
    acc n e z t = ∑ p ∈ Finset.range n, lastN n z t p * e⁻¹ ^ p := by
  have key : ∀ t, acc n e z t = ∑ p ∈ Finset.range n, recent ((List.range t).map z) n p * e⁻¹ ^ p := by
    intro t
    induction t with
    | zero => simp [acc, recent]
    | succ t ih =>
      have h0 : leaving n z t = recent ((List.range t).map z) n 0 := by
        rw [recent_map n z t 0 hn]
        unfold leaving lastN
        rw [Nat.add_zero]
        by_cases h : t < n
        · rw [if_pos h, if_neg (by omega)]
        · rw [if_neg h, if_pos (by omega)]
      rw [acc, ih, h0, slide n hn _ _ e he, List.range_succ, List.map_append, List.map_singleton]
  rw [key]
  refine Finset.sum_congr rfl fun p hp => ?_
  rw [recent_map n z t p (Finset.mem_range.1 hp)]

theorem lastN_le (n : Nat) (z : Nat → ℂ) (N : Nat) (X : ℝ) (hX : 0 ≤ X) (hz : ∀ t < N, ‖z t‖ ≤ X) (t p : Nat) (ht : t ≤ N)
    (hp : p < n) : ‖lastN n z t p‖ ≤ X := by
  unfold lastN
  split
  · exact hz _ (by omega)
  · simpa using hX

theorem acc_le (n : Nat) (hn : 0 < n) (e : ℂ) (he : e ^ n = 1) (z : Nat → ℂ) (N : Nat) (X : ℝ) (hX : 0 ≤ X)
    (hz : ∀ t < N, ‖z t‖ ≤ X) (t : Nat) (ht : t ≤ N) : ‖acc n e z t‖ ≤ n * X := by
  rw [acc_exact n hn e he z t]
  refine (norm_sum_le _ _).trans ?_
  have h1 : ‖e‖ = 1 := Complex.norm_eq_one_of_pow_eq_one he (by omega)
  calc _ ≤ ∑ p ∈ Finset.range n, X := by
        refine Finset.sum_le_sum fun p hp => ?_
        rw [norm_mul, norm_pow, norm_inv, h1]
        simpa using lastN_le n z N X hX hz t p ht (Finset.mem_range.1 hp)
    _ = _ := by simp

/-! ## Rounding -/

theorem pow_le_two {η : ℝ} (h0 : 0 ≤ η) (t : Nat) (h : t * η ≤ 1 / 2) : (1 + η) ^ t ≤ 2 := by
  have key : ∀ k : Nat, (1 + η) ^ k * (1 - k * η) ≤ 1 := by
    intro k
    induction k with
    | zero => simp
    | succ k ih =>
      have hp : (0 : ℝ) ≤ (1 + η) ^ k := by positivity
      have : (1 + η) ^ (k + 1) * (1 - (k + 1 : Nat) * η) = (1 + η) ^ k * (1 - k * η) - (1 + η) ^ k * ((k + 1) * η ^ 2) := by
        push_cast
        ring
      rw [this]
      have : 0 ≤ (1 + η) ^ k * ((k + 1) * η ^ 2) := by positivity
      linarith
  have := key t
  have hp : (0 : ℝ) < (1 + η) ^ t := by positivity
  nlinarith

/-- One turn of an accumulator. -/
theorem acc_step {φ : Format} [CMul φ] (h : φ.Ok) {x x0 s e : CVal φ} (hx : x.Fin) (hx0 : x0.Fin) (hs : s.Fin) (he : e.Fin) {ε S : ℂ}
    {η X E n : ℝ} (hε : ‖ε‖ = 1) (heε : ‖e.toC - ε‖ ≤ η) (hη : η ≤ 1) (hX : ‖x.toC‖ ≤ X) (hX0 : ‖x0.toC‖ ≤ X) (hn : 0 ≤ n)
    (hE : ‖s.toC - S‖ ≤ E) (hEs : E ≤ (n + 2) * X) (hS : ‖x.toC - x0.toC + S‖ ≤ n * X)
    (hw : wR φ ≤ uR φ * X) (hbig : (12 * n + 20) * X + 1 ≤ 2 ^ φ.emax) :
    ((x - x0 + s) * e).Fin ∧ ‖((x - x0 + s) * e).toC - (x.toC - x0.toC + S) * ε‖
      ≤ (1 + η) * E + (n + 2) * (38 * uR φ + η) * X := by
  have hu := uR_pos φ
  have hu4 := uR_le h
  have hX' : 0 ≤ X := (norm_nonneg _).trans hX
  have hη0 : 0 ≤ η := (norm_nonneg _).trans heε
  have hE0 : 0 ≤ E := (norm_nonneg _).trans hE
  have hnX : 0 ≤ n * X := by positivity
  have huX : uR φ * X ≤ 1 / 4 * X := mul_le_mul_of_nonneg_right hu4 hX'
  have huX0 : 0 ≤ uR φ * X := by positivity
  have hunX : uR φ * (n * X) ≤ 1 / 4 * (n * X) := mul_le_mul_of_nonneg_right hu4 hnX
  have hunX0 : 0 ≤ uR φ * (n * X) := by positivity
  -- the difference of the samples
  have hd : ‖x.toC - x0.toC‖ ≤ 2 * X := (norm_sub_le _ _).trans (by linarith)
  obtain ⟨f1, e1⟩ := CVal.sub_err h hx hx0 (hd.trans (by linarith))
  have e1' : ‖(x - x0).toC - (x.toC - x0.toC)‖ ≤ 4 * (uR φ * X) := by
    have := mul_le_mul_of_nonneg_left hd hu.le
    linarith
  -- added to the accumulator
  have g : ‖(x - x0).toC + s.toC - (x.toC - x0.toC + S)‖ ≤ 4 * (uR φ * X) + E := by
    have := norm_add_le ((x - x0).toC - (x.toC - x0.toC)) (s.toC - S)
    rw [show (x - x0).toC - (x.toC - x0.toC) + (s.toC - S) = (x - x0).toC + s.toC - (x.toC - x0.toC + S) by ring] at this
    linarith
  have g2 : ‖(x - x0).toC + s.toC‖ ≤ 2 * (n * X) + 3 * X := by
    have := norm_add_le ((x - x0).toC + s.toC - (x.toC - x0.toC + S)) (x.toC - x0.toC + S)
    rw [sub_add_cancel] at this
    linarith
  obtain ⟨f2, e2⟩ := CVal.add_err h f1 hs (g2.trans (by linarith))
  have e2' : ‖(x - x0 + s).toC - ((x - x0).toC + s.toC)‖ ≤ 2 * (uR φ * (n * X)) + 5 * (uR φ * X) := by
    have := mul_le_mul_of_nonneg_left g2 hu.le
    linarith
  have g3 : ‖(x - x0 + s).toC - (x.toC - x0.toC + S)‖ ≤ E + 2 * (uR φ * (n * X)) + 9 * (uR φ * X) := by
    have := norm_add_le ((x - x0 + s).toC - ((x - x0).toC + s.toC)) ((x - x0).toC + s.toC - (x.toC - x0.toC + S))
    rw [sub_add_sub_cancel] at this
    linarith
  have g4 : ‖(x - x0 + s).toC‖ ≤ 3 * (n * X) + 5 * X := by
    have := norm_add_le ((x - x0 + s).toC - ((x - x0).toC + s.toC)) ((x - x0).toC + s.toC)
    rw [sub_add_cancel] at this
    linarith
  -- turned
  have he2 : ‖e.toC‖ ≤ 2 := by
    have := norm_add_le (e.toC - ε) ε
    rw [sub_add_cancel] at this
    linarith
  have he1 : ‖e.toC‖ ≤ 1 + η := by
    have := norm_add_le (e.toC - ε) ε
    rw [sub_add_cancel] at this
    linarith
  have hP : ‖(x - x0 + s).toC‖ * ‖e.toC‖ ≤ (3 * (n * X) + 5 * X) * 2 :=
    mul_le_mul g4 he2 (norm_nonneg _) (by positivity)
  obtain ⟨f3, e3⟩ := CVal.mul_err h f2 he (by nlinarith)
  refine ⟨f3, ?_⟩
  have e3' : ‖((x - x0 + s) * e).toC - (x - x0 + s).toC * e.toC‖ ≤ 30 * (uR φ * (n * X)) + 58 * (uR φ * X) := by
    have := mul_le_mul_of_nonneg_left hP (by positivity : 0 ≤ 5 * uR φ)
    nlinarith
  have e4 : ‖((x - x0 + s).toC - (x.toC - x0.toC + S)) * e.toC‖ ≤ (E + 2 * (uR φ * (n * X)) + 9 * (uR φ * X)) * (1 + η) := by
    rw [norm_mul]
    exact mul_le_mul g3 he1 (norm_nonneg _) (by positivity)
  have e5 : ‖(x.toC - x0.toC + S) * (e.toC - ε)‖ ≤ n * X * η := by
    rw [norm_mul]
    exact mul_le_mul hS heε (norm_nonneg _) hnX
  have t1 := norm_add_le (((x - x0 + s).toC - (x.toC - x0.toC + S)) * e.toC) ((x.toC - x0.toC + S) * (e.toC - ε))
  have t2 := norm_add_le (((x - x0 + s) * e).toC - (x - x0 + s).toC * e.toC)
    (((x - x0 + s).toC - (x.toC - x0.toC + S)) * e.toC + (x.toC - x0.toC + S) * (e.toC - ε))
  rw [show ((x - x0 + s) * e).toC - (x - x0 + s).toC * e.toC +
    (((x - x0 + s).toC - (x.toC - x0.toC + S)) * e.toC + (x.toC - x0.toC + S) * (e.toC - ε))
    = ((x - x0 + s) * e).toC - (x.toC - x0.toC + S) * ε by ring] at t2
  have a1 : (2 * (uR φ * (n * X)) + 9 * (uR φ * X)) * η ≤ (2 * (uR φ * (n * X)) + 9 * (uR φ * X)) * 1 :=
    mul_le_mul_of_nonneg_left hη (by positivity)
  have a2 : 0 ≤ η * X := by positivity
  nlinarith

theorem zero_toC {φ : Format} : (0 : CVal φ).toC = 0 := by
  have : val (Val.fin false 0) = 0 := by simp [val, Val.toRat]
  exact Complex.ext this this

theorem zero_fin {φ : Format} : (0 : CVal φ).Fin := ⟨⟨false, 0, rfl, le_rfl⟩, ⟨false, 0, rfl, le_rfl⟩⟩

/-- An accumulator after `t` samples. -/
theorem acc_err {φ : Format} [CMul φ] (h : φ.Ok) (n : Nat) (hn : 0 < n) (e : CVal φ) (he : e.Fin) (ε : ℂ) (hε : ε ^ n = 1) (η X : ℝ)
    (heε : ‖e.toC - ε‖ ≤ η) (x : Nat → CVal φ) (N : Nat) (hx : ∀ t < N, (x t).Fin ∧ ‖(x t).toC‖ ≤ X) (hX : 0 ≤ X)
    (hN : N * (76 * uR φ + 2 * η) ≤ 1) (hw : wR φ ≤ uR φ * X) (hbig : (12 * n + 20) * X + 1 ≤ 2 ^ φ.emax) :
    ∀ t ≤ N, (acc n e x t).Fin ∧
      ‖(acc n e x t).toC - acc n ε (fun t => (x t).toC) t‖ ≤ t * (76 * uR φ + 2 * η) * ((n + 2) * X) := by
  have hu := uR_pos φ
  have hη0 : 0 ≤ η := (norm_nonneg _).trans heε
  have hε1 : ‖ε‖ = 1 := Complex.norm_eq_one_of_pow_eq_one hε (by omega)
  set K := ((n : ℝ) + 2) * (38 * uR φ + η) * X with hK
  have hK0 : 0 ≤ K := by positivity
  -- the estimate with the growing factor
  have half : ∀ t : Nat, t ≤ N → (t : ℝ) * η ≤ 1 / 2 := by
    intro t ht
    have : (t : ℝ) ≤ N := by exact_mod_cast ht
    have h1 : (t : ℝ) * η ≤ N * η := mul_le_mul_of_nonneg_right this hη0
    have h2 : 0 ≤ (N : ℝ) * uR φ := by positivity
    nlinarith
  have fin : ∀ t : Nat, t ≤ N → t * (1 + η) ^ t * K ≤ t * (76 * uR φ + 2 * η) * ((n + 2) * X) := by
    intro t ht
    have := pow_le_two hη0 t (half t ht)
    have : t * (1 + η) ^ t * K ≤ t * 2 * K :=
      mul_le_mul_of_nonneg_right (mul_le_mul_of_nonneg_left this (by positivity)) hK0
    have e : t * 2 * K = t * (76 * uR φ + 2 * η) * ((n + 2) * X) := by rw [hK]; ring
    linarith
  have main : ∀ t ≤ N, (acc n e x t).Fin ∧
      ‖(acc n e x t).toC - acc n ε (fun t => (x t).toC) t‖ ≤ t * (1 + η) ^ t * K := by
    intro t
    induction t with
    | zero =>
      intro _
      refine ⟨zero_fin, ?_⟩
      show ‖(0 : CVal φ).toC - 0‖ ≤ _
      rw [zero_toC]
      simp
    | succ t ih =>
      intro ht
      obtain ⟨h1, h2⟩ := ih (by omega)
      obtain ⟨hx1, hx2⟩ := hx t (by omega)
      have hl : (leaving n x t).Fin ∧ ‖(leaving n x t).toC‖ ≤ X ∧
          (leaving n x t).toC = leaving n (fun t => (x t).toC) t := by
        unfold leaving
        split
        · refine ⟨zero_fin, ?_, zero_toC⟩
          rw [zero_toC]
          simpa using hX
        · obtain ⟨a, b⟩ := hx (t - n) (by omega)
          exact ⟨a, b, rfl⟩
      have hη1 : η ≤ 1 := by
        have := half 1 (by omega)
        norm_num at this
        linarith
      have hEs : t * (1 + η) ^ t * K ≤ ((n : ℝ) + 2) * X := by
        refine (fin t (by omega)).trans ?_
        have : (t : ℝ) * (76 * uR φ + 2 * η) ≤ 1 := by
          have : (t : ℝ) ≤ N := by exact_mod_cast (by omega : t ≤ N)
          have := mul_le_mul_of_nonneg_right this (by positivity : 0 ≤ 76 * uR φ + 2 * η)
          linarith
        have := mul_le_mul_of_nonneg_right this (by positivity : 0 ≤ ((n : ℝ) + 2) * X)
        linarith
      have hS : ‖(x t).toC - (leaving n x t).toC + acc n ε (fun t => (x t).toC) t‖ ≤ n * X := by
        have h := acc_le n hn ε hε (fun t => (x t).toC) N X hX (fun t ht => (hx t ht).2) (t + 1) ht
        rw [acc, norm_mul, hε1, mul_one, ← hl.2.2] at h
        exact h
      obtain ⟨g1, g2⟩ := acc_step h hx1 hl.1 h1 he hε1 heε hη1 hx2 hl.2.1 (by positivity) h2 hEs hS hw hbig
      refine ⟨g1, ?_⟩
      rw [hl.2.2] at g2
      refine g2.trans ?_
      have hpow : 1 ≤ (1 + η) ^ (t + 1) := one_le_pow₀ (by linarith)
      have := mul_le_mul_of_nonneg_right hpow hK0
      rw [← hK]
      push_cast
      rw [pow_succ] at this ⊢
      nlinarith
  intro t ht
  obtain ⟨h1, h2⟩ := main t ht
  exact ⟨h1, h2.trans (fin t ht)⟩

/-- The weighted sum of the accumulators. -/
theorem out_err {φ : Format} [CMul φ] (h : φ.Ok) (w e : List (CVal φ)) (S : Nat → ℂ) (n : Nat) (x : Nat → CVal φ) (t : Nat) (Y W τ : ℝ)
    (hY : 0 ≤ Y) (hτ : 0 ≤ τ) (hτ1 : τ ≤ 1) (hL : w.length * uR φ ≤ 1 / 4)
    (hw : ∀ j < w.length, (w.getD j 0).Fin) (hW : ∑ j ∈ Finset.range w.length, ‖(w.getD j 0).toC‖ ≤ W)
    (hS : ∀ j < w.length, ‖S j‖ ≤ Y)
    (ha : ∀ j < w.length, (acc n (e.getD j 0) x (t + 1)).Fin ∧ ‖(acc n (e.getD j 0) x (t + 1)).toC - S j‖ ≤ τ * Y)
    (hbig : 6 * W * Y + 4 * w.length + 1 ≤ 2 ^ φ.emax) :
    (outOf w e n x t w.length).Fin ∧
      ‖(outOf w e n x t w.length).toC - ∑ j ∈ Finset.range w.length, (w.getD j 0).toC * S j‖
        ≤ (τ + (10 + 6 * w.length) * uR φ) * (W * Y) + 14 * w.length * wR φ := by
  have hu := uR_pos φ
  have hu4 := uR_le h
  have ho := wR_pos φ
  have ho4 := wR_le h
  set L : ℝ := (w.length : ℝ) with hLdef
  have hL0 : 0 ≤ L := by rw [hLdef]; positivity
  set Ws : Nat → ℝ := fun m => ∑ j ∈ Finset.range m, ‖(w.getD j 0).toC‖ with hWs
  have hWs0 : ∀ m, 0 ≤ Ws m := fun m => Finset.sum_nonneg fun _ _ => norm_nonneg _
  have hWsW : ∀ m ≤ w.length, Ws m ≤ W := fun m hm =>
    (Finset.sum_le_sum_of_subset_of_nonneg (Finset.range_mono hm) fun _ _ _ => norm_nonneg _).trans hW
  have hW0 : 0 ≤ W := (hWs0 0).trans (hWsW 0 (by omega))
  have hWY : 0 ≤ W * Y := by positivity
  set Q := 6 * (W * Y) + 14 * L * wR φ with hQ
  have hQ0 : 0 ≤ Q := by positivity
  have hLQ : L * (uR φ * Q) ≤ 1 / 4 * Q := by
    have := mul_le_mul_of_nonneg_right hL hQ0
    linarith [mul_assoc L (uR φ) Q]
  have hLw : L * wR φ ≤ 1 / 4 * L := by nlinarith
  have hLw0 : 0 ≤ L * wR φ := by positivity
  set G := τ * Y + 10 * (uR φ * Y) with hG
  have hG0 : 0 ≤ G := by positivity
  have hGY : G ≤ 7 / 2 * Y := by
    have h1 : τ * Y ≤ 1 * Y := mul_le_mul_of_nonneg_right hτ1 hY
    have h2 : uR φ * Y ≤ 1 / 4 * Y := mul_le_mul_of_nonneg_right hu4 hY
    linarith
  have main : ∀ m ≤ w.length, (outOf w e n x t m).Fin ∧
      ‖(outOf w e n x t m).toC - ∑ j ∈ Finset.range m, (w.getD j 0).toC * S j‖ ≤ Ws m * G + m * (uR φ * Q + 10 * wR φ) := by
    intro m
    induction m with
    | zero =>
      intro _
      refine ⟨zero_fin, ?_⟩
      show ‖(0 : CVal φ).toC - _‖ ≤ _
      rw [zero_toC]
      simp [hWs]
    | succ m ih =>
      intro hm
      obtain ⟨i1, i2⟩ := ih (by omega)
      obtain ⟨a1, a2⟩ := ha m (by omega)
      have hwm := hw m (by omega)
      set v := w.getD m 0 with hv
      set s := acc n (e.getD m 0) x (t + 1) with hs
      have hWsucc : Ws (m + 1) = Ws m + ‖v.toC‖ := Finset.sum_range_succ _ _
      have hv0 := norm_nonneg v.toC
      have hvW : ‖v.toC‖ ≤ W := by
        have := hWsW (m + 1) hm
        have := hWs0 m
        linarith
      have hsn : ‖s.toC‖ ≤ 2 * Y := by
        have := norm_add_le (s.toC - S m) (S m)
        rw [sub_add_cancel] at this
        have := hS m (by omega)
        have : τ * Y ≤ 1 * Y := mul_le_mul_of_nonneg_right hτ1 hY
        linarith
      have hP : ‖v.toC‖ * ‖s.toC‖ ≤ ‖v.toC‖ * (2 * Y) := mul_le_mul_of_nonneg_left hsn hv0
      have hP2 : ‖v.toC‖ * Y ≤ W * Y := mul_le_mul_of_nonneg_right hvW hY
      obtain ⟨p1, p2⟩ := CVal.mul_err h hwm a1 (by nlinarith)
      have p3 : ‖(v * s).toC - v.toC * S m‖ ≤ ‖v.toC‖ * G + 8 * wR φ := by
        have t1 := norm_add_le ((v * s).toC - v.toC * s.toC) (v.toC * (s.toC - S m))
        rw [show (v * s).toC - v.toC * s.toC + v.toC * (s.toC - S m) = (v * s).toC - v.toC * S m by ring, norm_mul] at t1
        have t2 := mul_le_mul_of_nonneg_left a2 hv0
        have t3 := mul_le_mul_of_nonneg_left hP (by positivity : 0 ≤ 5 * uR φ)
        rw [hG]
        nlinarith
      have hσ : ‖∑ j ∈ Finset.range (m + 1), (w.getD j 0).toC * S j‖ ≤ W * Y := by
        refine (norm_sum_le _ _).trans ?_
        have : ∑ j ∈ Finset.range (m + 1), ‖(w.getD j 0).toC * S j‖ ≤ ∑ j ∈ Finset.range (m + 1), ‖(w.getD j 0).toC‖ * Y := by
          refine Finset.sum_le_sum fun j hj => ?_
          rw [norm_mul]
          exact mul_le_mul_of_nonneg_left (hS j (by have := Finset.mem_range.1 hj; omega)) (norm_nonneg _)
        refine this.trans ?_
        rw [← Finset.sum_mul]
        exact mul_le_mul_of_nonneg_right (hWsW (m + 1) hm) hY
      have q1 : ‖(outOf w e n x t m).toC + (v * s).toC - ∑ j ∈ Finset.range (m + 1), (w.getD j 0).toC * S j‖
          ≤ Ws (m + 1) * G + m * (uR φ * Q + 10 * wR φ) + 8 * wR φ := by
        have t1 := norm_add_le ((outOf w e n x t m).toC - ∑ j ∈ Finset.range m, (w.getD j 0).toC * S j)
          ((v * s).toC - v.toC * S m)
        rw [show (outOf w e n x t m).toC - ∑ j ∈ Finset.range m, (w.getD j 0).toC * S j + ((v * s).toC - v.toC * S m)
          = (outOf w e n x t m).toC + (v * s).toC - ∑ j ∈ Finset.range (m + 1), (w.getD j 0).toC * S j by
            rw [Finset.sum_range_succ]; ring] at t1
        rw [hWsucc]
        linarith
      have hmL : (m : ℝ) + 1 ≤ L := by rw [hLdef]; exact_mod_cast hm
      have q2 : ‖(outOf w e n x t m).toC + (v * s).toC‖ ≤ Q := by
        have t1 := norm_add_le ((outOf w e n x t m).toC + (v * s).toC - ∑ j ∈ Finset.range (m + 1), (w.getD j 0).toC * S j)
          (∑ j ∈ Finset.range (m + 1), (w.getD j 0).toC * S j)
        rw [sub_add_cancel] at t1
        have t2 : Ws (m + 1) * G ≤ 7 / 2 * (W * Y) := by
          have := mul_le_mul (hWsW (m + 1) hm) hGY hG0 hW0
          linarith
        have t3 : ((m : ℝ) + 1) * (uR φ * Q + 10 * wR φ) ≤ L * (uR φ * Q + 10 * wR φ) :=
          mul_le_mul_of_nonneg_right hmL (by positivity)
        have : 0 ≤ uR φ * Q := by positivity
        linarith [hQ]
      have hQt : Q ≤ 2 ^ φ.emax := by rw [hQ]; linarith
      obtain ⟨r1, r2⟩ := CVal.add_err h i1 p1 (q2.trans hQt)
      refine ⟨r1, ?_⟩
      have t1 := norm_add_le ((outOf w e n x t m + v * s).toC - ((outOf w e n x t m).toC + (v * s).toC))
        ((outOf w e n x t m).toC + (v * s).toC - ∑ j ∈ Finset.range (m + 1), (w.getD j 0).toC * S j)
      rw [sub_add_sub_cancel] at t1
      have t2 := mul_le_mul_of_nonneg_left q2 hu.le
      show ‖(outOf w e n x t m + v * s).toC - _‖ ≤ _
      push_cast
      linarith
  obtain ⟨h1, h2⟩ := main w.length le_rfl
  refine ⟨h1, h2.trans ?_⟩
  have t1 : Ws w.length * G ≤ W * G := mul_le_mul_of_nonneg_right (hWsW _ le_rfl) hG0
  have t2 : L * (uR φ * (14 * L * wR φ)) ≤ 1 / 4 * (14 * L * wR φ) := by
    have := mul_le_mul_of_nonneg_right hL (by positivity : 0 ≤ 14 * L * wR φ)
    linarith [mul_assoc L (uR φ) (14 * L * wR φ)]
  have t3 : L * (uR φ * Q + 10 * wR φ) = 6 * L * uR φ * (W * Y) + L * (uR φ * (14 * L * wR φ)) + 10 * (L * wR φ) := by
    rw [hQ]; ring
  rw [hG] at t1
  nlinarith

/-- C93, how far the rounded sliding DFT is from the DFT of the last `n` samples: the difference grows at most linearly
with the number of samples, as long as the product of that number and the rounding unit is small.  `η` bounds the error
of the computed roots of unity, `W` is the sum of the magnitudes of the window coefficients and `X` bounds the samples.
Missing for the full statement: a bound for all time, which is false by `C93_violated`. -/
theorem C93_error_partial {φ : Format} [CMul φ] (h : φ.Ok) (root : Int → Int → CVal φ) (one : CVal φ) (k : Int) (n : Nat) (hn : 0 < n)
    (window : List (CVal φ)) (x : Nat → CVal φ) (N : Nat) (η X W : ℝ) (hX : 0 ≤ X)
    (hroot : ∀ j : Int, (root j n).Fin ∧
      ‖(root j n).toC - Complex.exp ((2 * Real.pi * j / (n : Int) : ℝ) * Complex.I)‖ ≤ η)
    (hx : ∀ t < N, (x t).Fin ∧ ‖(x t).toC‖ ≤ X)
    (hw : ∀ v ∈ winFor one window, v.Fin)
    (hW : ∑ j ∈ Finset.range (winFor one window).length, ‖((winFor one window).getD j 0).toC‖ ≤ W)
    (hN : N * (76 * 2 ^ (-(φ.p : ℤ)) + 2 * η) ≤ 1) (hL : (winFor one window).length * (2 : ℝ) ^ (-(φ.p : ℤ)) ≤ 1 / 4)
    (hsmall : (2 : ℝ) ^ φ.emin ≤ X) (hbig : (12 * n + 20) * X + 1 ≤ (2 : ℝ) ^ φ.emax)
    (hbig2 : 6 * W * ((n + 2) * X) + 4 * (winFor one window).length + 1 ≤ (2 : ℝ) ^ φ.emax) :
    ∃ sd sd' ys, newSDFTof root one k n window = some sd ∧ sd.filterAll ((List.range N).map x) = some (sd', ys) ∧
      ys.length = N ∧ ∀ t < N, ∃ y, ys[t]? = some y ∧ y.Fin ∧
        ‖y.toC - ∑ j ∈ Finset.range (winFor one window).length, ((winFor one window).getD j 0).toC *
            dft n (k - ((winFor one window).length / 2 : Nat) + j) (lastN n (fun t => (x t).toC) (t + 1))‖
          ≤ ((t + 1) * (76 * 2 ^ (-(φ.p : ℤ)) + 2 * η) + (10 + 6 * (winFor one window).length) * 2 ^ (-(φ.p : ℤ))) *
              (W * ((n + 2) * X)) + 14 * (winFor one window).length * 2 ^ (φ.emin - φ.p) := by
  obtain ⟨sd, sd', ys, h1, h2, h3, h4⟩ := new_ran root one k n hn window x N
  refine ⟨sd, sd', ys, h1, h2, h3, fun t ht => ⟨_, h4 t ht, ?_⟩⟩
  set w := winFor one window with hwdef
  set e := (List.range w.length).map fun i => root (binIndex k n w.length i) n with he
  have hu := uR_pos φ
  change (N : ℝ) * (76 * uR φ + 2 * η) ≤ 1 at hN
  have hη0 : 0 ≤ η := (norm_nonneg _).trans (hroot 0).2
  have hww : wR φ ≤ uR φ * X := by
    have e : wR φ = uR φ * 2 ^ φ.emin := by
      unfold wR uR
      rw [← zpow_add₀ (by norm_num)]
      congr 1
      ring
    rw [e]
    exact mul_le_mul_of_nonneg_left hsmall hu.le
  have ege : ∀ j < w.length, e.getD j 0 = root (binIndex k n w.length j) n := by
    intro j hj
    rw [he, List.getD_eq_getElem?_getD, List.getElem?_map, List.getElem?_range hj]
    rfl
  set ε : Nat → ℂ := fun j => Complex.exp ((2 * Real.pi * binIndex k n w.length j / (n : Int) : ℝ) * Complex.I) with hε
  have hεn : ∀ j, ε j ^ n = 1 := fun j => bin_root n hn _
  have hdft : ∀ j : Nat, dft n (k - (w.length / 2 : Nat) + j) (lastN n (fun t => (x t).toC) (t + 1))
      = acc n (ε j) (fun t => (x t).toC) (t + 1) := by
    intro j
    rw [acc_exact n hn (ε j) (hεn j)]
    obtain ⟨a, ha⟩ := bin_period k n w.length j
    exact (bin_dft n hn _ _ a ha _).symm
  simp only [hdft]
  have hXn : 0 ≤ ((n : ℝ) + 2) * X := by positivity
  refine out_err h w e (fun j => acc n (ε j) (fun t => (x t).toC) (t + 1)) n x t ((n + 2) * X) W
    ((t + 1) * (76 * uR φ + 2 * η)) hXn (by positivity) ?_ hL ?_ hW ?_ ?_ hbig2
  · have : ((t : ℝ) + 1) ≤ N := by exact_mod_cast ht
    have := mul_le_mul_of_nonneg_right this (by positivity : 0 ≤ 76 * uR φ + 2 * η)
    linarith
  · intro j hj
    rw [List.getD_eq_getElem?_getD, List.getElem?_eq_getElem hj, Option.getD_some]
    exact hw _ (List.getElem_mem hj)
  · intro j hj
    have := acc_le n hn (ε j) (hεn j) (fun t => (x t).toC) N X hX (fun t ht => (hx t ht).2) (t + 1) ht
    linarith
  · intro j hj
    rw [ege j hj]
    have := acc_err h n hn (root (binIndex k n w.length j) n) (hroot _).1 (ε j) (hεn j) η X (hroot _).2 x N hx hX hN hww
      hbig (t + 1) ht
    push_cast at this
    exact this

/-! ## Bin zero on integers -/

/-- Sum of the last `n` of the first `t` integers `a`. -/
def movingSum (n : Nat) (a : Nat → ℤ) (t : Nat) : ℤ := ∑ p ∈ Finset.range n, if n ≤ t + p then a (t + p - n) else 0

theorem movingSum_succ (n : Nat) (hn : 0 < n) (a : Nat → ℤ) (t : Nat) :
    movingSum n a (t + 1) = a t - (if t < n then 0 else a (t - n)) + movingSum n a t := by
  obtain ⟨n, rfl⟩ : ∃ k, n = k + 1 := ⟨n - 1, by omega⟩
  unfold movingSum
  rw [Finset.sum_range_succ, Finset.sum_range_succ' (fun p => if n + 1 ≤ t + p then a (t + p - (n + 1)) else 0)]
  have e1 : ∀ p, (if n + 1 ≤ t + 1 + p then a (t + 1 + p - (n + 1)) else 0)
      = if n + 1 ≤ t + (p + 1) then a (t + (p + 1) - (n + 1)) else 0 := by
    intro p
    rw [show t + 1 + p = t + (p + 1) by omega]
  simp only [e1]
  rw [if_pos (by omega), show t + (n + 1) - (n + 1) = t by omega, Nat.add_zero]
  by_cases h : t < n + 1
  · rw [if_pos h, if_neg (by omega)]
    ring
  · rw [if_neg h, if_pos (by omega)]
    ring_nf

theorem movingSum_le (n : Nat) (a : Nat → ℤ) (N : Nat) (X : Nat) (ha : ∀ t < N, |a t| ≤ X) (t : Nat) (ht : t ≤ N) :
    |movingSum n a t| ≤ n * X := by
  unfold movingSum
  refine (Finset.abs_sum_le_sum_abs _ _).trans ?_
  calc _ ≤ ∑ p ∈ Finset.range n, (X : ℤ) := by
        refine Finset.sum_le_sum fun p hp => ?_
        have := Finset.mem_range.1 hp
        split
        · exact ha _ (by omega)
        · simp
    _ = _ := by simp

theorem acc_int {φ : Format} [CMul φ] (h : φ.Ints) (n : Nat) (hn : 0 < n) (e : CVal φ) (he : CIs e 1 0) (x : Nat → CVal φ)
    (a b : Nat → ℤ) (N X : Nat) (hx : ∀ t < N, CIs (x t) (a t) (b t) ∧ |a t| ≤ X ∧ |b t| ≤ X) (hX : n * X < 2 ^ φ.p)
    (hX2 : 2 * X < 2 ^ φ.p) : ∀ t ≤ N, CIs (acc n e x t) (movingSum n a t) (movingSum n b t) := by
  have hX' : ((n * X : ℕ) : ℤ) < 2 ^ φ.p := by exact_mod_cast hX
  have hX2' : ((2 * X : ℕ) : ℤ) < 2 ^ φ.p := by exact_mod_cast hX2
  push_cast at hX' hX2'
  intro t
  induction t with
  | zero =>
    intro _
    have z : ∀ a : Nat → ℤ, movingSum n a 0 = 0 := by
      intro a
      unfold movingSum
      refine Finset.sum_eq_zero fun p hp => if_neg ?_
      have := Finset.mem_range.1 hp
      omega
    rw [z, z]
    have : Is (Val.fin false 0) ((0 : ℤ) : ℚ) := ⟨⟨false, 0, rfl, le_rfl⟩, by simp [Val.toRat]⟩
    exact ⟨this, this⟩
  | succ t ih =>
    intro ht
    have i0 := ih (by omega)
    obtain ⟨⟨r1, r2⟩, r3, r4⟩ := hx t (by omega)
    have hl : CIs (leaving n x t) ((if t < n then 0 else a (t - n) : ℤ) : ℚ) ((if t < n then 0 else b (t - n) : ℤ) : ℚ) ∧
        |if t < n then 0 else a (t - n)| ≤ (X : ℤ) ∧ |if t < n then 0 else b (t - n)| ≤ (X : ℤ) := by
      unfold leaving
      by_cases hc : t < n
      · simp only [if_pos hc]
        have : Is (Val.fin false 0) ((0 : ℤ) : ℚ) := ⟨⟨false, 0, rfl, le_rfl⟩, by simp [Val.toRat]⟩
        exact ⟨⟨this, this⟩, by simp, by simp⟩
      · simp only [if_neg hc]
        obtain ⟨q1, q2, q3⟩ := hx (t - n) (by omega)
        exact ⟨q1, q2, q3⟩
    obtain ⟨⟨l1, l2⟩, l3, l4⟩ := hl
    have ma := movingSum_le n a N X (fun t ht => (hx t ht).2.1) (t + 1) ht
    have mb := movingSum_le n b N X (fun t ht => (hx t ht).2.2) (t + 1) ht
    have d1 := sub_small h r1 l1 ((abs_sub _ _).trans_lt (by linarith))
    have d2 := sub_small h r2 l2 ((abs_sub _ _).trans_lt (by linarith))
    have s1 := add_small h d1 i0.1 (by rw [← movingSum_succ n hn]; linarith)
    have s2 := add_small h d2 i0.2 (by rw [← movingSum_succ n hn]; linarith)
    rw [← movingSum_succ n hn] at s1 s2
    exact (CVal.mul_one_small h (a := x t - leaving n x t + acc n e x t) ⟨s1, s2⟩ he (by linarith) (by linarith)).1

/-- C93, bin zero on integers: without a window the output is exactly the sum of the last `n` samples, for all time, if
the samples have integer parts and the sum fits the mantissa. -/
theorem C93_integers {φ : Format} [CMul φ] (h : φ.Ints) (root : Int → Int → CVal φ) (one : CVal φ) (n : Nat) (hn : 0 < n)
    (hroot : CIs (root 0 n) 1 0) (hone : CIs one 1 0) (x : Nat → CVal φ) (a b : Nat → ℤ) (N X : Nat)
    (hx : ∀ t < N, CIs (x t) (a t) (b t) ∧ |a t| ≤ X ∧ |b t| ≤ X) (hX : n * X < 2 ^ φ.p) (hX2 : 2 * X < 2 ^ φ.p) :
    ∃ sd sd' ys, newSDFTof root one 0 n [] = some sd ∧ sd.filterAll ((List.range N).map x) = some (sd', ys) ∧
      ys.length = N ∧ ∀ t < N, ∃ y, ys[t]? = some y ∧ CIs y (movingSum n a (t + 1)) (movingSum n b (t + 1)) := by
  obtain ⟨sd, sd', ys, h1, h2, h3, h4⟩ := new_ran root one 0 n hn [] x N
  refine ⟨sd, sd', ys, h1, h2, h3, fun t ht => ⟨_, h4 t ht, ?_⟩⟩
  have hX' : ((n * X : ℕ) : ℤ) < 2 ^ φ.p := by exact_mod_cast hX
  push_cast at hX'
  have hb : binIndex 0 n 1 0 = 0 := by
    unfold binIndex
    simp
  have e : outOf (winFor one []) ((List.range (winFor one []).length).map fun i => root (binIndex 0 n (winFor one []).length i) n)
      n x t (winFor one []).length = 0 + one * acc n (root (binIndex 0 n 1 0) n) x (t + 1) := rfl
  rw [e, hb]
  have i0 := acc_int h n hn _ hroot x a b N X hx hX hX2 (t + 1) ht
  have ma := movingSum_le n a N X (fun t ht => (hx t ht).2.1) (t + 1) ht
  have mb := movingSum_le n b N X (fun t ht => (hx t ht).2.2) (t + 1) ht
  have p := (CVal.mul_one_small h i0 hone (by linarith) (by linarith)).2
  have z : Is (Val.fin false 0) ((0 : ℤ) : ℚ) := ⟨⟨false, 0, rfl, le_rfl⟩, by simp [Val.toRat]⟩
  have q1 := add_small h (v := (0 : FVal φ)) z p.1 (by rw [zero_add]; linarith)
  have q2 := add_small h (v := (0 : FVal φ)) z p.2 (by rw [zero_add]; linarith)
  rw [zero_add] at q1 q2
  exact ⟨q1, q2⟩

/-! ## An error that stays for ever -/

/-- A large sample, then ones. -/
def spike (t : Nat) : CVal binary64 := if t = 0 then ⟨.fin false (2 ^ 60), .fin false 0⟩ else ⟨.fin false 1, .fin false 0⟩

/-- The number one. -/
def one64 : CVal binary64 := ⟨.fin false 1, .fin false 0⟩

theorem spike_acc [CMul binary64] (s : Nat) : CIs (acc 2 one64 spike (s + 3)) 0 0 := by
  have z : Is (Val.fin false 0) 0 := ⟨⟨false, 0, rfl, le_rfl⟩, rfl⟩
  have o : Is (Val.fin false 1) 1 := ⟨⟨false, 1, rfl, by norm_num⟩, rfl⟩
  have b : Is (Val.fin false (2 ^ 60)) (2 ^ 60) := ⟨⟨false, 2 ^ 60, rfl, by positivity⟩, rfl⟩
  have co : CIs one64 1 0 := ⟨o, z⟩
  have gz : Grid binary64 0 := grid_zero _
  have gb : Grid binary64 (2 ^ 60) := ⟨1, 60, by decide, by decide, by norm_num⟩
  have go : Grid binary64 1 := ⟨1, 0, by decide, by decide, by norm_num⟩
  have lt : ∀ q : ℚ, |q| ≤ 2 ^ 60 → |q| < 2 ^ (binary64.emax + 1) := fun q hq => by
    refine hq.trans_lt ?_
    calc (2 : ℚ) ^ 60 = 2 ^ (60 : ℤ) := by norm_num
      _ < _ := zpow_lt_zpow_right₀ (by norm_num) (by decide)
  -- sums and differences
  have add : ∀ {v w : Val} {x y q : ℚ}, Is v x → Is w y → rd binary64 (x + y) = q → |q| ≤ 2 ^ 60 →
      Is (Fp.add binary64 v w) q := by
    intro v w x y q hv hw e hq
    have := add_rd binary64 hv hw (by rw [e]; exact lt q hq)
    rwa [e] at this
  have sub : ∀ {v w : Val} {x y q : ℚ}, Is v x → Is w y → rd binary64 (x - y) = q → |q| ≤ 2 ^ 60 →
      Is (Fp.sub binary64 v w) q := by
    intro v w x y q hv hw e hq
    have := sub_rd binary64 hv hw (by rw [e]; exact lt q hq)
    rwa [e] at this
  have r0 : rd binary64 (0 + 0) = 0 := by rw [add_zero, rd_zero]
  have r0' : rd binary64 (0 - 0) = 0 := by rw [sub_zero, rd_zero]
  have n0 : |(0 : ℚ)| ≤ 2 ^ 60 := by norm_num
  have n60 : |(2 : ℚ) ^ 60| ≤ 2 ^ 60 := by rw [abs_of_pos (by positivity)]
  -- one turn
  have turn : ∀ {x l a : CVal binary64} {p q r d e : ℚ}, CIs x p 0 → CIs l q 0 → CIs a r 0 → rd binary64 (p - q) = d →
      rd binary64 (d + r) = e → |d| ≤ 2 ^ 60 → |e| ≤ 2 ^ 60 → Grid binary64 e → CIs ((x - l + a) * one64) e 0 := by
    intro x l a p q r d e hx hl ha h1 h2 h3 h4 h5
    have s1 : Is (x - l + a).re e := add (sub hx.1 hl.1 h1 h3) ha.1 h2 h4
    have s2 : Is (x - l + a).im 0 := add (sub hx.2 hl.2 r0' n0) ha.2 r0 n0
    exact (CVal.mul_one_is (by decide) ⟨s1, s2⟩ co h5 gz (lt _ h4) (lt _ n0)).1
  have a1 : CIs (acc 2 one64 spike 1) (2 ^ 60) 0 :=
    turn (x := spike 0) (l := 0) (a := 0) (p := 2 ^ 60) (q := 0) (r := 0) (d := 2 ^ 60) ⟨b, z⟩ ⟨z, z⟩ ⟨z, z⟩
      (by rw [sub_zero, rd_grid _ (by decide) gb]) (by rw [add_zero, rd_grid _ (by decide) gb]) n60 n60 gb
  have a2 : CIs (acc 2 one64 spike 2) (2 ^ 60) 0 :=
    turn (x := spike 1) (l := 0) (p := 1) (q := 0) (r := 2 ^ 60) (d := 1) ⟨o, z⟩ ⟨z, z⟩ a1
      (by rw [sub_zero, rd_grid _ (by decide) go]) (by decide +kernel) (by norm_num) n60 gb
  induction s with
  | zero =>
    exact turn (x := spike 2) (l := spike 0) (p := 1) (q := 2 ^ 60) (r := 2 ^ 60) (d := -2 ^ 60) ⟨o, z⟩ ⟨b, z⟩ a2
      (by decide +kernel) (by rw [neg_add_cancel, rd_zero]) (by rw [abs_neg]; exact n60) n0 gz
  | succ s ih =>
    exact turn (x := spike (s + 3)) (l := leaving 2 spike (s + 3)) (p := 1) (q := 1) (r := 0) (d := 0) ⟨o, z⟩ ⟨o, z⟩ ih
      (by rw [sub_self, rd_zero]) r0 n0 n0 gz

/-- C93 is violated, whichever way the products are compiled: a sliding DFT of size two, bin zero, with exact roots, fed a
large sample and then ones.  From the third sample on the window holds two ones, with sum two, but every output is zero, for
ever: the error made while the large sample was in the window is never corrected. -/
theorem C93_violated [CMul binary64] (root : Int → Int → CVal binary64) (hroot : root 0 2 = one64) (N : Nat) :
    ∃ sd sd' ys, newSDFTof root one64 0 (2 : Nat) [] = some sd ∧ sd.filterAll ((List.range N).map spike) = some (sd', ys) ∧
      ys.length = N ∧ ∀ t < N, 2 ≤ t → (∃ y, ys[t]? = some y ∧ y.toC = 0) ∧
        dft 2 0 (lastN 2 (fun t => (spike t).toC) (t + 1)) = 2 := by
  obtain ⟨sd, sd', ys, h1, h2, h3, h4⟩ := new_ran root one64 0 2 (by omega) [] spike N
  refine ⟨sd, sd', ys, h1, h2, h3, fun t ht ht2 => ⟨⟨_, h4 t ht, ?_⟩, ?_⟩⟩
  · have e : outOf (winFor one64 []) ((List.range (winFor one64 []).length).map fun i =>
        root (binIndex 0 (2 : Nat) (winFor one64 []).length i) (2 : Nat)) 2 spike t (winFor one64 []).length
        = 0 + one64 * acc 2 (root 0 2) spike (t + 1) := rfl
    rw [e, hroot]
    obtain ⟨s, rfl⟩ : ∃ s, t = s + 2 := ⟨t - 2, by omega⟩
    have z : Is (Val.fin false 0) 0 := ⟨⟨false, 0, rfl, le_rfl⟩, rfl⟩
    have o : Is (Val.fin false 1) 1 := ⟨⟨false, 1, rfl, by norm_num⟩, rfl⟩
    have pr := (CVal.mul_one_is (by decide) (spike_acc s) (e := one64) ⟨o, z⟩ (grid_zero _) (grid_zero _)
      (by rw [abs_zero]; positivity) (by rw [abs_zero]; positivity)).2
    have fin : ∀ {v : Val}, Is v 0 → Is (Fp.add binary64 (Val.fin false 0) v) 0 := by
      intro v hv
      have := add_rd binary64 z hv (by rw [add_zero]; exact zero_lt_top _)
      rwa [add_zero, rd_zero] at this
    have f1 := val_of_is (fin pr.1)
    have f2 := val_of_is (fin pr.2)
    rw [Rat.cast_zero] at f1 f2
    exact Complex.ext f1 f2
  · obtain ⟨s, rfl⟩ : ∃ s, t = s + 2 := ⟨t - 2, by omega⟩
    have v : ∀ s, (spike (s + 1)).toC = 1 := by
      intro s
      apply Complex.ext
      · show val (Val.fin false 1) = 1
        simp [val, Val.toRat]
      · show val (Val.fin false 0) = 0
        simp [val, Val.toRat]
    unfold dft lastN
    rw [Finset.sum_range_succ, Finset.sum_range_succ, Finset.sum_range_zero, if_pos (by omega), if_pos (by omega)]
    rw [show s + 2 + 1 + 0 - 2 = s + 1 by omega, show s + 2 + 1 + 1 - 2 = s + 1 + 1 by omega]
    dsimp only
    rw [v, v]
    norm_num

/-! ## Examples of the hypotheses -/

/-- A sliding DFT of 64 samples in double precision with a million samples of magnitude at most one. -/
example : ∃ (N n : Nat) (η X W : ℝ), 0 < n ∧ N = 1000000 ∧ N * (76 * 2 ^ (-(binary64.p : ℤ)) + 2 * η) ≤ 1 ∧ 0 < η ∧
    (2 : ℝ) ^ binary64.emin ≤ X ∧ (12 * n + 20) * X + 1 ≤ (2 : ℝ) ^ binary64.emax ∧
    6 * W * ((n + 2) * X) + 4 * (1 : Nat) + 1 ≤ (2 : ℝ) ^ binary64.emax := by
  have h1 : (2 : ℝ) ^ (20 : ℤ) ≤ 2 ^ binary64.emax := zpow_le_zpow_right₀ (by norm_num) (by decide)
  have h2 : (2 : ℝ) ^ binary64.emin ≤ 2 ^ (0 : ℤ) := zpow_le_zpow_right₀ (by norm_num) (by decide)
  refine ⟨1000000, 64, 2 ^ (-51 : ℤ), 1, 1, by norm_num, rfl, ?_, by positivity, ?_, ?_, ?_⟩
  · norm_num [binary64]
  · simpa using h2
  · norm_num at h1 ⊢
    linarith
  · norm_num at h1 ⊢
    linarith

/-- Sixteen-bit samples in windows of up to two to the 37 samples are exact in double precision. -/
example : (2 ^ 37 - 1) * 2 ^ 16 < 2 ^ binary64.p ∧ 2 * 2 ^ 16 < 2 ^ binary64.p ∧ CIs one64 1 0 ∧
    CIs (⟨.fin true 32768, .fin false 7⟩ : CVal binary64) ((-32768 : ℤ) : ℚ) ((7 : ℤ) : ℚ) := by
  refine ⟨by decide, by decide, ⟨⟨⟨_, _, rfl, by norm_num⟩, rfl⟩, ⟨⟨_, _, rfl, by norm_num⟩, rfl⟩⟩,
    ⟨⟨⟨_, _, rfl, by norm_num⟩, by norm_num [Val.toRat]⟩, ⟨⟨_, _, rfl, by norm_num⟩, by norm_num [Val.toRat]⟩⟩⟩

end Verif.Dft
