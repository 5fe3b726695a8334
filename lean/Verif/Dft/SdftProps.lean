import Verif.Dft.SdftModel
import Verif.Dft.DftSpec
import Verif.Conv.SliceLemmas
import Mathlib.Tactic.LinearCombination
import Mathlib.Tactic.Linarith
import Mathlib.Tactic.FieldSimp
import Mathlib.Tactic.Positivity
import Mathlib.Tactic.NormNum
import Mathlib.Analysis.SpecialFunctions.Complex.Log

/-!
# Properties C47 and C48 of the sliding DFT
-/

namespace Verif.Dft
open Verif.Conv

/-- Specification: the last `n` of the samples `h`, oldest first, with zeros before the start. -/
def recent {C : Type} [Zero C] (h : List C) (n p : Nat) : C :=
  if n ≤ h.length + p then h.getD (h.length + p - n) 0 else 0

theorem recent_snoc {C : Type} [Zero C] (h : List C) (x : C) (n p : Nat) (hp : p < n) :
    recent (h ++ [x]) n p = if p + 1 = n then x else recent h n (p + 1) := by
  unfold recent
  rw [List.length_append, List.length_singleton]
  by_cases h1 : p + 1 = n
  · rw [if_pos h1, if_pos (by omega)]
    have : h.length + 1 + p - n = h.length := by omega
    rw [this]
    simp
  · rw [if_neg h1]
    by_cases h2 : n ≤ h.length + (p + 1)
    · rw [if_pos (by omega), if_pos h2]
      have e : h.length + 1 + p - n = h.length + (p + 1) - n := by omega
      rw [e, List.getD_eq_getElem?_getD, List.getD_eq_getElem?_getD, List.getElem?_append_left (by omega)]
    · rw [if_neg (by omega), if_neg h2]

/-! ## The inner loop -/

/-- Running total of the inner loop. -/
def addTerm {C : Type} [Add C] [Mul C] (xd sum : C) : Option C → Option C → Option C → C
  | some w, some s, some e => sum + w * ((xd + s) * e)
  | _, _, _ => sum

theorem filter_loop {C : Type} [Add C] [Mul C] (w e s : List C) (xd z : C) (hs : s.length = w.length) (he : e.length = w.length)
    (m : Nat) (hm : m ≤ w.length) :
    ∃ s' sum, (forRange m (s, z) fun i (s, sum) => do
        let w ← w[i]?
        let si ← s[i]?
        let ei ← e[i]?
        let v := (xd + si) * ei
        let s ← setAt s i v
        some (s, sum + w * v)) = some (s', sum) ∧
      s'.length = w.length ∧
      (∀ (j : Nat) (hj : j < w.length), s'[j]? = if j < m then some ((xd + s[j]) * e[j]) else s[j]?) ∧
      sum = (List.range m).foldl (fun sum j => addTerm xd sum w[j]? s[j]? e[j]?) z := by
  induction m with
  | zero =>
    refine ⟨s, z, rfl, hs, ?_, rfl⟩
    intro j hj
    simp
  | succ m ih =>
    obtain ⟨s', sum, h1, h2, h3, h4⟩ := ih (by omega)
    have hmw : m < w.length := by omega
    have e1 : s'[m]? = some s[m] := by
      rw [h3 m hmw, if_neg (by omega)]
      exact List.getElem?_eq_getElem (by omega)
    refine ⟨s'.set m ((xd + s[m]) * e[m]), sum + w[m] * ((xd + s[m]) * e[m]), ?_, ?_, ?_, ?_⟩
    · rw [forRange, h1]
      simp only [Option.bind_eq_bind, Option.bind_some, e1]
      rw [List.getElem?_eq_getElem hmw, List.getElem?_eq_getElem (by omega : m < e.length), Option.bind_some, Option.bind_some,
        setAt, if_pos (by omega), Option.bind_some]
    · rw [List.length_set, h2]
    · intro j hj
      rw [List.getElem?_set]
      by_cases hjm : m = j
      · subst hjm
        rw [if_pos rfl, if_pos (by omega), if_pos (by omega)]
      · rw [if_neg hjm, h3 j hj]
        by_cases hj2 : j < m
        · rw [if_pos hj2, if_pos (by omega)]
        · rw [if_neg hj2, if_neg (by omega)]
    · rw [List.range_succ, List.foldl_append, ← h4]
      simp only [List.foldl_cons, List.foldl_nil]
      rw [List.getElem?_eq_getElem hmw, List.getElem?_eq_getElem (by omega : m < e.length),
        List.getElem?_eq_getElem (by omega : m < s.length)]
      rfl

/-! ## The invariant -/

open Complex

/-- State after the history `h`: the ring buffer holds the last `n` samples and each accumulator holds
its bin of their DFT. -/
structure Inv (sd : SDFT ℂ) (n : Nat) (h : List ℂ) : Prop where
  hx : sd.x.length = n
  hi : sd.i = h.length % n
  hs : sd.s.length = sd.w.length
  he : sd.e.length = sd.w.length
  ring : ∀ p, p < n → sd.x[(h.length + 1 + p) % n]? = some (recent h n p)
  root : ∀ j (hj : j < sd.w.length), sd.e[j] ^ n = 1
  acc : ∀ j (hj : j < sd.w.length), sd.s[j] = ∑ p ∈ Finset.range n, recent h n p * (sd.e[j])⁻¹ ^ p

/-- One turn of the recursion: appending a sample moves the sum by one place. -/
theorem slide (n : Nat) (hn : 0 < n) (h : List ℂ) (x e : ℂ) (he : e ^ n = 1) :
    (x - recent h n 0 + ∑ p ∈ Finset.range n, recent h n p * e⁻¹ ^ p) * e
      = ∑ p ∈ Finset.range n, recent (h ++ [x]) n p * e⁻¹ ^ p := by
  obtain ⟨n, rfl⟩ : ∃ k, n = k + 1 := ⟨n - 1, by omega⟩
  have he0 : e ≠ 0 := by
    rintro rfl
    simp at he
  have e1 : ∑ p ∈ Finset.range (n + 1), recent (h ++ [x]) (n + 1) p * e⁻¹ ^ p
      = ∑ p ∈ Finset.range n, recent h (n + 1) (p + 1) * e⁻¹ ^ p + x * e⁻¹ ^ n := by
    rw [Finset.sum_range_succ, recent_snoc h x _ n (by omega), if_pos rfl]
    congr 1
    refine Finset.sum_congr rfl fun p hp => ?_
    have := Finset.mem_range.1 hp
    rw [recent_snoc h x _ p (by omega), if_neg (by omega)]
  have e2 : e⁻¹ ^ n = e := by
    rw [inv_pow]
    rw [pow_succ] at he
    exact inv_eq_of_mul_eq_one_right he
  rw [e1, Finset.sum_range_succ', e2]
  simp only [pow_zero, mul_one]
  have e3 : (∑ p ∈ Finset.range n, recent h (n + 1) (p + 1) * e⁻¹ ^ (p + 1)) * e
      = ∑ p ∈ Finset.range n, recent h (n + 1) (p + 1) * e⁻¹ ^ p := by
    rw [Finset.sum_mul]
    refine Finset.sum_congr rfl fun p _ => ?_
    rw [pow_succ]
    field_simp
  linear_combination e3

/-- The output for one sample. -/
noncomputable def outSum (sd : SDFT ℂ) (n : Nat) (h : List ℂ) : ℂ :=
  ∑ j ∈ Finset.range sd.w.length, sd.w.getD j 0 * ∑ p ∈ Finset.range n, recent h n p * (sd.e.getD j 0)⁻¹ ^ p

theorem filter_inv (sd : SDFT ℂ) (n : Nat) (hn : 0 < n) (h : List ℂ) (I : Inv sd n h) (x : ℂ) :
    ∃ sd', sd.filter x = some (sd', outSum sd n (h ++ [x])) ∧ Inv sd' n (h ++ [x]) ∧ sd'.w = sd.w ∧ sd'.e = sd.e := by
  have hi : (sd.i + 1) % sd.x.length = (h.length + 1 + 0) % n := by
    rw [I.hx, I.hi, Nat.add_zero, Nat.mod_add_mod]
  have hx0 := I.ring 0 hn
  obtain ⟨s', sum, h1, h2, h3, h4⟩ := filter_loop sd.w sd.e sd.s (x - recent h n 0) 0 I.hs I.he sd.w.length (Nat.le_refl _)
  have hnew : ∀ (j : Nat) (hj : j < sd.w.length), (x - recent h n 0 + sd.s[j]'(by rw [I.hs]; exact hj)) * sd.e[j]'(by rw [I.he]; exact hj)
      = ∑ p ∈ Finset.range n, recent (h ++ [x]) n p * (sd.e[j]'(by rw [I.he]; exact hj))⁻¹ ^ p := by
    intro j hj
    rw [I.acc j hj, slide n hn h x _ (I.root j hj)]
  have hsum : sum = outSum sd n (h ++ [x]) := by
    rw [h4, outSum]
    have : ∀ m, m ≤ sd.w.length → (List.range m).foldl (fun sum j => addTerm (x - recent h n 0) sum sd.w[j]? sd.s[j]? sd.e[j]?) 0 = ∑ j ∈ Finset.range m, sd.w.getD j 0 * ∑ p ∈ Finset.range n, recent (h ++ [x]) n p * (sd.e.getD j 0)⁻¹ ^ p := by
      intro m
      induction m with
      | zero => intro _; simp
      | succ m ih =>
        intro hm
        rw [List.range_succ, List.foldl_append, ih (by omega), Finset.sum_range_succ]
        simp only [List.foldl_cons, List.foldl_nil]
        have a1 : m < sd.w.length := by omega
        have a2 : m < sd.s.length := by rw [I.hs]; exact a1
        have a3 : m < sd.e.length := by rw [I.he]; exact a1
        rw [List.getElem?_eq_getElem a1, List.getElem?_eq_getElem a2, List.getElem?_eq_getElem a3]
        simp only [addTerm]
        rw [hnew m a1, List.getD_eq_getElem?_getD, List.getD_eq_getElem?_getD, List.getElem?_eq_getElem a1,
          List.getElem?_eq_getElem a3, Option.getD_some, Option.getD_some]
    exact this _ (Nat.le_refl _)
  refine ⟨{ sd with x := sd.x.set ((h.length + 1 + 0) % n) x, i := (h.length + 1 + 0) % n, s := s' }, ?_, ?_, rfl, rfl⟩
  · unfold SDFT.filter
    rw [if_neg (by rw [I.hx]; omega), hi]
    simp only [Option.bind_eq_bind, hx0, Option.bind_some]
    simp only [Option.bind_eq_bind] at h1
    rw [h1, Option.bind_some, hsum]
  · refine ⟨?_, ?_, ?_, ?_, ?_, ?_, ?_⟩
    · simp only [List.length_set, I.hx]
    · simp
    · exact h2
    · exact I.he
    · intro p hp
      simp only [List.length_append, List.length_singleton]
      rw [List.getElem?_set, recent_snoc h x n p hp]
      by_cases hpn : p + 1 = n
      · have : (h.length + 1 + 1 + p) % n = (h.length + 1 + 0) % n := by
          rw [show h.length + 1 + 1 + p = h.length + 1 + 0 + n by omega, Nat.add_mod_right]
        rw [if_pos this.symm, if_pos hpn, I.hx, if_pos (Nat.mod_lt _ hn)]
      · have e : h.length + 1 + 1 + p = h.length + 1 + (p + 1) := by omega
        rw [if_neg, if_neg hpn, e, I.ring (p + 1) (by omega)]
        intro hc
        rw [e] at hc
        have : (p + 1) % n = 0 % n := by
          have := Nat.ModEq.add_left_cancel' (h.length + 1) (show h.length + 1 + 0 ≡ h.length + 1 + (p + 1) [MOD n] from hc)
          exact this.symm
        rw [Nat.zero_mod, Nat.mod_eq_of_lt (by omega)] at this
        omega
    · exact I.root
    · intro j hj
      have := h3 j hj
      rw [if_pos hj, hnew j hj, List.getElem?_eq_getElem (by rw [h2]; exact hj)] at this
      exact Option.some.inj this

/-- Outputs for a sequence of samples. -/
theorem filterAll_inv (n : Nat) (hn : 0 < n) (xs : List ℂ) : ∀ (sd : SDFT ℂ) (h : List ℂ), Inv sd n h →
    ∃ sd' ys, sd.filterAll xs = some (sd', ys) ∧ Inv sd' n (h ++ xs) ∧ ys.length = xs.length ∧
      ∀ t < xs.length, ys[t]? = some (outSum sd n (h ++ xs.take (t + 1))) := by
  induction xs with
  | nil =>
    intro sd h I
    exact ⟨sd, [], rfl, by simpa using I, rfl, by simp⟩
  | cons x xs ih =>
    intro sd h I
    obtain ⟨sd1, h1, I1, hw, he⟩ := filter_inv sd n hn h I x
    obtain ⟨sd2, ys, h2, I2, h3, h4⟩ := ih sd1 _ I1
    refine ⟨sd2, outSum sd n (h ++ [x]) :: ys, ?_, ?_, ?_, ?_⟩
    · simp only [SDFT.filterAll, h1, h2, Option.bind_eq_bind, Option.bind_some]
    · simpa using I2
    · simp [h3]
    · intro t ht
      cases t with
      | zero => simp
      | succ t =>
        rw [List.getElem?_cons_succ, h4 t (by simpa using ht)]
        simp only [outSum, hw, he, List.append_assoc, List.singleton_append, List.take_succ_cons]

/-! ## The constructor -/

/-- Frequency of accumulator `j`. -/
theorem bin_period (k n : Int) (len i : Nat) :
    ∃ a : Int, binIndex k n len i = k - (len / 2 : Nat) + i + a * n := by
  unfold binIndex
  dsimp only
  split
  · exact ⟨1, by ring⟩
  · split
    · exact ⟨-1, by ring⟩
    · exact ⟨0, by ring⟩

theorem bin_root (n : Nat) (hn : 0 < n) (b : Int) : exp ((2 * Real.pi * b / (n : Int) : ℝ) * I) ^ n = 1 := by
  have hn' : (n : ℂ) ≠ 0 := by exact_mod_cast hn.ne'
  rw [← exp_nat_mul, exp_eq_one_iff]
  refine ⟨b, ?_⟩
  push_cast
  field_simp

theorem bin_dft (n : Nat) (hn : 0 < n) (b k a : Int) (hb : b = k + a * n) (x : Nat → ℂ) :
    ∑ p ∈ Finset.range n, x p * (exp ((2 * Real.pi * b / (n : Int) : ℝ) * I))⁻¹ ^ p = dft n k x := by
  have hn' : (n : ℂ) ≠ 0 := by exact_mod_cast hn.ne'
  unfold dft
  refine Finset.sum_congr rfl fun p _ => ?_
  congr 1
  rw [← exp_neg, ← exp_nat_mul, exp_eq_exp_iff_exists_int]
  refine ⟨-(a * p), ?_⟩
  subst hb
  push_cast
  field_simp
  ring

/-- The window the constructor uses: a single 1 when none is given. -/
noncomputable def winOf (window : List ℝ) : List ℂ := if window.length = 0 then [1] else window.map Complex.ofReal

theorem newSDFT_inv (k : Int) (n : Nat) (hn : 0 < n) (window : List ℝ) :
    ∃ sd, newSDFT k n window = some sd ∧ Inv sd n [] ∧ sd.w = winOf window ∧
      ∀ j < sd.w.length, sd.e[j]? = some (exp ((2 * Real.pi * binIndex k n (winOf window).length j / (n : Int) : ℝ) * I)) := by
  refine ⟨_, by rw [newSDFT, if_neg (by omega)], ?_, rfl, ?_⟩
  · refine ⟨?_, ?_, ?_, ?_, ?_, ?_, ?_⟩
    · simp
    · simp
    · simp
    · simp
    · intro p hp
      simp only [Int.toNat_natCast]
      rw [List.getElem?_replicate, if_pos (Nat.mod_lt _ hn)]
      simp [recent]
    · intro j hj
      simp only [List.getElem_map, List.getElem_range]
      exact bin_root n hn _
    · intro j hj
      simp [recent]
  · intro j hj
    simp only [List.getElem?_map]
    have hj' : j < (winOf window).length := hj
    have : (List.range (winOf window).length)[j]? = some j := by
      rw [List.getElem?_eq_getElem (by simpa using hj'), List.getElem_range]
    change Option.map _ (List.range (winOf window).length)[j]? = _
    rw [this]
    rfl

/-- C48, every window: the output after each sample is the sum of the window coefficients times the
DFT bins around `k` of the last `n` samples. -/
theorem C48_bins (k : Int) (n : Nat) (hn : 0 < n) (window : List ℝ) (xs : List ℂ) :
    ∃ sd sd' ys, newSDFT k n window = some sd ∧ sd.filterAll xs = some (sd', ys) ∧ ys.length = xs.length ∧
      ∀ t < xs.length, ys[t]? = some (∑ j ∈ Finset.range (winOf window).length, (winOf window).getD j 0 *
        dft n (k - ((winOf window).length / 2 : Nat) + j) (recent (xs.take (t + 1)) n)) := by
  obtain ⟨sd, h1, hI, hw, he⟩ := newSDFT_inv k n hn window
  obtain ⟨sd', ys, h2, -, h3, h4⟩ := filterAll_inv n hn xs sd [] hI
  refine ⟨sd, sd', ys, h1, h2, h3, ?_⟩
  intro t ht
  rw [h4 t ht, outSum, hw, List.nil_append]
  congr 1
  refine Finset.sum_congr rfl fun j hj => ?_
  have hj' : j < sd.w.length := by rw [hw]; exact Finset.mem_range.1 hj
  have e1 : sd.e.getD j 0 = exp ((2 * Real.pi * binIndex k n (winOf window).length j / (n : Int) : ℝ) * I) := by
    rw [List.getD_eq_getElem?_getD, he j hj', Option.getD_some]
  obtain ⟨a, ha⟩ := bin_period k n (winOf window).length j
  rw [e1, bin_dft n hn _ _ a ha]

/-- C47: without a window the output after each sample is bin `k` of the DFT of the last `n` samples. -/
theorem C47_dft (k : Int) (n : Nat) (hn : 0 < n) (xs : List ℂ) :
    ∃ sd sd' ys, newSDFT k n [] = some sd ∧ sd.filterAll xs = some (sd', ys) ∧ ys.length = xs.length ∧
      ∀ t < xs.length, ys[t]? = some (dft n k (recent (xs.take (t + 1)) n)) := by
  obtain ⟨sd, sd', ys, h1, h2, h3, h4⟩ := C48_bins k n hn [] xs
  refine ⟨sd, sd', ys, h1, h2, h3, ?_⟩
  intro t ht
  rw [h4 t ht]
  simp [winOf]

/-- C47: a size of zero makes every call panic, a negative size the constructor. -/
theorem C47_size (k : Int) (window : List ℝ) (x : ℂ) :
    (∃ sd, newSDFT k 0 window = some sd ∧ sd.filter x = none) ∧ ∀ n < 0, newSDFT k n window = none := by
  refine ⟨⟨_, rfl, rfl⟩, fun n hn => ?_⟩
  rw [newSDFT, if_pos hn]

/-! ## Named windows -/

/-- Periodic Hanning window. -/
noncomputable def hanningAt (n p : Nat) : ℝ := 0.5 - 0.5 * Real.cos (2 * Real.pi * p / n)
/-- Periodic Hamming window. -/
noncomputable def hammingAt (n p : Nat) : ℝ := 0.53836 - (1 - 0.53836) * Real.cos (2 * Real.pi * p / n)
/-- Periodic Blackman window. -/
noncomputable def blackmanAt (n p : Nat) : ℝ :=
  (1 - 0.16) / 2 - 0.5 * Real.cos (2 * Real.pi * p / n) + 0.16 / 2 * Real.cos (4 * Real.pi * p / n)

theorem exp_shift (n p : Nat) (hn : 0 < n) (k d : Int) :
    exp (-(2 * Real.pi * (k + d : Int) * p / n : ℝ) * I)
      = exp (-(2 * Real.pi * k * p / n : ℝ) * I) * exp (-(2 * Real.pi * d * p / n : ℝ) * I) := by
  have hn' : (n : ℂ) ≠ 0 := by exact_mod_cast hn.ne'
  rw [← exp_add]
  congr 1
  push_cast
  field_simp
  ring

theorem exp_pair (θ : ℝ) : exp (-(θ : ℝ) * I) + exp (θ * I) = 2 * Real.cos θ := by
  rw [ofReal_cos, Complex.cos]
  ring

/-- Three bins with coefficients `b, a, b`. -/
theorem three_bins (n : Nat) (hn : 0 < n) (k : Int) (a b : ℝ) (x : Nat → ℂ) :
    (b : ℂ) * dft n (k - 1) x + a * dft n k x + b * dft n (k + 1) x
      = dft n k (fun p => x p * ((a + 2 * b * Real.cos (2 * Real.pi * p / n) : ℝ) : ℂ)) := by
  unfold dft
  rw [Finset.mul_sum, Finset.mul_sum, Finset.mul_sum, ← Finset.sum_add_distrib, ← Finset.sum_add_distrib]
  refine Finset.sum_congr rfl fun p _ => ?_
  rw [sub_eq_add_neg, exp_shift n p hn k (-1), exp_shift n p hn k 1]
  have e1 : exp (-(2 * Real.pi * (1 : Int) * p / n : ℝ) * I) + exp (-(2 * Real.pi * (-1 : Int) * p / n : ℝ) * I)
      = 2 * Real.cos (2 * Real.pi * p / n) := by
    rw [← exp_pair]
    congr 2
    · push_cast; ring
    · push_cast; ring
  push_cast at e1 ⊢
  linear_combination (x p * exp (-(2 * Real.pi * k * p / n) * I) * b) * e1

/-- Five bins with coefficients `c, b, a, b, c`. -/
theorem five_bins (n : Nat) (hn : 0 < n) (k : Int) (a b c : ℝ) (x : Nat → ℂ) :
    (c : ℂ) * dft n (k - 2) x + b * dft n (k - 1) x + a * dft n k x + b * dft n (k + 1) x + c * dft n (k + 2) x
      = dft n k (fun p => x p * ((a + 2 * b * Real.cos (2 * Real.pi * p / n) + 2 * c * Real.cos (4 * Real.pi * p / n) : ℝ) : ℂ)) := by
  have h := three_bins n hn k a b x
  have h2 : (c : ℂ) * dft n (k - 2) x + c * dft n (k + 2) x
      = dft n k (fun p => x p * ((2 * c * Real.cos (4 * Real.pi * p / n) : ℝ) : ℂ)) := by
    unfold dft
    rw [Finset.mul_sum, Finset.mul_sum, ← Finset.sum_add_distrib]
    refine Finset.sum_congr rfl fun p _ => ?_
    rw [sub_eq_add_neg, exp_shift n p hn k (-2), exp_shift n p hn k 2]
    have e1 : exp (-(2 * Real.pi * (2 : Int) * p / n : ℝ) * I) + exp (-(2 * Real.pi * (-2 : Int) * p / n : ℝ) * I)
        = 2 * Real.cos (4 * Real.pi * p / n) := by
      rw [← exp_pair]
      congr 2
      · push_cast; ring
      · push_cast; ring
    push_cast at e1 ⊢
    linear_combination (x p * exp (-(2 * Real.pi * k * p / n) * I) * c) * e1
  have h3 : dft n k (fun p => x p * ((a + 2 * b * Real.cos (2 * Real.pi * p / n) + 2 * c * Real.cos (4 * Real.pi * p / n) : ℝ) : ℂ))
      = dft n k (fun p => x p * ((a + 2 * b * Real.cos (2 * Real.pi * p / n) : ℝ) : ℂ))
        + dft n k (fun p => x p * ((2 * c * Real.cos (4 * Real.pi * p / n) : ℝ) : ℂ)) := by
    unfold dft
    rw [← Finset.sum_add_distrib]
    refine Finset.sum_congr rfl fun p _ => ?_
    push_cast
    ring
  rw [h3, ← h, ← h2]
  ring

/-- A window of three symmetric coefficients. -/
theorem window_three (k : Int) (n : Nat) (hn : 0 < n) (a b : ℝ) (xs : List ℂ) :
    ∃ sd sd' ys, newSDFT k n [b, a, b] = some sd ∧ sd.filterAll xs = some (sd', ys) ∧ ys.length = xs.length ∧
      ∀ t < xs.length, ys[t]? = some (dft n k fun p => recent (xs.take (t + 1)) n p *
        ((a + 2 * b * Real.cos (2 * Real.pi * p / n) : ℝ) : ℂ)) := by
  obtain ⟨sd, sd', ys, h1, h2, h3, h4⟩ := C48_bins k n hn [b, a, b] xs
  refine ⟨sd, sd', ys, h1, h2, h3, ?_⟩
  intro t ht
  rw [h4 t ht, ← three_bins n hn k]
  have hw : winOf [b, a, b] = [(b : ℂ), a, b] := rfl
  rw [hw]
  simp only [List.length_cons, List.length_nil, Finset.sum_range_succ, Finset.sum_range_zero, zero_add]
  have i0 : k - ((1 + 1 + 1) / 2 : Nat) + (0 : Nat) = k - 1 := by norm_num
  have i1 : k - ((1 + 1 + 1) / 2 : Nat) + (1 : Nat) = k := by norm_num
  have i2 : k - ((1 + 1 + 1) / 2 : Nat) + ((1 + 1 : Nat) : Int) = k + 1 := by norm_num; ring
  rw [i0, i1, i2]
  rfl

/-- A window of five symmetric coefficients. -/
theorem window_five (k : Int) (n : Nat) (hn : 0 < n) (a b c : ℝ) (xs : List ℂ) :
    ∃ sd sd' ys, newSDFT k n [c, b, a, b, c] = some sd ∧ sd.filterAll xs = some (sd', ys) ∧ ys.length = xs.length ∧
      ∀ t < xs.length, ys[t]? = some (dft n k fun p => recent (xs.take (t + 1)) n p *
        ((a + 2 * b * Real.cos (2 * Real.pi * p / n) + 2 * c * Real.cos (4 * Real.pi * p / n) : ℝ) : ℂ)) := by
  obtain ⟨sd, sd', ys, h1, h2, h3, h4⟩ := C48_bins k n hn [c, b, a, b, c] xs
  refine ⟨sd, sd', ys, h1, h2, h3, ?_⟩
  intro t ht
  rw [h4 t ht, ← five_bins n hn k]
  have hw : winOf [c, b, a, b, c] = [(c : ℂ), b, a, b, c] := rfl
  rw [hw]
  simp only [List.length_cons, List.length_nil, Finset.sum_range_succ, Finset.sum_range_zero, zero_add]
  have i0 : k - ((1 + 1 + 1 + 1 + 1) / 2 : Nat) + (0 : Nat) = k - 2 := by norm_num
  have i1 : k - ((1 + 1 + 1 + 1 + 1) / 2 : Nat) + (1 : Nat) = k - 1 := by norm_num; ring
  have i2 : k - ((1 + 1 + 1 + 1 + 1) / 2 : Nat) + ((1 + 1 : Nat) : Int) = k := by norm_num
  have i3 : k - ((1 + 1 + 1 + 1 + 1) / 2 : Nat) + ((1 + 1 + 1 : Nat) : Int) = k + 1 := by norm_num; ring
  have i4 : k - ((1 + 1 + 1 + 1 + 1) / 2 : Nat) + ((1 + 1 + 1 + 1 : Nat) : Int) = k + 2 := by norm_num; ring
  rw [i0, i1, i2, i3, i4]
  rfl

/-- C48: with the Hanning coefficients the output is bin `k` of the windowed last `n` samples. -/
theorem C48_hanning (k : Int) (n : Nat) (hn : 0 < n) (xs : List ℂ) :
    ∃ sd sd' ys, newSDFT k n hanningFreqCoeff = some sd ∧ sd.filterAll xs = some (sd', ys) ∧ ys.length = xs.length ∧
      ∀ t < xs.length, ys[t]? = some (dft n k fun p => recent (xs.take (t + 1)) n p * (hanningAt n p : ℝ)) := by
  have e : ∀ p, hanningAt n p = 0.5 + 2 * (-0.25) * Real.cos (2 * Real.pi * p / n) := by
    intro p
    unfold hanningAt
    ring
  simp only [e]
  exact window_three k n hn 0.5 (-0.25) xs

/-- C48: Hamming. -/
theorem C48_hamming (k : Int) (n : Nat) (hn : 0 < n) (xs : List ℂ) :
    ∃ sd sd' ys, newSDFT k n hammingFreqCoeff = some sd ∧ sd.filterAll xs = some (sd', ys) ∧ ys.length = xs.length ∧
      ∀ t < xs.length, ys[t]? = some (dft n k fun p => recent (xs.take (t + 1)) n p * (hammingAt n p : ℝ)) := by
  have e : ∀ p, hammingAt n p = 0.53836 + 2 * ((0.53836 - 1) / 2) * Real.cos (2 * Real.pi * p / n) := by
    intro p
    unfold hammingAt
    ring
  simp only [e]
  exact window_three k n hn 0.53836 ((0.53836 - 1) / 2) xs

/-- C48: Blackman. -/
theorem C48_blackman (k : Int) (n : Nat) (hn : 0 < n) (xs : List ℂ) :
    ∃ sd sd' ys, newSDFT k n blackmanFreqCoeff = some sd ∧ sd.filterAll xs = some (sd', ys) ∧ ys.length = xs.length ∧
      ∀ t < xs.length, ys[t]? = some (dft n k fun p => recent (xs.take (t + 1)) n p * (blackmanAt n p : ℝ)) := by
  have e : ∀ p, blackmanAt n p = (1 - 0.16) / 2 + 2 * (-1.0 / 4) * Real.cos (2 * Real.pi * p / n)
      + 2 * (0.16 / 4) * Real.cos (4 * Real.pi * p / n) := by
    intro p
    unfold blackmanAt
    rw [show (-1.0 : ℝ) = -1 by norm_num, show (0.5 : ℝ) = 1 / 2 by norm_num]
    ring
  simp only [e]
  exact window_five k n hn ((1 - 0.16) / 2) (-1.0 / 4) (0.16 / 4) xs

example : (0 : Nat) < 4 ∧ recent ([1, 2, 3] : List ℂ) 4 0 = 0 ∧ recent ([1, 2, 3] : List ℂ) 4 1 = 1 ∧
    recent ([1, 2, 3, 4, 5] : List ℂ) 4 0 = 2 := by
  refine ⟨by norm_num, by simp [recent], by simp [recent], by simp [recent]⟩

end Verif.Dft
