import Verif.Filt.FusedLemmas
import Verif.Fp.FpRd

/-!
# Properties C91 and C141: the DC filter with rounding

`FVal φ` is the arithmetic of the format `φ`: `binary64` for `DCFilter`, `binary32` for `DCFilter32`.  The theorems are
about `DC.filterBy`, in which `x + f.a*lw` may be fused; by `C91_plain` the model in which each operation is rounded is
one case.
-/

namespace Verif.Filt
open Verif.Conv Verif.Fp

theorem vadd {φ : Format} {v w : FVal φ} {x y : ℚ} (hv : Is v x) (hw : Is w y)
    (h : |rd φ (x + y)| < 2 ^ (φ.emax + 1)) : Is (v + w : FVal φ) (rd φ (x + y)) := add_rd φ hv hw h
theorem vsub {φ : Format} {v w : FVal φ} {x y : ℚ} (hv : Is v x) (hw : Is w y)
    (h : |rd φ (x - y)| < 2 ^ (φ.emax + 1)) : Is (v - w : FVal φ) (rd φ (x - y)) := sub_rd φ hv hw h
theorem vmul {φ : Format} {v w : FVal φ} {x y : ℚ} (hv : Is v x) (hw : Is w y)
    (h : |rd φ (x * y)| < 2 ^ (φ.emax + 1)) : Is (v * w : FVal φ) (rd φ (x * y)) := mul_rd φ hv hw h

/-- The next state, on values. -/
def next (φ : Format) (fused : Bool) (a x w : ℚ) : ℚ := rd φ (x + if fused then a * w else rd φ (a * w))

theorem next_is {φ : Format} (fused : Bool) {va vx vw : FVal φ} {a x w : ℚ} (hva : Is va a) (hvx : Is vx x) (hvw : Is vw w)
    (h1 : fused = false → |rd φ (a * w)| < 2 ^ (φ.emax + 1)) (h2 : |next φ fused a x w| < 2 ^ (φ.emax + 1)) :
    Is (dcNext fused va vx vw) (next φ fused a x w) := by
  cases fused
  · exact vadd hvx (vmul hva hvw (h1 rfl)) h2
  · have e : next φ true a x w = rd φ (a * w + x) := by unfold next; rw [if_pos rfl, add_comm]
    rw [e] at h2 ⊢
    exact fma_rd φ hva hvw hvx h2

section
variable {φ : Format} (hp : 2 ≤ φ.p) {k : ℤ} (h1 : φ.emin ≤ k + φ.p)
include hp h1

theorem next_bound (fused : Bool) {a x w : ℚ} (ha : |a| ≤ 1) (hx : |x| ≤ 2 ^ k) (hw : |w| ≤ 2 ^ (k + φ.p)) :
    |rd φ (a * w)| ≤ 2 ^ (k + φ.p) ∧ |next φ fused a x w| ≤ 2 ^ (k + φ.p) := by
  have hg : Grid φ ((2 : ℚ) ^ (k + φ.p)) := grid_pow φ (by omega) _ (by omega)
  have hm0 : |a * w| ≤ 2 ^ (k + φ.p) := by
    rw [abs_mul]
    calc |a| * |w| ≤ 1 * |w| := mul_le_mul_of_nonneg_right ha (abs_nonneg _)
      _ ≤ _ := by rw [one_mul]; exact hw
  have hm : |rd φ (a * w)| ≤ 2 ^ (k + φ.p) := abs_rd_le φ (by omega) hg hm0
  refine ⟨hm, ?_⟩
  unfold next
  rw [abs_rd, ← rd_absorb φ hp k h1]
  refine rd_mono φ (by omega) ((abs_add_le _ _).trans (add_le_add hx ?_))
  cases fused
  · exact hm
  · exact hm0

variable (h2 : k + φ.p < φ.emax)
include h2

omit hp h1 in
theorem pow_lt_top : (2 : ℚ) ^ (k + φ.p) < 2 ^ (φ.emax + 1) := zpow_lt_zpow_right₀ (by norm_num) (by omega)

/-- One step of the filter does not overflow. -/
theorem step_is (fused : Bool) {va vx vw : FVal φ} {a x w : ℚ} (hva : Is va a) (hvx : Is vx x) (hvw : Is vw w)
    (ha : |a| ≤ 1) (hx : |x| ≤ 2 ^ k) (hw : |w| ≤ 2 ^ (k + φ.p)) :
    Is (dcNext fused va vx vw) (next φ fused a x w) := by
  obtain ⟨b1, b2⟩ := next_bound hp h1 fused ha hx hw
  have ht := pow_lt_top h2
  exact next_is fused hva hvx hvw (fun _ => b1.trans_lt ht) (b2.trans_lt ht)

theorem diff_is {vw vw' : FVal φ} {w w' : ℚ} (hvw : Is vw w) (hvw' : Is vw' w') (hw : |w| ≤ 2 ^ (k + φ.p))
    (hw' : |w'| ≤ 2 ^ (k + φ.p)) :
    Is (vw' - vw : FVal φ) (rd φ (w' - w)) ∧ |rd φ (w' - w)| ≤ 2 ^ (k + φ.p + 1) := by
  have hb : |rd φ (w' - w)| ≤ 2 ^ (k + φ.p + 1) := by
    refine abs_rd_le φ (by omega) (grid_pow φ (by omega) _ (by omega)) ?_
    rw [zpow_add_one₀ (by norm_num)]
    have := abs_sub w' w
    linarith
  exact ⟨vsub hvw' hvw (hb.trans_lt (zpow_lt_zpow_right₀ (by norm_num) (by omega))), hb⟩

/-- The states of a run. -/
theorem states (fused : ℕ → Bool) {va vw : FVal φ} {a w : ℚ} (hva : Is va a) (hvw : Is vw w) (ha : |a| ≤ 1)
    (hw : |w| ≤ 2 ^ (k + φ.p)) (x : ℕ → FVal φ) (n : ℕ) (hx : ∀ i < n, ∃ q, Is (x i) q ∧ |q| ≤ 2 ^ k) :
    ∃ q, Is (dcBy fused va vw x n) q ∧ |q| ≤ 2 ^ (k + φ.p) := by
  induction n with
  | zero => exact ⟨w, hvw, hw⟩
  | succ n ih =>
    obtain ⟨q, hq, hb⟩ := ih fun i hi => hx i (by omega)
    obtain ⟨r, hr, hc⟩ := hx n (by omega)
    exact ⟨_, step_is hp h1 h2 (fused n) hva hr hq ha hc hb, (next_bound hp h1 (fused n) ha hc hb).2⟩

omit hp h1 h2 in
/-- C91: the model in which each operation is rounded is the case where nothing is fused, for both methods. -/
theorem C91_plain (f : DC (FVal φ)) (m : ℕ → FVal φ) (input output : Slice) (x : FVal φ) :
    f.filter m input output = f.filterBy (fun _ => false) m input output ∧ f.filterOne x = f.filterOneBy false x :=
  ⟨rfl, rfl⟩

/-- C91 and C141, no overflow: with a coefficient of magnitude at most one and samples of magnitude at most `2^k`, the state
never exceeds `2^(k+p)` and the outputs never exceed `2^(k+p+1)`, however long the stream.  In particular nothing
becomes infinite or a NaN.  The state condition holds at rest and is preserved, so this covers any number of
calls. -/
theorem C91_bounded (fused : ℕ → Bool) (f : DC (FVal φ)) (ha : ∃ a, Is f.a a ∧ |a| ≤ 1) (hw : ∃ w, Is f.w w ∧ |w| ≤ 2 ^ (k + φ.p))
    (m : ℕ → FVal φ) (input output : Slice) (hio : OutputOk input output)
    (hx : ∀ i < input.len, ∃ q, Is (m (input.base + i)) q ∧ |q| ≤ 2 ^ k) :
    ∃ m' g, f.filterBy fused m input output = some (m', g) ∧ g.a = f.a ∧ (∃ w, Is g.w w ∧ |w| ≤ 2 ^ (k + φ.p)) ∧
      (∀ i < input.len, ∃ y, Is (m' (output.base + i)) y ∧ |y| ≤ 2 ^ (k + φ.p + 1)) ∧
      ∀ j, ¬ (output.base ≤ j ∧ j < output.base + input.len) → m' j = m j := by
  obtain ⟨a, hva, ha⟩ := ha
  obtain ⟨w, hvw, hw⟩ := hw
  have hs := fun n (hn : n ≤ input.len) => states hp h1 h2 fused hva hvw ha hw (fun i => m (input.base + i)) n
    fun i hi => hx i (by omega)
  refine ⟨_, _, DC.filterBy_eq fused f m input output hio, rfl, hs _ le_rfl, fun i hi => ?_, fun j hj => ?_⟩
  · obtain ⟨q, hq, hb⟩ := hs i hi.le
    obtain ⟨r, hr, hc⟩ := hs (i + 1) hi
    rw [fill_in hi]
    exact ⟨_, diff_is hp h1 h2 hq hr hb hc⟩
  · exact fill_out (by omega)

end

/-! ### A constant input -/

theorem int_stops (z : ℕ → ℤ) (B : ℤ) (hm : ∀ n, z n ≤ z (n + 1)) (hB : ∀ n, z n ≤ B) :
    ∃ n, z (n + 1) = z n := by
  by_contra hc
  rw [not_exists] at hc
  have hstep : ∀ n, z n + 1 ≤ z (n + 1) := fun n => by have := hm n; have := hc n; omega
  have hlin : ∀ n : ℕ, z 0 + n ≤ z n := by
    intro n
    induction n with
    | zero => simp
    | succ n ih => have := hstep n; push_cast; omega
  have := hlin (B - z 0 + 1).toNat
  have := hB (B - z 0 + 1).toNat
  have := hB 0
  omega

theorem orbit_stops {φ : Format} (hp : 1 ≤ φ.p) (g : ℚ → ℚ) (hg : Monotone g) (hgrid : ∀ w, Grid φ (g w))
    (B : ℚ) (w : ℕ → ℚ) (hw : ∀ n, w (n + 1) = g (w n)) (hB : ∀ n, |w n| ≤ B) :
    ∃ N, ∀ n, N ≤ n → w (n + 1) = w n := by
  have h0 : (0 : ℚ) < 2 ^ (φ.emin - (φ.p - 1)) := by positivity
  have hz : ∀ n, ∃ z : ℤ, w (n + 1) = z * 2 ^ (φ.emin - (φ.p - 1)) := fun n => grid_int (by rw [hw]; exact hgrid _)
  choose z hz using hz
  have hzle : ∀ m n, w (m + 1) ≤ w (n + 1) ↔ z m ≤ z n := by
    intro m n
    rw [hz, hz, mul_le_mul_iff_of_pos_right h0]
    exact Int.cast_le
  have fin : (∃ n, z (n + 1) = z n) → ∃ N, ∀ n, N ≤ n → w (n + 1) = w n := by
    rintro ⟨n, hn⟩
    refine ⟨n + 1, fun i hi => ?_⟩
    obtain ⟨d, rfl⟩ := Nat.exists_eq_add_of_le hi
    induction d with
    | zero =>
      show w (n + 1 + 1) = w (n + 1)
      rw [hz, hz, hn]
    | succ d ih =>
      have := ih (by omega)
      rw [show n + 1 + (d + 1) = n + 1 + d + 1 by ring, hw, this, ← hw, this]
  have hbd : ∀ n, |(z n : ℚ)| ≤ B / 2 ^ (φ.emin - (φ.p - 1)) := by
    intro n
    rw [le_div_iff₀ h0]
    have := hB (n + 1)
    rwa [hz, abs_mul, abs_of_pos h0] at this
  apply fin
  rcases le_total (w 0) (w 1) with h | h
  · have hm : ∀ n, w n ≤ w (n + 1) := by
      intro n
      induction n with
      | zero => exact h
      | succ n ih => rw [hw n, hw (n + 1)]; exact hg ih
    refine int_stops z ⌈B / 2 ^ (φ.emin - (φ.p - 1))⌉ (fun n => (hzle _ _).1 (hm _)) fun n => ?_
    have := (le_abs_self _).trans (hbd n)
    exact_mod_cast this.trans (Int.le_ceil _)
  · have hm : ∀ n, w (n + 1) ≤ w n := by
      intro n
      induction n with
      | zero => exact h
      | succ n ih => rw [hw n, hw (n + 1)]; exact hg ih
    obtain ⟨n, hn⟩ := int_stops (fun n => -z n) ⌈B / 2 ^ (φ.emin - (φ.p - 1))⌉
      (fun n => neg_le_neg ((hzle _ _).1 (hm _))) fun n => by
        have := (neg_le_abs _).trans (hbd n)
        exact_mod_cast this.trans (Int.le_ceil _)
    exact ⟨n, neg_injective hn⟩

theorem next_mono {φ : Format} (hp : 1 ≤ φ.p) (fused : Bool) {a : ℚ} (ha : 0 ≤ a) (x : ℚ) :
    Monotone (next φ fused a x) := by
  intro v w h
  unfold next
  have h0 := mul_le_mul_of_nonneg_left h ha
  have := rd_mono φ hp h0
  cases fused
  · exact rd_mono φ hp (by simp only [Bool.false_eq_true, if_false]; linarith)
  · exact rd_mono φ hp (by simp only [if_true]; linarith)

/-- C91 and C141, a constant is removed exactly: with a coefficient between zero and one and a constant input the output
becomes zero after finitely many samples and stays zero, despite the rounding, from every state within the bound of
`C91_bounded`, provided the product is fused at every sample or at none (as in compiled code, where one instruction
serves all samples). -/
theorem C91_settles {φ : Format} (hp : 2 ≤ φ.p) {k : ℤ} (h1 : φ.emin ≤ k + φ.p) (h2 : k + φ.p < φ.emax)
    (fused : Bool) (f : DC (FVal φ)) (ha : ∃ a, Is f.a a ∧ 0 ≤ a ∧ a ≤ 1) (hw : ∃ w, Is f.w w ∧ |w| ≤ 2 ^ (k + φ.p))
    (c : FVal φ) (hc : ∃ q, Is c q ∧ |q| ≤ 2 ^ k) :
    ∃ N, ∀ (m : ℕ → FVal φ) (input output : Slice), OutputOk input output →
      (∀ i < input.len, m (input.base + i) = c) →
      ∃ m' g, f.filterBy (fun _ => fused) m input output = some (m', g) ∧
        ∀ i < input.len, N ≤ i → Is (m' (output.base + i)) 0 := by
  obtain ⟨a, hva, ha0, ha1⟩ := ha
  obtain ⟨w, hvw, hw⟩ := hw
  obtain ⟨q, hvc, hq⟩ := hc
  have ha : |a| ≤ 1 := by rwa [abs_of_nonneg ha0]
  -- the states on an endless constant input
  let W : ℕ → ℚ := fun n => (next φ fused a q)^[n] w
  have hW : ∀ n, W (n + 1) = next φ fused a q (W n) := fun n => Function.iterate_succ_apply' _ _ _
  have hB : ∀ n, |W n| ≤ 2 ^ (k + φ.p) := by
    intro n
    induction n with
    | zero => exact hw
    | succ n ih => rw [hW]; exact (next_bound hp h1 fused ha hq ih).2
  obtain ⟨N, hN⟩ := orbit_stops (by omega) _ (next_mono (by omega) fused ha0 q)
    (fun w => grid_rd φ (by omega) _) _ W hW hB
  refine ⟨N, fun m input output hio hin => ?_⟩
  have hs : ∀ n ≤ input.len, Is (dcBy (fun _ => fused) f.a f.w (fun i => m (input.base + i)) n) (W n) := by
    intro n hn
    induction n with
    | zero => exact hvw
    | succ n ih =>
      rw [hW]
      refine step_is hp h1 h2 fused hva ?_ (ih (by omega)) ha hq (hB n)
      show Is (m (input.base + n)) q
      rw [hin n (by omega)]
      exact hvc
  refine ⟨_, _, DC.filterBy_eq (fun _ => fused) f m input output hio, fun i hi hNi => ?_⟩
  rw [fill_in hi]
  have := (diff_is hp h1 h2 (hs i hi.le) (hs (i + 1) hi) (hB i) (hB (i + 1))).1
  rwa [hN i hNi, sub_self, rd_zero] at this

/-! ### The error -/

/-- One step: the state stays within `1.1 b P` and its error within `3.24 u P`, where `b = 1 - |a|` and the samples
are within `b² P`. -/
theorem err_step {φ : Format} (fused : Bool) {a x w e u b P η : ℚ} (hu : u = 2 ^ (-(φ.p : ℤ))) (hη : η = 2 ^ (φ.emin - φ.p))
    (hb : b = 1 - |a|) (hub : 100 * u ≤ b) (hP : 0 < P) (hηP : η ≤ 1 / 100 * (u * (b ^ 2 * P)))
    (hx : |x| ≤ b ^ 2 * P) (hw : |w| ≤ 11 / 10 * (b * P)) (he : |w - e| ≤ 81 / 25 * (u * P)) :
    |rd φ (a * w)| ≤ 2 * (b * P) ∧ |next φ fused a x w| ≤ 11 / 10 * (b * P) ∧
      |next φ fused a x w - (x + a * e)| ≤ 81 / 25 * (u * P) := by
  have hu0 : 0 < u := by rw [hu]; positivity
  have hη0 : 0 < η := by rw [hη]; positivity
  have hb0 : 0 < b := by linarith
  have hb1 : b ≤ 1 := by rw [hb]; linarith [abs_nonneg a]
  have hu1 : u ≤ 1 / 100 := by linarith
  have ea : |a| = 1 - b := by rw [hb]; ring
  set t := a * w with ht
  have htb : |t| ≤ (1 - b) * (11 / 10 * (b * P)) := by
    rw [ht, abs_mul, ea]
    exact mul_le_mul_of_nonneg_left hw (by linarith)
  have h0 := rd_err φ t
  rw [← hu, ← hη] at h0
  have hut : 0 ≤ |t| * u := by positivity
  have h1 : |(if fused then t else rd φ t) - t| ≤ |t| * u + η := by
    cases fused
    · exact h0
    · rw [if_pos rfl, sub_self, abs_zero]; linarith
  set r := if fused then t else rd φ t with hr
  have h2 := rd_err φ (x + r)
  rw [← hu, ← hη] at h2
  have hn : next φ fused a x w = rd φ (x + r) := rfl
  rw [hn]
  set w' := rd φ (x + r) with hw'
  -- products
  have bP : 0 < b * P := by positivity
  have bbP : b ^ 2 * P ≤ b * P := by
    have := mul_le_mul_of_nonneg_right hb1 bP.le
    nlinarith
  have bbP0 : 0 < b ^ 2 * P := by positivity
  have ubbP : u * (b ^ 2 * P) ≤ 1 / 100 * (b ^ 2 * P) := mul_le_mul_of_nonneg_right hu1 bbP0.le
  have ubP : u * (b * P) ≤ 1 / 100 * (b ^ 2 * P) := by
    have := mul_le_mul_of_nonneg_right hub bP.le
    nlinarith
  have ubP0 : 0 < u * (b * P) := by positivity
  have uubP : u * (u * (b * P)) ≤ 1 / 100 * (u * (b * P)) := mul_le_mul_of_nonneg_right hu1 ubP0.le
  have hηb : η ≤ 1 / 10000 * (b ^ 2 * P) := by linarith
  have utb : |t| * u ≤ 11 / 10 * (u * (b * P)) := by
    have h3 : |t| ≤ 11 / 10 * (b * P) := by
      refine htb.trans ?_
      have : 0 < b * (11 / 10 * (b * P)) := by positivity
      linarith
    have := mul_le_mul_of_nonneg_right h3 hu0.le
    linarith
  have htb' : |t| ≤ 11 / 10 * (b * P) - 11 / 10 * (b ^ 2 * P) := by
    refine htb.trans (le_of_eq ?_)
    ring
  have rb : |r| ≤ |t| + (|t| * u + η) := by
    have := abs_add_le (r - t) t
    rw [sub_add_cancel] at this
    linarith
  have sb : |x + r| ≤ b ^ 2 * P + |r| := (abs_add_le _ _).trans (by linarith)
  have rb' : |r| ≤ 1112 / 1000 * (b * P) := by linarith
  have us : |x + r| * u ≤ u * (b ^ 2 * P) + 1112 / 1000 * (u * (b * P)) := by
    have := mul_le_mul_of_nonneg_right sb hu0.le
    have h4 := mul_le_mul_of_nonneg_right rb' hu0.le
    linarith
  refine ⟨?_, ?_, ?_⟩
  · have := abs_add_le (rd φ t - t) t
    rw [sub_add_cancel] at this
    linarith
  · have := abs_add_le (w' - (x + r)) (x + r)
    rw [sub_add_cancel] at this
    linarith
  · have e1 : w' - (x + a * e) = (w' - (x + r)) + (r - t) + a * (w - e) := by rw [ht]; ring
    have h5 : |a * (w - e)| ≤ (1 - b) * (81 / 25 * (u * P)) := by
      rw [abs_mul, ea]
      exact mul_le_mul_of_nonneg_left he (by linarith)
    have h6 := abs_add_three (w' - (x + r)) (r - t) (a * (w - e))
    rw [← e1] at h6
    have ubbP' : u * (b ^ 2 * P) ≤ u * (b * P) := mul_le_mul_of_nonneg_left bbP hu0.le
    have e2 : (1 - b) * (81 / 25 * (u * P)) = 81 / 25 * (u * P) - 81 / 25 * (u * (b * P)) := by ring
    rw [e2] at h5
    linarith

/-- C91 and C141, the error: from rest, with samples of magnitude at most `X` and the coefficient at least a hundred rounding
units away from `±1`, every output differs from that of the exact filter `y[n] = x[n] - x[n-1] + a y[n-1]` by at most
`9 u X / (1 - |a|)²`, with `u = 2^-p`, however long the stream and whatever is fused.  Missing for the full statement: coefficients closer
to `±1` (see `C91_violated_one`) and samples near the underflow threshold. -/
theorem C91_error_partial {φ : Format} (fused : ℕ → Bool) (va : FVal φ) (a X : ℚ) (hva : Is va a)
    (hb : 100 * 2 ^ (-(φ.p : ℤ)) ≤ 1 - |a|) (hX : 100 * 2 ^ φ.emin ≤ X) (hov : 4 * X / (1 - |a|) ≤ 2 ^ φ.emax)
    (m : ℕ → FVal φ) (input output : Slice) (hio : OutputOk input output) (x : ℕ → ℚ)
    (hx : ∀ i < input.len, Is (m (input.base + i)) (x i) ∧ |x i| ≤ X)
    (y : ℕ → ℚ) (hy0 : y 0 = x 0) (hy : ∀ n, y (n + 1) = x (n + 1) - x n + a * y n) :
    ∃ m' g, (newDC va).filterBy fused m input output = some (m', g) ∧
      ∀ i < input.len, ∃ z, Is (m' (output.base + i)) z ∧ |z - y i| ≤ 9 * 2 ^ (-(φ.p : ℤ)) * X / (1 - |a|) ^ 2 := by
  set u : ℚ := 2 ^ (-(φ.p : ℤ)) with hu
  set b := 1 - |a| with hbb
  set η : ℚ := 2 ^ (φ.emin - φ.p) with hη
  have hu0 : 0 < u := by rw [hu]; positivity
  have hη0 : 0 < η := by rw [hη]; positivity
  have hb0 : 0 < b := by linarith
  have hb1 : b ≤ 1 := by rw [hbb]; linarith [abs_nonneg a]
  have hX0 : 0 < X := lt_of_lt_of_le (by positivity) hX
  set P := X / b ^ 2 with hP
  have hP0 : 0 < P := by positivity
  have eX : X = b ^ 2 * P := by rw [hP]; field_simp
  have hηP : η ≤ 1 / 100 * (u * (b ^ 2 * P)) := by
    rw [← eX, hη, sub_eq_add_neg, zpow_add₀ (by norm_num), ← hu]
    have := mul_le_mul_of_nonneg_left hX hu0.le
    linarith
  have bP : 0 < b * P := by positivity
  have htop : 4 * (b * P) ≤ 2 ^ φ.emax := by
    refine le_trans (le_of_eq ?_) hov
    rw [hP]; field_simp
  have htop' : (2 : ℚ) ^ (φ.emax + 1) = 2 ^ φ.emax * 2 := zpow_add_one₀ (by norm_num) _
  rw [show 9 * u * X / b ^ 2 = 9 * (u * P) by rw [hP]; ring]
  have uP : 0 < u * P := by positivity
  have ubP : u * (b * P) ≤ u * P := by
    have := mul_le_mul_of_nonneg_right hb1 uP.le
    linarith
  -- states, computed and exact
  have hs : ∀ n ≤ input.len, ∃ w, Is (dcBy fused va 0 (fun i => m (input.base + i)) n) w ∧
      |w| ≤ 11 / 10 * (b * P) ∧ |w - dcW a 0 x n| ≤ 81 / 25 * (u * P) := by
    intro n hn
    induction n with
    | zero =>
      refine ⟨0, ⟨⟨false, 0, rfl, le_rfl⟩, rfl⟩, by rw [abs_zero]; positivity, ?_⟩
      show |(0 : ℚ) - 0| ≤ _
      rw [sub_zero, abs_zero]; positivity
    | succ n ih =>
      obtain ⟨w, hw, hwb, hwe⟩ := ih (by omega)
      obtain ⟨hvx, hxb⟩ := hx n (by omega)
      rw [eX] at hxb
      obtain ⟨s1, s2, s3⟩ := err_step (fused n) hu hη hbb hb hP0 hηP hxb hwb hwe
      refine ⟨next φ (fused n) a (x n) w, ?_, s2, s3⟩
      refine next_is (fused n) hva hvx hw (fun _ => ?_) ?_
      · linarith
      · refine s2.trans_lt ?_
        linarith
  have hyE : ∀ n, y n = dcW a 0 x (n + 1) - dcW a 0 x n := by
    intro n
    induction n with
    | zero => rw [hy0]; simp [dcW]
    | succ n ih => rw [hy, ih]; simp only [dcW]; ring
  refine ⟨_, _, DC.filterBy_eq fused _ m input output hio, fun i hi => ?_⟩
  rw [fill_in hi]
  obtain ⟨w, hw, hwb, hwe⟩ := hs i hi.le
  obtain ⟨w', hw', hwb', hwe'⟩ := hs (i + 1) hi
  have herr := rd_err φ (w' - w)
  rw [← hu, ← hη] at herr
  have hd : |w' - w| ≤ 22 / 10 * (b * P) := (abs_sub w' w).trans (by linarith)
  have hdu := mul_le_mul_of_nonneg_right hd hu0.le
  have ubbP : u * (b ^ 2 * P) ≤ u * P := by
    have h3 : b ^ 2 ≤ 1 := by nlinarith
    have := mul_le_mul_of_nonneg_right h3 uP.le
    linarith
  have hη1 : η ≤ 1 / 100 * (u * P) := by linarith
  have hrd : |rd φ (w' - w)| ≤ 3 * (b * P) := by
    have h3 := abs_add_le (rd φ (w' - w) - (w' - w)) (w' - w)
    rw [sub_add_cancel] at h3
    have h4 : 100 * u * (b * P) ≤ b * P := by
      have := mul_le_mul_of_nonneg_right (hb.trans hb1) bP.le
      linarith
    have h5 : u * (b ^ 2 * P) ≤ u * (b * P) := by
      have := mul_le_mul_of_nonneg_left (mul_le_mul_of_nonneg_right hb1 bP.le) hu0.le
      linarith
    linarith
  refine ⟨rd φ (w' - w), vsub hw' hw (hrd.trans_lt (by linarith)), ?_⟩
  rw [hyE, show rd φ (w' - w) - (dcW a 0 x (i + 1) - dcW a 0 x i) =
    (rd φ (w' - w) - (w' - w)) + (w' - dcW a 0 x (i + 1)) + -(w - dcW a 0 x i) by ring]
  refine (abs_add_three _ _ _).trans ?_
  rw [abs_neg]
  linarith

/-! ### What fails -/

/-- C91 fails for a coefficient of one: on the constant one the exact filter passes its input, `1, 1, 1, …`, but the
computed output is one for the first `2^p` samples only and zero from then on, whatever is fused. -/
theorem C91_violated_one {φ : Format} (fused : ℕ → Bool) (hp : 2 ≤ φ.p) (h1 : φ.emin ≤ 0) (h2 : φ.p < φ.emax)
    (m : ℕ → FVal φ) (input output : Slice) (hio : OutputOk input output)
    (hx : ∀ i < input.len, m (input.base + i) = Val.fin false 1) :
    ∃ m' g, (newDC (F := FVal φ) (Val.fin false 1)).filterBy fused m input output = some (m', g) ∧
      ∀ i < input.len, Is (m' (output.base + i)) (if i < 2 ^ φ.p then 1 else 0) := by
  have k1 : φ.emin ≤ 0 + φ.p := by omega
  have k2 : 0 + (φ.p : ℤ) < φ.emax := by omega
  have one : Is (Val.fin false 1) 1 := ⟨⟨false, 1, rfl, zero_le_one⟩, rfl⟩
  have top : (2 : ℚ) ^ ((0 : ℤ) + φ.p) = ((2 ^ φ.p : ℕ) : ℚ) := by rw [zero_add, zpow_natCast]; push_cast; rfl
  have hb : ∀ n, |((min n (2 ^ φ.p) : ℕ) : ℚ)| ≤ 2 ^ ((0 : ℤ) + φ.p) := by
    intro n
    rw [top, Nat.abs_cast]
    exact_mod_cast min_le_right _ _
  have gridn : ∀ n ≤ 2 ^ φ.p, Grid φ ((n : ℕ) : ℚ) := by
    intro n hn
    rcases hn.eq_or_lt with h | h
    · rw [h, ← top]; exact grid_pow φ (by omega) _ (by omega)
    · exact ⟨n, 0, h, by omega, by simp⟩
  have hs : ∀ n ≤ input.len, Is (dcBy fused (Val.fin false 1 : FVal φ) 0 (fun i => m (input.base + i)) n)
      ((min n (2 ^ φ.p) : ℕ) : ℚ) := by
    intro n hn
    induction n with
    | zero => exact ⟨⟨false, 0, rfl, le_rfl⟩, by simp [dcW]; rfl⟩
    | succ n ih =>
      have hvx : Is (m (input.base + n)) 1 := by rw [hx n (by omega)]; exact one
      have := step_is hp k1 k2 (fused n) (va := (Val.fin false 1 : FVal φ)) one hvx (ih (by omega)) (by norm_num) (by norm_num)
        (hb n)
      have e : next φ (fused n) 1 1 ((min n (2 ^ φ.p) : ℕ) : ℚ) = ((min (n + 1) (2 ^ φ.p) : ℕ) : ℚ) := by
        unfold next
        rw [one_mul, rd_grid φ (by omega) (gridn _ (min_le_right _ _)), ite_self]
        rcases Nat.lt_or_ge n (2 ^ φ.p) with h | h
        · rw [min_eq_left h.le, min_eq_left (by omega), add_comm]
          have := rd_grid φ (by omega) (gridn (n + 1) h)
          push_cast at this ⊢
          exact this
        · rw [min_eq_right h, min_eq_right (by omega), ← top]
          have := rd_absorb φ hp 0 k1
          rwa [zpow_zero] at this
      rw [e] at this
      exact this
  refine ⟨_, _, DC.filterBy_eq fused _ m input output hio, fun i hi => ?_⟩
  rw [fill_in hi]
  have := (diff_is hp k1 k2 (hs i hi.le) (hs (i + 1) hi) (hb i) (hb (i + 1))).1
  have e : rd φ (((min (i + 1) (2 ^ φ.p) : ℕ) : ℚ) - ((min i (2 ^ φ.p) : ℕ) : ℚ)) = if i < 2 ^ φ.p then 1 else 0 := by
    split
    · rename_i h
      rw [min_eq_left h.le, min_eq_left (by omega)]
      have := rd_grid φ (by omega) (gridn 1 Nat.one_le_two_pow)
      push_cast at this ⊢
      rw [add_sub_cancel_left]
      exact this
    · rename_i h
      rw [min_eq_right (by omega), min_eq_right (by omega), sub_self, rd_zero]
  rw [e] at this
  exact this

theorem rd_three_quarters (φ : Format) (hp : 1 ≤ φ.p) :
    rd φ (3 / 4 * 2 ^ (φ.emin - (φ.p - 1))) = 2 ^ (φ.emin - ((φ.p : ℤ) - 1)) := by
  have h0 : (0 : ℚ) < 2 ^ (φ.emin - ((φ.p : ℤ) - 1)) := by positivity
  have hq : (0 : ℚ) < 3 / 4 * 2 ^ (φ.emin - ((φ.p : ℤ) - 1)) := by positivity
  have hlog : Int.log 2 ((3 / 4 : ℚ) * 2 ^ (φ.emin - ((φ.p : ℤ) - 1))) ≤ φ.emin := by
    rw [← Int.lt_add_one_iff, ← Int.lt_zpow_iff_log_lt (by norm_num) hq]
    push_cast
    have : (2 : ℚ) ^ (φ.emin - ((φ.p : ℤ) - 1)) ≤ 2 ^ (φ.emin + 1) := zpow_le_zpow_right₀ (by norm_num) (by omega)
    linarith
  have hu : ulp φ (3 / 4 * 2 ^ (φ.emin - ((φ.p : ℤ) - 1))) = 2 ^ (φ.emin - ((φ.p : ℤ) - 1)) := by
    unfold ulp; rw [max_eq_right hlog]
  rw [rd_pos φ hq, hu, mul_div_assoc, div_self h0.ne', mul_one, show roundEven (3 / 4) = 1 by decide +kernel]
  simp

theorem rd_sign (φ : Format) (n : ℕ) (x : ℚ) : rd φ ((-1) ^ n * x) = (-1) ^ n * rd φ x := by
  rcases neg_one_pow_eq_or ℚ n with h | h <;> simp [h, rd_neg]

/-- C91, settling fails for negative coefficients: with the coefficient `-3/4`, the least positive sample followed by
zeros leaves an output of twice the least positive magnitude, with changing sign, for ever, where that of the exact
filter dies away, whatever is fused. -/
theorem C91_violated_cycle {φ : Format} (fused : ℕ → Bool) (hp : 2 ≤ φ.p) (h2 : φ.emin + 1 < φ.emax)
    (m : ℕ → FVal φ) (input output : Slice) (hio : OutputOk input output) (x : ℕ → ℚ)
    (hx : ∀ i, x i = if i = 0 then 2 ^ (φ.emin - ((φ.p : ℤ) - 1)) else 0)
    (hm : ∀ i < input.len, m (input.base + i) = Val.fin false (x i))
    (y : ℕ → ℚ) (hy0 : y 0 = x 0) (hy : ∀ n, y (n + 1) = x (n + 1) - x n + -(3 / 4) * y n) :
    ∃ m' g, (newDC (F := FVal φ) (Val.fin true (3 / 4))).filterBy fused m input output = some (m', g) ∧
      (∀ i < input.len, 0 < i →
        Is (m' (output.base + i)) ((-1) ^ i * (2 * 2 ^ (φ.emin - ((φ.p : ℤ) - 1))))) ∧
      ∀ i, |y (i + 1)| ≤ (3 / 4) ^ i * (2 * 2 ^ (φ.emin - ((φ.p : ℤ) - 1))) := by
  set η : ℚ := 2 ^ (φ.emin - ((φ.p : ℤ) - 1)) with hη
  have hη0 : 0 < η := by rw [hη]; positivity
  have gη : Grid φ η := grid_pow φ (by omega) _ le_rfl
  have k1 : φ.emin ≤ (φ.emin - ((φ.p : ℤ) - 1)) + φ.p := by omega
  have k2 : (φ.emin - ((φ.p : ℤ) - 1)) + (φ.p : ℤ) < φ.emax := by omega
  have ek : φ.emin - ((φ.p : ℤ) - 1) + φ.p = φ.emin + 1 := by ring
  have hηt : η ≤ 2 ^ (φ.emin - ((φ.p : ℤ) - 1) + φ.p) := by
    rw [hη]; exact zpow_le_zpow_right₀ (by norm_num) (by omega)
  have hva : Is (Val.fin true (3 / 4)) (-(3 / 4)) := ⟨⟨true, 3 / 4, rfl, by norm_num⟩, by simp [Val.toRat]⟩
  have hx0 : ∀ i, 0 ≤ x i ∧ x i ≤ η := fun i => by rw [hx]; split <;> constructor <;> linarith
  -- the states
  let S : ℕ → ℚ := fun n => if n = 0 then 0 else (-1) ^ (n - 1) * η
  have hS : ∀ b n, next φ b (-(3 / 4)) (x n) (S n) = S (n + 1) := by
    intro b n
    unfold next
    rcases n with _ | n
    · simp only [S, hx, if_true, mul_zero, rd_zero, add_zero, ite_self]
      rw [rd_grid φ (by omega) gη]
      simp
    · have e : (-(3 / 4) : ℚ) * S (n + 1) = (-1) ^ (n + 1) * (3 / 4 * η) := by
        simp only [S, Nat.add_sub_cancel, if_neg (Nat.succ_ne_zero n)]; ring
      rw [hx, if_neg (Nat.succ_ne_zero n), zero_add, e]
      cases b
      · rw [if_neg (by simp), rd_sign, rd_three_quarters φ (by omega), ← hη, rd_sign, rd_grid φ (by omega) gη]
        simp [S]
      · rw [if_pos rfl, rd_sign, rd_three_quarters φ (by omega), ← hη]
        simp [S]
  have hSb : ∀ n, |S n| ≤ 2 ^ (φ.emin - ((φ.p : ℤ) - 1) + φ.p) := by
    intro n
    simp only [S]
    split
    · rw [abs_zero]; positivity
    · rw [abs_mul, abs_pow, abs_neg, abs_one, one_pow, one_mul, abs_of_pos hη0]; exact hηt
  have hs : ∀ n ≤ input.len, Is (dcBy (φ := φ) fused (Val.fin true (3 / 4)) 0 (fun i => m (input.base + i)) n) (S n) := by
    intro n hn
    induction n with
    | zero => exact ⟨⟨false, 0, rfl, le_rfl⟩, rfl⟩
    | succ n ih =>
      rw [← hS (fused n)]
      have hvx : Is (m (input.base + n)) (x n) := by
        rw [hm n (by omega)]; exact ⟨⟨false, _, rfl, (hx0 n).1⟩, rfl⟩
      refine step_is hp k1 k2 (fused n) (va := (Val.fin true (3 / 4) : FVal φ)) hva hvx (ih (by omega)) ?_ ?_ (hSb n)
      · rw [abs_neg]; norm_num [abs_of_pos]
      · rw [abs_of_nonneg (hx0 n).1]; exact (hx0 n).2
  refine ⟨_, _, DC.filterBy_eq fused _ m input output hio, fun i hi h0 => ?_, fun i => ?_⟩
  · rw [fill_in hi]
    have := (diff_is hp k1 k2 (hs i hi.le) (hs (i + 1) hi) (hSb i) (hSb (i + 1))).1
    have e : rd φ (S (i + 1) - S i) = (-1) ^ i * (2 * η) := by
      obtain ⟨j, rfl⟩ : ∃ j, i = j + 1 := ⟨i - 1, by omega⟩
      have e1 : S (j + 1 + 1) - S (j + 1) = (-1) ^ (j + 1) * (2 * η) := by
        simp only [S, Nat.add_sub_cancel, if_neg (Nat.succ_ne_zero _)]; ring
      have e2 : 2 * η = 2 ^ (φ.emin - ((φ.p : ℤ) - 1) + 1) := by rw [zpow_add_one₀ (by norm_num), hη]; ring
      rw [e1, rd_sign, e2, rd_grid φ (by omega) (grid_pow φ (by omega) _ (by omega))]
    rw [e] at this
    exact this
  · have h1 : ∀ i, y (i + 1) = (-(3 / 4)) ^ i * (-(7 / 4) * η) := by
      intro i
      induction i with
      | zero => rw [hy, hy0, hx, hx]; simp; ring
      | succ i ih => rw [hy, ih, hx, hx]; simp; ring
    rw [h1, abs_mul, abs_pow, abs_mul, abs_of_pos hη0, abs_neg, abs_neg, abs_of_pos (by norm_num : (0 : ℚ) < 3 / 4),
      abs_of_pos (by norm_num : (0 : ℚ) < 7 / 4)]
    exact mul_le_mul_of_nonneg_left (by linarith) (by positivity)

/-! ### Examples of the hypotheses -/

/-- A coefficient of 0.99 with samples up to one, in both formats: nothing overflows. -/
example : binary32.emin ≤ (0 : ℤ) + binary32.p ∧ (0 : ℤ) + binary32.p < binary32.emax ∧
    binary64.emin ≤ (0 : ℤ) + binary64.p ∧ (0 : ℤ) + binary64.p < binary64.emax := by decide

example : ∃ f : DC (FVal binary32), (∃ a, Is f.a a ∧ 0 ≤ a ∧ a ≤ 1) ∧
    (∃ w, Is f.w w ∧ |w| ≤ 2 ^ ((0 : ℤ) + binary32.p)) ∧ ∃ q, Is (Val.fin false (1 / 2)) q ∧ |q| ≤ 2 ^ (0 : ℤ) :=
  ⟨⟨Val.fin false (1013 / 1024), Val.fin true 3⟩, ⟨1013 / 1024, ⟨⟨_, _, rfl, by norm_num⟩, rfl⟩, by norm_num⟩,
    ⟨-3, ⟨⟨_, _, rfl, by norm_num⟩, rfl⟩, by rw [abs_neg, abs_of_pos (by norm_num)]; norm_num [binary32]⟩,
    ⟨1 / 2, ⟨⟨_, _, rfl, by norm_num⟩, rfl⟩, by rw [abs_of_pos (by norm_num)]; norm_num⟩⟩

/-- The conditions of `C91_error_partial` in single precision, with a coefficient of 1013/1024. -/
example : 100 * (2 : ℚ) ^ (-(binary32.p : ℤ)) ≤ 1 - |(1013 / 1024 : ℚ)| ∧ 100 * (2 : ℚ) ^ binary32.emin ≤ 1 ∧
    4 * (1 : ℚ) / (1 - |(1013 / 1024 : ℚ)|) ≤ 2 ^ binary32.emax := by
  rw [abs_of_pos (by norm_num)]
  norm_num [binary32]

/-- The conditions of the counterexamples. -/
example : 2 ≤ binary32.p ∧ binary32.emin ≤ 0 ∧ (binary32.p : ℤ) < binary32.emax ∧ 2 ≤ binary64.p ∧
    binary64.emin ≤ 0 ∧ (binary64.p : ℤ) < binary64.emax := by decide

end Verif.Filt
