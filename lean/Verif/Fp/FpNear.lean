import Verif.Fp.FpRd

/-!
# Accumulation of rounding errors

`Near φ v x t k`: the datum `v` is finite and differs from `x` by at most `((1+u)^k - 1) t`, where `u` is the rounding
unit of the format; `t` bounds the magnitude of `x`, with some room for underflow.
-/

namespace Verif.Fp

/-- Rounding unit. -/
def unit (φ : Format) : ℚ := 2 ^ (-(φ.p : ℤ))
/-- Least normal magnitude. -/
def tiny (φ : Format) : ℚ := 2 ^ φ.emin

theorem unit_pos (φ : Format) : 0 < unit φ := by unfold unit; positivity
theorem tiny_pos (φ : Format) : 0 < tiny φ := by unfold tiny; positivity

def Near (φ : Format) (v : Val) (x t : ℚ) (k : ℕ) : Prop := Finite v ∧ |v.toRat - x| ≤ ((1 + unit φ) ^ k - 1) * t

theorem one_le_pow_unit (φ : Format) (k : ℕ) : 1 ≤ (1 + unit φ) ^ k :=
  one_le_pow₀ (by linarith [unit_pos φ])

theorem pow_unit_mono (φ : Format) {k l : ℕ} (h : k ≤ l) : (1 + unit φ) ^ k ≤ (1 + unit φ) ^ l :=
  pow_le_pow_right₀ (by linarith [unit_pos φ]) h

/-- `(1+u)^k - 1` is at most `2 k u`. -/
theorem pow_unit_le {u : ℚ} (hu : 0 ≤ u) (k : ℕ) (h : k * u ≤ 1 / 2) : (1 + u) ^ k ≤ 1 + 2 * (k * u) := by
  have key : ∀ k : ℕ, (1 + u) ^ k * (1 - k * u) ≤ 1 := by
    intro k
    induction k with
    | zero => simp
    | succ k ih =>
      have hp : 0 ≤ (1 + u) ^ k := by positivity
      have e : (1 + u) ^ (k + 1) * (1 - ((k + 1 : ℕ) : ℚ) * u) =
          (1 + u) ^ k * (1 - k * u) - (1 + u) ^ k * ((k + 1) * u ^ 2) := by
        push_cast; ring
      rw [e]
      have : 0 ≤ (1 + u) ^ k * ((k + 1) * u ^ 2) := by positivity
      linarith
  have h1 := key k
  set s := (k : ℚ) * u with hs
  have hs0 : 0 ≤ s := by positivity
  have hp : 0 ≤ (1 + u) ^ k := by positivity
  by_contra hc
  rw [not_le] at hc
  have := mul_lt_mul_of_pos_right hc (show 0 < 1 - s by linarith)
  nlinarith

theorem Near.weaken {φ : Format} {v : Val} {x t s : ℚ} {k l : ℕ} (h : Near φ v x t k) (hk : k ≤ l) (ht : t ≤ s)
    (ht0 : 0 ≤ t) : Near φ v x s l := by
  refine ⟨h.1, h.2.trans ?_⟩
  have := pow_unit_mono φ hk
  have := one_le_pow_unit φ k
  exact mul_le_mul (by linarith) ht ht0 (by linarith)

theorem near_of_is {φ : Format} {v : Val} {x : ℚ} (h : Is v x) (t : ℚ) : Near φ v x t 0 :=
  ⟨h.1, by rw [h.2]; simp⟩

theorem Near.bound {φ : Format} {v : Val} {x t : ℚ} {k : ℕ} (h : Near φ v x t k) (hx : |x| ≤ t) :
    |v.toRat| ≤ (1 + unit φ) ^ k * t := by
  have := abs_add_le (v.toRat - x) x
  rw [sub_add_cancel] at this
  have := h.2
  linarith

theorem rd_near {φ : Format} {z x t : ℚ} {k : ℕ} (h : |z - x| ≤ ((1 + unit φ) ^ k - 1) * t) (ht : |x| + tiny φ ≤ t) :
    |rd φ z - x| ≤ ((1 + unit φ) ^ (k + 1) - 1) * t ∧ |rd φ z| ≤ (1 + unit φ) ^ (k + 1) * t := by
  have h1 := rd_err φ z
  have e : (2 : ℚ) ^ (φ.emin - φ.p) = unit φ * tiny φ := by
    unfold unit tiny
    rw [← zpow_add₀ (by norm_num)]
    congr 1; ring
  have e' : (2 : ℚ) ^ (-(φ.p : ℤ)) = unit φ := rfl
  rw [e, e'] at h1
  have hu := unit_pos φ
  have h2 : |z| ≤ |x| + |z - x| := by
    have := abs_add_le (z - x) x
    rw [sub_add_cancel] at this
    linarith
  have h3 : unit φ * (|z| + tiny φ) ≤ unit φ * ((1 + unit φ) ^ k * t) :=
    mul_le_mul_of_nonneg_left (by linarith) hu.le
  have h4 := abs_add_le (rd φ z - z) (z - x)
  rw [sub_add_sub_cancel] at h4
  have h5 : |rd φ z - x| ≤ ((1 + unit φ) ^ (k + 1) - 1) * t := by
    rw [pow_succ]
    linarith
  refine ⟨h5, ?_⟩
  have := abs_add_le (rd φ z - x) x
  rw [sub_add_cancel] at this
  have := tiny_pos φ
  linarith

theorem top_lt {φ : Format} {a T : ℚ} {k : ℕ} (h : a ≤ (1 + unit φ) ^ k * T) (hk : (1 + unit φ) ^ k ≤ 2) (hT0 : 0 ≤ T)
    (hT : T < 2 ^ φ.emax) : a < 2 ^ (φ.emax + 1) := by
  rw [zpow_add_one₀ (by norm_num)]
  have := mul_le_mul_of_nonneg_right hk hT0
  linarith

theorem near_add {φ : Format} {v w : Val} {x y t s : ℚ} {k : ℕ} (hv : Near φ v x t k) (hw : Near φ w y s k)
    (ht : |x| + |y| + tiny φ ≤ t + s) (hk : (1 + unit φ) ^ (k + 1) ≤ 2) (htop : t + s < 2 ^ φ.emax) :
    Near φ (add φ v w) (x + y) (t + s) (k + 1) := by
  have hz : |v.toRat + w.toRat - (x + y)| ≤ ((1 + unit φ) ^ k - 1) * (t + s) := by
    rw [add_sub_add_comm, mul_add]
    exact (abs_add_le _ _).trans (add_le_add hv.2 hw.2)
  have hxy := abs_add_le x y
  obtain ⟨h1, h2⟩ := rd_near hz (by linarith)
  have h0 : 0 ≤ t + s := by linarith [abs_nonneg x, abs_nonneg y, tiny_pos φ]
  have := add_rd φ ⟨hv.1, rfl⟩ ⟨hw.1, rfl⟩ (top_lt h2 hk h0 htop)
  exact ⟨this.1, by rw [this.2]; exact h1⟩

theorem near_sub {φ : Format} {v w : Val} {x y t s : ℚ} {k : ℕ} (hv : Near φ v x t k) (hw : Near φ w y s k)
    (ht : |x| + |y| + tiny φ ≤ t + s) (hk : (1 + unit φ) ^ (k + 1) ≤ 2) (htop : t + s < 2 ^ φ.emax) :
    Near φ (sub φ v w) (x - y) (t + s) (k + 1) := by
  have hw' : Near φ (neg w) (-y) s k := by
    have := is_neg (v := w) ⟨hw.1, rfl⟩
    refine ⟨this.1, ?_⟩
    rw [this.2, ← abs_neg]
    convert hw.2 using 2
    ring
  have := near_add hv hw' (by rwa [abs_neg]) hk htop
  rwa [← sub_eq_add_neg] at this

theorem near_mul {φ : Format} {v w : Val} {x y t s : ℚ} {k l : ℕ} (hv : Near φ v x t k) (hw : Near φ w y s l)
    (hx : |x| ≤ t) (hy : |y| ≤ s) (hk : (1 + unit φ) ^ (k + l + 1) ≤ 2) (htop : t * s + tiny φ < 2 ^ φ.emax) :
    Near φ (mul φ v w) (x * y) (t * s + tiny φ) (k + l + 1) := by
  have ht0 := (abs_nonneg x).trans hx
  have hs0 := (abs_nonneg y).trans hy
  have hω := tiny_pos φ
  have hz : |v.toRat * w.toRat - x * y| ≤ ((1 + unit φ) ^ (k + l) - 1) * (t * s + tiny φ) := by
    have e : v.toRat * w.toRat - x * y = (v.toRat - x) * w.toRat + x * (w.toRat - y) := by ring
    rw [e]
    refine (abs_add_le _ _).trans ?_
    rw [abs_mul, abs_mul]
    have h1 : |v.toRat - x| * |w.toRat| ≤ (((1 + unit φ) ^ k - 1) * t) * ((1 + unit φ) ^ l * s) :=
      mul_le_mul hv.2 (hw.bound hy) (abs_nonneg _) ((abs_nonneg _).trans hv.2)
    have h2 : |x| * |w.toRat - y| ≤ t * (((1 + unit φ) ^ l - 1) * s) := mul_le_mul hx hw.2 (abs_nonneg _) ht0
    have h3 := one_le_pow_unit φ (k + l)
    have h4 : 0 ≤ ((1 + unit φ) ^ (k + l) - 1) * tiny φ := mul_nonneg (by linarith) hω.le
    rw [pow_add] at h4 ⊢
    nlinarith
  have hxy : |x * y| + tiny φ ≤ t * s + tiny φ := by
    rw [abs_mul]
    have := mul_le_mul hx hy (abs_nonneg _) ht0
    linarith
  obtain ⟨h1, h2⟩ := rd_near hz hxy
  have := mul_rd φ ⟨hv.1, rfl⟩ ⟨hw.1, rfl⟩ (top_lt h2 hk (by positivity) htop)
  exact ⟨this.1, by rw [this.2]; exact h1⟩

theorem div_rd (φ : Format) {v w : Val} {x y : ℚ} (hv : Is v x) (hw : Is w y) (h0 : y ≠ 0)
    (h : |rd φ (x / y)| < 2 ^ (φ.emax + 1)) : Is (div φ v w) (rd φ (x / y)) := by
  obtain ⟨⟨s, q, rfl, hq⟩, hx⟩ := hv
  obtain ⟨⟨t, r, rfl, hr⟩, hy⟩ := hw
  have hr0 : r ≠ 0 := by
    rintro rfl
    apply h0
    rw [← hy]
    simp [Val.toRat]
  show Is (if r = 0 then if q = 0 then Val.nan else .inf (s != t) else round φ (s != t) (q / r)) _
  rw [if_neg hr0]
  have hqr : 0 ≤ q / r := div_nonneg hq hr
  have e : x / y = if (s != t) then -(q / r) else q / r := by
    rw [← hx, ← hy]
    cases s <;> cases t <;> simp [Val.toRat, neg_div, div_neg]
  have habs : |x / y| = q / r := by
    rw [e]; split
    · rw [abs_neg, abs_of_nonneg hqr]
    · rw [abs_of_nonneg hqr]
  rw [abs_rd, habs] at h
  rw [round_rd φ _ hqr h]
  refine ⟨⟨_, _, rfl, rd_nonneg φ hqr⟩, ?_⟩
  rw [e]
  simp only [Val.toRat]
  split
  · rw [rd_neg]
  · rfl

theorem near_div {φ : Format} {v w : Val} {x y : ℚ} (hv : Is v x) (hw : Is w y) (h0 : y ≠ 0)
    (hk : 1 + unit φ ≤ 2) (htop : |x / y| + tiny φ < 2 ^ φ.emax) :
    Near φ (div φ v w) (x / y) (|x / y| + tiny φ) 1 := by
  obtain ⟨h1, h2⟩ := rd_near (φ := φ) (z := x / y) (x := x / y) (t := |x / y| + tiny φ) (k := 0) (by simp) le_rfl
  have hω := tiny_pos φ
  have := div_rd φ hv hw h0 (top_lt h2 (by simpa using hk) (by positivity) htop)
  exact ⟨this.1, by rw [this.2]; exact h1⟩

instance (φ : Format) : Div (FVal φ) := ⟨fun a b => Fp.div φ a b⟩

end Verif.Fp
