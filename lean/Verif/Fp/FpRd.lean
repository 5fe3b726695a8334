import Verif.Fp.FpErr
import Mathlib.Algebra.Order.Archimedean.Basic

/-!
# Rounding as a function on the rationals

`rd φ x` is the value that the operations of the format `φ` deliver for the exact result `x`, before the test for
overflow.  It is a nearest point of the set `Grid φ` of numbers with at most `p` significant bits and exponents
not below the least one, hence monotone, odd, and the identity on that set.
-/

namespace Verif.Fp

/-- Numbers with at most `p` significant bits and exponents from the least one of the format on. -/
def Grid (φ : Format) (x : ℚ) : Prop :=
  ∃ (m : ℕ) (e : ℤ), m < 2 ^ φ.p ∧ φ.emin - (φ.p - 1) ≤ e ∧ |x| = m * (2 : ℚ) ^ e

/-- The rounded value, before the test for overflow. -/
def rd (φ : Format) (x : ℚ) : ℚ :=
  if x = 0 then 0 else
    (if x < 0 then -1 else 1) * ((roundEven (|x| / ulp φ |x|) : ℚ) * ulp φ |x|)

theorem rd_zero (φ : Format) : rd φ 0 = 0 := if_pos rfl

theorem rd_pos (φ : Format) {x : ℚ} (h : 0 < x) : rd φ x = (roundEven (x / ulp φ x) : ℚ) * ulp φ x := by
  unfold rd
  rw [if_neg h.ne', if_neg h.le.not_gt, abs_of_pos h, one_mul]

theorem rd_neg (φ : Format) (x : ℚ) : rd φ (-x) = -rd φ x := by
  unfold rd
  rcases lt_trichotomy x 0 with h | h | h
  · rw [if_neg (neg_ne_zero.2 h.ne), if_neg h.ne, if_neg (not_lt.2 (neg_pos.2 h).le), if_pos h, abs_neg]
    ring
  · subst h; simp
  · rw [if_neg (neg_ne_zero.2 h.ne'), if_neg h.ne', if_pos (neg_neg_iff_pos.2 h), if_neg h.le.not_gt, abs_neg]
    ring

theorem rd_nonneg (φ : Format) {x : ℚ} (h : 0 ≤ x) : 0 ≤ rd φ x := by
  rcases h.eq_or_lt with h | h
  · rw [← h, rd_zero]
  · rw [rd_pos φ h]
    have hu := ulp_pos φ x
    have := roundEven_nonneg (x / ulp φ x) (by positivity)
    have : (0 : ℚ) ≤ roundEven (x / ulp φ x) := by exact_mod_cast this
    positivity

theorem abs_rd (φ : Format) (x : ℚ) : |rd φ x| = rd φ |x| := by
  rcases le_total 0 x with h | h
  · rw [abs_of_nonneg h, abs_of_nonneg (rd_nonneg φ h)]
  · rw [abs_of_nonpos h, rd_neg]
    have := rd_nonneg φ (neg_nonneg.2 h)
    rw [rd_neg] at this
    exact abs_of_nonpos (by linarith)

theorem grid_neg {φ : Format} {x : ℚ} (h : Grid φ x) : Grid φ (-x) := by
  obtain ⟨m, e, h1, h2, h3⟩ := h
  exact ⟨m, e, h1, h2, by rw [abs_neg, h3]⟩

theorem grid_zero (φ : Format) : Grid φ 0 := ⟨0, φ.emin - (φ.p - 1), by positivity, le_refl _, by simp⟩

theorem grid_pow (φ : Format) (hp : 1 ≤ φ.p) (k : ℤ) (hk : φ.emin - (φ.p - 1) ≤ k) : Grid φ ((2 : ℚ) ^ k) :=
  ⟨1, k, Nat.one_lt_two_pow (by omega), hk, by rw [abs_of_pos (by positivity)]; simp⟩

theorem nearest_pos (φ : Format) (hp : 1 ≤ φ.p) {x : ℚ} (hx : 0 < x) {g : ℚ} (hg : Grid φ g) (hg0 : 0 ≤ g) :
    |x - rd φ x| ≤ |x - g| := by
  obtain ⟨m, e, h1, h2, h3⟩ := hg
  rw [abs_of_nonneg hg0] at h3
  -- the spacing does not depend on the greatest exponent
  have := (round_nearest ⟨φ.p, φ.emin, e + (φ.p - 1)⟩ hp x hx g ⟨m, e, h1, h2, by simp, h3⟩).1
  rw [rd_pos φ hx]
  exact this

/-- No number with at most `p` bits is nearer than the rounded one. -/
theorem rd_nearest (φ : Format) (hp : 1 ≤ φ.p) (x : ℚ) {g : ℚ} (hg : Grid φ g) : |x - rd φ x| ≤ |x - g| := by
  have pos : ∀ x : ℚ, 0 < x → ∀ g, Grid φ g → |x - rd φ x| ≤ |x - g| := by
    intro x hx g hg
    rcases le_total 0 g with h | h
    · exact nearest_pos φ hp hx hg h
    · refine (nearest_pos φ hp hx (grid_zero φ) le_rfl).trans ?_
      rw [sub_zero, abs_of_pos hx, abs_of_nonneg (by linarith : (0 : ℚ) ≤ x - g)]
      linarith
  rcases lt_trichotomy x 0 with h | h | h
  · have := pos (-x) (neg_pos.2 h) (-g) (grid_neg hg)
    rw [rd_neg, abs_sub_comm, abs_sub_comm (-x)] at this
    rw [show x - rd φ x = -rd φ x - -x by ring, show x - g = -g - -x by ring]
    exact this
  · subst h
    rw [rd_zero, sub_zero, abs_zero]
    positivity
  · exact pos x h g hg

theorem rd_grid (φ : Format) (hp : 1 ≤ φ.p) {g : ℚ} (hg : Grid φ g) : rd φ g = g := by
  have := rd_nearest φ hp g hg
  rw [sub_self, abs_zero] at this
  have := abs_nonpos_iff.1 this
  linarith

/-- The rounded value has at most `p` bits. -/
theorem grid_rd (φ : Format) (hp : 1 ≤ φ.p) (x : ℚ) : Grid φ (rd φ x) := by
  have pos : ∀ x : ℚ, 0 < x → Grid φ (rd φ x) := by
    intro x hx
    have h0 := rd_nonneg φ hx.le
    -- a format in which `x` does not overflow
    obtain ⟨E, hE⟩ : ∃ E : ℕ, rd φ x < 2 ^ E := by
      obtain ⟨n, hn⟩ := exists_nat_gt (rd φ x)
      exact ⟨n, hn.trans (by exact_mod_cast (Nat.lt_two_pow_self : n < 2 ^ n))⟩
    set ψ : Format := ⟨φ.p, φ.emin, max φ.emin E⟩ with hψ
    have hr : round ψ false x = .fin false (rd φ x) := by
      have e : (roundEven (x / ulp ψ x) : ℚ) * ulp ψ x = rd φ x := (rd_pos φ hx).symm
      unfold round
      rw [if_neg hx.ne']
      simp only [e]
      rw [if_neg]
      rw [not_le]
      refine hE.trans_le ?_
      rw [← zpow_natCast]
      exact zpow_le_zpow_right₀ (by norm_num) (by simp only [hψ]; omega)
    obtain ⟨m, e, h1, h2, -, h4⟩ := round_rep ψ hp (le_max_left _ _) false x hx.le _ hr
    exact ⟨m, e, h1, h2, by rw [abs_of_nonneg h0, h4]⟩
  rcases lt_trichotomy x 0 with h | h | h
  · have := grid_neg (pos (-x) (neg_pos.2 h))
    rwa [rd_neg, neg_neg] at this
  · subst h; rw [rd_zero]; exact grid_zero φ
  · exact pos x h

/-- Rounding is monotone. -/
theorem rd_mono (φ : Format) (hp : 1 ≤ φ.p) : Monotone (rd φ) := by
  intro x y hxy
  rcases hxy.eq_or_lt with h | hlt
  · rw [h]
  by_contra hc
  rw [not_le] at hc
  have h1 := rd_nearest φ hp x (grid_rd φ hp y)
  have h2 := rd_nearest φ hp y (grid_rd φ hp x)
  rcases abs_cases (x - rd φ x) with ⟨a, a1⟩ | ⟨a, a1⟩ <;> rcases abs_cases (x - rd φ y) with ⟨b, b1⟩ | ⟨b, b1⟩ <;>
  rcases abs_cases (y - rd φ x) with ⟨c, c1⟩ | ⟨c, c1⟩ <;> rcases abs_cases (y - rd φ y) with ⟨d, d1⟩ | ⟨d, d1⟩ <;>
  linarith

theorem rd_le (φ : Format) (hp : 1 ≤ φ.p) {x g : ℚ} (hg : Grid φ g) (h : x ≤ g) : rd φ x ≤ g :=
  (rd_mono φ hp h).trans (rd_grid φ hp hg).le

theorem abs_rd_le (φ : Format) (hp : 1 ≤ φ.p) {x g : ℚ} (hg : Grid φ g) (h : |x| ≤ g) : |rd φ x| ≤ g := by
  rw [abs_rd]; exact rd_le φ hp hg h

/-- The rounding error. -/
theorem rd_err (φ : Format) (x : ℚ) :
    |rd φ x - x| ≤ |x| * 2 ^ (-(φ.p : ℤ)) + 2 ^ (φ.emin - φ.p) := by
  have pos : ∀ x : ℚ, 0 < x → |rd φ x - x| ≤ x * 2 ^ (-(φ.p : ℤ)) + 2 ^ (φ.emin - φ.p) := by
    intro x hx
    have hu := ulp_pos φ x
    refine le_trans ?_ (half_ulp φ x hx)
    have h := roundEven_half (x / ulp φ x)
    have e : roundEven (x / ulp φ x) * ulp φ x - x =
        -((x / ulp φ x - roundEven (x / ulp φ x)) * ulp φ x) := by
      field_simp
      ring
    rw [rd_pos φ hx, e, abs_neg, abs_mul, abs_of_pos hu]
    calc _ ≤ 1 / 2 * ulp φ x := mul_le_mul_of_nonneg_right h hu.le
      _ = _ := by ring
  rcases lt_trichotomy x 0 with h | h | h
  · have := pos (-x) (neg_pos.2 h)
    rw [rd_neg, show -rd φ x - -x = -(rd φ x - x) by ring, abs_neg] at this
    rwa [abs_of_neg h]
  · subst h
    rw [rd_zero, sub_zero, abs_zero]
    positivity
  · have := pos x h
    rwa [abs_of_pos h]

/-- Every number with at most `p` bits is a multiple of the least positive one. -/
theorem grid_int {φ : Format} {x : ℚ} (h : Grid φ x) : ∃ z : ℤ, x = z * 2 ^ (φ.emin - (φ.p - 1)) := by
  obtain ⟨m, e, -, h2, h3⟩ := h
  obtain ⟨d, hd⟩ := Int.eq_ofNat_of_zero_le (sub_nonneg.2 h2)
  have e1 : (2 : ℚ) ^ e = 2 ^ d * 2 ^ (φ.emin - (φ.p - 1)) := by
    rw [← zpow_natCast, ← zpow_add₀ (by norm_num)]
    congr 1; omega
  rcases abs_choice x with h | h
  · refine ⟨m * 2 ^ d, ?_⟩
    push_cast
    rw [← h, h3, e1]; ring
  · refine ⟨-(m * 2 ^ d), ?_⟩
    have : x = -(m * 2 ^ e) := by rw [← h3, h]; ring
    push_cast
    rw [this, e1]; ring

/-- Adding half the spacing to a power of two is lost. -/
theorem rd_absorb (φ : Format) (hp : 2 ≤ φ.p) (k : ℤ) (hk : φ.emin ≤ k + φ.p) :
    rd φ ((2 : ℚ) ^ k + 2 ^ (k + φ.p)) = 2 ^ (k + φ.p) := by
  have h2 : (2 : ℚ) ≠ 0 := by norm_num
  have ha : (0 : ℚ) < 2 ^ k := by positivity
  have hW : (0 : ℚ) < 2 ^ (k + φ.p) := by positivity
  have hlt : (2 : ℚ) ^ k < 2 ^ (k + φ.p) := zpow_lt_zpow_right₀ (by norm_num) (by omega)
  have hlog : Int.log 2 ((2 : ℚ) ^ k + 2 ^ (k + φ.p)) = k + φ.p := by
    apply le_antisymm
    · rw [← Int.lt_add_one_iff, ← Int.lt_zpow_iff_log_lt (by norm_num) (by positivity)]
      push_cast
      have := zpow_add_one₀ h2 (k + φ.p)
      linarith
    · rw [← Int.zpow_le_iff_le_log (by norm_num) (by positivity)]
      push_cast
      linarith
  have hu : ulp φ ((2 : ℚ) ^ k + 2 ^ (k + φ.p)) = 2 * 2 ^ k := by
    unfold ulp
    rw [hlog, max_eq_left hk, mul_comm, ← zpow_add_one₀ h2]
    congr 1; ring
  have e : (2 : ℚ) ^ (k + φ.p) = 2 * 2 ^ k * 2 ^ (φ.p - 1) := by
    rw [mul_comm (2 : ℚ), ← zpow_add_one₀ h2, ← zpow_natCast, ← zpow_add₀ h2]
    congr 1; omega
  have hq : ((2 : ℚ) ^ k + 2 ^ (k + φ.p)) / (2 * 2 ^ k) = 1 / 2 + ((2 ^ (φ.p - 1) : ℤ) : ℚ) := by
    rw [e]
    push_cast
    field_simp
  have hr : roundEven (1 / 2 + ((2 ^ (φ.p - 1) : ℤ) : ℚ)) = 2 ^ (φ.p - 1) := by
    have hf : ⌊(1 / 2 : ℚ) + ((2 ^ (φ.p - 1) : ℤ) : ℚ)⌋ = 2 ^ (φ.p - 1) := by
      rw [Int.floor_add_intCast, show ⌊(1 / 2 : ℚ)⌋ = 0 by norm_num, zero_add]
    unfold roundEven
    simp only [hf]
    rw [if_neg (by norm_num), if_neg (by norm_num), if_pos]
    obtain ⟨n, hn⟩ : ∃ n, φ.p - 1 = n + 1 := ⟨φ.p - 2, by omega⟩
    rw [hn, pow_succ]
    omega
  rw [rd_pos φ (by positivity), hu, hq, hr, e]
  push_cast
  ring

/-! ### The operations -/

theorem round_rd (φ : Format) (s : Bool) {q : ℚ} (hq : 0 ≤ q) (h : rd φ q < 2 ^ (φ.emax + 1)) :
    round φ s q = .fin s (rd φ q) := by
  unfold round
  rcases hq.eq_or_lt with h0 | h0
  · rw [← h0, if_pos rfl, rd_zero]
  · rw [if_neg h0.ne']
    simp only [← rd_pos φ h0]
    rw [if_neg (not_le.2 h)]

/-- A finite datum with value `x`. -/
def Is (v : Val) (x : ℚ) : Prop := Finite v ∧ v.toRat = x

theorem is_fin {s : Bool} {q : ℚ} (h : 0 ≤ q) : Is (.fin s q) (if s then -q else q) := ⟨⟨s, q, rfl, h⟩, rfl⟩

theorem add_rd (φ : Format) {v w : Val} {x y : ℚ} (hv : Is v x) (hw : Is w y)
    (h : |rd φ (x + y)| < 2 ^ (φ.emax + 1)) : Is (add φ v w) (rd φ (x + y)) := by
  obtain ⟨⟨s, q, rfl, hq⟩, hx⟩ := hv
  obtain ⟨⟨t, r, rfl, hr⟩, hy⟩ := hw
  show Is (if (Val.fin s q).toRat + (Val.fin t r).toRat = 0 then Val.fin (s && t) 0
    else roundRat φ ((Val.fin s q).toRat + (Val.fin t r).toRat)) _
  rw [hx, hy]
  by_cases h0 : x + y = 0
  · rw [if_pos h0, h0, rd_zero]
    exact ⟨⟨_, 0, rfl, le_rfl⟩, by simp [Val.toRat]⟩
  · rw [if_neg h0]
    unfold roundRat
    rw [abs_rd] at h
    rw [round_rd φ _ (abs_nonneg _) h]
    refine ⟨⟨_, _, rfl, rd_nonneg φ (abs_nonneg _)⟩, ?_⟩
    simp only [Val.toRat]
    by_cases hn : x + y < 0
    · rw [if_pos (by simpa using hn), abs_of_neg hn, rd_neg, neg_neg]
    · rw [if_neg (by simpa using hn), abs_of_nonneg (not_lt.1 hn)]

theorem is_neg {v : Val} {x : ℚ} (hv : Is v x) : Is (neg v) (-x) := by
  obtain ⟨⟨s, q, rfl, hq⟩, hx⟩ := hv
  refine ⟨⟨!s, q, rfl, hq⟩, ?_⟩
  rw [← hx]
  cases s <;> simp [neg, Val.toRat]

theorem sub_rd (φ : Format) {v w : Val} {x y : ℚ} (hv : Is v x) (hw : Is w y)
    (h : |rd φ (x - y)| < 2 ^ (φ.emax + 1)) : Is (sub φ v w) (rd φ (x - y)) := by
  rw [sub_eq_add_neg] at h ⊢
  exact add_rd φ hv (is_neg hw) h

theorem mul_rd (φ : Format) {v w : Val} {x y : ℚ} (hv : Is v x) (hw : Is w y)
    (h : |rd φ (x * y)| < 2 ^ (φ.emax + 1)) : Is (mul φ v w) (rd φ (x * y)) := by
  obtain ⟨⟨s, q, rfl, hq⟩, hx⟩ := hv
  obtain ⟨⟨t, r, rfl, hr⟩, hy⟩ := hw
  show Is (round φ (s != t) (q * r)) _
  have hqr : 0 ≤ q * r := mul_nonneg hq hr
  have e : x * y = if (s != t) then -(q * r) else q * r := by
    rw [← hx, ← hy]
    cases s <;> cases t <;> simp [Val.toRat]
  have habs : |x * y| = q * r := by
    rw [e]; split <;> simp [abs_of_nonneg hq, abs_of_nonneg hr]
  rw [abs_rd, habs] at h
  rw [round_rd φ _ hqr h]
  refine ⟨⟨_, _, rfl, rd_nonneg φ hqr⟩, ?_⟩
  rw [e]
  simp only [Val.toRat]
  split
  · rw [rd_neg]
  · rfl

/-- Data of a format, with its arithmetic as operations. -/
def FVal (_ : Format) : Type := Val

instance (φ : Format) : Add (FVal φ) := ⟨fun a b => Fp.add φ a b⟩
instance (φ : Format) : Sub (FVal φ) := ⟨fun a b => Fp.sub φ a b⟩
instance (φ : Format) : Mul (FVal φ) := ⟨fun a b => Fp.mul φ a b⟩
instance (φ : Format) : Zero (FVal φ) := ⟨Val.fin false 0⟩

end Verif.Fp
