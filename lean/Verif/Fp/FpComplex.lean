import Verif.Fp.FpRd
import Mathlib.Analysis.Complex.Norm
import Mathlib.Analysis.Complex.Basic
import Mathlib.Data.Rat.Cast.Order
import Mathlib.Analysis.Normed.Field.Basic
import Mathlib.Tactic.Positivity
import Mathlib.Tactic.Linarith

/-!
# Complex numbers with rounded parts

`CVal φ` is a complex number whose parts are data of the format `φ` (`complex128` for binary64, `complex64` for
binary32), with the operations the Go compiler makes of `+` and `-`: each part is computed and rounded.  Products are in
`Verif.Fp.FpProduct`.  The error of each operation is bounded relative to the magnitudes.
-/

namespace Verif.Fp

instance (φ : Format) : DecidableEq (FVal φ) := inferInstanceAs (DecidableEq Val)

/-- A complex number with rounded parts. -/
structure CVal (φ : Format) where
  re : FVal φ
  im : FVal φ
  deriving DecidableEq

namespace CVal
variable {φ : Format}

instance : Zero (CVal φ) := ⟨⟨0, 0⟩⟩
instance : Add (CVal φ) := ⟨fun a b => ⟨a.re + b.re, a.im + b.im⟩⟩
instance : Sub (CVal φ) := ⟨fun a b => ⟨a.re - b.re, a.im - b.im⟩⟩

/-- Both parts are finite. -/
def Fin (a : CVal φ) : Prop := Finite a.re ∧ Finite a.im

/-- The exact complex number. -/
noncomputable def toC (a : CVal φ) : ℂ := ⟨val a.re, val a.im⟩

end CVal

/-- Relative rounding error. -/
noncomputable def uR (φ : Format) : ℝ := 2 ^ (-(φ.p : ℤ))
/-- Absolute rounding error near zero. -/
noncomputable def wR (φ : Format) : ℝ := 2 ^ (φ.emin - φ.p)

theorem uR_pos (φ : Format) : 0 < uR φ := by unfold uR; positivity
theorem wR_pos (φ : Format) : 0 < wR φ := by unfold wR; positivity

/-- The formats considered: at least two bits, the least normal number at most one and the greatest at least four. -/
structure Format.Ok (φ : Format) : Prop where
  hp : 2 ≤ φ.p
  hmin : φ.emin ≤ 0
  hmax : 2 ≤ φ.emax

theorem binary32_ok : Format.Ok binary32 := ⟨by decide, by decide, by decide⟩
theorem binary64_ok : Format.Ok binary64 := ⟨by decide, by decide, by decide⟩

theorem uR_le {φ : Format} (h : φ.Ok) : uR φ ≤ 1 / 4 := by
  have := h.hp
  have : (2 : ℝ) ^ (-(φ.p : ℤ)) ≤ 2 ^ (-2 : ℤ) := zpow_le_zpow_right₀ (by norm_num) (by omega)
  unfold uR
  norm_num at this ⊢
  exact this

theorem wR_le {φ : Format} (h : φ.Ok) : wR φ ≤ 1 / 4 := by
  have := h.hp
  have := h.hmin
  have : (2 : ℝ) ^ (φ.emin - φ.p) ≤ 2 ^ (-2 : ℤ) := zpow_le_zpow_right₀ (by norm_num) (by omega)
  unfold wR
  norm_num at this ⊢
  exact this

theorem rd_real {φ : Format} (h : φ.Ok) {x : ℚ} (hx : |(x : ℝ)| ≤ 2 ^ φ.emax) :
    |rd φ x| < 2 ^ (φ.emax + 1) ∧ |((rd φ x : ℚ) : ℝ) - x| ≤ uR φ * |(x : ℝ)| + wR φ := by
  have hp := h.hp
  have h1 := h.hmin
  have h2 := h.hmax
  constructor
  · have hx' : |x| ≤ 2 ^ φ.emax := by
      rw [← Rat.cast_le (K := ℝ)]
      push_cast
      exact hx
    refine (abs_rd_le φ (by omega) (grid_pow φ (by omega) φ.emax (by omega)) hx').trans_lt ?_
    exact zpow_lt_zpow_right₀ (by norm_num) (by omega)
  · have := rd_err φ x
    have : |((rd φ x : ℚ) : ℝ) - x| ≤ |(x : ℝ)| * 2 ^ (-(φ.p : ℤ)) + 2 ^ (φ.emin - φ.p) := by
      rw [← Rat.cast_le (K := ℝ)] at this
      push_cast at this
      exact this
    unfold uR wR
    linarith

theorem val_of_is {v : Val} {x : ℚ} (h : Is v x) : val v = x := by unfold val; rw [h.2]

theorem add_val {φ : Format} (h : φ.Ok) {v w : FVal φ} (hv : Finite v) (hw : Finite w)
    (ht : |val v + val w| ≤ 2 ^ φ.emax) :
    Finite (v + w : FVal φ) ∧ |val (v + w : FVal φ) - (val v + val w)| ≤ uR φ * |val v + val w| + wR φ := by
  have e : val v + val w = ((Val.toRat v + Val.toRat w : ℚ) : ℝ) := by unfold val; push_cast; rfl
  rw [e] at ht ⊢
  obtain ⟨h1, h2⟩ := rd_real h ht
  have hi := add_rd φ (v := v) (w := w) ⟨hv, rfl⟩ ⟨hw, rfl⟩ h1
  refine ⟨hi.1, ?_⟩
  have : val (v + w : FVal φ) = ((rd φ (Val.toRat v + Val.toRat w) : ℚ) : ℝ) := val_of_is hi
  rw [this]
  exact h2

theorem sub_val {φ : Format} (h : φ.Ok) {v w : FVal φ} (hv : Finite v) (hw : Finite w)
    (ht : |val v - val w| ≤ 2 ^ φ.emax) :
    Finite (v - w : FVal φ) ∧ |val (v - w : FVal φ) - (val v - val w)| ≤ uR φ * |val v - val w| + wR φ := by
  have e : val v - val w = ((Val.toRat v - Val.toRat w : ℚ) : ℝ) := by unfold val; push_cast; rfl
  rw [e] at ht ⊢
  obtain ⟨h1, h2⟩ := rd_real h ht
  have hi := sub_rd φ (v := v) (w := w) ⟨hv, rfl⟩ ⟨hw, rfl⟩ h1
  refine ⟨hi.1, ?_⟩
  have : val (v - w : FVal φ) = ((rd φ (Val.toRat v - Val.toRat w) : ℚ) : ℝ) := val_of_is hi
  rw [this]
  exact h2

theorem mul_val {φ : Format} (h : φ.Ok) {v w : FVal φ} (hv : Finite v) (hw : Finite w)
    (ht : |val v * val w| ≤ 2 ^ φ.emax) :
    Finite (v * w : FVal φ) ∧ |val (v * w : FVal φ) - (val v * val w)| ≤ uR φ * |val v * val w| + wR φ := by
  have e : val v * val w = ((Val.toRat v * Val.toRat w : ℚ) : ℝ) := by unfold val; push_cast; rfl
  rw [e] at ht ⊢
  obtain ⟨h1, h2⟩ := rd_real h ht
  have hi := mul_rd φ (v := v) (w := w) ⟨hv, rfl⟩ ⟨hw, rfl⟩ h1
  refine ⟨hi.1, ?_⟩
  have : val (v * w : FVal φ) = ((rd φ (Val.toRat v * Val.toRat w) : ℚ) : ℝ) := val_of_is hi
  rw [this]
  exact h2

/-- From the parts to the magnitude. -/
theorem norm_parts {z : ℂ} {p q u c : ℝ} (hu : 0 ≤ u) (hc : 0 ≤ c) (hr : |z.re| ≤ u * |p| + c)
    (hi : |z.im| ≤ u * |q| + c) : ‖z‖ ≤ u * ‖(⟨p, q⟩ : ℂ)‖ + 2 * c := by
  -- the part proportional to `u` and the rest
  have hn : ∀ a b : ℝ, ‖(⟨a, b⟩ : ℂ)‖ = Real.sqrt (a ^ 2 + b ^ 2) := by
    intro a b
    rw [Complex.norm_def, Complex.normSq_mk]
    ring_nf
  have h1 : ‖z‖ ≤ ‖(⟨u * |p| + c, u * |q| + c⟩ : ℂ)‖ := by
    have ez : z = ⟨z.re, z.im⟩ := rfl
    rw [ez, hn, hn]
    refine Real.sqrt_le_sqrt (add_le_add ?_ ?_)
    · exact sq_le_sq.2 (by rw [abs_of_nonneg (le_trans (abs_nonneg _) hr)]; exact hr)
    · exact sq_le_sq.2 (by rw [abs_of_nonneg (le_trans (abs_nonneg _) hi)]; exact hi)
  have h2 : (⟨u * |p| + c, u * |q| + c⟩ : ℂ) = (u : ℂ) * ⟨|p|, |q|⟩ + ⟨c, c⟩ := by
    apply Complex.ext <;> simp
  have h3 : ‖(⟨|p|, |q|⟩ : ℂ)‖ = ‖(⟨p, q⟩ : ℂ)‖ := by rw [hn, hn, sq_abs, sq_abs]
  have h4 : ‖(⟨c, c⟩ : ℂ)‖ ≤ 2 * c := by
    have := Complex.norm_le_abs_re_add_abs_im ⟨c, c⟩
    simp only [abs_of_nonneg hc] at this
    linarith
  rw [h2] at h1
  have h5 := norm_add_le ((u : ℂ) * ⟨|p|, |q|⟩) ⟨c, c⟩
  rw [norm_mul, Complex.norm_of_nonneg hu, h3] at h5
  linarith

namespace CVal
variable {φ : Format}

theorem re_le (a : CVal φ) : |val a.re| ≤ ‖a.toC‖ := Complex.abs_re_le_norm a.toC
theorem im_le (a : CVal φ) : |val a.im| ≤ ‖a.toC‖ := Complex.abs_im_le_norm a.toC

theorem add_err (h : φ.Ok) {a b : CVal φ} (ha : a.Fin) (hb : b.Fin) (ht : ‖a.toC + b.toC‖ ≤ 2 ^ φ.emax) :
    (a + b).Fin ∧ ‖(a + b).toC - (a.toC + b.toC)‖ ≤ uR φ * ‖a.toC + b.toC‖ + 2 * wR φ := by
  have hr := Complex.abs_re_le_norm (a.toC + b.toC)
  have hi := Complex.abs_im_le_norm (a.toC + b.toC)
  obtain ⟨h1, h2⟩ := add_val h ha.1 hb.1 (hr.trans ht)
  obtain ⟨h3, h4⟩ := add_val h ha.2 hb.2 (hi.trans ht)
  exact ⟨⟨h1, h3⟩, norm_parts (uR_pos φ).le (wR_pos φ).le (z := (a + b).toC - (a.toC + b.toC)) h2 h4⟩

theorem sub_err (h : φ.Ok) {a b : CVal φ} (ha : a.Fin) (hb : b.Fin) (ht : ‖a.toC - b.toC‖ ≤ 2 ^ φ.emax) :
    (a - b).Fin ∧ ‖(a - b).toC - (a.toC - b.toC)‖ ≤ uR φ * ‖a.toC - b.toC‖ + 2 * wR φ := by
  have hr := Complex.abs_re_le_norm (a.toC - b.toC)
  have hi := Complex.abs_im_le_norm (a.toC - b.toC)
  obtain ⟨h1, h2⟩ := sub_val h ha.1 hb.1 (hr.trans ht)
  obtain ⟨h3, h4⟩ := sub_val h ha.2 hb.2 (hi.trans ht)
  exact ⟨⟨h1, h3⟩, norm_parts (uR_pos φ).le (wR_pos φ).le (z := (a - b).toC - (a.toC - b.toC)) h2 h4⟩

/-- Sum of products of the parts. -/
theorem parts_le (a b : CVal φ) : |val a.re * val b.re| + |val a.im * val b.im| ≤ ‖a.toC‖ * ‖b.toC‖ ∧
    |val a.re * val b.im| + |val a.im * val b.re| ≤ ‖a.toC‖ * ‖b.toC‖ := by
  have e : ∀ z : CVal φ, ‖z.toC‖ ^ 2 = val z.re ^ 2 + val z.im ^ 2 := by
    intro z
    rw [Complex.sq_norm, Complex.normSq_apply]
    show val z.re * val z.re + val z.im * val z.im = _
    ring
  have key : ∀ p q r s : ℝ, p ^ 2 + q ^ 2 = ‖a.toC‖ ^ 2 → r ^ 2 + s ^ 2 = ‖b.toC‖ ^ 2 →
      |p * r| + |q * s| ≤ ‖a.toC‖ * ‖b.toC‖ := by
    intro p q r s h1 h2
    refine abs_le_of_sq_le_sq' ?_ (by positivity) |>.2
    rw [mul_pow, ← h1, ← h2, abs_mul, abs_mul, ← sq_abs p, ← sq_abs q, ← sq_abs r, ← sq_abs s]
    nlinarith [sq_nonneg (|p| * |s| - |q| * |r|)]
  refine ⟨key _ _ _ _ (e a).symm (e b).symm, key _ _ _ _ (e a).symm ?_⟩
  rw [e b]
  ring

end CVal

/-! ## Operations without error -/

/-- A complex number with the exact parts `x` and `y`. -/
def CIs {φ : Format} (a : CVal φ) (x y : ℚ) : Prop := Is a.re x ∧ Is a.im y

/-- Small integers are on the grid. -/
theorem grid_small {φ : Format} (hp : φ.emin - ((φ.p : ℤ) - 1) ≤ 0) (z : ℤ) (hz : |z| < 2 ^ φ.p) : Grid φ z := by
  refine ⟨z.natAbs, 0, ?_, hp, ?_⟩
  · zify
    exact hz
  · rw [zpow_zero, mul_one]
    have : ((z.natAbs : ℤ) : ℚ) = |(z : ℚ)| := by rw [Int.natCast_natAbs]; push_cast; rfl
    rw [← this]
    rfl

/-- The formats in which integers below `2 ^ p` are exact. -/
structure Format.Ints (φ : Format) : Prop where
  hp : 1 ≤ φ.p
  hmin : φ.emin - ((φ.p : ℤ) - 1) ≤ 0
  hmax : (φ.p : ℤ) ≤ φ.emax + 1

theorem binary32_ints : Format.Ints binary32 := ⟨by decide, by decide, by decide⟩
theorem binary64_ints : Format.Ints binary64 := ⟨by decide, by decide, by decide⟩

theorem rd_small {φ : Format} (h : φ.Ints) (z : ℤ) (hz : |z| < 2 ^ φ.p) :
    rd φ (z : ℚ) = z ∧ |rd φ (z : ℚ)| < 2 ^ (φ.emax + 1) := by
  have e := rd_grid φ h.hp (grid_small h.hmin z hz)
  refine ⟨e, ?_⟩
  rw [e]
  have h1 : |(z : ℚ)| < 2 ^ φ.p := by exact_mod_cast hz
  refine h1.trans_le ?_
  rw [← zpow_natCast]
  exact zpow_le_zpow_right₀ (by norm_num) h.hmax

theorem add_small {φ : Format} (h : φ.Ints) {v w : FVal φ} {x y : ℤ} (hv : Is v x) (hw : Is w y)
    (hz : |x + y| < 2 ^ φ.p) : Is (v + w : FVal φ) ((x + y : ℤ) : ℚ) := by
  obtain ⟨h1, h2⟩ := rd_small h (x + y) hz
  have e : ((x + y : ℤ) : ℚ) = x + y := by push_cast; rfl
  rw [e] at h1 h2 ⊢
  have := add_rd φ hv hw h2
  rw [h1] at this
  exact this

theorem sub_small {φ : Format} (h : φ.Ints) {v w : FVal φ} {x y : ℤ} (hv : Is v x) (hw : Is w y)
    (hz : |x - y| < 2 ^ φ.p) : Is (v - w : FVal φ) ((x - y : ℤ) : ℚ) := by
  obtain ⟨h1, h2⟩ := rd_small h (x - y) hz
  have e : ((x - y : ℤ) : ℚ) = x - y := by push_cast; rfl
  rw [e] at h1 h2 ⊢
  have := sub_rd φ hv hw h2
  rw [h1] at this
  exact this

theorem mul_small {φ : Format} (h : φ.Ints) {v w : FVal φ} {x y : ℤ} (hv : Is v x) (hw : Is w y)
    (hz : |x * y| < 2 ^ φ.p) : Is (v * w : FVal φ) ((x * y : ℤ) : ℚ) := by
  obtain ⟨h1, h2⟩ := rd_small h (x * y) hz
  have e : ((x * y : ℤ) : ℚ) = x * y := by push_cast; rfl
  rw [e] at h1 h2 ⊢
  have := mul_rd φ hv hw h2
  rw [h1] at this
  exact this

end Verif.Fp
