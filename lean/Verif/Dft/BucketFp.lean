import Verif.Dft.GoertzelFp
import Verif.Fp.FpDiv
import Mathlib.Analysis.Real.Pi.Bounds
import Mathlib.Analysis.SpecialFunctions.Trigonometric.Bounds
import Mathlib.Algebra.Order.Floor.Semifield

/-!
# Property C99: the constructors of the Goertzel detectors with rounding

dsp/goertzel.go:33-42, 85-94 and 136-145 in double precision: the bucket, the angle and the coefficients.  `math.Cos` and
`math.Sin` are parameters, assumed accurate to `η`.
-/

namespace Verif.Dft
open Verif.Fp

/-- The conversion of a non-negative integer to `float64`. -/
def ofNat64 (n : Nat) : FVal binary64 := ofInt binary64 n

/-- The conversion of a `float64` to `uint64`: truncation if the result is in range; otherwise the language leaves the
result to the implementation, `other`. -/
def toUint64 (other : Val → Nat) : Val → Nat
  | .fin s q =>
    if s = false ∧ ⌊q⌋ < 2 ^ 64 then ⌊q⌋.toNat else if s = true ∧ ⌊q⌋ = 0 then 0 else other (.fin s q)
  | x => other x

/-- The constant `0.5`. -/
def half64 : FVal binary64 := Val.fin false (1 / 2)

/-- `uint64(0.5 + float64(uint64(blockSize)*f)/float64(sampleRate))`, dsp/goertzel.go:34 (also 86 and 137). -/
def bucketFp (other : Val → Nat) (f sampleRate blockSize : Nat) : Nat :=
  toUint64 other (half64 + (ofNat64 (blockSize * f % 2 ^ 64) / ofNat64 sampleRate : FVal binary64) : FVal binary64)

/-- The constant `math.Pi` (Go's package math). -/
def goPi : ℚ := 3.14159265358979323846264338327950288419716939937510582097494459

/-- `2.0 * math.Pi` is a constant expression: evaluated exactly and rounded once. -/
def twoPi64 : FVal binary64 := roundRat binary64 (2 * goPi)

/-- `2.0 * math.Pi * float64(k) / float64(blockSize)`, dsp/goertzel.go:35 (also 87 and 138). -/
def angleFp (k blockSize : Nat) : FVal binary64 := twoPi64 * ofNat64 k / ofNat64 blockSize

/-- One detector as built in dsp/goertzel.go:34-42 (also 86-94 and 137-145); `cos` and `sin` are the library
functions. -/
def newGzFp (other : Val → Nat) (cos sin : FVal binary64 → FVal binary64) (f sampleRate blockSize : Nat) :
    Gz (FVal binary64) :=
  let w := angleFp (bucketFp other f sampleRate blockSize) blockSize
  gzOf (cos w) (sin w)

/-! ## The bucket -/

theorem is_ofNat64 {n : Nat} (h : n < 2 ^ 53) : Is (ofNat64 n) n := by
  have hn0 : (0 : ℚ) ≤ n := Nat.cast_nonneg n
  have hg : Grid binary64 (n : ℚ) := by
    have := grid_small (φ := binary64) (by decide) (n : ℤ) (by
      rw [abs_of_nonneg (Int.natCast_nonneg n)]
      exact_mod_cast h)
    exact_mod_cast this
  have e := rd_grid binary64 (by decide) hg
  have hlt : (n : ℚ) < 2 ^ (binary64.emax + 1) := by
    have h1 : (n : ℚ) < 2 ^ (53 : ℤ) := by exact_mod_cast h
    exact h1.trans (zpow_lt_zpow_right₀ (by norm_num) (by decide))
  have h2 := round_rd binary64 false (q := (n : ℚ)) hn0 (by rw [e]; exact hlt)
  have e3 : ofNat64 n = Val.fin false n := by
    show roundRat binary64 ((n : ℤ) : ℚ) = _
    unfold roundRat
    have : ¬ (((n : ℤ) : ℚ) < 0) := by push_cast; exact not_lt.2 hn0
    rw [decide_eq_false this]
    have e4 : |((n : ℤ) : ℚ)| = n := by push_cast; exact abs_of_nonneg hn0
    rw [e4, h2, e]
  rw [e3]
  exact ⟨⟨_, _, rfl, hn0⟩, rfl⟩

theorem is_half64 : Is half64 (1 / 2) := ⟨⟨_, _, rfl, by norm_num⟩, rfl⟩

/-- The nearest whole number, halves upwards. -/
def nearest (p q : Nat) : Nat := (2 * p + q) / (2 * q)

theorem nearest_exact (p q : Nat) (hq : 0 < q) : ⌊(0.5 : ℝ) + (p : ℝ) / q⌋₊ = nearest p q := by
  have hq' : (0 : ℝ) < q := by exact_mod_cast hq
  have e : (0.5 : ℝ) + (p : ℝ) / q = ((2 * p + q : Nat) : ℝ) / ((2 * q : Nat) : ℝ) := by
    push_cast
    field_simp
    ring
  rw [e]
  exact Nat.floor_div_eq_div (2 * p + q) (2 * q)

/-- A value between two whole numbers. -/
theorem toUint64_of {other : Val → Nat} {v : FVal binary64} {z : ℚ} {m : Nat} (hv : Is v z) (h1 : (m : ℚ) ≤ z)
    (h2 : z < m + 1) (hm : m < 2 ^ 64) : toUint64 other v = m := by
  obtain ⟨⟨s, q, rfl, hq⟩, hx⟩ := hv
  have hm0 : (0 : ℚ) ≤ m := by positivity
  cases s with
  | false =>
    have e : q = z := hx
    have hf : ⌊q⌋ = m := by
      rw [Int.floor_eq_iff, e]
      exact ⟨by exact_mod_cast h1, by exact_mod_cast h2⟩
    show (if false = false ∧ ⌊q⌋ < 2 ^ 64 then _ else _) = m
    rw [hf, if_pos ⟨rfl, by exact_mod_cast hm⟩]
    simp
  | true =>
    have e : -q = z := hx
    have hz0 : q = 0 := by linarith
    have hm' : m = 0 := by
      have : (m : ℚ) ≤ 0 := by linarith
      exact_mod_cast le_antisymm this hm0
    subst hz0
    rw [hm']
    simp [toUint64]

/-- C99: the bucket computed with rounding is the nearest one, as in exact arithmetic, as long as
`blockSize * f + sampleRate` is at most `2^50`. -/
theorem C99_bucket_partial (other : Val → Nat) (f sampleRate blockSize : Nat) (hr : 0 < sampleRate)
    (h : blockSize * f + sampleRate ≤ 2 ^ 50) :
    bucketFp other f sampleRate blockSize = bucket f sampleRate blockSize ∧
      bucketFp other f sampleRate blockSize = nearest (blockSize * f) sampleRate := by
  set p := blockSize * f with hp
  set q := sampleRate with hq
  have hmod : p % 2 ^ 64 = p := Nat.mod_eq_of_lt (by omega)
  have hb : bucket f q blockSize = nearest p q := by
    rw [bucket, ← hp, hmod]
    exact nearest_exact p q hr
  have key : bucketFp other f q blockSize = nearest p q := by
    unfold bucketFp
    rw [← hp, hmod]
    set m := nearest p q with hm
    have hq' : (0 : ℚ) < q := by exact_mod_cast hr
    have hp0 : (0 : ℚ) ≤ p := by positivity
    have hpq : (p : ℚ) + q ≤ 2 ^ 50 := by exact_mod_cast h
    have hle : 2 * q * m ≤ 2 * p + q := Nat.mul_div_le _ _
    have hlt : 2 * p + q + 1 ≤ 2 * q * (m + 1) := by
      have := Nat.lt_mul_div_succ (2 * p + q) (show 0 < 2 * q by omega)
      exact this
    have hle' : (2 : ℚ) * q * m ≤ 2 * p + q := by exact_mod_cast hle
    have hlt' : (2 : ℚ) * p + q + 1 ≤ 2 * q * (m + 1) := by exact_mod_cast hlt
    have hmb : m ≤ 2 ^ 50 := by
      have h3 : 2 * q * m ≤ 2 ^ 51 := by omega
      have : m * 2 ≤ 2 * q * m := by nlinarith
      omega
    -- the quotient
    set x : ℚ := p / q with hx
    have hx0 : 0 ≤ x := by positivity
    have hxm : x * q = p := by rw [hx]; field_simp
    have x1 : (m : ℚ) - 1 / 2 ≤ x := by
      rw [hx, le_div_iff₀ hq']
      linarith
    have hx50 : x ≤ 2 ^ 50 := by
      have : (1 : ℚ) ≤ q := by exact_mod_cast hr
      have h4 : x ≤ x * q := by nlinarith
      rw [hxm] at h4
      linarith
    have big : ∀ y : ℚ, |y| ≤ 2 ^ 60 → |rd binary64 y| < 2 ^ (binary64.emax + 1) := by
      intro y hy
      have hy' : |y| ≤ 2 ^ (60 : ℤ) := by exact_mod_cast hy
      exact (abs_rd_le binary64 (by decide) (grid_pow binary64 (by decide) 60 (by decide)) hy').trans_lt
        (zpow_lt_zpow_right₀ (by norm_num) (by decide))
    have d1 := div_rd binary64 (is_ofNat64 (n := p) (by omega)) (is_ofNat64 (n := q) (by omega)) hq'.ne'
      (by rw [← hx]; exact big x (by rw [abs_of_nonneg hx0]; linarith))
    rw [← hx] at d1
    set y := rd binary64 x with hy
    have ev : |y - x| ≤ x * 2 ^ (-53 : ℤ) + 2 ^ (-1075 : ℤ) := by
      have := rd_err binary64 x
      rw [abs_of_nonneg hx0] at this
      exact this
    have hy0 : 0 ≤ y := rd_nonneg _ hx0
    have t1 : (2 : ℚ) ^ (-1075 : ℤ) ≤ 2 ^ (-60 : ℤ) := zpow_le_zpow_right₀ (by norm_num) (by norm_num)
    have t2 : (2 : ℚ) ^ (-60 : ℤ) = 1 / 2 ^ 60 := by norm_num
    have t3 : (2 : ℚ) ^ (-53 : ℤ) = 1 / 2 ^ 53 := by norm_num
    rw [t3] at ev
    rw [t2] at t1
    set t : ℚ := 2 ^ (-1075 : ℤ) with ht
    have ht0 : 0 < t := by rw [ht]; positivity
    have yx := (abs_le.1 ev).2
    have hy51 : y ≤ 2 ^ 51 := by
      norm_num at yx t1 hx50 ⊢
      linarith
    have d2 := add_rd binary64 is_half64 d1 (big _ (by
      rw [abs_of_nonneg (by linarith)]
      norm_num at hy51 ⊢
      linarith))
    have hy1 : 0 ≤ 1 / 2 + y := by linarith
    set z := rd binary64 (1 / 2 + y) with hz
    have ez : |z - (1 / 2 + y)| ≤ (1 / 2 + y) * (1 / 2 ^ 53) + t := by
      have := rd_err binary64 (1 / 2 + y)
      rw [abs_of_nonneg hy1] at this
      have e : (2 : ℚ) ^ (-(binary64.p : ℤ)) = 1 / 2 ^ 53 := t3
      rw [e] at this
      exact this
    have zy := (abs_le.1 ez).2
    refine toUint64_of (z := z) d2 ?_ ?_ (by omega)
    · -- monotone rounding
      have hgm : Grid binary64 (m : ℚ) := by
        have := grid_small (φ := binary64) (by decide) (m : ℤ) (by
          rw [abs_of_nonneg (by positivity)]
          show ((m : ℕ) : ℤ) < 2 ^ 53
          have : m < 2 ^ 53 := by omega
          exact_mod_cast this)
        exact_mod_cast this
      have hgh : Grid binary64 ((m : ℚ) - 1 / 2) := by
        have : (m : ℚ) - 1 / 2 = ((2 * m - 1 : ℤ) : ℚ) / 2 := by push_cast; ring
        rw [this]
        refine ⟨(2 * m - 1 : ℤ).natAbs, -1, ?_, by decide, ?_⟩
        · show (2 * (m : ℤ) - 1).natAbs < 2 ^ 53
          omega
        · rw [abs_div, abs_of_pos (show (0 : ℚ) < 2 by norm_num)]
          rw [show (((2 * (m : ℤ) - 1).natAbs : ℕ) : ℚ) = |((2 * (m : ℤ) - 1 : ℤ) : ℚ)| by
            rw [← Int.cast_abs, ← Int.natCast_natAbs, Int.cast_natCast]]
          norm_num
          ring
      have s1 : (m : ℚ) - 1 / 2 ≤ y := by
        rw [← rd_grid binary64 (by decide) hgh]
        exact rd_mono binary64 (by decide) x1
      have s2 : (m : ℚ) ≤ 1 / 2 + y := by linarith
      rw [← rd_grid binary64 (by decide) hgm]
      exact rd_mono binary64 (by decide) s2
    · -- the error is smaller than the distance to the next whole number
      have hq50 : (q : ℚ) * t ≤ 1 / 2 ^ 10 := by
        have : (q : ℚ) * t ≤ 2 ^ 50 * (1 / 2 ^ 60) := mul_le_mul (by linarith) t1 ht0.le (by norm_num)
        norm_num at this ⊢
        exact this
      have hzq : z * q < (m + 1) * q := by
        have u1 : z ≤ 1 / 2 + x + 3 * (1 / 2 ^ 53) * (1 / 2 + x) + 3 * t := by
          norm_num at yx zy ⊢
          linarith
        have u2 : z * q ≤ (1 / 2 + x + 3 * (1 / 2 ^ 53) * (1 / 2 + x) + 3 * t) * q :=
          mul_le_mul_of_nonneg_right u1 hq'.le
        have u3 : (1 / 2 + x + 3 * (1 / 2 ^ 53) * (1 / 2 + x) + 3 * t) * q
          = (1 + 3 * (1 / 2 ^ 53)) * (q / 2 + p) + 3 * (q * t) := by rw [← hxm]; ring
        rw [u3] at u2
        norm_num at u2 hq50 hpq ⊢
        linarith
      exact lt_of_mul_lt_mul_right hzq hq'.le
  exact ⟨key.trans hb.symm, key⟩

/-- C99, violated beyond that: adding `0.5` rounds up, and a target far below half a bucket is put into bucket one:
`blockSize = 1`, `f = 2^53 - 1`, `sampleRate = 2^54`; the nearest bucket is zero. -/
theorem C99_violated (other : Val → Nat) :
    bucketFp other (2 ^ 53 - 1) (2 ^ 54) 1 = 1 ∧ bucket (2 ^ 53 - 1) (2 ^ 54) 1 = 0 := by
  constructor
  · have e : (half64 + (ofNat64 (1 * (2 ^ 53 - 1) % 2 ^ 64) / ofNat64 (2 ^ 54) : FVal binary64) : FVal binary64)
        = int64 1 := by decide +kernel
    unfold bucketFp
    rw [e]
    simp [toUint64, int64]
  · rw [bucket]
    have := nearest_exact (1 * (2 ^ 53 - 1) % 2 ^ 64) (2 ^ 54) (by norm_num)
    rw [this]
    decide

/-! ## The angle and the coefficients -/

theorem div_val {φ : Format} (h : φ.Ok) {v w : FVal φ} (hv : Finite v) (hw : Finite w) (h0 : val w ≠ 0)
    (ht : |val v / val w| ≤ 2 ^ φ.emax) :
    Finite (v / w : FVal φ) ∧ |val (v / w : FVal φ) - val v / val w| ≤ uR φ * |val v / val w| + wR φ := by
  have e : val v / val w = ((Val.toRat v / Val.toRat w : ℚ) : ℝ) := by unfold val; push_cast; rfl
  have h0' : Val.toRat w ≠ 0 := by
    intro hz
    apply h0
    unfold val
    rw [hz]
    norm_num
  rw [e] at ht ⊢
  obtain ⟨h1, h2⟩ := rd_real h ht
  have hi := div_rd φ (v := v) (w := w) ⟨hv, rfl⟩ ⟨hw, rfl⟩ h0' h1
  refine ⟨hi.1, ?_⟩
  have ev : val (v / w : FVal φ) = ((rd φ (Val.toRat v / Val.toRat w) : ℚ) : ℝ) := val_of_is hi
  rw [ev]
  exact h2

theorem twoPi64_eq : twoPi64 = (Val.fin false (7074237752028440 / 2 ^ 50) : Val) := by
  have : (show Val from twoPi64) = Val.fin false (7074237752028440 / 2 ^ 50) := by decide +kernel
  exact this

theorem twoPi64_val : Finite twoPi64 ∧ |val twoPi64 - 2 * Real.pi| ≤ 4 * uR binary64 ∧ |val twoPi64| ≤ 63 / 10 := by
  rw [twoPi64_eq]
  refine ⟨⟨_, _, rfl, by norm_num⟩, ?_⟩
  rw [val_fin]
  have h1 := Real.pi_gt_d20
  have h2 := Real.pi_lt_d20
  have hu : uR binary64 = 1 / 2 ^ 53 := by unfold uR; norm_num [binary64]
  rw [hu]
  simp only [Bool.false_eq_true, if_false]
  constructor
  · rw [abs_le]
    norm_num at h1 h2 ⊢
    constructor <;> linarith
  · rw [abs_of_nonneg (by norm_num)]
    norm_num

/-- The angle computed with rounding is close to `2πk/n`. -/
theorem angle_err {k n : Nat} (hk : k < 2 ^ 53) (hn : n < 2 ^ 53) (h0 : 0 < n) :
    Finite (angleFp k n) ∧ |val (angleFp k n) - 2 * Real.pi * k / n| ≤ 20 * uR binary64 * (k / n) + 3 * wR binary64 := by
  obtain ⟨p1, p2, p3⟩ := twoPi64_val
  have hki := is_ofNat64 hk
  have hni := is_ofNat64 hn
  have kv : val (ofNat64 k) = k := by rw [val_of_is hki]; push_cast; rfl
  have nv : val (ofNat64 n) = n := by rw [val_of_is hni]; push_cast; rfl
  have hu := uR_pos binary64
  have hu4 := uR_le binary64_ok
  have hw := wR_pos binary64
  have hw4 := wR_le binary64_ok
  have hk0 : (0 : ℝ) ≤ k := Nat.cast_nonneg k
  have hkb : (k : ℝ) ≤ 9007199254740992 := by exact_mod_cast hk.le
  have hn1 : (1 : ℝ) ≤ n := by exact_mod_cast h0
  have hbig : (1152921504606846976 : ℝ) ≤ 2 ^ binary64.emax := by
    have : (2 : ℝ) ^ (60 : ℤ) ≤ 2 ^ binary64.emax := zpow_le_zpow_right₀ (by norm_num) (by decide)
    exact le_trans (by norm_num) this
  have m1 : |val twoPi64 * val (ofNat64 k)| ≤ 63 / 10 * k := by
    rw [abs_mul, kv, abs_of_nonneg hk0]
    exact mul_le_mul_of_nonneg_right p3 hk0
  obtain ⟨a1, a2⟩ := mul_val binary64_ok p1 hki.1 (m1.trans (le_trans (by linarith) hbig))
  set a : FVal binary64 := twoPi64 * ofNat64 k with ha
  have huk : uR binary64 * |val twoPi64 * val (ofNat64 k)| ≤ uR binary64 * (63 / 10 * k) :=
    mul_le_mul_of_nonneg_left m1 hu.le
  have huk0 : 0 ≤ uR binary64 * k := by positivity
  have huk4 : uR binary64 * k ≤ 1 / 4 * k := mul_le_mul_of_nonneg_right hu4 hk0
  have d1 : |val a - 2 * Real.pi * k| ≤ 11 * (uR binary64 * k) + wR binary64 := by
    have : val a - 2 * Real.pi * k = (val a - val twoPi64 * val (ofNat64 k)) + (val twoPi64 - 2 * Real.pi) * k := by
      rw [kv]; ring
    rw [this]
    refine (abs_add_le _ _).trans ((add_le_add a2 (d := 4 * uR binary64 * k) ?_).trans (by linarith))
    rw [abs_mul, abs_of_nonneg hk0]
    exact mul_le_mul_of_nonneg_right p2 hk0
  have a3 : |val a| ≤ 8 * k + wR binary64 := by
    have : val a = (val a - val twoPi64 * val (ofNat64 k)) + val twoPi64 * val (ofNat64 k) := by ring
    rw [this]
    exact (abs_add_le _ _).trans (by linarith)
  have hn0 : val (ofNat64 n) ≠ 0 := by rw [nv]; linarith
  have q1 : |val a / val (ofNat64 n)| ≤ 8 * (k / n) + wR binary64 := by
    rw [nv, abs_div, abs_of_nonneg (by linarith : (0 : ℝ) ≤ n), div_le_iff₀ (by linarith)]
    have e : (8 * (k / n : ℝ) + wR binary64) * n = 8 * k + wR binary64 * n := by field_simp
    rw [e]
    have : wR binary64 ≤ wR binary64 * n := le_mul_of_one_le_right hw.le hn1
    linarith
  have hkn : (k / n : ℝ) ≤ k := div_le_self hk0 hn1
  have hkn0 : (0 : ℝ) ≤ k / n := by positivity
  obtain ⟨b1, b2⟩ := div_val binary64_ok a1 hni.1 hn0 (q1.trans (le_trans (by linarith) hbig))
  refine ⟨b1, ?_⟩
  have e : angleFp k n = a / ofNat64 n := rfl
  rw [e]
  have hq := mul_le_mul_of_nonneg_left q1 hu.le
  have huw : uR binary64 * wR binary64 ≤ 1 / 4 * wR binary64 := mul_le_mul_of_nonneg_right hu4 hw.le
  have c1 : |val a / val (ofNat64 n) - 2 * Real.pi * k / n| ≤ 11 * (uR binary64 * (k / n)) + wR binary64 := by
    rw [nv, ← sub_div, abs_div, abs_of_nonneg (by linarith : (0 : ℝ) ≤ n), div_le_iff₀ (by linarith)]
    have e : (11 * (uR binary64 * (k / n : ℝ)) + wR binary64) * n = 11 * (uR binary64 * k) + wR binary64 * n := by
      field_simp
    rw [e]
    have : wR binary64 ≤ wR binary64 * n := le_mul_of_one_le_right hw.le hn1
    linarith
  have hf : 0 ≤ uR binary64 * (k / n) := by positivity
  have t : val (a / ofNat64 n : FVal binary64) - 2 * Real.pi * k / n
      = (val (a / ofNat64 n : FVal binary64) - val a / val (ofNat64 n)) + (val a / val (ofNat64 n) - 2 * Real.pi * k / n) := by ring
  rw [t]
  refine (abs_add_le _ _).trans ((add_le_add b2 c1).trans ?_)
  linarith

/-- What is assumed of `math.Cos` and `math.Sin`: on arguments of size at most `W` they return a `float64` within `η` of
the true value. -/
def Trig (cos sin : FVal binary64 → FVal binary64) (W η : ℝ) : Prop :=
  ∀ x : FVal binary64, Finite x → |val x| ≤ W →
    (Finite (cos x) ∧ Grid binary64 (cos x).toRat ∧ |val (cos x) - Real.cos (val x)| ≤ η) ∧
    (Finite (sin x) ∧ |val (sin x) - Real.sin (val x)| ≤ η)

/-- How far the coefficients of a new detector are from those of its bin, for frequencies up to the sample rate. -/
noncomputable def newErr (η : ℝ) : ℝ := η + 20 * uR binary64 + 3 * wR binary64

theorem nearest_le {f q n : Nat} (hq : 0 < q) (h : f ≤ q) : nearest (n * f) q ≤ n := by
  unfold nearest
  have h1 : n * f ≤ n * q := Nat.mul_le_mul_left n h
  rw [← Nat.lt_succ_iff, Nat.div_lt_iff_lt_mul (by omega)]
  have : (n.succ) * (2 * q) = 2 * (n * q) + 2 * q := by rw [Nat.succ_mul]; ring
  omega

theorem nearest_spec {p q : Nat} (hq : 0 < q) : |(p : ℝ) / q - nearest p q| ≤ 1 / 2 := by
  have hq' : (0 : ℝ) < q := by exact_mod_cast hq
  have h1 : 2 * q * nearest p q ≤ 2 * p + q := Nat.mul_div_le _ _
  have h2 : 2 * p + q < 2 * q * (nearest p q + 1) := Nat.lt_mul_div_succ (2 * p + q) (show 0 < 2 * q by omega)
  have h1' : (2 : ℝ) * q * nearest p q ≤ 2 * p + q := by exact_mod_cast h1
  have h2' : (2 : ℝ) * p + q < 2 * q * (nearest p q + 1) := by exact_mod_cast h2
  have e : (p : ℝ) / q - nearest p q = (p - q * nearest p q) / q := by field_simp
  rw [e, abs_div, abs_of_pos hq', div_le_iff₀ hq', abs_le]
  constructor <;> linarith

/-- C99: the coefficients of a new detector are those of the bin nearest to its frequency, up to the error of the library
and a few units in the last place. -/
theorem C99_new (other : Val → Nat) (cos sin : FVal binary64 → FVal binary64) (η : ℝ) (hη0 : 0 ≤ η) (hη : newErr η ≤ 1 / 4)
    (hT : Trig cos sin 9 η) (f sampleRate blockSize : Nat) (hr : 0 < sampleRate) (hb : 0 < blockSize) (hf : f ≤ sampleRate)
    (h : blockSize * f + sampleRate ≤ 2 ^ 50) (hbs : blockSize < 2 ^ 50) :
    ∃ k : Nat, |(blockSize * f : ℝ) / sampleRate - k| ≤ 1 / 2 ∧ k ≤ blockSize ∧
      (newGzFp other cos sin f sampleRate blockSize).TunedTo (2 * Real.pi * k / blockSize) (newErr η) ∧
      (newGzFp other cos sin f sampleRate blockSize).Fresh := by
  set k := nearest (blockSize * f) sampleRate with hk
  have hkb : k ≤ blockSize := nearest_le hr hf
  refine ⟨k, ?_, hkb, ?_⟩
  · have := nearest_spec (p := blockSize * f) hr
    push_cast at this
    exact this
  have e : bucketFp other f sampleRate blockSize = k := (C99_bucket_partial other f sampleRate blockSize hr h).2
  unfold newGzFp
  rw [e]
  obtain ⟨a1, a2⟩ := angle_err (k := k) (n := blockSize) (by omega) (by omega) hb
  have hn1 : (1 : ℝ) ≤ blockSize := by exact_mod_cast hb
  have hkn : (k / blockSize : ℝ) ≤ 1 := by
    rw [div_le_one (by linarith)]
    exact_mod_cast hkb
  have hkn0 : (0 : ℝ) ≤ k / blockSize := by positivity
  have hu := uR_pos binary64
  have hw := wR_pos binary64
  have a3 : |val (angleFp k blockSize) - 2 * Real.pi * k / blockSize| ≤ newErr η - η := by
    refine a2.trans ?_
    unfold newErr
    have : 20 * uR binary64 * (k / blockSize) ≤ 20 * uR binary64 * 1 := mul_le_mul_of_nonneg_left hkn (by linarith)
    linarith
  have a4 : |val (angleFp k blockSize)| ≤ 9 := by
    have h1 : |2 * Real.pi * k / blockSize| ≤ 8 := by
      have e : 2 * Real.pi * k / blockSize = 2 * Real.pi * (k / blockSize) := by ring
      have hp := Real.pi_pos
      rw [e, abs_of_nonneg (by positivity)]
      have := Real.pi_le_four
      nlinarith
    have e : val (angleFp k blockSize) = (val (angleFp k blockSize) - 2 * Real.pi * k / blockSize) + 2 * Real.pi * k / blockSize := by
      ring
    rw [e]
    exact (abs_add_le _ _).trans (by linarith)
  obtain ⟨⟨c1, c2, c3⟩, s1, s2⟩ := hT _ a1 a4
  have near : ∀ {p q r : ℝ}, |p - q| ≤ η → |q - r| ≤ newErr η - η → |p - r| ≤ newErr η := by
    intro p q r h1 h2
    have : p - r = (p - q) + (q - r) := by ring
    rw [this]
    exact (abs_add_le _ _).trans (by linarith)
  obtain ⟨t1, t2, -⟩ := C97_tuned binary64_ok (cos (angleFp k blockSize)) (sin (angleFp k blockSize))
    (2 * Real.pi * k / blockSize) (newErr η) hη c1 s1 c2
    (near c3 ((Real.abs_cos_sub_cos_le _ _).trans a3)) (near s2 ((Real.abs_sin_sub_sin_le _ _).trans a3))
  exact ⟨t1, t2⟩

/-- C99: `NewGoertzel`, `Feed` with one block, `Complex`, all with rounding: each result is the bin of the DFT nearest to
the target frequency, up to a bound of the order of the cube of the block size. -/
theorem C99_block (other : Val → Nat) (cos sin : FVal binary64 → FVal binary64) (η X : ℝ) (hη0 : 0 ≤ η)
    (hη : newErr η ≤ 1 / 4) (hT : Trig cos sin 9 η) (fs : List Nat) (sampleRate : Nat) (hr : 0 < sampleRate)
    (hfs : ∀ f ∈ fs, f ≤ sampleRate) (xs : List (FVal binary64)) (hn : 0 < xs.length)
    (hsz : (xs.length + 1) * sampleRate ≤ 2 ^ 50) (hX : 0 < X)
    (hx : ∀ x ∈ xs, Finite x ∧ |val x| ≤ X) (htop : 8 * (xs.length * (xs.length + 1) * X) + 4 ≤ 2 ^ binary64.emax)
    (hε : (2 * newErr η + 14 * uR binary64) * (xs.length * (xs.length + 1) * X) + 4 * wR binary64 ≤ X) :
    List.Forall₂ (fun (f : Nat) (c : FVal binary64 × FVal binary64) =>
        ∃ k : Nat, |(xs.length * f : ℝ) / sampleRate - k| ≤ 1 / 2 ∧ Finite c.1 ∧ Finite c.2 ∧
          ‖(⟨val c.1, val c.2⟩ : ℂ) - dft xs.length k (sampleR (vals xs))‖
            ≤ (xs.length + 1) * ((2 * newErr η + 14 * uR binary64) * (xs.length * (xs.length + 1) * X) + 4 * wR binary64))
      fs (complex id (feed id (fs.map fun f => newGzFp other cos sin f sampleRate xs.length) xs)) := by
  have hsz' : xs.length * sampleRate + sampleRate ≤ 2 ^ 50 := by rw [Nat.add_mul, Nat.one_mul] at hsz; exact hsz
  have hl : xs.length < 2 ^ 50 := by
    have : xs.length * 1 ≤ xs.length * sampleRate := Nat.mul_le_mul_left _ hr
    omega
  have hn0 : (0 : ℝ) ≤ xs.length := Nat.cast_nonneg _
  rw [feed_eq, complex, List.map_map, List.map_map, List.forall₂_map_right_iff, List.forall₂_same]
  intro f hf
  have hfr := hfs f hf
  have hm : xs.length * f ≤ xs.length * sampleRate := Nat.mul_le_mul_left _ hfr
  obtain ⟨k, k1, -, k3, k4⟩ := C99_new other cos sin η hη0 hη hT f sampleRate xs.length hr hn hfr (by omega) hl
  have hu := uR_pos binary64
  have hw := wR_pos binary64
  obtain ⟨c, c1, c2, c3, c4⟩ := C97_dft binary64_ok (newGzFp other cos sin f sampleRate xs.length) k (newErr η) X
    (xs.length * (xs.length + 1) * X) xs hn k3 ⟨k4.1, k4.2.1⟩ (by unfold newErr; linarith) hη hX
    (mul_nonneg (mul_nonneg hn0 (by linarith)) hX.le) htop hε hx (Or.inl le_rfl)
  refine ⟨k, k1, ?_⟩
  rw [feed_eq, complex] at c1
  simp only [List.map_cons, List.map_nil, List.cons.injEq, and_true] at c1
  subst c1
  exact ⟨c2, c3, c4⟩

/-! ## Examples of the hypotheses -/

/-- Every real number of size at most one is within `2^-50` of a `float64`. -/
theorem exists_float (r : ℝ) (hr : |r| ≤ 1) :
    ∃ v : FVal binary64, Finite v ∧ Grid binary64 v.toRat ∧ |val v - r| ≤ 1 / 2 ^ 50 := by
  obtain ⟨q, q1, q2⟩ := exists_rat_btwn (show r < r + 1 / 2 ^ 53 by norm_num)
  obtain ⟨r1, r2⟩ := abs_le.1 hr
  have hq : |(q : ℝ)| ≤ 2 := by
    rw [abs_le]
    norm_num at q2
    constructor <;> linarith
  have hbig : (2 : ℝ) ≤ 2 ^ binary64.emax := by
    have : (2 : ℝ) ^ (1 : ℤ) ≤ 2 ^ binary64.emax := zpow_le_zpow_right₀ (by norm_num) (by decide)
    exact le_trans (by norm_num) this
  obtain ⟨h1, h2⟩ := rd_real binary64_ok (hq.trans hbig)
  have hu : uR binary64 = 1 / 2 ^ 53 := by unfold uR; norm_num [binary64]
  have hw : wR binary64 ≤ 1 / 2 ^ 53 := by
    have : (2 : ℝ) ^ (-1075 : ℤ) ≤ 2 ^ (-53 : ℤ) := zpow_le_zpow_right₀ (by norm_num) (by norm_num)
    have e : wR binary64 = 2 ^ (-1075 : ℤ) := rfl
    rw [e]
    exact this.trans (by norm_num)
  have main : |((rd binary64 q : ℚ) : ℝ) - r| ≤ 1 / 2 ^ 50 := by
    have e : ((rd binary64 q : ℚ) : ℝ) - r = ((rd binary64 q : ℚ) : ℝ) - q + (q - r) := by ring
    rw [e]
    rw [hu] at h2
    have h3 : |(q : ℝ) - r| ≤ 1 / 2 ^ 53 := by rw [abs_le]; constructor <;> linarith
    refine (abs_add_le _ _).trans ?_
    norm_num at h2 h3 hw ⊢
    linarith
  have hgr : Grid binary64 (rd binary64 q) := grid_rd binary64 (by decide) q
  rcases le_or_gt 0 (rd binary64 q) with h0 | h0
  · refine ⟨Val.fin false (rd binary64 q), ⟨_, _, rfl, h0⟩, hgr, ?_⟩
    rw [val_fin]
    exact main
  · refine ⟨Val.fin true (-rd binary64 q), ⟨_, _, rfl, by linarith⟩, ?_, ?_⟩
    · show Grid binary64 (-(-rd binary64 q))
      rw [neg_neg]
      exact hgr
    · rw [val_fin]
      simpa using main

/-- Library functions of the assumed kind exist, for every size of argument. -/
example (W : ℝ) : ∃ cos sin : FVal binary64 → FVal binary64, Trig cos sin W (1 / 2 ^ 50) := by
  choose c c1 c2 c3 using fun x : FVal binary64 => exists_float (Real.cos (val x)) (Real.abs_cos_le_one _)
  choose s s1 _ s3 using fun x : FVal binary64 => exists_float (Real.sin (val x)) (Real.abs_sin_le_one _)
  exact ⟨c, s, fun x _ _ => ⟨⟨c1 x, c2 x, c3 x⟩, s1 x, s3 x⟩⟩

/-- The other hypotheses of `C99_block`: a block of four samples, two target frequencies, the lower one rounded to bin
zero. -/
example : ∃ (fs : List Nat) (xs : List (FVal binary64)), fs = [100, 1200] ∧ (∀ f ∈ fs, f ≤ 8000) ∧ 0 < xs.length ∧
    (xs.length + 1) * 8000 ≤ 2 ^ 50 ∧ (∀ x ∈ xs, Finite x ∧ |val x| ≤ 2) ∧ newErr (1 / 2 ^ 50) ≤ 1 / 4 ∧
    8 * (xs.length * (xs.length + 1) * (2 : ℝ)) + 4 ≤ 2 ^ binary64.emax ∧
    (2 * newErr (1 / 2 ^ 50) + 14 * uR binary64) * (xs.length * (xs.length + 1) * 2) + 4 * wR binary64 ≤ 2 := by
  have hu : uR binary64 = 1 / 2 ^ 53 := by unfold uR; norm_num [binary64]
  have hw : wR binary64 ≤ 1 / 2 ^ 53 := by
    have : (2 : ℝ) ^ (-1075 : ℤ) ≤ 2 ^ (-53 : ℤ) := zpow_le_zpow_right₀ (by norm_num) (by norm_num)
    have e : wR binary64 = 2 ^ (-1075 : ℤ) := rfl
    rw [e]
    exact this.trans (by norm_num)
  have hbig : (1024 : ℝ) ≤ 2 ^ binary64.emax := by
    have : (2 : ℝ) ^ (10 : ℤ) ≤ 2 ^ binary64.emax := zpow_le_zpow_right₀ (by norm_num) (by decide)
    exact le_trans (by norm_num) this
  refine ⟨[100, 1200], [int64 1, int64 2, int64 (-1), int64 0], rfl, by simp, by simp, by simp, ?_, ?_, ?_, ?_⟩
  · intro x hx
    simp only [List.mem_cons, List.not_mem_nil, or_false] at hx
    rcases hx with rfl | rfl | rfl | rfl <;> refine ⟨finite_int64 _, ?_⟩ <;> rw [val_int64] <;> norm_num
  · unfold newErr
    rw [hu]
    norm_num at hw ⊢
    linarith
  · refine le_trans ?_ hbig
    simp
    norm_num
  · unfold newErr
    rw [hu]
    simp
    norm_num at hw ⊢
    linarith

end Verif.Dft
