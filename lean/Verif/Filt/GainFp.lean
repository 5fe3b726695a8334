import Verif.Filt.DesignFp
import Verif.Fp.FpSqrt

/-!
# Property C143: the coefficients of the designs with a gain

How far all six coefficients of the peaking equaliser and of the two shelves, computed in `float64`, are from those of the exact
designs, whichever products are fused.  `math.Sqrt` is the correctly rounded root of `Fp/FpSqrt`, shown here to meet what
C108 asks of it; `math.Pow` is a parameter with its error.
-/

namespace Verif.Filt
open Verif.Conv Verif.Fp

/-! ### Square root -/

/-- C143, square root: the correctly rounded root is as accurate as C108 asks. -/
theorem C143_sqrt : SqrtOk (Fp.sqrt binary64) := by
  intro x hx h1 h2
  obtain ⟨s, q, rfl, hq⟩ := hx
  rw [val_fin] at h1 h2 ⊢
  cases s
  · rw [if_neg (by decide)] at h1 h2 ⊢
    have hq0 : 0 < q := by
      have : (0 : ℝ) < q := lt_of_lt_of_le (by norm_num) h1
      exact_mod_cast this
    have ht : q < 2 ^ (binary64.emax + 1) := by
      have : (q : ℝ) < 2 ^ 110 := lt_of_le_of_lt h2 (by norm_num)
      have : q < 2 ^ 110 := by exact_mod_cast this
      refine this.trans_le ?_
      rw [← zpow_natCast]
      exact zpow_le_zpow_right₀ (by norm_num) (by decide)
    rw [sqrt_fin binary64_ok hq0 ht]
    refine ⟨⟨_, _, rfl, rd_nonneg _ (sqrtMag_pos _ hq0).le⟩, ?_⟩
    rw [val_fin, if_neg (by decide), abs_sub_comm]
    refine (sqrt_err binary64 (by decide) hq0).trans ?_
    have hs := Real.sqrt_nonneg (q : ℝ)
    have hlog : binary64.emin ≤ Int.log 2 q / 2 := by
      have h3 : (2 : ℚ) ^ (-100 : ℤ) ≤ q := by
        have : (((2 : ℚ) ^ (-100 : ℤ) : ℚ) : ℝ) ≤ q := by
          refine le_trans (le_of_eq ?_) h1
          norm_num
        exact_mod_cast this
      have h4 : (-100 : ℤ) ≤ Int.log 2 q := (Int.zpow_le_iff_le_log (b := 2) (by norm_num) hq0).1 (by exact_mod_cast h3)
      have : binary64.emin ≤ -100 := by decide
      omega
    unfold halfUlp
    rw [max_eq_left hlog]
    obtain ⟨b1, -⟩ := sqrt_bounds hq0
    have h5 : ((2 : ℝ) ^ (Int.log 2 q / 2)) ≤ √(q : ℝ) := by
      apply Real.le_sqrt_of_sq_le
      rw [← zpow_natCast, ← zpow_mul, mul_comm]
      have : (((2 : ℚ) ^ (2 * (Int.log 2 q / 2)) : ℚ) : ℝ) ≤ q := by exact_mod_cast b1
      push_cast at this
      exact this
    push_cast
    rw [zpow_sub₀ (by norm_num), div_eq_mul_inv, div_eq_mul_inv]
    have e : ((2 : ℝ) ^ ((binary64.p : ℕ) : ℤ))⁻¹ ≤ ((2 : ℝ) ^ 50)⁻¹ := by
      simp only [binary64]; norm_num
    exact mul_le_mul h5 e (by positivity) hs
  · rw [if_pos rfl] at h1
    have : (0 : ℝ) ≤ q := by exact_mod_cast hq
    have : (0 : ℝ) < 1 / 2 ^ 100 := by norm_num
    linarith

/-! ### Power -/

/-- `math.Pow(10, y)` with error at most `δ` for exponents up to two. -/
def PowWithin (pow : FVal binary64 → FVal binary64 → FVal binary64) (δ : ℝ) : Prop :=
  ∀ x y : FVal binary64, Is x 10 → Finite y → |val y| ≤ 2 → Finite (pow x y) ∧ |val (pow x y) - (10 : ℝ) ^ val y| ≤ δ

theorem PowWithin.ok {pow} {δ : ℝ} (h : PowWithin pow δ) (hδ : δ ≤ 1 / 2 ^ 40) : PowOk pow :=
  fun x y h1 h2 h3 => ⟨(h x y h1 h2 h3).1, (h x y h1 h2 h3).2.trans hδ⟩

theorem log_ten : Real.log 10 ≤ 3 := by
  rw [Real.log_le_iff_le_exp (by norm_num)]
  have h := Real.quadratic_le_exp_of_nonneg (show (0 : ℝ) ≤ 3 / 2 by norm_num)
  have h3 : Real.exp 3 = Real.exp (3 / 2) ^ 2 := by rw [← Real.exp_nat_mul]; norm_num
  rw [h3]
  refine le_trans (by norm_num) (pow_le_pow_left₀ (by norm_num) h 2)

/-- Powers of ten of nearby exponents. -/
theorem pow_near {x y e : ℝ} (hx : |x| ≤ 1) (h : |y - x| ≤ e) (he : e ≤ 1 / 3) : |(10 : ℝ) ^ y - 10 ^ x| ≤ 60 * e := by
  have e1 : (10 : ℝ) ^ y = 10 ^ x * Real.exp (Real.log 10 * (y - x)) := by
    rw [← Real.rpow_def_of_pos (by norm_num), ← Real.rpow_add (by norm_num)]
    congr 1; ring
  have l0 : 0 ≤ Real.log 10 := Real.log_nonneg (by norm_num)
  have b1 : |Real.log 10 * (y - x)| ≤ 3 * e := by
    rw [abs_mul, abs_of_nonneg l0]
    exact mul_le_mul log_ten h (abs_nonneg _) (by norm_num)
  have b2 := Real.abs_exp_sub_one_le (x := Real.log 10 * (y - x)) (b1.trans (by linarith))
  have b3 : (10 : ℝ) ^ x ≤ 10 := by
    have := Real.rpow_le_rpow_of_exponent_le (show (1 : ℝ) ≤ 10 by norm_num) (abs_le.1 hx).2
    rwa [Real.rpow_one] at this
  have b4 : (0 : ℝ) < 10 ^ x := by positivity
  rw [e1, show (10 : ℝ) ^ x * Real.exp (Real.log 10 * (y - x)) - 10 ^ x = 10 ^ x * (Real.exp (Real.log 10 * (y - x)) - 1) by ring,
    abs_mul, abs_of_pos b4]
  have := mul_le_mul b3 (b2.trans (mul_le_mul_of_nonneg_left b1 (by norm_num))) (abs_nonneg _) (by norm_num)
  linarith

/-- Powers of ten for gains. -/
theorem pow_gain {x : ℝ} (hx : |x| ≤ 1) : 1 / 10 ≤ (10 : ℝ) ^ x ∧ (10 : ℝ) ^ x ≤ 10 := by
  obtain ⟨h1, h2⟩ := abs_le.1 hx
  have a := Real.rpow_le_rpow_of_exponent_le (show (1 : ℝ) ≤ 10 by norm_num) h2
  have b := Real.rpow_le_rpow_of_exponent_le (show (1 : ℝ) ≤ 10 by norm_num) h1
  rw [Real.rpow_one] at a
  rw [Real.rpow_neg (by norm_num), Real.rpow_one] at b
  exact ⟨by rw [one_div]; exact b, a⟩

/-- The computed `a` against the exact one. -/
theorem gain_near {sin cos sqrt pow} {δ : ℝ} (hp : PowWithin pow δ) {dB : FVal binary64} (h : GainOk dB) :
    let L := lib64 sin cos sqrt pow
    |val (L.pow (L.lit 10) (dB / L.lit 40)) - (10 : ℝ) ^ (val dB / 40)| ≤ δ + 1 / 2 ^ 46 := by
  intro L
  obtain ⟨l1, l1'⟩ := lit64 (sin := sin) (cos := cos) (sqrt := sqrt) (pow := pow) 40 (by norm_num)
  push_cast at l1'
  have hb : |val dB / 40| ≤ 1 := by
    rw [abs_div, abs_of_pos (show (0 : ℝ) < 40 by norm_num), div_le_one (by norm_num)]
    exact h.size
  obtain ⟨d1, d2⟩ := Dft.div_val binary64_ok h.fin l1 (by rw [l1']; norm_num)
    (by rw [l1']; exact hb.trans (le_trans (by norm_num) big64))
  rw [l1'] at d2
  have hu := mul_le_mul_of_nonneg_left hb (uR_pos binary64).le
  rw [uR64] at d2 hu
  have hw := wR64
  have d3 : |val (dB / (lib64 sin cos sqrt pow).lit 40 : FVal binary64) - val dB / 40| ≤ 1 / 2 ^ 52 := by
    norm_num at d2 hu hw ⊢
    linarith
  have hy : |val (dB / (lib64 sin cos sqrt pow).lit 40 : FVal binary64)| ≤ 2 := by
    obtain ⟨z1, z2⟩ := abs_le.1 d3
    obtain ⟨z3, z4⟩ := abs_le.1 hb
    rw [abs_le]
    norm_num at z1 z2
    constructor <;> linarith
  have i10 : Is (L.lit 10) 10 := by
    have := lib64_lit sin cos sqrt pow 10 (by norm_num)
    simpa using this
  obtain ⟨p1, p2⟩ := hp (L.lit 10) (dB / L.lit 40) i10 d1 hy
  have p3 := pow_near hb d3 (by norm_num)
  have := abs_sub_le (val (pow (L.lit 10) (dB / L.lit 40))) ((10 : ℝ) ^ val (dB / L.lit 40)) ((10 : ℝ) ^ (val dB / 40))
  change |val (pow (L.lit 10) (dB / L.lit 40)) - _| ≤ _
  change |(10 : ℝ) ^ val (dB / L.lit 40) - _| ≤ _ at p3
  norm_num at p3 this p2 ⊢
  linarith

/-! ### Errors of products, quotients and roots of real numbers -/

theorem prod_near {x y X Y e f M N : ℝ} (h1 : |x - X| ≤ e) (h2 : |y - Y| ≤ f) (hM : |x| ≤ M) (hN : |Y| ≤ N) :
    |x * y - X * Y| ≤ M * f + N * e := by
  rw [show x * y - X * Y = x * (y - Y) + Y * (x - X) by ring]
  refine (abs_add_le _ _).trans ?_
  rw [abs_mul, abs_mul]
  exact add_le_add (mul_le_mul hM h2 (abs_nonneg _) ((abs_nonneg _).trans hM))
    (mul_le_mul hN h1 (abs_nonneg _) ((abs_nonneg _).trans hN))

theorem inv_near {x X e : ℝ} (h : |x - X| ≤ e) (h1 : 1 / 16 ≤ x) (h2 : 1 / 10 ≤ X) : |1 / x - 1 / X| ≤ 160 * e := by
  have x0 : 0 < x := by linarith
  have X0 : 0 < X := by linarith
  have e0 : 0 ≤ e := (abs_nonneg _).trans h
  rw [div_sub_div _ _ x0.ne' X0.ne', abs_div, abs_of_pos (mul_pos x0 X0), div_le_iff₀ (mul_pos x0 X0), one_mul, mul_one,
    abs_sub_comm]
  have : 1 / 16 * (1 / 10) ≤ x * X := mul_le_mul h1 h2 (by norm_num) x0.le
  have := mul_le_mul_of_nonneg_left this e0
  linarith

theorem root_near {x X e m : ℝ} (h : |x - X| ≤ e) (hm : 0 < m) (h1 : m ≤ √x + √X) (hx : 0 ≤ x) (hX : 0 ≤ X) :
    |√x - √X| ≤ e / m := by
  rw [le_div_iff₀ hm]
  have : |√x - √X| * (√x + √X) = |x - X| := by
    rw [← abs_of_pos (lt_of_lt_of_le hm h1), ← abs_mul]
    congr 1
    have a := Real.mul_self_sqrt hx
    have b := Real.mul_self_sqrt hX
    linear_combination a - b
  have := mul_le_mul_of_nonneg_left h1 (abs_nonneg (√x - √X))
  linarith

/-! ### Shelves -/

/-- The parts of a shelf as computed, against exact ones: `d` is the error of the gain, `Z` the inverse of the slope. -/
structure ShelfNear (a c sa al : FVal binary64) (A C SA AL d Z : ℝ) : Prop where
  fin : Finite a ∧ Finite c ∧ Finite sa ∧ Finite al
  a_near : |val a - A| ≤ d
  c_near : |val c - C| ≤ d
  sa_near : |val sa - SA| ≤ 3 * d
  al_near : |val al - AL| ≤ 70 * Z * d
  a_size : |val a| ≤ 16 ∧ |A| ≤ 10
  c_size : |val c| ≤ 1 ∧ |C| ≤ 1
  sa_size : |val sa| ≤ 5 ∧ |SA| ≤ 4
  al_size : |val al| ≤ 3 * Z ∧ |AL| ≤ 2 * Z

namespace Shelf
open Expr
variable {sin cos sqrt : FVal binary64 → FVal binary64} {pow : FVal binary64 → FVal binary64 → FVal binary64}

/-- The radicand as computed. -/
theorem radicand_near {a slope X : FVal binary64} {A d : ℝ} (hd : 1 / 2 ^ 46 ≤ d) (hd2 : d ≤ 1 / 2 ^ 38) (ha : Finite a)
    (a1 : 1 / 16 ≤ val a) (a2 : val a ≤ 16) (hs : ShelfOk slope) (hA1 : 1 / 10 ≤ A) (hA2 : A ≤ 10) (haA : |val a - A| ≤ d)
    (hX : Eval (radicand (lib64 sin cos sqrt pow) a slope) X) :
    |val X - ((A + 1 / A) * (1 / val slope - 1) + 2)| ≤ 220 * (1 / val slope) * d := by
  have ha0 : 0 < val a := lt_of_lt_of_le (by norm_num) a1
  have hA0 : 0 < A := lt_of_lt_of_le (by norm_num) hA1
  have hs0 : 0 < val slope := lt_of_lt_of_le (by norm_num) hs.low
  obtain ⟨o1, o2⟩ := lit64 (sin := sin) (cos := cos) (sqrt := sqrt) (pow := pow) 1 (by norm_num)
  obtain ⟨t1, t2⟩ := lit64 (sin := sin) (cos := cos) (sqrt := sqrt) (pow := pow) 2 (by norm_num)
  push_cast at o2 t2
  have Z1 : 1 ≤ 1 / val slope := by rw [le_div_iff₀ hs0, one_mul]; exact hs.high
  have Z2 : 1 / val slope ≤ 2 ^ 10 := (one_div_le_one_div_of_le (by norm_num) hs.low).trans (by norm_num)
  have i16 : 1 / val a ≤ 16 := (one_div_le_one_div_of_le (by norm_num) a1).trans (by norm_num)
  have i10 : 1 / A ≤ 10 := (one_div_le_one_div_of_le (by norm_num) hA1).trans (by norm_num)
  have y1 := Dft.div_val binary64_ok o1 ha ha0.ne' (by
    rw [o2, abs_of_pos (by positivity)]; exact i16.trans (le_trans (by norm_num) big64))
  have z1 := Dft.div_val binary64_ok o1 hs.fin hs0.ne' (by
    rw [o2, abs_of_pos (by positivity)]; exact Z2.trans (le_trans (by norm_num) big64))
  rw [o2, uR64, abs_of_pos (show 0 < 1 / val a by positivity)] at y1
  rw [o2, uR64, abs_of_pos (show 0 < 1 / val slope by positivity)] at z1
  have hinv := inv_near haA a1 hA1
  set L := lib64 sin cos sqrt pow with hL
  set y := L.lit 1 / a with hy
  set z := L.lit 1 / slope with hz
  have i0 : 0 < 1 / val a := by positivity
  have j0 : 0 < 1 / A := by positivity
  generalize 1 / val slope = Z at *
  generalize 1 / val a = ia at *
  generalize 1 / A = iA at *
  have hw := wR64
  have hZd : d ≤ Z * d := by
    have := mul_le_mul_of_nonneg_right Z1 (le_trans (by norm_num) hd : 0 ≤ d)
    linarith
  have hZu : Z * (1 / 2 ^ 46) ≤ Z * d := mul_le_mul_of_nonneg_left hd (by linarith)
  have y2 : |val y - iA| ≤ 161 * d := by
    have := abs_sub_le (val y) ia iA
    have y12 := y1.2
    norm_num at y12 hw hd ⊢
    linarith
  have z2 : |val z - Z| ≤ Z * d := by
    have z12 := z1.2
    norm_num at z12 hw hZu ⊢
    linarith
  have zs : |val z| ≤ 2 * Z := by
    obtain ⟨h1, h2⟩ := abs_le.1 z2
    have : Z * d ≤ Z * 1 := mul_le_mul_of_nonneg_left (hd2.trans (by norm_num)) (by linarith)
    rw [abs_le]
    constructor <;> linarith
  have ys : |val y| ≤ 17 := by
    obtain ⟨h1, h2⟩ := abs_le.1 y2
    norm_num at hd2
    rw [abs_le]
    constructor <;> linarith
  have ba : Bd (.leaf a) 16 0 := bd_leaf ha (by rw [abs_of_pos ha0]; exact a2)
  have bo : Bd (.leaf (L.lit 1)) 1 0 := bd_leaf o1 (by rw [o2, abs_one])
  have bt : Bd (.leaf (L.lit 2)) 2 0 := bd_leaf t1 (by rw [t2, abs_two])
  have by' : Bd (.leaf y) 17 0 := bd_leaf y1.1 ys
  have bz : Bd (.leaf z) (2 * Z) 0 := bd_leaf z1.1 zs
  norm_num at Z2 hZu
  have q1 := add64 ba by' (by norm_num) (S' := 42) (by norm_num) (E' := 1 / 2 ^ 47) (by norm_num)
  have q2 := sub64 bz bo (by norm_num; linarith) (S' := 4 * Z) (by norm_num; linarith) (E' := Z * (1 / 2 ^ 51))
    (by norm_num; linarith)
  have q3 := mul64 q1 q2 (by norm_num; linarith) (S' := 211 * Z) (by norm_num; linarith) (E' := Z * (1 / 2 ^ 43))
    (by norm_num; linarith)
  have q4 := add64 q3 bt (by norm_num; linarith) (S' := 300 * Z) (by norm_num; linarith) (E' := Z * (1 / 2 ^ 42))
    (by norm_num; linarith)
  obtain ⟨r0, r1⟩ := q4.eval binary64_ok hX
  change |val X - ((val a + val y) * (val z - val (L.lit 1)) + val (L.lit 2))| ≤ _ at r1
  rw [o2, t2] at r1
  have s1 : |(val a + val y) - (A + iA)| ≤ 162 * d := by
    rw [show (val a + val y) - (A + iA) = (val a - A) + (val y - iA) by ring]
    refine (abs_add_le _ _).trans ?_
    linarith
  have s2 : |(val z - 1) - (Z - 1)| ≤ Z * d := by
    rw [show (val z - 1) - (Z - 1) = val z - Z by ring]
    exact z2
  have s3 := prod_near s1 s2 (M := 33) (by
    obtain ⟨h1, h2⟩ := abs_le.1 ys
    rw [abs_le]
    constructor <;> linarith) (N := Z) (by rw [abs_of_nonneg (by linarith)]; linarith)
  have s4 := abs_sub_le (val X) ((val a + val y) * (val z - 1) + 2) ((A + iA) * (Z - 1) + 2)
  rw [show (val a + val y) * (val z - 1) + 2 - ((A + iA) * (Z - 1) + 2) = (val a + val y) * (val z - 1) - (A + iA) * (Z - 1) by ring]
    at s4
  norm_num at r1
  linarith

/-- All parts of a shelf. -/
theorem near_parts {η δ : ℝ} (hη : η ≤ 1 / 2 ^ 50) (hT : Dft.Trig cos sin 4 η) (hp : PowWithin pow δ) (hδ0 : 0 ≤ δ)
    (hδ : δ ≤ 1 / 2 ^ 40) (hsq : SqrtOk sqrt) {fs f slope dB X : FVal binary64} (h : FreqOk64 10 fs f) (hs : ShelfOk slope)
    (hg : GainOk dB) :
    let L := lib64 sin cos sqrt pow
    let w := L.w0 fs f
    let a := L.pow (L.lit 10) (dB / L.lit 40)
    let A := (10 : ℝ) ^ (val dB / 40)
    let W := 2 * Real.pi * val f / val fs
    Eval (radicand L a slope) X → ShelfNear a (cos w) (sqrt a) (sin w / L.lit 2 * sqrt X) A (Real.cos W) √A
      (Real.sin W / 2 * √((A + 1 / A) * (1 / val slope - 1) + 2)) (δ + 1 / 2 ^ 46) (1 / val slope) := by
  intro L w a A W hX
  obtain ⟨⟨c1, -, c3, c4⟩, s1, s2, s3, s4⟩ := lib_margin (sqrt := sqrt) (pow := pow) hη hT (show 10 ≤ 20 by norm_num) h
  obtain ⟨g1, g2, g3⟩ := gain_val (sin := sin) (cos := cos) (sqrt := sqrt) (hp.ok hδ) hg
  have g4 := gain_near (sin := sin) (cos := cos) (sqrt := sqrt) hp hg
  have hA : |val dB / 40| ≤ 1 := by
    rw [abs_div, abs_of_pos (show (0 : ℝ) < 40 by norm_num), div_le_one (by norm_num)]
    exact hg.size
  obtain ⟨A1, A2⟩ := pow_gain hA
  obtain ⟨x1, x2, x3⟩ := radicand_val g1 g2 g3 hs hX
  have hd1 : 1 / 2 ^ 46 ≤ δ + 1 / 2 ^ 46 := by linarith
  have hd2 : δ + 1 / 2 ^ 46 ≤ 1 / 2 ^ 38 := by norm_num at hδ ⊢; linarith
  have x4 := radicand_near hd1 hd2 g1 g2 g3 hs A1 A2 g4 hX
  have hs0 : 0 < val slope := lt_of_lt_of_le (by norm_num) hs.low
  have Z1 : 1 ≤ 1 / val slope := by rw [le_div_iff₀ hs0, one_mul]; exact hs.high
  have Z2 : 1 / val slope ≤ 2 ^ 10 := (one_div_le_one_div_of_le (by norm_num) hs.low).trans (by norm_num)
  obtain ⟨t1, t2⟩ := lit64 (sin := sin) (cos := cos) (sqrt := sqrt) (pow := pow) 2 (by norm_num)
  push_cast at t2
  change Finite (cos w) at c1
  change |val (cos w)| ≤ _ at c3
  change |val (cos w) - Real.cos W| ≤ _ at c4
  change Finite (sin w) at s1
  change _ ≤ val (sin w) at s2
  change val (sin w) ≤ 2 at s3
  change |val (sin w) - Real.sin W| ≤ _ at s4
  change Finite a at g1
  change _ ≤ val a at g2
  change val a ≤ _ at g3
  change |val a - A| ≤ _ at g4
  change 1 / 10 ≤ A at A1
  change A ≤ 10 at A2
  change |val X - ((A + 1 / A) * (1 / val slope - 1) + 2)| ≤ _ at x4
  have A0 : 0 < A := lt_of_lt_of_le (by norm_num) A1
  have hAi : A + 1 / A ≤ 101 / 10 := by
    rw [← sub_nonneg]
    have : 101 / 10 - (A + 1 / A) = (10 - A) * (A - 1 / 10) / A := by field_simp; ring
    rw [this]
    exact div_nonneg (mul_nonneg (by linarith) (by linarith)) A0.le
  have hAi0 : 0 < A + 1 / A := by positivity
  generalize 1 / val slope = Z at *
  generalize δ + 1 / 2 ^ 46 = d at *
  have hZd : d ≤ Z * d := by
    have := mul_le_mul_of_nonneg_right Z1 (le_trans (by norm_num) hd1 : 0 ≤ d)
    linarith
  have hZu : Z * (1 / 2 ^ 46) ≤ Z * d := mul_le_mul_of_nonneg_left hd1 (by linarith)
  have hZd2 : Z * d ≤ Z * (1 / 2 ^ 38) := mul_le_mul_of_nonneg_left hd2 (by linarith)
  have d0 : 0 < d := lt_of_lt_of_le (by norm_num) hd1
  -- the radicand
  have P0 : 0 ≤ (A + 1 / A) * (Z - 1) := mul_nonneg hAi0.le (by linarith)
  have P1 : (A + 1 / A) * (Z - 1) ≤ 101 / 10 * (Z - 1) := mul_le_mul_of_nonneg_right hAi (by linarith)
  generalize (A + 1 / A) * (Z - 1) = P at *
  have R2 : √(P + 2) ≤ 4 * Z := by
    rw [Real.sqrt_le_left (by linarith)]
    nlinarith
  have R1 : 1 ≤ √(P + 2) := Real.le_sqrt_of_sq_le (by linarith)
  have X1 : 1 ≤ √(val X) := Real.le_sqrt_of_sq_le (by linarith)
  have k1 := root_near x4 (m := 2) (by norm_num) (by linarith) (by linarith) (by linarith)
  obtain ⟨v1, v2⟩ := hsq X x1 (le_trans (by norm_num) x2) (x3.trans (by norm_num))
  -- its root
  have X2 : √(val X) ≤ 5 * Z := by
    have := (abs_le.1 k1).2
    norm_num at hZd2
    linarith
  have k2 : |val (sqrt X) - √(P + 2)| ≤ 111 * Z * d := by
    have := abs_sub_le (val (sqrt X)) √(val X) √(P + 2)
    norm_num at v2 hZu
    linarith
  have X3 : |val (sqrt X)| ≤ 5 * Z := by
    have := abs_le.1 k2
    norm_num at hZd2
    rw [abs_le]
    constructor <;> linarith
  -- half of the sine
  obtain ⟨h1, h2⟩ := near_half s1 t1 t2 s4 (B := 2) (by rw [abs_of_pos (lt_of_lt_of_le (by norm_num) s2)]; exact s3) (by norm_num)
  change Finite (sin w / L.lit 2) at h1
  change |val (sin w / L.lit 2) - Real.sin W / 2| ≤ _ at h2
  have sW := Real.abs_sin_le_one W
  have h3 : |val (sin w / L.lit 2) - Real.sin W / 2| ≤ d := by
    norm_num at h2 hd1
    linarith
  have h4 : |val (sin w / L.lit 2)| ≤ 51 / 100 := by
    have := abs_le.1 h3
    have := abs_le.1 sW
    norm_num at hd2
    rw [abs_le]
    constructor <;> linarith
  have sqp : 0 ≤ √(P + 2) := Real.sqrt_nonneg _
  have k3 := prod_near h3 k2 h4 (N := 4 * Z) (by rw [abs_of_nonneg sqp]; exact R2)
  have m1 : |val (sin w / L.lit 2) * val (sqrt X)| ≤ 51 / 100 * (5 * Z) := by
    rw [abs_mul]
    exact mul_le_mul h4 X3 (abs_nonneg _) (by norm_num)
  have hw := wR64
  obtain ⟨n1, n2⟩ := mul_val binary64_ok h1 v1 (m1.trans (le_trans (by norm_num at Z2 ⊢; linarith) big64))
  have hu := mul_le_mul_of_nonneg_left m1 (uR_pos binary64).le
  rw [uR64] at n2 hu
  have AL : |val (sin w / L.lit 2 * sqrt X) - Real.sin W / 2 * √(P + 2)| ≤ 70 * Z * d := by
    have := abs_sub_le (val (sin w / L.lit 2 * sqrt X)) (val (sin w / L.lit 2) * val (sqrt X)) (Real.sin W / 2 * √(P + 2))
    norm_num at n2 hu hw hZu hd1
    linarith
  have AL2 : |Real.sin W / 2 * √(P + 2)| ≤ 2 * Z := by
    rw [abs_mul, abs_div, abs_two, abs_of_nonneg sqp]
    have := mul_le_mul (show |Real.sin W| / 2 ≤ 1 / 2 by linarith) R2 sqp (by norm_num)
    linarith
  -- the root of the gain
  obtain ⟨u1, u2⟩ := hsq a g1 (le_trans (by norm_num) g2) (g3.trans (by norm_num))
  have a1 : 1 / 4 ≤ √(val a) := Real.le_sqrt_of_sq_le (le_trans (by norm_num) g2)
  have a2 : √(val a) ≤ 4 := (Real.sqrt_le_left (by norm_num)).2 (g3.trans (by norm_num))
  have b1 : 1 / 4 ≤ √A := Real.le_sqrt_of_sq_le (le_trans (by norm_num) A1)
  have b2 : √A ≤ 4 := (Real.sqrt_le_left (by norm_num)).2 (A2.trans (by norm_num))
  have k4 := root_near g4 (m := 1 / 2) (by norm_num) (by linarith) (by linarith) A0.le
  have SA : |val (sqrt a) - √A| ≤ 3 * d := by
    have := abs_sub_le (val (sqrt a)) √(val a) √A
    norm_num at u2 hd1
    linarith
  refine ⟨⟨g1, c1, u1, n1⟩, g4, c4.trans (le_trans (by norm_num) hd1), SA, AL, ⟨?_, ?_⟩, ⟨c3.trans (by norm_num), Real.abs_cos_le_one W⟩,
    ⟨?_, ?_⟩, ?_, AL2⟩
  · rw [abs_of_pos (by linarith)]; exact g3
  · rw [abs_of_pos A0]; exact A2
  · have := abs_le.1 SA
    norm_num at hd2
    rw [abs_le]; constructor <;> linarith
  · rw [abs_of_nonneg (by linarith)]; exact b2
  · have := abs_le.1 AL
    have := abs_le.1 AL2
    norm_num at hZd2
    rw [abs_le]; constructor <;> linarith

/-- A sign. -/
def sg (b : Bool) : ℝ := if b then 1 else -1

theorem abs_sg (b : Bool) : |sg b| = 1 := by cases b <;> simp [sg]

section
variable {a c sa al : FVal binary64} {A C SA AL d Z : ℝ}

/-- The parts of the sums, with the error of every operation. -/
theorem near_bd (h : ShelfNear a c sa al A C SA AL d Z) (Z1 : 1 ≤ Z) (Z2 : Z ≤ 2 ^ 10) :
    let L := lib64 sin cos sqrt pow
    Bd (Expr.leaf a + .leaf (L.lit 1)) 22 (1 / 2 ^ 48) ∧ Bd (Expr.leaf a - .leaf (L.lit 1)) 22 (1 / 2 ^ 48) ∧
    Bd ((Expr.leaf a - .leaf (L.lit 1)) * .leaf c) 28 (1 / 2 ^ 46) ∧
    Bd ((Expr.leaf a + .leaf (L.lit 1)) * .leaf c) 28 (1 / 2 ^ 46) ∧
    Bd (Expr.leaf (L.lit 2) * .leaf sa * .leaf al) (49 * Z) (Z * (1 / 2 ^ 46)) := by
  intro L
  obtain ⟨⟨fa, fc, fsa, fal⟩, -, -, -, -, ⟨a2, -⟩, ⟨c1, -⟩, ⟨s2, -⟩, l2, -⟩ := h
  obtain ⟨o1, o2⟩ := lit64 (sin := sin) (cos := cos) (sqrt := sqrt) (pow := pow) 1 (by norm_num)
  obtain ⟨t1, t2⟩ := lit64 (sin := sin) (cos := cos) (sqrt := sqrt) (pow := pow) 2 (by norm_num)
  push_cast at o2 t2
  have ba : Bd (.leaf a) 16 0 := bd_leaf fa a2
  have bo : Bd (.leaf (L.lit 1)) 1 0 := bd_leaf o1 (by change |val ((lib64 sin cos sqrt pow).lit 1)| ≤ 1; rw [o2, abs_one])
  have bt : Bd (.leaf (L.lit 2)) 2 0 := bd_leaf t1 (by change |val ((lib64 sin cos sqrt pow).lit 2)| ≤ 2; rw [t2, abs_two])
  have bc : Bd (.leaf c) 1 0 := bd_leaf fc c1
  have bs : Bd (.leaf sa) 5 0 := bd_leaf fsa s2
  have bl : Bd (.leaf al) (3 * Z) 0 := bd_leaf fal l2
  have x1 : Bd (Expr.leaf a + .leaf (L.lit 1)) 22 (1 / 2 ^ 48) := add64 ba bo (by norm_num) (by norm_num) (by norm_num)
  have x2 : Bd (Expr.leaf a - .leaf (L.lit 1)) 22 (1 / 2 ^ 48) := sub64 ba bo (by norm_num) (by norm_num) (by norm_num)
  have x4 : Bd (Expr.leaf (L.lit 2) * .leaf sa) (51 / 4) (1 / 2 ^ 49) :=
    mul64 bt bs (by norm_num) (by norm_num) (by norm_num)
  norm_num at Z2
  exact ⟨x1, x2, mul64 x2 bc (by norm_num) (by norm_num) (by norm_num), mul64 x1 bc (by norm_num) (by norm_num) (by norm_num),
    mul64 x4 bl (by norm_num; linarith) (by norm_num; linarith) (by norm_num; linarith)⟩

/-- The sums `(a+1) ± (a-1)*cos ± temp`, over real numbers. -/
theorem sum_exact (h : ShelfNear a c sa al A C SA AL d Z) (Z1 : 1 ≤ Z) (s u : Bool) :
    |((val a + 1) + sg s * ((val a - 1) * val c) + sg u * (2 * val sa * val al))
      - ((A + 1) + sg s * ((A - 1) * C) + sg u * (2 * SA * AL))| ≤ 740 * Z * d := by
  obtain ⟨-, h1, h2, h3, h4, ⟨a1, a2⟩, ⟨c1, c2⟩, ⟨s1, s2⟩, l1, l2⟩ := h
  have d0 : 0 ≤ d := (abs_nonneg _).trans h1
  have hZd : d ≤ Z * d := by nlinarith
  have p1 := prod_near (x := val a - 1) (X := A - 1) (e := d) (by rw [sub_sub_sub_cancel_right]; exact h1) h2 (M := 17)
    (by have := abs_le.1 a1; rw [abs_le]; constructor <;> linarith) c2
  have p2 := prod_near h3 h4 s1 l2
  have e : ((val a + 1) + sg s * ((val a - 1) * val c) + sg u * (2 * val sa * val al))
      - ((A + 1) + sg s * ((A - 1) * C) + sg u * (2 * SA * AL)) = (val a - A) + sg s * ((val a - 1) * val c - (A - 1) * C)
        + sg u * (2 * (val sa * val al - SA * AL)) := by ring
  rw [e]
  refine (abs_add_le _ _).trans ?_
  have q := abs_add_le (val a - A) (sg s * ((val a - 1) * val c - (A - 1) * C))
  rw [abs_mul, abs_sg, one_mul] at q ⊢
  rw [abs_mul, abs_two]
  linarith

/-- The sums `(a-1) ± (a+1)*cos`, over real numbers. -/
theorem sum1_exact (h : ShelfNear a c sa al A C SA AL d Z) (s : Bool) :
    |((val a - 1) + sg s * ((val a + 1) * val c)) - ((A - 1) + sg s * ((A + 1) * C))| ≤ 19 * d := by
  obtain ⟨-, h1, h2, -, -, ⟨a1, a2⟩, ⟨c1, c2⟩, -, -⟩ := h
  have p1 := prod_near (x := val a + 1) (X := A + 1) (e := d) (by rw [add_sub_add_right_eq_sub]; exact h1) h2 (M := 17)
    (by have := abs_le.1 a1; rw [abs_le]; constructor <;> linarith) c2
  have e : ((val a - 1) + sg s * ((val a + 1) * val c)) - ((A - 1) + sg s * ((A + 1) * C)) = (val a - A)
      + sg s * ((val a + 1) * val c - (A + 1) * C) := by ring
  rw [e]
  refine (abs_add_le _ _).trans ?_
  rw [abs_mul, abs_sg]
  linarith

theorem size_exact (h : ShelfNear a c sa al A C SA AL d Z) (Z1 : 1 ≤ Z) (s u : Bool) :
    |(A + 1) + sg s * ((A - 1) * C) + sg u * (2 * SA * AL)| ≤ 40 * Z := by
  obtain ⟨-, -, -, -, -, ⟨-, a2⟩, ⟨-, c2⟩, ⟨-, s2⟩, -, l2⟩ := h
  have p1 : |(A - 1) * C| ≤ 11 * 1 := by
    rw [abs_mul]
    exact mul_le_mul (by have := abs_le.1 a2; rw [abs_le]; constructor <;> linarith) c2 (abs_nonneg _) (by norm_num)
  have p2 : |SA * AL| ≤ 4 * (2 * Z) := by
    rw [abs_mul]
    exact mul_le_mul s2 l2 (abs_nonneg _) (by norm_num)
  refine (abs_add_le _ _).trans ?_
  have q := abs_add_le (A + 1) (sg s * ((A - 1) * C))
  rw [abs_mul, abs_sg, one_mul] at q ⊢
  rw [mul_assoc, abs_mul, abs_two]
  have : |A + 1| ≤ 11 := by have := abs_le.1 a2; rw [abs_le]; constructor <;> linarith
  linarith

theorem size1_exact (h : ShelfNear a c sa al A C SA AL d Z) (s : Bool) : |(A - 1) + sg s * ((A + 1) * C)| ≤ 22 := by
  obtain ⟨-, -, -, -, -, ⟨-, a2⟩, ⟨-, c2⟩, -, -⟩ := h
  have p1 : |(A + 1) * C| ≤ 11 * 1 := by
    rw [abs_mul]
    exact mul_le_mul (by have := abs_le.1 a2; rw [abs_le]; constructor <;> linarith) c2 (abs_nonneg _) (by norm_num)
  refine (abs_add_le _ _).trans ?_
  rw [abs_mul, abs_sg]
  have : |A - 1| ≤ 11 := by have := abs_le.1 a2; rw [abs_le]; constructor <;> linarith
  linarith

/-- A coefficient `(a+1) ± (a-1)*cos ± temp` and the same times `a`, computed with any fusing. -/
theorem coeff {e : Expr binary64} (h : ShelfNear a c sa al A C SA AL d Z) (Z1 : 1 ≤ Z) (Z2 : Z ≤ 2 ^ 10) (hd : 1 / 2 ^ 46 ≤ d)
    (s u : Bool) (he : Bd e (141 * Z) (Z * (1 / 2 ^ 43)))
    (hx : e.exact = (val a + 1) + sg s * ((val a - 1) * val c) + sg u * (2 * val sa * val al)) :
    (∀ v, Eval e v → Finite v ∧ |val v - ((A + 1) + sg s * ((A - 1) * C) + sg u * (2 * SA * AL))| ≤ 2 ^ 14 * d * Z) ∧
    ∀ v, Eval (.leaf a * e) v →
      Finite v ∧ |val v - A * ((A + 1) + sg s * ((A - 1) * C) + sg u * (2 * SA * AL))| ≤ 2 ^ 14 * d * Z := by
  have s1 := sum_exact h Z1 s u
  have s2 := size_exact h Z1 s u
  rw [← hx] at s1
  generalize (A + 1) + sg s * ((A - 1) * C) + sg u * (2 * SA * AL) = E at *
  have hZu : Z * (1 / 2 ^ 46) ≤ Z * d := mul_le_mul_of_nonneg_left hd (by linarith)
  have d0 : 0 ≤ Z * d := le_trans (by positivity) hZu
  norm_num at hZu
  constructor
  · intro v hv
    obtain ⟨r0, r1⟩ := he.eval binary64_ok hv
    refine ⟨r0, ?_⟩
    have := abs_sub_le (val v) e.exact E
    norm_num at r1 this ⊢
    linarith
  · intro v hv
    norm_num at Z2
    obtain ⟨⟨fa, -⟩, an, -, -, -, ⟨a1, -⟩, -⟩ := h
    have b := mul64 (bd_leaf fa a1) he (by norm_num; linarith) (S' := 3000 * Z) (by norm_num; linarith)
      (E' := Z * (1 / 2 ^ 38)) (by norm_num; linarith)
    obtain ⟨r0, r1⟩ := b.eval binary64_ok hv
    refine ⟨r0, ?_⟩
    change |val v - val a * e.exact| ≤ _ at r1
    have k := prod_near an s1 a1 s2
    have := abs_sub_le (val v) (val a * e.exact) (A * E)
    norm_num at r1 this k ⊢
    linarith

/-- A coefficient `±2 * ((a-1) ± (a+1)*cos)` and the same with `±2*a`, computed with any fusing. -/
theorem coeff1 {e : Expr binary64} {t : FVal binary64} {T : ℝ} (ht : Finite t ∧ val t = T) (hT : |T| = 2)
    (h : ShelfNear a c sa al A C SA AL d Z) (Z1 : 1 ≤ Z) (hd : 1 / 2 ^ 46 ≤ d)
    (s : Bool) (he : Bd e 64 (1 / 2 ^ 44)) (hx : e.exact = (val a - 1) + sg s * ((val a + 1) * val c)) :
    (∀ v, Eval (.leaf t * e) v → Finite v ∧ |val v - T * ((A - 1) + sg s * ((A + 1) * C))| ≤ 2 ^ 14 * d * Z) ∧
    ∀ v, Eval (.leaf t * .leaf a * e) v →
      Finite v ∧ |val v - T * A * ((A - 1) + sg s * ((A + 1) * C))| ≤ 2 ^ 14 * d * Z := by
  have s1 := sum1_exact h s
  have s2 := size1_exact h s
  rw [← hx] at s1
  generalize (A - 1) + sg s * ((A + 1) * C) = E at *
  have d0 : 0 ≤ d := le_trans (by norm_num) hd
  have hZd : d ≤ d * Z := by nlinarith
  norm_num at hd
  have bt : Bd (.leaf t) 2 0 := bd_leaf ht.1 (by rw [ht.2, hT])
  obtain ⟨⟨fa, -⟩, an, -, -, -, ⟨a1, -⟩, -⟩ := h
  constructor
  · intro v hv
    have b := mul64 bt he (by norm_num) (S' := 161) (by norm_num) (E' := 1 / 2 ^ 42) (by norm_num)
    obtain ⟨r0, r1⟩ := b.eval binary64_ok hv
    refine ⟨r0, ?_⟩
    change |val v - val t * e.exact| ≤ _ at r1
    rw [ht.2] at r1
    have k : |T * e.exact - T * E| ≤ 2 * (19 * d) := by
      rw [← mul_sub, abs_mul, hT]
      linarith
    have := abs_sub_le (val v) (T * e.exact) (T * E)
    norm_num at r1 this k ⊢
    linarith
  · intro v hv
    have b1 := mul64 bt (bd_leaf fa a1) (by norm_num) (S' := 41) (by norm_num) (E' := 1 / 2 ^ 47) (by norm_num)
    have b := mul64 b1 he (by norm_num) (S' := 3300) (by norm_num) (E' := 1 / 2 ^ 38) (by norm_num)
    obtain ⟨r0, r1⟩ := b.eval binary64_ok hv
    refine ⟨r0, ?_⟩
    change |val v - val t * val a * e.exact| ≤ _ at r1
    rw [ht.2] at r1
    have k := prod_near (x := T * val a) (X := T * A) (e := 2 * d) (by
      rw [← mul_sub, abs_mul, hT]; linarith) s1 (M := 32) (by rw [abs_mul, hT]; linarith) s2
    have := abs_sub_le (val v) (T * val a * e.exact) (T * A * E)
    norm_num at r1 this k ⊢
    linarith

/-- The sums of the low and the high shelf. -/
theorem sums_bd (h : ShelfNear a c sa al A C SA AL d Z) (Z1 : 1 ≤ Z) (Z2 : Z ≤ 2 ^ 10) (u : Bool) :
    let L := lib64 sin cos sqrt pow
    (Bd (lowA L u a c sa al) (141 * Z) (Z * (1 / 2 ^ 43)) ∧
      (lowA L u a c sa al).exact = (val a + 1) + sg true * ((val a - 1) * val c) + sg u * (2 * val sa * val al)) ∧
    (Bd (highA L u a c sa al) (141 * Z) (Z * (1 / 2 ^ 43)) ∧
      (highA L u a c sa al).exact = (val a + 1) + sg false * ((val a - 1) * val c) + sg u * (2 * val sa * val al)) := by
  intro L
  obtain ⟨b1, b2, b3, b4, b5⟩ := near_bd (sin := sin) (cos := cos) (sqrt := sqrt) (pow := pow) h Z1 Z2
  obtain ⟨o1, o2⟩ := lit64 (sin := sin) (cos := cos) (sqrt := sqrt) (pow := pow) 1 (by norm_num)
  obtain ⟨t1, t2⟩ := lit64 (sin := sin) (cos := cos) (sqrt := sqrt) (pow := pow) 2 (by norm_num)
  push_cast at o2 t2
  norm_num at Z2
  have p1 := add64 b1 b3 (by norm_num) (S' := 63) (by norm_num) (E' := 1 / 2 ^ 44) (by norm_num)
  have p2 := sub64 b1 b3 (by norm_num) (S' := 63) (by norm_num) (E' := 1 / 2 ^ 44) (by norm_num)
  cases u
  · refine ⟨⟨sub64 p1 b5 (by norm_num; linarith) (by norm_num; linarith) (by norm_num; linarith), ?_⟩,
      sub64 p2 b5 (by norm_num; linarith) (by norm_num; linarith) (by norm_num; linarith), ?_⟩
    · change (val a + val (L.lit 1)) + (val a - val (L.lit 1)) * val c - val (L.lit 2) * val sa * val al = _
      rw [o2, t2]; simp only [sg]; norm_num; ring
    · change (val a + val (L.lit 1)) - (val a - val (L.lit 1)) * val c - val (L.lit 2) * val sa * val al = _
      rw [o2, t2]; simp only [sg]; norm_num; ring
  · refine ⟨⟨add64 p1 b5 (by norm_num; linarith) (by norm_num; linarith) (by norm_num; linarith), ?_⟩,
      add64 p2 b5 (by norm_num; linarith) (by norm_num; linarith) (by norm_num; linarith), ?_⟩
    · change (val a + val (L.lit 1)) + (val a - val (L.lit 1)) * val c + val (L.lit 2) * val sa * val al = _
      rw [o2, t2]; simp only [sg]; norm_num
    · change (val a + val (L.lit 1)) - (val a - val (L.lit 1)) * val c + val (L.lit 2) * val sa * val al = _
      rw [o2, t2]; simp only [sg]; norm_num; ring

/-- `(a-1) + (a+1)*cos` and `(a-1) - (a+1)*cos`. -/
theorem sums1_bd (h : ShelfNear a c sa al A C SA AL d Z) (Z1 : 1 ≤ Z) (Z2 : Z ≤ 2 ^ 10) :
    let L := lib64 sin cos sqrt pow
    let p := (Expr.leaf a - .leaf (L.lit 1)) + (Expr.leaf a + .leaf (L.lit 1)) * .leaf c
    let m := (Expr.leaf a - .leaf (L.lit 1)) - (Expr.leaf a + .leaf (L.lit 1)) * .leaf c
    (Bd p 64 (1 / 2 ^ 44) ∧ p.exact = (val a - 1) + sg true * ((val a + 1) * val c)) ∧
    (Bd m 64 (1 / 2 ^ 44) ∧ m.exact = (val a - 1) + sg false * ((val a + 1) * val c)) := by
  intro L p m
  obtain ⟨b1, b2, b3, b4, b5⟩ := near_bd (sin := sin) (cos := cos) (sqrt := sqrt) (pow := pow) h Z1 Z2
  obtain ⟨o1, o2⟩ := lit64 (sin := sin) (cos := cos) (sqrt := sqrt) (pow := pow) 1 (by norm_num)
  push_cast at o2
  refine ⟨⟨add64 b2 b4 (by norm_num) (by norm_num) (by norm_num), ?_⟩,
    sub64 b2 b4 (by norm_num) (by norm_num) (by norm_num), ?_⟩
  · change (val a - val (L.lit 1)) + (val a + val (L.lit 1)) * val c = _
    rw [o2]; simp only [sg]; norm_num
  · change (val a - val (L.lit 1)) - (val a + val (L.lit 1)) * val c = _
    rw [o2]; simp only [sg]; norm_num; ring

end

end Shelf

/-- What the low shelf computes, dsp/biquad.go:165-178, with any of the products fused: `X` is the radicand. -/
def LowShelfBy (L : Lib (FVal binary64)) (fs f slope dB X : FVal binary64) (F : BQ (FVal binary64)) : Prop :=
  let w := L.w0 fs f
  let c := L.cos w
  let a := L.pow (L.lit 10) (dB / L.lit 40)
  let sa := L.sqrt a
  let al := L.sin w / L.lit 2 * L.sqrt X
  (radicand L a slope).Eval X ∧ (Expr.leaf a * highA L true a c sa al).Eval F.B0 ∧
    (Expr.leaf (L.lit 2) * .leaf a * ((Expr.leaf a - .leaf (L.lit 1)) - (Expr.leaf a + .leaf (L.lit 1)) * .leaf c)).Eval F.B1 ∧
    (Expr.leaf a * highA L false a c sa al).Eval F.B2 ∧ (lowA L true a c sa al).Eval F.A0 ∧ (lowA1 L a c).Eval F.A1 ∧
    (lowA L false a c sa al).Eval F.A2

/-- What the high shelf computes, dsp/biquad.go:183-196, with any of the products fused: `X` is the radicand. -/
def HighShelfBy (L : Lib (FVal binary64)) (fs f slope dB X : FVal binary64) (F : BQ (FVal binary64)) : Prop :=
  let w := L.w0 fs f
  let c := L.cos w
  let a := L.pow (L.lit 10) (dB / L.lit 40)
  let sa := L.sqrt a
  let al := L.sin w / L.lit 2 * L.sqrt X
  (radicand L a slope).Eval X ∧ (Expr.leaf a * lowA L true a c sa al).Eval F.B0 ∧
    (Expr.leaf (L.lit (-2)) * .leaf a * ((Expr.leaf a - .leaf (L.lit 1)) + (Expr.leaf a + .leaf (L.lit 1)) * .leaf c)).Eval F.B1 ∧
    (Expr.leaf a * lowA L false a c sa al).Eval F.B2 ∧ (highA L true a c sa al).Eval F.A0 ∧ (highA1 L a c).Eval F.A1 ∧
    (highA L false a c sa al).Eval F.A2

/-- Rounding every operation is one of the ways of computing the low shelf. -/
theorem lowShelfBy_unfused (L : Lib (FVal binary64)) (fs f slope dB : FVal binary64) :
    ∃ X, LowShelfBy L fs f slope dB X (L.lowShelf fs f slope dB) :=
  ⟨_, Expr.eval_unfused _, Expr.eval_unfused _, Expr.eval_unfused _, Expr.eval_unfused _, Expr.eval_unfused _, Expr.eval_unfused _,
    Expr.eval_unfused _⟩

/-- Rounding every operation is one of the ways of computing the high shelf. -/
theorem highShelfBy_unfused (L : Lib (FVal binary64)) (fs f slope dB : FVal binary64) :
    ∃ X, HighShelfBy L fs f slope dB X (L.highShelf fs f slope dB) :=
  ⟨_, Expr.eval_unfused _, Expr.eval_unfused _, Expr.eval_unfused _, Expr.eval_unfused _, Expr.eval_unfused _, Expr.eval_unfused _,
    Expr.eval_unfused _⟩

section
variable {sin cos sqrt : FVal binary64 → FVal binary64} {pow : FVal binary64 → FVal binary64 → FVal binary64}

/-- C143, low shelf, whichever products are fused. -/
theorem C143_low_shelf {η δ : ℝ} (hη : η ≤ 1 / 2 ^ 50) (hT : Dft.Trig cos sin 4 η) (hp : PowWithin pow δ) (hδ0 : 0 ≤ δ)
    (hδ : δ ≤ 1 / 2 ^ 40) (hsq : SqrtOk sqrt) {fs f slope dB X : FVal binary64} (h : FreqOk64 10 fs f) (hs : ShelfOk slope)
    (hg : GainOk dB) {F : BQ (FVal binary64)} (hF : LowShelfBy (lib64 sin cos sqrt pow) fs f slope dB X F) :
    CoeffsNear F (newLowShelf (val fs) (val f) (val slope) (val dB)) (2 ^ 14 * (δ + 1 / 2 ^ 46) / val slope) := by
  obtain ⟨h0, f0, f1, f2, f3, f4, f5⟩ := hF
  have hs0 : 0 < val slope := lt_of_lt_of_le (by norm_num) hs.low
  have Z1 : 1 ≤ 1 / val slope := by rw [le_div_iff₀ hs0, one_mul]; exact hs.high
  have Z2 : 1 / val slope ≤ 2 ^ 10 := (one_div_le_one_div_of_le (by norm_num) hs.low).trans (by norm_num)
  have n := Shelf.near_parts hη hT hp hδ0 hδ hsq h hs hg h0
  have hd : 1 / 2 ^ 46 ≤ δ + 1 / 2 ^ 46 := by linarith
  obtain ⟨⟨p1, p2⟩, m1, m2⟩ := Shelf.sums_bd (sin := sin) (cos := cos) (sqrt := sqrt) (pow := pow) n Z1 Z2 true
  obtain ⟨⟨p3, p4⟩, m3, m4⟩ := Shelf.sums_bd (sin := sin) (cos := cos) (sqrt := sqrt) (pow := pow) n Z1 Z2 false
  obtain ⟨⟨q1, q2⟩, q3, q4⟩ := Shelf.sums1_bd (sin := sin) (cos := cos) (sqrt := sqrt) (pow := pow) n Z1 Z2
  have t1 := lit64 (sin := sin) (cos := cos) (sqrt := sqrt) (pow := pow) 2 (by norm_num)
  have t2 := lit64 (sin := sin) (cos := cos) (sqrt := sqrt) (pow := pow) (-2) (by norm_num)
  have r0 := (Shelf.coeff n Z1 Z2 hd _ _ m1 m2).2 _ f0
  have r1 := (Shelf.coeff1 t1 (by norm_num) n Z1 hd _ q3 q4).2 _ f1
  have r2 := (Shelf.coeff n Z1 Z2 hd _ _ m3 m4).2 _ f2
  have r3 := (Shelf.coeff n Z1 Z2 hd _ _ p1 p2).1 _ f3
  have r4 := (Shelf.coeff1 t2 (by norm_num) n Z1 hd _ q1 q2).1 _ f4
  have r5 := (Shelf.coeff n Z1 Z2 hd _ _ p3 p4).1 _ f5
  simp only [Shelf.sg, if_true, if_false, Bool.false_eq_true, one_mul, neg_one_mul, ← sub_eq_add_neg, mul_one_div] at r0 r1 r2 r3 r4 r5
  push_cast at r1 r4
  exact ⟨r0, r1, r2, r3, r4, r5⟩

/-- C143, high shelf, whichever products are fused. -/
theorem C143_high_shelf {η δ : ℝ} (hη : η ≤ 1 / 2 ^ 50) (hT : Dft.Trig cos sin 4 η) (hp : PowWithin pow δ) (hδ0 : 0 ≤ δ)
    (hδ : δ ≤ 1 / 2 ^ 40) (hsq : SqrtOk sqrt) {fs f slope dB X : FVal binary64} (h : FreqOk64 10 fs f) (hs : ShelfOk slope)
    (hg : GainOk dB) {F : BQ (FVal binary64)} (hF : HighShelfBy (lib64 sin cos sqrt pow) fs f slope dB X F) :
    CoeffsNear F (newHighShelf (val fs) (val f) (val slope) (val dB)) (2 ^ 14 * (δ + 1 / 2 ^ 46) / val slope) := by
  obtain ⟨h0, f0, f1, f2, f3, f4, f5⟩ := hF
  have hs0 : 0 < val slope := lt_of_lt_of_le (by norm_num) hs.low
  have Z1 : 1 ≤ 1 / val slope := by rw [le_div_iff₀ hs0, one_mul]; exact hs.high
  have Z2 : 1 / val slope ≤ 2 ^ 10 := (one_div_le_one_div_of_le (by norm_num) hs.low).trans (by norm_num)
  have n := Shelf.near_parts hη hT hp hδ0 hδ hsq h hs hg h0
  have hd : 1 / 2 ^ 46 ≤ δ + 1 / 2 ^ 46 := by linarith
  obtain ⟨⟨p1, p2⟩, m1, m2⟩ := Shelf.sums_bd (sin := sin) (cos := cos) (sqrt := sqrt) (pow := pow) n Z1 Z2 true
  obtain ⟨⟨p3, p4⟩, m3, m4⟩ := Shelf.sums_bd (sin := sin) (cos := cos) (sqrt := sqrt) (pow := pow) n Z1 Z2 false
  obtain ⟨⟨q1, q2⟩, q3, q4⟩ := Shelf.sums1_bd (sin := sin) (cos := cos) (sqrt := sqrt) (pow := pow) n Z1 Z2
  have t1 := lit64 (sin := sin) (cos := cos) (sqrt := sqrt) (pow := pow) 2 (by norm_num)
  have t2 := lit64 (sin := sin) (cos := cos) (sqrt := sqrt) (pow := pow) (-2) (by norm_num)
  have r0 := (Shelf.coeff n Z1 Z2 hd _ _ p1 p2).2 _ f0
  have r1 := (Shelf.coeff1 t2 (by norm_num) n Z1 hd _ q1 q2).2 _ f1
  have r2 := (Shelf.coeff n Z1 Z2 hd _ _ p3 p4).2 _ f2
  have r3 := (Shelf.coeff n Z1 Z2 hd _ _ m1 m2).1 _ f3
  have r4 := (Shelf.coeff1 t1 (by norm_num) n Z1 hd _ q3 q4).1 _ f4
  have r5 := (Shelf.coeff n Z1 Z2 hd _ _ m3 m4).1 _ f5
  simp only [Shelf.sg, if_true, if_false, Bool.false_eq_true, one_mul, neg_one_mul, ← sub_eq_add_neg, mul_one_div] at r0 r1 r2 r3 r4 r5
  push_cast at r1 r4
  exact ⟨r0, r1, r2, r3, r4, r5⟩

/-- What the peaking equaliser computes, dsp/biquad.go:143-155, with any of the products fused. -/
def PeakingBy (L : Lib (FVal binary64)) (fs f q dB : FVal binary64) (F : BQ (FVal binary64)) : Prop :=
  let c := L.cos (L.w0 fs f)
  let α := L.alpha fs f q
  let a := L.pow (L.lit 10) (dB / L.lit 40)
  (Expr.leaf (L.lit 1) + .leaf α * .leaf a).Eval F.B0 ∧ F.B1 = L.lit (-2) * c ∧ (Expr.leaf (L.lit 1) - .leaf α * .leaf a).Eval F.B2 ∧
    F.A0 = L.lit 1 + α / a ∧ F.A1 = L.lit (-2) * c ∧ F.A2 = L.lit 1 - α / a

/-- Rounding every operation is one of the ways of computing the equaliser. -/
theorem peakingBy_unfused (L : Lib (FVal binary64)) (fs f q dB : FVal binary64) : PeakingBy L fs f q dB (L.peaking fs f q dB) :=
  ⟨Expr.eval_unfused _, rfl, Expr.eval_unfused _, rfl, rfl, rfl⟩

open Shelf Expr in
/-- C143, peaking equaliser, whichever products are fused. -/
theorem C143_peaking {η δ : ℝ} (hη : η ≤ 1 / 2 ^ 50) (hT : Dft.Trig cos sin 4 η) (hp : PowWithin pow δ) (hδ0 : 0 ≤ δ)
    (hδ : δ ≤ 1 / 2 ^ 40) {fs f q dB : FVal binary64} (h : FreqOk64 20 fs f) (hq : QOk q) (hg : GainOk dB)
    {F : BQ (FVal binary64)} (hF : PeakingBy (lib64 sin cos sqrt pow) fs f q dB F) :
    CoeffsNear F (newPeaking (val fs) (val f) (val q) (val dB)) (2 ^ 8 * (δ + 1 / 2 ^ 46) * (1 + 1 / val q)) := by
  obtain ⟨f0, f1, f2, f3, f4, f5⟩ := hF
  obtain ⟨α1, α2, α3, α4⟩ := alpha_val (sqrt := sqrt) (pow := pow) hη hT h hq
  obtain ⟨-, ⟨n1, n2⟩, -⟩ := parts_near (sqrt := sqrt) (pow := pow) hη hT h hq
  obtain ⟨g1, g2, g3⟩ := gain_val (sin := sin) (cos := cos) (sqrt := sqrt) (hp.ok hδ) hg
  have g4 := gain_near (sin := sin) (cos := cos) (sqrt := sqrt) hp hg
  have hA : |val dB / 40| ≤ 1 := by
    rw [abs_div, abs_of_pos (show (0 : ℝ) < 40 by norm_num), div_le_one (by norm_num)]
    exact hg.size
  obtain ⟨A1, A2⟩ := pow_gain hA
  obtain ⟨o1, o2⟩ := lit64 (sin := sin) (cos := cos) (sqrt := sqrt) (pow := pow) 1 (by norm_num)
  push_cast at o2
  have hq0 : 0 < val q := lt_of_lt_of_le (by norm_num) hq.low
  have r2 : 1 / val q ≤ 2 ^ 10 := (one_div_le_one_div_of_le (by norm_num) hq.low).trans (by norm_num)
  have r0 : 0 < 1 / val q := by positivity
  have r1 : 1 / 2 ^ 30 ≤ 1 / val q := one_div_le_one_div_of_le hq0 hq.high
  have hd1 : 1 / 2 ^ 46 ≤ δ + 1 / 2 ^ 46 := by linarith
  have hd2 : δ + 1 / 2 ^ 46 ≤ 1 / 2 ^ 38 := by norm_num at hδ ⊢; linarith
  set L := lib64 sin cos sqrt pow with hL
  set α := L.alpha fs f q with hα
  set a := L.pow (L.lit 10) (dB / L.lit 40) with ha
  have k0 : newPeaking (val fs) (val f) (val q) (val dB) =
      bq (1 + Real.sin (2 * Real.pi * val f / val fs) / (2 * val q) * (10 : ℝ) ^ (val dB / 40))
        (-2 * Real.cos (2 * Real.pi * val f / val fs))
        (1 - Real.sin (2 * Real.pi * val f / val fs) / (2 * val q) * (10 : ℝ) ^ (val dB / 40))
        (1 + Real.sin (2 * Real.pi * val f / val fs) / (2 * val q) / (10 : ℝ) ^ (val dB / 40))
        (-2 * Real.cos (2 * Real.pi * val f / val fs))
        (1 - Real.sin (2 * Real.pi * val f / val fs) / (2 * val q) / (10 : ℝ) ^ (val dB / 40)) := rfl
  rw [k0]
  have sb : |Real.sin (2 * Real.pi * val f / val fs) / (2 * val q)| ≤ 1 / val q := by
    rw [abs_div, abs_of_pos (show 0 < 2 * val q by positivity), div_le_div_iff₀ (by positivity) hq0]
    have := mul_le_mul_of_nonneg_right (Real.abs_sin_le_one (2 * Real.pi * val f / val fs)) hq0.le
    linarith
  generalize Real.sin (2 * Real.pi * val f / val fs) / (2 * val q) = S at *
  generalize Real.cos (2 * Real.pi * val f / val fs) = C at *
  generalize (10 : ℝ) ^ (val dB / 40) = A at *
  have A0 : 0 < A := lt_of_lt_of_le (by norm_num) A1
  have a0 : 0 < val a := lt_of_lt_of_le (by norm_num) g2
  have iA : 1 / A ≤ 10 := (one_div_le_one_div_of_le (by norm_num) A1).trans (by norm_num)
  have ia : 1 / val a ≤ 16 := (one_div_le_one_div_of_le (by norm_num) g2).trans (by norm_num)
  have hinv := inv_near g4 g2 A1
  rw [show (3 : ℝ) / 2 / val q = 3 / 2 * (1 / val q) by ring] at α3
  rw [show (1 : ℝ) / 2 ^ 22 / val q = 1 / 2 ^ 22 * (1 / val q) by ring] at α2
  rw [show (1 : ℝ) / 2 ^ 47 / val q = 1 / 2 ^ 47 * (1 / val q) by ring] at α4
  generalize 1 / val q = r at *
  generalize δ + 1 / 2 ^ 46 = d at *
  have d0 : 0 < d := lt_of_lt_of_le (by norm_num) hd1
  have hrd : r * (1 / 2 ^ 46) ≤ r * d := mul_le_mul_of_nonneg_left hd1 r0.le
  have hrd2 : r * d ≤ r * (1 / 2 ^ 38) := mul_le_mul_of_nonneg_left hd2 r0.le
  have αp : 0 < val α := lt_of_lt_of_le (by positivity) α2
  have αs : |val α| ≤ 3 / 2 * r := by rw [abs_of_pos αp]; exact α3
  have as : |val a| ≤ 16 := by rw [abs_of_pos a0]; exact g3
  norm_num at r1 r2 hrd hrd2 hd1 hd2
  have hw := wR64
  -- products
  have p1 := prod_near α4 g4 αs (N := 10) (by rw [abs_of_pos A0]; exact A2)
  have bo : Bd (.leaf (L.lit 1)) 1 0 := bd_leaf o1 (by rw [o2, abs_one])
  have bm := mul64 (bd_leaf α1 αs) (bd_leaf g1 as) (by norm_num; linarith) (S' := 30 * r + 1) (by norm_num; linarith)
    (E' := r * (1 / 2 ^ 48) + 1 / 2 ^ 150) (by norm_num; linarith)
  have bp := add64 bo bm (by norm_num; linarith) (S' := 40 * r + 3) (by norm_num; linarith)
    (E' := r * (1 / 2 ^ 47) + 1 / 2 ^ 48) (by norm_num; linarith)
  have bs := sub64 bo bm (by norm_num; linarith) (S' := 40 * r + 3) (by norm_num; linarith)
    (E' := r * (1 / 2 ^ 47) + 1 / 2 ^ 48) (by norm_num; linarith)
  obtain ⟨u1, u2⟩ := bp.eval binary64_ok f0
  obtain ⟨v1, v2⟩ := bs.eval binary64_ok f2
  change |val F.B0 - (val (L.lit 1) + val α * val a)| ≤ _ at u2
  change |val F.B2 - (val (L.lit 1) - val α * val a)| ≤ _ at v2
  rw [o2] at u2 v2
  -- quotients
  have q1 : |val α / val a - S / A| ≤ 3 / 2 * r * (160 * d) + 10 * (1 / 2 ^ 47 * r) := by
    have := prod_near α4 hinv αs (N := 10) (by rw [abs_of_pos (by positivity)]; exact iA)
    rwa [mul_one_div, mul_one_div] at this
  have q2 : |val α / val a| ≤ 24 * r := by
    rw [abs_of_pos (by positivity), div_eq_mul_one_div]
    have := mul_le_mul α3 ia (by positivity) (by positivity)
    linarith
  obtain ⟨d1, d2⟩ := Dft.div_val binary64_ok α1 g1 a0.ne' (q2.trans (le_trans (by norm_num; linarith) big64))
  have hu := mul_le_mul_of_nonneg_left q2 (uR_pos binary64).le
  rw [uR64] at d2 hu
  have q3 : |val (α / a : FVal binary64) - S / A| ≤ 246 * r * d := by
    have := abs_sub_le (val (α / a : FVal binary64)) (val α / val a) (S / A)
    norm_num at d2 hu hw q1
    linarith
  have q4 : |val (α / a : FVal binary64)| ≤ 25 * r + 1 := by
    have h1 := abs_sub_abs_le_abs_sub (val (α / a : FVal binary64)) (val α / val a)
    norm_num at d2 hu hw
    linarith
  have one : |val (L.lit 1) - 1| ≤ 0 := by rw [o2, sub_self, abs_zero]
  obtain ⟨w1, w2⟩ := near_add o1 d1 one q3 (B := 25 * r + 2) (by
    have := abs_add_le (val (L.lit 1)) (val (α / a : FVal binary64))
    rw [o2, abs_one] at this
    rw [o2]
    linarith) (by norm_num; linarith)
  obtain ⟨x1, x2⟩ := near_sub o1 d1 one q3 (B := 25 * r + 2) (by
    have := abs_sub (val (L.lit 1)) (val (α / a : FVal binary64))
    rw [o2, abs_one] at this
    rw [o2]
    linarith) (by norm_num; linarith)
  have n2' : |val (L.lit (-2) * L.cos (L.w0 fs f) : FVal binary64) - -2 * C| ≤ 2 ^ 8 * d * (1 + r) := by
    refine le_trans n2 ?_
    norm_num
    linarith
  refine ⟨⟨u1, ?_⟩, ⟨by rw [f1]; exact n1, by rw [f1]; exact n2'⟩, ⟨v1, ?_⟩, ⟨by rw [f3]; exact w1, ?_⟩, ⟨by rw [f4]; exact n1, by rw [f4]; exact n2'⟩,
    ⟨by rw [f5]; exact x1, ?_⟩⟩
  · change |val F.B0 - (1 + S * A)| ≤ _
    have := abs_sub_le (val F.B0) (1 + val α * val a) (1 + S * A)
    rw [add_sub_add_left_eq_sub] at this
    norm_num at u2 p1 ⊢
    linarith
  · change |val F.B2 - (1 - S * A)| ≤ _
    have := abs_sub_le (val F.B2) (1 - val α * val a) (1 - S * A)
    rw [sub_sub_sub_cancel_left, abs_sub_comm (S * A)] at this
    norm_num at v2 p1 ⊢
    linarith
  · rw [f3]
    change |val (L.lit 1 + α / a) - (1 + S / A)| ≤ _
    norm_num at w2 ⊢
    linarith
  · rw [f5]
    change |val (L.lit 1 - α / a) - (1 - S / A)| ≤ _
    norm_num at x2 ⊢
    linarith

end

/-! ### The hypotheses can be met -/

/-- A library with the correctly rounded root and a power within `2^-50`; a shelf and an equaliser at 1 kHz for 48 kHz samples
as in C108. -/
example : ∃ sin cos pow, Dft.Trig cos sin 4 (1 / 2 ^ 50) ∧ PowWithin pow (1 / 2 ^ 50) ∧ SqrtOk (Fp.sqrt binary64) ∧
    (∃ X F, LowShelfBy (lib64 sin cos (Fp.sqrt binary64) pow) (ofInt binary64 48000) (ofInt binary64 1000) (ofInt binary64 1)
      (ofInt binary64 6) X F) ∧
    ∃ F, PeakingBy (lib64 sin cos (Fp.sqrt binary64) pow) (ofInt binary64 48000) (ofInt binary64 1000) (ofInt binary64 3)
      (ofInt binary64 6) F := by
  choose c c1 c2 c3 using fun x : FVal binary64 => Dft.exists_float (Real.cos (val x)) (Real.abs_cos_le_one _)
  choose s s1 _ s3 using fun x : FVal binary64 => Dft.exists_float (Real.sin (val x)) (Real.abs_sin_le_one _)
  choose p p1 p2 using fun y : FVal binary64 => exists_val ((10 : ℝ) ^ val y) (e := 1 / 2 ^ 50) (by norm_num)
  exact ⟨s, c, fun _ y => p y, fun x _ _ => ⟨⟨c1 x, c2 x, c3 x⟩, s1 x, s3 x⟩, fun x y _ _ _ => ⟨p1 y, p2 y⟩, C143_sqrt,
    ⟨_, _, (lowShelfBy_unfused _ _ _ _ _).choose_spec⟩, ⟨_, peakingBy_unfused _ _ _ _ _⟩⟩

/-- With a power within `2^-50` and slope one the coefficients of a shelf are within `2^-31` of the exact ones. -/
example : (2 ^ 14 * (1 / 2 ^ 50 + 1 / 2 ^ 46) / 1 : ℝ) ≤ 1 / 2 ^ 31 := by norm_num

end Verif.Filt
