import Verif.Fp.FpFma
import Verif.Fp.FpConvert

/-!
# Products of complex numbers, however they are compiled

The Go language leaves open how `a*b` of complex numbers is rounded.  The compiler computes the parts by the usual formulas;
on arm64, ppc64, s390x and riscv64 a product and the sum it is a term of become one fused operation, and the product of two
`complex64` numbers is computed in `float64` and its parts are converted to `float32` at the end.  `CMul φ` is any such
multiplication, the same for all products of a program.
-/

namespace Verif.Fp
open Expr

variable {φ : Format}

/-- `a*b - c*d`. -/
def diffOf (φ : Format) (a b c d : Val) : Expr φ := .sub (.mul (.leaf a) (.leaf b)) (.mul (.leaf c) (.leaf d))

/-- `a*b + c*d`. -/
def sumTwo (φ : Format) (a b c d : Val) : Expr φ := .add (.mul (.leaf a) (.leaf b)) (.mul (.leaf c) (.leaf d))

/-- The values of an expression that may be computed: in the format itself, or for `float32` in `float64` with a conversion
at the end (the conversion of the operands to `float64` changes nothing). -/
def MayBe (e : (ψ : Format) → Expr ψ) (φ : Format) (v : Val) : Prop :=
  Eval (e φ) v ∨ φ = binary32 ∧ ∃ w : FVal binary64, Eval (e binary64) w ∧ v = Verif.Filt.convert binary32 w

/-- A multiplication of complex numbers a compiler may make. -/
class CMul (φ : Format) where
  mul : CVal φ → CVal φ → CVal φ
  re : ∀ a b, MayBe (fun ψ => diffOf ψ a.re b.re a.im b.im) φ (mul a b).re
  im : ∀ a b, MayBe (fun ψ => sumTwo ψ a.re b.im a.im b.re) φ (mul a b).im

instance [CMul φ] : Mul (CVal φ) := ⟨CMul.mul⟩

/-- Every operation rounded in the format of the parts (`complex128` on amd64 and 386). -/
@[reducible] def CMul.plain (φ : Format) : CMul φ where
  mul a b := ⟨a.re * b.re - a.im * b.im, a.re * b.im + a.im * b.re⟩
  re _ _ := .inl (.sub (.mul (.leaf _) (.leaf _)) (.mul (.leaf _) (.leaf _)))
  im _ _ := .inl (.add (.mul (.leaf _) (.leaf _)) (.mul (.leaf _) (.leaf _)))

/-- The second product fused with the sum (`complex128` on arm64). -/
@[reducible] def CMul.fused (φ : Format) : CMul φ where
  mul a b := ⟨fma φ (Fp.neg a.im) b.im (a.re * b.re : FVal φ), fma φ a.im b.re (a.re * b.im : FVal φ)⟩
  re _ _ := .inl (.fnmsub (.leaf _) (.leaf _) (.mul (.leaf _) (.leaf _)))
  im _ _ := .inl (.fmadd' (.leaf _) (.leaf _) (.mul (.leaf _) (.leaf _)))

/-- `complex64` on amd64: in `float64`, then converted. -/
@[reducible] def CMul.wide : CMul binary32 where
  mul a b := ⟨Verif.Filt.convert binary32 ((diffOf binary64 a.re b.re a.im b.im).unfused),
    Verif.Filt.convert binary32 ((sumTwo binary64 a.re b.im a.im b.re).unfused)⟩
  re _ _ := .inr ⟨rfl, _, eval_unfused _, rfl⟩
  im _ _ := .inr ⟨rfl, _, eval_unfused _, rfl⟩

/-! ## The error -/

theorem conv_val (h : φ.Ok) {v : Val} (hv : Finite v) (ht : |val v| ≤ 2 ^ φ.emax) :
    Finite (Verif.Filt.convert φ v) ∧ |val (Verif.Filt.convert φ v) - val v| ≤ uR φ * |val v| + wR φ := by
  obtain ⟨h1, h2⟩ := rd_real h (x := v.toRat) ht
  have hi := Verif.Filt.convert_rd (φ := φ) (v := v) ⟨hv, rfl⟩ h1
  refine ⟨hi.1, ?_⟩
  rw [val_of_is hi]
  exact h2

/-- Two products, in one format. -/
theorem two_err (h : φ.Ok) {e : Expr φ} {a b c d : FVal φ} {v : FVal φ} (he : e = diffOf φ a b c d ∨ e = sumTwo φ a b c d)
    (hv : Eval e v) (ha : Finite a) (hb : Finite b) (hc : Finite c) (hd : Finite d) {P : ℝ}
    (hP : |val a * val b| + |val c * val d| ≤ P) (ht : 3 / 2 * P + 1 ≤ 2 ^ φ.emax) :
    Finite v ∧ |val v - e.exact| ≤ (2 * uR φ + uR φ * uR φ) * P + 4 * wR φ := by
  have hu := uR_pos φ
  have hw := wR_pos φ
  have hu4 := uR_le h
  have hw4 := wR_le h
  have h1 := abs_nonneg (val a * val b)
  have h2 := abs_nonneg (val c * val d)
  have hP0 : 0 ≤ P := by linarith
  have huP : uR φ * P ≤ 1 / 4 * P := mul_le_mul_of_nonneg_right hu4 hP0
  have s1 : uR φ * (|val a * val b| + |val c * val d|) ≤ uR φ * P := mul_le_mul_of_nonneg_left hP hu.le
  have s2 : uR φ * uR φ * (|val a * val b| + |val c * val d|) ≤ uR φ * uR φ * P :=
    mul_le_mul_of_nonneg_left hP (by positivity)
  have s3 : uR φ * wR φ ≤ 1 / 4 * wR φ := mul_le_mul_of_nonneg_right hu4 hw.le
  have hsz : (1 + uR φ) * (|val a| * |val b|) + wR φ + ((1 + uR φ) * (|val c| * |val d|) + wR φ) ≤ 2 ^ φ.emax := by
    rw [← abs_mul, ← abs_mul]
    linarith
  have hr : e.Leaves ∧ e.InRange := by
    have i1 : |val a| * |val b| ≤ 2 ^ φ.emax := by rw [← abs_mul]; linarith
    have i2 : |val c| * |val d| ≤ 2 ^ φ.emax := by rw [← abs_mul]; linarith
    rcases he with rfl | rfl
    · exact ⟨⟨⟨ha, hb⟩, ⟨hc, hd⟩⟩, ⟨⟨trivial, trivial, i1⟩, ⟨trivial, trivial, i2⟩, hsz⟩⟩
    · exact ⟨⟨⟨ha, hb⟩, ⟨hc, hd⟩⟩, ⟨⟨trivial, trivial, i1⟩, ⟨trivial, trivial, i2⟩, hsz⟩⟩
  obtain ⟨k1, k2, -⟩ := eval_err h hv hr.1 hr.2
  refine ⟨k1, k2.trans ?_⟩
  have e1 : e.err = (0 * |val b| + |val a| * 0 + uR φ * (|val a| * |val b|) + wR φ)
      + (0 * |val d| + |val c| * 0 + uR φ * (|val c| * |val d|) + wR φ)
      + uR φ * (((1 + uR φ) * (|val a| * |val b|) + wR φ) + ((1 + uR φ) * (|val c| * |val d|) + wR φ)) + wR φ := by
    rcases he with rfl | rfl <;> rfl
  rw [e1, ← abs_mul, ← abs_mul]
  nlinarith

theorem uR_64 : uR binary64 ≤ 1 / 16 * uR binary32 := by
  have e : uR binary64 = uR binary32 * 2 ^ (-29 : ℤ) := by
    unfold uR
    rw [← zpow_add₀ (by norm_num)]
    rfl
  rw [e]
  have := uR_pos binary32
  norm_num
  linarith

theorem wR_64 : wR binary64 ≤ 1 / 16 * wR binary32 := by
  have e : wR binary64 = wR binary32 * 2 ^ (-925 : ℤ) := by
    unfold wR
    rw [← zpow_add₀ (by norm_num)]
    rfl
  rw [e]
  have := wR_pos binary32
  have : (2 : ℝ) ^ (-925 : ℤ) ≤ 2 ^ (-4 : ℤ) := zpow_le_zpow_right₀ (by norm_num) (by norm_num)
  norm_num at this ⊢
  nlinarith

/-- Two products, however computed. -/
theorem may_err (h : φ.Ok) {e : (ψ : Format) → Expr ψ} {a b c d v : Val}
    (he : (∀ ψ, e ψ = diffOf ψ a b c d) ∨ (∀ ψ, e ψ = sumTwo ψ a b c d))
    (hv : MayBe e φ v) (ha : Finite a) (hb : Finite b) (hc : Finite c) (hd : Finite d) {P : ℝ}
    (hP : |val a * val b| + |val c * val d| ≤ P) (ht : 3 / 2 * P + 1 ≤ 2 ^ φ.emax) :
    Finite v ∧ |val v - (e φ).exact| ≤ (2 * uR φ + uR φ * uR φ) * P + 4 * wR φ := by
  have he' : ∀ ψ, e ψ = diffOf ψ a b c d ∨ e ψ = sumTwo ψ a b c d := fun ψ => he.imp (fun f => f ψ) (fun f => f ψ)
  rcases hv with hv | ⟨rfl, w, hv, rfl⟩
  · exact two_err h (he' φ) hv ha hb hc hd hP ht
  · have hP0 : 0 ≤ P := by linarith [abs_nonneg (val a * val b), abs_nonneg (val c * val d)]
    have hE : (2 : ℝ) ^ binary32.emax ≤ 2 ^ binary64.emax := zpow_le_zpow_right₀ (by norm_num) (by decide)
    obtain ⟨h1, h2⟩ := two_err binary64_ok (he' binary64) hv ha hb hc hd hP (ht.trans hE)
    have ex : (e binary64).exact = (e binary32).exact := by
      rcases he with he | he <;> rw [he, he] <;> rfl
    rw [ex] at h2
    have hx : |(e binary32).exact| ≤ P := by
      refine le_trans ?_ hP
      rcases he' binary32 with he | he <;> rw [he]
      · exact abs_sub _ _
      · exact abs_add_le _ _
    have hu := uR_pos binary32
    have hw := wR_pos binary32
    have hu4 := uR_le binary32_ok
    have hw4 := wR_le binary32_ok
    have hu6 := uR_64
    have hw6 := wR_64
    have hu0 := uR_pos binary64
    have t1 : (2 * uR binary64 + uR binary64 * uR binary64) * P ≤ 9 / 64 * (uR binary32 * P) := by
      have : 2 * uR binary64 + uR binary64 * uR binary64 ≤ 9 / 64 * uR binary32 := by nlinarith
      have := mul_le_mul_of_nonneg_right this hP0
      linarith
    have huP : uR binary32 * P ≤ 1 / 4 * P := mul_le_mul_of_nonneg_right hu4 hP0
    have huP0 : 0 ≤ uR binary32 * P := by positivity
    have h3 : |val w| ≤ P + (9 / 64 * (uR binary32 * P) + 1 / 4 * wR binary32) := by
      have := abs_add_le (val w - (e binary32).exact) (e binary32).exact
      rw [sub_add_cancel] at this
      linarith
    obtain ⟨c1, c2⟩ := conv_val binary32_ok h1 (by linarith)
    refine ⟨c1, ?_⟩
    have h4 := abs_add_le (val (Verif.Filt.convert binary32 w) - val w) (val w - (e binary32).exact)
    rw [sub_add_sub_cancel] at h4
    have h5 := mul_le_mul_of_nonneg_left h3 hu.le
    have h6 : uR binary32 * wR binary32 ≤ 1 / 4 * wR binary32 := mul_le_mul_of_nonneg_right hu4 hw.le
    nlinarith

namespace CVal

theorem mul_err [CMul φ] (h : φ.Ok) {a b : CVal φ} (ha : a.Fin) (hb : b.Fin) (ht : 2 * ‖a.toC‖ * ‖b.toC‖ + 1 ≤ 2 ^ φ.emax) :
    (a * b).Fin ∧ ‖(a * b).toC - a.toC * b.toC‖ ≤ 5 * uR φ * (‖a.toC‖ * ‖b.toC‖) + 8 * wR φ := by
  have hu := uR_pos φ
  have hw := wR_pos φ
  have hu4 := uR_le h
  set P := ‖a.toC‖ * ‖b.toC‖ with hP
  have hP0 : 0 ≤ P := by positivity
  have ht' : 3 / 2 * P + 1 ≤ 2 ^ φ.emax := by
    have : 0 ≤ P := by positivity
    linarith [mul_assoc 2 ‖a.toC‖ ‖b.toC‖]
  obtain ⟨hre, him⟩ := parts_le a b
  obtain ⟨g1, q1⟩ := may_err h (.inl fun _ => rfl) (CMul.re a b) ha.1 hb.1 ha.2 hb.2 hre ht'
  obtain ⟨g2, q2⟩ := may_err h (.inr fun _ => rfl) (CMul.im a b) ha.1 hb.2 ha.2 hb.1 him ht'
  refine ⟨⟨g1, g2⟩, ?_⟩
  have hz := Complex.norm_le_abs_re_add_abs_im ((a * b).toC - a.toC * b.toC)
  have er : ((a * b).toC - a.toC * b.toC).re
    = val (CMul.mul a b).re - (diffOf φ a.re b.re a.im b.im).exact := rfl
  have ei : ((a * b).toC - a.toC * b.toC).im
    = val (CMul.mul a b).im - (sumTwo φ a.re b.im a.im b.re).exact := rfl
  rw [er, ei] at hz
  have : uR φ * uR φ * P ≤ 1 / 4 * uR φ * P :=
    mul_le_mul_of_nonneg_right (mul_le_mul_of_nonneg_right hu4 hu.le) hP0
  have : 0 ≤ uR φ * P := by positivity
  nlinarith

end CVal

/-! ## One of the two products zero -/

theorem rd_rd (hp : 1 ≤ φ.p) (x : ℚ) : rd φ (rd φ x) = rd φ x := rd_grid φ hp (grid_rd φ hp x)

theorem zero_lt_top (φ : Format) : |rd φ 0| < 2 ^ (φ.emax + 1) := by rw [rd_zero, abs_zero]; positivity

theorem mul_is_zero {a b : Val} {x y : ℚ} (ha : Is a x) (hb : Is b y) (h0 : x * y = 0) : Is (mul φ a b) 0 := by
  have := mul_rd φ ha hb (by rw [h0]; exact zero_lt_top φ)
  rwa [h0, rd_zero] at this

/-- In one format. -/
theorem eval_two (hp : 1 ≤ φ.p) {a b c d v : Val} {x y z t : ℚ} (ha : Is a x) (hb : Is b y) (hc : Is c z) (hd : Is d t) :
    (z * t = 0 → |rd φ (x * y)| < 2 ^ (φ.emax + 1) → Eval (diffOf φ a b c d) v → Is v (rd φ (x * y))) ∧
    (z * t = 0 → |rd φ (x * y)| < 2 ^ (φ.emax + 1) → Eval (sumTwo φ a b c d) v → Is v (rd φ (x * y))) ∧
    (x * y = 0 → |rd φ (z * t)| < 2 ^ (φ.emax + 1) → Eval (sumTwo φ a b c d) v → Is v (rd φ (z * t))) := by
  refine ⟨fun h0 hlt hv => ?_, fun h0 hlt hv => ?_, fun h0 hlt hv => ?_⟩
  · cases hv with
    | sub h1 h2 =>
      cases h1 with | mul k1 k2 => cases k1; cases k2; cases h2 with | mul k1 k2 =>
      cases k1; cases k2
      have := sub_rd φ (mul_rd φ ha hb hlt) (mul_is_zero (φ := φ) hc hd h0) (by rwa [sub_zero, rd_rd hp])
      rwa [sub_zero, rd_rd hp] at this
    | fmsub k1 k2 h2 =>
      cases k1; cases k2; cases h2 with | mul k1 k2 =>
      cases k1; cases k2
      have e : x * y + -0 = x * y := by ring
      have := fma_rd φ ha hb (is_neg (mul_is_zero (φ := φ) hc hd h0)) (by rwa [e])
      rwa [e] at this
    | fnmsub k1 k2 h2 =>
      cases k1; cases k2; cases h2 with | mul k1 k2 =>
      cases k1; cases k2
      have e : -z * t + rd φ (x * y) = rd φ (x * y) := by rw [neg_mul, h0]; ring
      have := fma_rd φ (is_neg hc) hd (mul_rd φ ha hb hlt) (by rwa [e, rd_rd hp])
      rwa [e, rd_rd hp] at this
  · cases hv with
    | add h1 h2 =>
      cases h1 with | mul k1 k2 => cases k1; cases k2; cases h2 with | mul k1 k2 =>
      cases k1; cases k2
      have := add_rd φ (mul_rd φ ha hb hlt) (mul_is_zero (φ := φ) hc hd h0) (by rwa [add_zero, rd_rd hp])
      rwa [add_zero, rd_rd hp] at this
    | fmadd k1 k2 h2 =>
      cases k1; cases k2; cases h2 with | mul k1 k2 =>
      cases k1; cases k2
      have := fma_rd φ ha hb (mul_is_zero (φ := φ) hc hd h0) (by rwa [add_zero])
      rwa [add_zero] at this
    | fmadd' k1 k2 h2 =>
      cases k1; cases k2; cases h2 with | mul k1 k2 =>
      cases k1; cases k2
      have := fma_rd φ hc hd (mul_rd φ ha hb hlt) (by rwa [h0, zero_add, rd_rd hp])
      rwa [h0, zero_add, rd_rd hp] at this
  · cases hv with
    | add h1 h2 =>
      cases h1 with | mul k1 k2 => cases k1; cases k2; cases h2 with | mul k1 k2 =>
      cases k1; cases k2
      have := add_rd φ (mul_is_zero (φ := φ) ha hb h0) (mul_rd φ hc hd hlt) (by rwa [zero_add, rd_rd hp])
      rwa [zero_add, rd_rd hp] at this
    | fmadd k1 k2 h2 =>
      cases k1; cases k2; cases h2 with | mul k1 k2 =>
      cases k1; cases k2
      have := fma_rd φ ha hb (mul_rd φ hc hd hlt) (by rwa [h0, zero_add, rd_rd hp])
      rwa [h0, zero_add, rd_rd hp] at this
    | fmadd' k1 k2 h2 =>
      cases k1; cases k2; cases h2 with | mul k1 k2 =>
      cases k1; cases k2
      have := fma_rd φ hc hd (mul_is_zero (φ := φ) ha hb h0) (by rwa [add_zero])
      rwa [add_zero] at this

/-- A rational that rounds to a `float32` is no `float64` overflow. -/
theorem wide_lt {x : ℚ} (h : |rd binary32 x| < 2 ^ (binary32.emax + 1)) : |rd binary64 x| < 2 ^ (binary64.emax + 1) := by
  have h1 : |x| ≤ 2 ^ (128 : ℤ) := by
    by_contra hc
    have := rd_mono binary32 (by decide) (not_le.1 hc).le
    rw [rd_grid binary32 (by decide) (grid_pow binary32 (by decide) 128 (by decide)), ← abs_rd] at this
    exact absurd (h.trans_le (le_of_eq rfl)) (not_lt.2 this)
  refine (abs_rd_le binary64 (by decide) (grid_pow binary64 (by decide) 128 (by decide)) h1).trans_lt ?_
  exact zpow_lt_zpow_right₀ (by norm_num) (by decide)

/-- However computed; `float64` must hold the other product exactly. -/
theorem may_two (hp : 1 ≤ φ.p) {a b c d v : Val} {x y z t : ℚ} (ha : Is a x) (hb : Is b y) (hc : Is c z) (hd : Is d t) :
    (z * t = 0 → |rd φ (x * y)| < 2 ^ (φ.emax + 1) → (φ = binary32 → rd binary64 (x * y) = x * y) →
      MayBe (fun ψ => diffOf ψ a b c d) φ v → Is v (rd φ (x * y))) ∧
    (z * t = 0 → |rd φ (x * y)| < 2 ^ (φ.emax + 1) → (φ = binary32 → rd binary64 (x * y) = x * y) →
      MayBe (fun ψ => sumTwo ψ a b c d) φ v → Is v (rd φ (x * y))) ∧
    (x * y = 0 → |rd φ (z * t)| < 2 ^ (φ.emax + 1) → (φ = binary32 → rd binary64 (z * t) = z * t) →
      MayBe (fun ψ => sumTwo ψ a b c d) φ v → Is v (rd φ (z * t))) := by
  refine ⟨fun h0 hlt hw hv => ?_, fun h0 hlt hw hv => ?_, fun h0 hlt hw hv => ?_⟩ <;>
    rcases hv with hv | ⟨rfl, w, hv, rfl⟩
  · exact (eval_two hp ha hb hc hd).1 h0 hlt hv
  · have := (eval_two (φ := binary64) (by decide) ha hb hc hd).1 h0 (wide_lt hlt) hv
    rw [hw rfl] at this
    exact Verif.Filt.convert_rd this hlt
  · exact (eval_two hp ha hb hc hd).2.1 h0 hlt hv
  · have := (eval_two (φ := binary64) (by decide) ha hb hc hd).2.1 h0 (wide_lt hlt) hv
    rw [hw rfl] at this
    exact Verif.Filt.convert_rd this hlt
  · exact (eval_two hp ha hb hc hd).2.2 h0 hlt hv
  · have := (eval_two (φ := binary64) (by decide) ha hb hc hd).2.2 h0 (wide_lt hlt) hv
    rw [hw rfl] at this
    exact Verif.Filt.convert_rd this hlt

/-- The product of two `float32` numbers is a `float64` number. -/
theorem grid_wide {x y : ℚ} (hx : Grid binary32 x) (hy : Grid binary32 y) : Grid binary64 (x * y) := by
  obtain ⟨m, e, h1, h2, h3⟩ := hx
  obtain ⟨n, f, k1, k2, k3⟩ := hy
  refine ⟨m * n, e + f, ?_, ?_, ?_⟩
  · calc m * n < 2 ^ binary32.p * 2 ^ binary32.p := Nat.mul_lt_mul'' h1 k1
      _ ≤ _ := by decide
  · have : binary32.emin - ((binary32.p : ℤ) - 1) = -149 := by decide
    have : binary64.emin - ((binary64.p : ℤ) - 1) = -1074 := by decide
    omega
  · rw [abs_mul, h3, k3, zpow_add₀ (by norm_num)]
    push_cast
    ring

/-- Multiplication by one, of a number of the format. -/
theorem CVal.mul_one_is [CMul φ] (hp : 1 ≤ φ.p) {a e : CVal φ} {x y : ℚ} (ha : CIs a x y) (he : CIs e 1 0)
    (hx : Grid φ x) (hy : Grid φ y) (hx' : |x| < 2 ^ (φ.emax + 1)) (hy' : |y| < 2 ^ (φ.emax + 1)) :
    CIs (a * e) x y ∧ CIs (e * a) x y := by
  have rx := rd_grid φ hp hx
  have ry := rd_grid φ hp hy
  have w : ∀ {q : ℚ}, Grid φ q → φ = binary32 → rd binary64 q = q := by
    rintro q hq rfl
    exact rd_grid binary64 (by decide) (Verif.Filt.grid_mono hq)
  constructor
  · constructor
    · have := (may_two hp ha.1 he.1 ha.2 he.2 (v := (CMul.mul a e).re)).1 (mul_zero y) (by rwa [mul_one, rx])
        (by rw [mul_one]; exact w hx) (CMul.re a e)
      rwa [mul_one, rx] at this
    · have := (may_two hp ha.1 he.2 ha.2 he.1 (v := (CMul.mul a e).im)).2.2 (mul_zero x) (by rwa [mul_one, ry])
        (by rw [mul_one]; exact w hy) (CMul.im a e)
      rwa [mul_one, ry] at this
  · constructor
    · have := (may_two hp he.1 ha.1 he.2 ha.2 (v := (CMul.mul e a).re)).1 (zero_mul y) (by rwa [one_mul, rx])
        (by rw [one_mul]; exact w hx) (CMul.re e a)
      rwa [one_mul, rx] at this
    · have := (may_two hp he.1 ha.2 he.2 ha.1 (v := (CMul.mul e a).im)).2.1 (zero_mul x) (by rwa [one_mul, ry])
        (by rw [one_mul]; exact w hy) (CMul.im e a)
      rwa [one_mul, ry] at this

/-- Multiplication of integers by one. -/
theorem CVal.mul_one_small [CMul φ] (h : φ.Ints) {a e : CVal φ} {x y : ℤ} (ha : CIs a x y) (he : CIs e 1 0)
    (hx : |x| < 2 ^ φ.p) (hy : |y| < 2 ^ φ.p) : CIs (a * e) x y ∧ CIs (e * a) x y := by
  have lt : ∀ z : ℤ, |z| < 2 ^ φ.p → |(z : ℚ)| < 2 ^ (φ.emax + 1) := fun z hz => by
    have := rd_small h z hz
    rw [← this.1]
    exact this.2
  exact CVal.mul_one_is h.hp ha he (grid_small h.hmin x hx) (grid_small h.hmin y hy) (lt x hx) (lt y hy)

end Verif.Fp
