import Verif.Fp.FpFma

/-!
# Error bounds of expressions whose leaves are approximations

As `Fp/FpFma`, but the leaves may themselves be approximations of the numbers meant, such as rounded constants.  The
second half specialises the bounds to expressions that are linear in samples of magnitude at most `X`: magnitudes are
multiples of `X`, errors multiples of `u X`.
-/

namespace Verif.Fp
namespace Expr
variable {φ : Format}

/-- `e` approximates `A`; its parts are in range, its value is at most `S` and within `E` of `A`, whatever is fused. -/
inductive An : Expr φ → ℝ → ℝ → ℝ → Prop where
  | leaf {v : FVal φ} {A S E : ℝ} : Finite v → |val v - A| ≤ E → |val v| ≤ S → |A| ≤ S → An (.leaf v) A S E
  | add {a b : Expr φ} {A B S T E F : ℝ} : An a A S E → An b B T F → S + T ≤ 2 ^ φ.emax →
      An (.add a b) (A + B) ((1 + uR φ) * (S + T) + wR φ) (E + F + uR φ * (S + T) + wR φ)
  | sub {a b : Expr φ} {A B S T E F : ℝ} : An a A S E → An b B T F → S + T ≤ 2 ^ φ.emax →
      An (.sub a b) (A - B) ((1 + uR φ) * (S + T) + wR φ) (E + F + uR φ * (S + T) + wR φ)
  | mul {a b : Expr φ} {A B S T E F : ℝ} : An a A S E → An b B T F → S * T ≤ 2 ^ φ.emax →
      An (.mul a b) (A * B) ((1 + uR φ) * (S * T) + wR φ) (E * T + S * F + uR φ * (S * T) + wR φ)
  | mono {e : Expr φ} {A S T E F : ℝ} : An e A S E → S ≤ T → E ≤ F → An e A T F

theorem An.pos {e : Expr φ} {A S E : ℝ} (h : An e A S E) : |A| ≤ S ∧ 0 ≤ S ∧ 0 ≤ E := by
  have hu := uR_pos φ
  have hw := wR_pos φ
  induction h with
  | leaf _ h1 _ h3 => exact ⟨h3, (abs_nonneg _).trans h3, (abs_nonneg _).trans h1⟩
  | @add a b A B S T E F _ _ _ ha hb =>
    obtain ⟨a1, a2, a3⟩ := ha
    obtain ⟨b1, b2, b3⟩ := hb
    have : 0 ≤ uR φ * (S + T) := by positivity
    exact ⟨(abs_add_le _ _).trans (by linarith), by positivity, by positivity⟩
  | @sub a b A B S T E F _ _ _ ha hb =>
    obtain ⟨a1, a2, a3⟩ := ha
    obtain ⟨b1, b2, b3⟩ := hb
    have : 0 ≤ uR φ * (S + T) := by positivity
    exact ⟨(abs_sub _ _).trans (by linarith), by positivity, by positivity⟩
  | @mul a b A B S T E F _ _ _ ha hb =>
    obtain ⟨a1, a2, a3⟩ := ha
    obtain ⟨b1, b2, b3⟩ := hb
    have : 0 ≤ uR φ * (S * T) := by positivity
    have h4 : |A * B| ≤ S * T := by rw [abs_mul]; exact mul_le_mul a1 b1 (abs_nonneg _) a2
    exact ⟨by linarith, by positivity, by positivity⟩
  | mono _ h1 h2 ih => exact ⟨ih.1.trans h1, ih.2.1.trans h1, ih.2.2.trans h2⟩

/-- A leaf. -/
theorem An.leaf_inv {v : FVal φ} {A S E : ℝ} (h : An (.leaf v) A S E) :
    Finite v ∧ |val v - A| ≤ E ∧ |val v| ≤ S := by
  generalize he : Expr.leaf v = e at h
  induction h with
  | leaf h1 h2 h3 _ => cases he; exact ⟨h1, h2, h3⟩
  | mono _ h1 h2 ih => obtain ⟨a, b, c⟩ := ih he; exact ⟨a, b.trans h2, c.trans h1⟩
  | add => cases he
  | sub => cases he
  | mul => cases he

theorem An.add_inv {a b : Expr φ} {C S' E' : ℝ} (h : An (.add a b) C S' E') :
    ∃ A B S T E F, C = A + B ∧ An a A S E ∧ An b B T F ∧ S + T ≤ 2 ^ φ.emax ∧
      (1 + uR φ) * (S + T) + wR φ ≤ S' ∧ E + F + uR φ * (S + T) + wR φ ≤ E' := by
  generalize he : Expr.add a b = e at h
  induction h with
  | @add a b A B S T E F h1 h2 h3 => cases he; exact ⟨A, B, S, T, E, F, rfl, h1, h2, h3, le_rfl, le_rfl⟩
  | mono _ h1 h2 ih =>
    obtain ⟨A, B, S, T, E, F, e, c1, c2, c3, c4, c5⟩ := ih he
    exact ⟨A, B, S, T, E, F, e, c1, c2, c3, c4.trans h1, c5.trans h2⟩
  | leaf => cases he
  | sub => cases he
  | mul => cases he

theorem An.sub_inv {a b : Expr φ} {C S' E' : ℝ} (h : An (.sub a b) C S' E') :
    ∃ A B S T E F, C = A - B ∧ An a A S E ∧ An b B T F ∧ S + T ≤ 2 ^ φ.emax ∧
      (1 + uR φ) * (S + T) + wR φ ≤ S' ∧ E + F + uR φ * (S + T) + wR φ ≤ E' := by
  generalize he : Expr.sub a b = e at h
  induction h with
  | @sub a b A B S T E F h1 h2 h3 => cases he; exact ⟨A, B, S, T, E, F, rfl, h1, h2, h3, le_rfl, le_rfl⟩
  | mono _ h1 h2 ih =>
    obtain ⟨A, B, S, T, E, F, e, c1, c2, c3, c4, c5⟩ := ih he
    exact ⟨A, B, S, T, E, F, e, c1, c2, c3, c4.trans h1, c5.trans h2⟩
  | leaf => cases he
  | add => cases he
  | mul => cases he

theorem An.mul_inv {a b : Expr φ} {C S' E' : ℝ} (h : An (.mul a b) C S' E') :
    ∃ A B S T E F, C = A * B ∧ An a A S E ∧ An b B T F ∧ S * T ≤ 2 ^ φ.emax ∧
      (1 + uR φ) * (S * T) + wR φ ≤ S' ∧ E * T + S * F + uR φ * (S * T) + wR φ ≤ E' := by
  generalize he : Expr.mul a b = e at h
  induction h with
  | @mul a b A B S T E F h1 h2 h3 => cases he; exact ⟨A, B, S, T, E, F, rfl, h1, h2, h3, le_rfl, le_rfl⟩
  | mono _ h1 h2 ih =>
    obtain ⟨A, B, S, T, E, F, e, c1, c2, c3, c4, c5⟩ := ih he
    exact ⟨A, B, S, T, E, F, e, c1, c2, c3, c4.trans h1, c5.trans h2⟩
  | leaf => cases he
  | add => cases he
  | sub => cases he

/-- Whatever an implementation fuses, the value is finite, small and close to the number meant. -/
theorem An.eval (h : φ.Ok) {e : Expr φ} {v : FVal φ} (hv : Eval e v) {A S E : ℝ} (ha : An e A S E) :
    Finite v ∧ |val v - A| ≤ E ∧ |val v| ≤ S := by
  have hu := uR_pos φ
  have hw := wR_pos φ
  induction hv generalizing A S E with
  | leaf v => exact ha.leaf_inv
  | @add a b x y _ _ iha ihb =>
    obtain ⟨A, B, S, T, E, F, rfl, h1, h2, h3, h4, h5⟩ := ha.add_inv
    obtain ⟨a1, a2, a3⟩ := iha h1
    obtain ⟨b1, b2, b3⟩ := ihb h2
    have hm : |val x + val y| ≤ S + T := (abs_add_le _ _).trans (add_le_add a3 b3)
    obtain ⟨c1, c2⟩ := add_val h a1 b1 (hm.trans h3)
    have e : val x + val y - (A + B) = (val x - A) + (val y - B) := by ring
    have := rounded hu.le c2 hm (e := A + B) (E := E + F) (by rw [e]; exact (abs_add_le _ _).trans (add_le_add a2 b2))
    exact ⟨c1, this.1.trans h5, this.2.trans h4⟩
  | @sub a b x y _ _ iha ihb =>
    obtain ⟨A, B, S, T, E, F, rfl, h1, h2, h3, h4, h5⟩ := ha.sub_inv
    obtain ⟨a1, a2, a3⟩ := iha h1
    obtain ⟨b1, b2, b3⟩ := ihb h2
    have hm : |val x - val y| ≤ S + T := (abs_sub _ _).trans (add_le_add a3 b3)
    obtain ⟨c1, c2⟩ := sub_val h a1 b1 (hm.trans h3)
    have e : val x - val y - (A - B) = (val x - A) - (val y - B) := by ring
    have := rounded hu.le c2 hm (e := A - B) (E := E + F) (by rw [e]; exact (abs_sub _ _).trans (add_le_add a2 b2))
    exact ⟨c1, this.1.trans h5, this.2.trans h4⟩
  | @mul a b x y _ _ iha ihb =>
    obtain ⟨A, B, S, T, E, F, rfl, h1, h2, h3, h4, h5⟩ := ha.mul_inv
    obtain ⟨a1, a2, a3⟩ := iha h1
    obtain ⟨b1, b2, b3⟩ := ihb h2
    have hm : |val x * val y| ≤ S * T := by rw [abs_mul]; exact mul_le_mul a3 b3 (abs_nonneg _) h1.pos.2.1
    obtain ⟨c1, c2⟩ := mul_val h a1 b1 (hm.trans h3)
    have := rounded hu.le c2 hm (mul_close a2 b2 b3 h1.pos.1)
    exact ⟨c1, this.1.trans h5, this.2.trans h4⟩
  | @fmadd a b c x y z _ _ _ iha ihb ihc =>
    obtain ⟨P, C, S, T, E, F, rfl, h1, h2, h3, h4, h5⟩ := ha.add_inv
    obtain ⟨A, B, S1, S2, E1, E2, rfl, p1, p2, p3, p4, p5⟩ := h1.mul_inv
    obtain ⟨a1, a2, a3⟩ := iha p1
    obtain ⟨b1, b2, b3⟩ := ihb p2
    obtain ⟨c1, c2, c3⟩ := ihc h2
    obtain ⟨f1, f2, f3⟩ := fma_core h a1 b1 c1 a2 b2 c2 a3 b3 c3 p1.pos.1 ((add_le_add p4 le_rfl).trans h3)
    have k := mul_le_mul_of_nonneg_left (add_le_add p4 (le_refl T)) hu.le
    exact ⟨f1, f2.trans (by linarith), f3.trans (by linarith)⟩
  | @fmadd' a b c x y z _ _ _ iha ihb ihc =>
    obtain ⟨C, P, T, S, F, E, rfl, h2, h1, h3, h4, h5⟩ := ha.add_inv
    obtain ⟨A, B, S1, S2, E1, E2, rfl, p1, p2, p3, p4, p5⟩ := h1.mul_inv
    obtain ⟨a1, a2, a3⟩ := iha p1
    obtain ⟨b1, b2, b3⟩ := ihb p2
    obtain ⟨c1, c2, c3⟩ := ihc h2
    rw [add_comm T S] at h3 h4 h5
    rw [add_comm C]
    obtain ⟨f1, f2, f3⟩ := fma_core h a1 b1 c1 a2 b2 c2 a3 b3 c3 p1.pos.1 ((add_le_add p4 le_rfl).trans h3)
    have k := mul_le_mul_of_nonneg_left (add_le_add p4 (le_refl T)) hu.le
    exact ⟨f1, f2.trans (by linarith), f3.trans (by linarith)⟩
  | @fmsub a b c x y z _ _ _ iha ihb ihc =>
    obtain ⟨P, C, S, T, E, F, rfl, h1, h2, h3, h4, h5⟩ := ha.sub_inv
    obtain ⟨A, B, S1, S2, E1, E2, rfl, p1, p2, p3, p4, p5⟩ := h1.mul_inv
    obtain ⟨a1, a2, a3⟩ := iha p1
    obtain ⟨b1, b2, b3⟩ := ihb p2
    obtain ⟨c1, c2, c3⟩ := ihc h2
    obtain ⟨n1, n2⟩ := finite_neg c1
    have c2' : |val (Fp.neg z) - -C| ≤ F := by
      rw [n2, ← abs_neg]
      have : -(-val z - -C) = val z - C := by ring
      rw [this]
      exact c2
    have c3' : |val (Fp.neg z)| ≤ T := by rw [n2, abs_neg]; exact c3
    rw [sub_eq_add_neg (A * B) C]
    obtain ⟨f1, f2, f3⟩ := fma_core h a1 b1 (z := Fp.neg z) n1 a2 b2 c2' a3 b3 c3' p1.pos.1
      ((add_le_add p4 le_rfl).trans h3)
    have k := mul_le_mul_of_nonneg_left (add_le_add p4 (le_refl T)) hu.le
    exact ⟨f1, f2.trans (by linarith), f3.trans (by linarith)⟩
  | @fnmsub a b c x y z _ _ _ iha ihb ihc =>
    obtain ⟨C, P, T, S, F, E, rfl, h2, h1, h3, h4, h5⟩ := ha.sub_inv
    obtain ⟨A, B, S1, S2, E1, E2, rfl, p1, p2, p3, p4, p5⟩ := h1.mul_inv
    obtain ⟨a1, a2, a3⟩ := iha p1
    obtain ⟨b1, b2, b3⟩ := ihb p2
    obtain ⟨c1, c2, c3⟩ := ihc h2
    obtain ⟨n1, n2⟩ := finite_neg a1
    have a2' : |val (Fp.neg x) - -A| ≤ E1 := by
      rw [n2, ← abs_neg]
      have : -(-val x - -A) = val x - A := by ring
      rw [this]
      exact a2
    have a3' : |val (Fp.neg x)| ≤ S1 := by rw [n2, abs_neg]; exact a3
    rw [add_comm T S] at h3 h4 h5
    have e : C - A * B = -A * B + C := by ring
    rw [e]
    obtain ⟨f1, f2, f3⟩ := fma_core h (x := Fp.neg x) n1 b1 c1 a2' b2 c2 a3' b3 c3 (by rw [abs_neg]; exact p1.pos.1)
      ((add_le_add p4 le_rfl).trans h3)
    have k := mul_le_mul_of_nonneg_left (add_le_add p4 (le_refl T)) hu.le
    exact ⟨f1, f2.trans (by linarith), f3.trans (by linarith)⟩

/-! ## Expressions linear in samples -/

/-- Room for numbers up to `64 X`, and `X` not near the underflow threshold. -/
structure Scale (φ : Format) (X : ℝ) : Prop where
  ok : φ.Ok
  small : uR φ ≤ 1 / 2 ^ 24
  w : wR φ ≤ uR φ * X
  w1 : wR φ ≤ uR φ / 2 ^ 24
  top : 64 * X ≤ 2 ^ φ.emax
  top1 : (64 : ℝ) ≤ 2 ^ φ.emax

theorem Scale.pos {X : ℝ} (h : Scale φ X) : 0 < X := by
  have hu := uR_pos φ
  have hw := wR_pos φ
  have := h.w
  by_contra hc
  have : uR φ * X ≤ 0 := mul_nonpos_of_nonneg_of_nonpos hu.le (not_lt.1 hc)
  linarith

/-- Magnitude at most `s X`, error at most `e u X`. -/
def Vec (X : ℝ) (a : Expr φ) (A s e : ℝ) : Prop := An a A (s * X) (e * (uR φ * X)) ∧ 0 ≤ s ∧ 0 ≤ e

/-- Magnitude at most `s`, error at most `e u`. -/
def Sca (a : Expr φ) (A s e : ℝ) : Prop := An a A s (e * uR φ) ∧ 0 ≤ s ∧ 0 ≤ e

theorem Vec.leaf {X : ℝ} {v : FVal φ} (hv : Finite v) (hX : |val v| ≤ X) : Vec X (.leaf v) (val v) 1 0 :=
  ⟨.leaf hv (by simp) (by rw [one_mul]; exact hX) (by rw [one_mul]; exact hX), by norm_num, le_rfl⟩

theorem Vec.add {X : ℝ} (h : Scale φ X) {a b : Expr φ} {A B s t e f : ℝ} (ha : Vec X a A s e) (hb : Vec X b B t f)
    (hr : s + t ≤ 64) (s' e' : ℝ) (hs : (1 + 1 / 2 ^ 24) * (s + t) + 1 / 2 ^ 24 ≤ s') (he : e + f + (s + t) + 1 ≤ e') :
    Vec X (.add a b) (A + B) s' e' := by
  have hX := h.pos
  have hu := uR_pos φ
  obtain ⟨a1, a2, a3⟩ := ha
  obtain ⟨b1, b2, b3⟩ := hb
  have hst : 0 ≤ s + t := add_nonneg a2 b2
  refine ⟨(An.add a1 b1 ?_).mono ?_ ?_, by linarith [show (0 : ℝ) ≤ 1 / 2 ^ 24 * (s + t) by positivity], by linarith⟩
  · rw [← add_mul]
    exact (mul_le_mul_of_nonneg_right hr hX.le).trans h.top
  · have h1 : uR φ * ((s + t) * X) ≤ 1 / 2 ^ 24 * ((s + t) * X) := mul_le_mul_of_nonneg_right h.small (by positivity)
    have h2 := h.w
    have h3 : uR φ * X ≤ 1 / 2 ^ 24 * X := mul_le_mul_of_nonneg_right h.small hX.le
    have h4 := mul_le_mul_of_nonneg_right hs hX.le
    linarith
  · have h2 := h.w
    have h4 := mul_le_mul_of_nonneg_right he (mul_nonneg hu.le hX.le)
    linarith

theorem Vec.sub {X : ℝ} (h : Scale φ X) {a b : Expr φ} {A B s t e f : ℝ} (ha : Vec X a A s e) (hb : Vec X b B t f)
    (hr : s + t ≤ 64) (s' e' : ℝ) (hs : (1 + 1 / 2 ^ 24) * (s + t) + 1 / 2 ^ 24 ≤ s') (he : e + f + (s + t) + 1 ≤ e') :
    Vec X (.sub a b) (A - B) s' e' := by
  have hX := h.pos
  have hu := uR_pos φ
  obtain ⟨a1, a2, a3⟩ := ha
  obtain ⟨b1, b2, b3⟩ := hb
  have hst : 0 ≤ s + t := add_nonneg a2 b2
  refine ⟨(An.sub a1 b1 ?_).mono ?_ ?_, by linarith [show (0 : ℝ) ≤ 1 / 2 ^ 24 * (s + t) by positivity], by linarith⟩
  · rw [← add_mul]
    exact (mul_le_mul_of_nonneg_right hr hX.le).trans h.top
  · have h1 : uR φ * ((s + t) * X) ≤ 1 / 2 ^ 24 * ((s + t) * X) := mul_le_mul_of_nonneg_right h.small (by positivity)
    have h2 := h.w
    have h3 : uR φ * X ≤ 1 / 2 ^ 24 * X := mul_le_mul_of_nonneg_right h.small hX.le
    have h4 := mul_le_mul_of_nonneg_right hs hX.le
    linarith
  · have h2 := h.w
    have h4 := mul_le_mul_of_nonneg_right he (mul_nonneg hu.le hX.le)
    linarith

theorem Vec.mul {X : ℝ} (h : Scale φ X) {a b : Expr φ} {A B s t e f : ℝ} (ha : Vec X a A s e) (hb : Sca b B t f)
    (hr : s * t ≤ 64) (s' e' : ℝ) (hs : (1 + 1 / 2 ^ 24) * (s * t) + 1 / 2 ^ 24 ≤ s') (he : e * t + s * f + s * t + 1 ≤ e') :
    Vec X (.mul a b) (A * B) s' e' := by
  have hX := h.pos
  have hu := uR_pos φ
  obtain ⟨a1, a2, a3⟩ := ha
  obtain ⟨b1, b2, b3⟩ := hb
  have hst : 0 ≤ s * t := mul_nonneg a2 b2
  refine ⟨(An.mul a1 b1 ?_).mono ?_ ?_, by linarith [show (0 : ℝ) ≤ 1 / 2 ^ 24 * (s * t) by positivity], ?_⟩
  · have : s * X * t = (s * t) * X := by ring
    rw [this]
    exact (mul_le_mul_of_nonneg_right hr hX.le).trans h.top
  · have h1 : uR φ * ((s * t) * X) ≤ 1 / 2 ^ 24 * ((s * t) * X) := mul_le_mul_of_nonneg_right h.small (by positivity)
    have h2 := h.w
    have h3 : uR φ * X ≤ 1 / 2 ^ 24 * X := mul_le_mul_of_nonneg_right h.small hX.le
    have h4 := mul_le_mul_of_nonneg_right hs hX.le
    have e : s * X * t = (s * t) * X := by ring
    rw [e]
    linarith
  · have h2 := h.w
    have h4 := mul_le_mul_of_nonneg_right he (mul_nonneg hu.le hX.le)
    have e : e * (uR φ * X) * t + s * X * (f * uR φ) + uR φ * (s * X * t) = (e * t + s * f + s * t) * (uR φ * X) := by ring
    rw [e]
    linarith
  · have : 0 ≤ e * t + s * f + s * t := by positivity
    linarith

theorem Vec.mul' {X : ℝ} (h : Scale φ X) {a b : Expr φ} {A B s t e f : ℝ} (hb : Sca b B t f) (ha : Vec X a A s e)
    (hr : s * t ≤ 64) (s' e' : ℝ) (hs : (1 + 1 / 2 ^ 24) * (s * t) + 1 / 2 ^ 24 ≤ s') (he : e * t + s * f + s * t + 1 ≤ e') :
    Vec X (.mul b a) (B * A) s' e' := by
  have hX := h.pos
  have hu := uR_pos φ
  obtain ⟨a1, a2, a3⟩ := ha
  obtain ⟨b1, b2, b3⟩ := hb
  have hst : 0 ≤ s * t := mul_nonneg a2 b2
  refine ⟨(An.mul b1 a1 ?_).mono ?_ ?_, by linarith [show (0 : ℝ) ≤ 1 / 2 ^ 24 * (s * t) by positivity], ?_⟩
  · have : t * (s * X) = (s * t) * X := by ring
    rw [this]
    exact (mul_le_mul_of_nonneg_right hr hX.le).trans h.top
  · have h1 : uR φ * ((s * t) * X) ≤ 1 / 2 ^ 24 * ((s * t) * X) := mul_le_mul_of_nonneg_right h.small (by positivity)
    have h2 := h.w
    have h3 : uR φ * X ≤ 1 / 2 ^ 24 * X := mul_le_mul_of_nonneg_right h.small hX.le
    have h4 := mul_le_mul_of_nonneg_right hs hX.le
    have e : t * (s * X) = (s * t) * X := by ring
    rw [e]
    linarith
  · have h2 := h.w
    have h4 := mul_le_mul_of_nonneg_right he (mul_nonneg hu.le hX.le)
    have e : f * uR φ * (s * X) + t * (e * (uR φ * X)) + uR φ * (t * (s * X)) = (e * t + s * f + s * t) * (uR φ * X) := by ring
    rw [e]
    linarith
  · have : 0 ≤ e * t + s * f + s * t := by positivity
    linarith

/-- The value of such an expression, whatever is fused. -/
theorem Vec.eval {X : ℝ} (h : Scale φ X) {a : Expr φ} {A s e : ℝ} (ha : Vec X a A s e) {v : FVal φ} (hv : Eval a v) :
    Finite v ∧ |val v - A| ≤ e * uR φ * X ∧ |val v| ≤ s * X := by
  have := An.eval h.ok hv ha.1
  rw [← mul_assoc] at this
  exact this

/-- A numeric constant of the source, converted to the type of the other operand. -/
def konst (φ : Format) (q : ℚ) : FVal φ := roundRat φ q

/-- A rounded constant. -/
theorem Sca.const {X : ℝ} (h : Scale φ X) (q : ℚ) (s : ℝ) (hq : |(q : ℝ)| ≤ s) (hs : s ≤ 32) :
    Sca (.leaf (konst φ q)) q ((1 + 1 / 2 ^ 24) * s + 1 / 2 ^ 24) (s + 1 / 2 ^ 24) := by
  have hs0 : 0 ≤ s := (abs_nonneg _).trans hq
  have hu := uR_pos φ
  obtain ⟨h1, h2⟩ := rd_real h.ok (x := q) (hq.trans (by linarith [h.top1]))
  have hi : Is (roundRat φ q) (rd φ q) := by
    unfold roundRat
    have hr := round_rd φ (decide (q < 0)) (abs_nonneg q) (by rw [← abs_rd]; exact h1)
    rw [hr]
    refine ⟨⟨_, _, rfl, rd_nonneg _ (abs_nonneg q)⟩, ?_⟩
    show (if decide (q < 0) then -rd φ |q| else rd φ |q|) = rd φ q
    by_cases hq : q < 0
    · simp only [hq, decide_true, if_true, abs_of_neg hq, rd_neg, neg_neg]
    · simp only [hq, decide_false, Bool.false_eq_true, if_false, abs_of_nonneg (not_lt.1 hq)]
  have hv : val (roundRat φ q) = ((rd φ q : ℚ) : ℝ) := val_of_is hi
  have herr : |val (roundRat φ q) - q| ≤ uR φ * s + uR φ / 2 ^ 24 := by
    rw [hv]
    have := mul_le_mul_of_nonneg_left hq hu.le
    have := h.w1
    linarith
  have hsm : uR φ * s ≤ 1 / 2 ^ 24 * s := mul_le_mul_of_nonneg_right h.small hs0
  have hu1 : uR φ / 2 ^ 24 ≤ 1 / 2 ^ 24 := by
    rw [div_le_div_iff_of_pos_right (by norm_num)]
    have := h.small
    norm_num at this ⊢
    linarith
  refine ⟨.leaf hi.1 (herr.trans (by linarith)) ?_ ?_, by positivity, by positivity⟩
  · have e : val (roundRat φ q) = (val (roundRat φ q) - q) + q := by ring
    have h3 : |val (roundRat φ q)| ≤ |val (roundRat φ q) - q| + |(q : ℝ)| := by
      conv_lhs => rw [e]
      exact abs_add_le _ _
    exact h3.trans (by linarith)
  · linarith [show (0 : ℝ) ≤ 1 / 2 ^ 24 * s by positivity, show (0 : ℝ) ≤ 1 / 2 ^ 24 by positivity]

theorem scale32 {X : ℝ} (h1 : wR binary32 ≤ uR binary32 * X) (h2 : 64 * X ≤ 2 ^ binary32.emax) : Scale binary32 X := by
  have hu : uR binary32 = 1 / 2 ^ 24 := by unfold uR; norm_num [binary32]
  refine ⟨binary32_ok, hu.le, h1, ?_, h2, ?_⟩
  · have e : wR binary32 = 2 ^ (-150 : ℤ) := rfl
    rw [e, hu]
    have : (2 : ℝ) ^ (-150 : ℤ) ≤ 2 ^ (-48 : ℤ) := zpow_le_zpow_right₀ (by norm_num) (by norm_num)
    exact this.trans (by norm_num)
  · have : (2 : ℝ) ^ (6 : ℤ) ≤ 2 ^ binary32.emax := zpow_le_zpow_right₀ (by norm_num) (by decide)
    exact le_trans (by norm_num) this

theorem scale64 {X : ℝ} (h1 : wR binary64 ≤ uR binary64 * X) (h2 : 64 * X ≤ 2 ^ binary64.emax) : Scale binary64 X := by
  have hu : uR binary64 = 1 / 2 ^ 53 := by unfold uR; norm_num [binary64]
  refine ⟨binary64_ok, by rw [hu]; norm_num, h1, ?_, h2, ?_⟩
  · have e : wR binary64 = 2 ^ (-1075 : ℤ) := rfl
    rw [e, hu]
    have : (2 : ℝ) ^ (-1075 : ℤ) ≤ 2 ^ (-77 : ℤ) := zpow_le_zpow_right₀ (by norm_num) (by norm_num)
    exact this.trans (by norm_num)
  · have : (2 : ℝ) ^ (6 : ℤ) ≤ 2 ^ binary64.emax := zpow_le_zpow_right₀ (by norm_num) (by decide)
    exact le_trans (by norm_num) this

end Expr
end Verif.Fp
