import Verif.Fp.FpComplex

/-!
# Fused multiply-add, and every way a compiler may fuse

The Go language lets an implementation combine `x*y + z` into one operation that rounds once; the compilers for arm64,
ppc64, s390x and riscv64 do so, the one for amd64 does not.  `fma` is that operation.  `Eval e v` says that `v` is a value
an implementation may compute for the expression `e`, each product that is a term of a sum or difference being fused or
not.
-/

namespace Verif.Fp

/-- The product of two data before rounding. -/
def mulExact : Val → Val → Val
  | .nan, _ => .nan
  | _, .nan => .nan
  | .inf s, .inf t => .inf (s != t)
  | .inf s, .fin t q => if q = 0 then .nan else .inf (s != t)
  | .fin s q, .inf t => if q = 0 then .nan else .inf (s != t)
  | .fin s q, .fin t r => .fin (s != t) (q * r)

/-- `x*y + z` with a single rounding (IEEE-754 fusedMultiplyAdd). -/
def fma (φ : Format) (x y z : Val) : Val := add φ (mulExact x y) z

/-- A product is the rounded exact product. -/
theorem mul_exact (φ : Format) (x y : Val) (h : ∀ s q, mulExact x y = .fin s q → 0 ≤ q) :
    mul φ x y = match mulExact x y with
      | .fin s q => round φ s q
      | v => v := by
  cases x <;> cases y <;> simp [mul, mulExact] <;> split <;> simp_all

theorem is_mulExact {v w : Val} {x y : ℚ} (hv : Is v x) (hw : Is w y) : Is (mulExact v w) (x * y) := by
  obtain ⟨⟨s, q, rfl, hq⟩, hx⟩ := hv
  obtain ⟨⟨t, r, rfl, hr⟩, hy⟩ := hw
  refine ⟨⟨_, _, rfl, mul_nonneg hq hr⟩, ?_⟩
  rw [← hx, ← hy]
  cases s <;> cases t <;> simp [Val.toRat, mulExact]

theorem fma_rd (φ : Format) {a b c : Val} {x y z : ℚ} (ha : Is a x) (hb : Is b y) (hc : Is c z)
    (h : |rd φ (x * y + z)| < 2 ^ (φ.emax + 1)) : Is (fma φ a b c) (rd φ (x * y + z)) :=
  add_rd φ (is_mulExact ha hb) hc h

/-- A fused operation rounds the exact result once. -/
theorem fma_val {φ : Format} (h : φ.Ok) {a b c : FVal φ} (ha : Finite a) (hb : Finite b) (hc : Finite c)
    (ht : |val a * val b + val c| ≤ 2 ^ φ.emax) :
    Finite (fma φ a b c) ∧
      |val (fma φ a b c) - (val a * val b + val c)| ≤ uR φ * |val a * val b + val c| + wR φ := by
  have e : val a * val b + val c = ((Val.toRat a * Val.toRat b + Val.toRat c : ℚ) : ℝ) := by unfold val; push_cast; rfl
  rw [e] at ht ⊢
  obtain ⟨h1, h2⟩ := rd_real h ht
  have hi := fma_rd φ (a := a) (b := b) (c := c) ⟨ha, rfl⟩ ⟨hb, rfl⟩ ⟨hc, rfl⟩ h1
  refine ⟨hi.1, ?_⟩
  rw [val_of_is hi]
  exact h2

/-- Arithmetic expressions over data of a format. -/
inductive Expr (φ : Format) where
  | leaf (v : FVal φ)
  | add (a b : Expr φ)
  | sub (a b : Expr φ)
  | mul (a b : Expr φ)

namespace Expr
variable {φ : Format}

instance : Add (Expr φ) := ⟨Expr.add⟩
instance : Sub (Expr φ) := ⟨Expr.sub⟩
instance : Mul (Expr φ) := ⟨Expr.mul⟩
instance : Zero (Expr φ) := ⟨Expr.leaf 0⟩

/-- The value when nothing is fused. -/
def unfused : Expr φ → FVal φ
  | .leaf v => v
  | .add a b => a.unfused + b.unfused
  | .sub a b => a.unfused - b.unfused
  | .mul a b => a.unfused * b.unfused

/-- The values an implementation may compute. -/
inductive Eval : Expr φ → FVal φ → Prop where
  | leaf (v : FVal φ) : Eval (.leaf v) v
  | add {a b : Expr φ} {x y : FVal φ} : Eval a x → Eval b y → Eval (.add a b) (x + y)
  | sub {a b : Expr φ} {x y : FVal φ} : Eval a x → Eval b y → Eval (.sub a b) (x - y)
  | mul {a b : Expr φ} {x y : FVal φ} : Eval a x → Eval b y → Eval (.mul a b) (x * y)
  /-- `a*b + c` -/
  | fmadd {a b c : Expr φ} {x y z : FVal φ} : Eval a x → Eval b y → Eval c z →
      Eval (.add (.mul a b) c) (fma φ x y z)
  /-- `c + a*b` -/
  | fmadd' {a b c : Expr φ} {x y z : FVal φ} : Eval a x → Eval b y → Eval c z →
      Eval (.add c (.mul a b)) (fma φ x y z)
  /-- `a*b - c` -/
  | fmsub {a b c : Expr φ} {x y z : FVal φ} : Eval a x → Eval b y → Eval c z →
      Eval (.sub (.mul a b) c) (fma φ x y (Fp.neg z))
  /-- `c - a*b` -/
  | fnmsub {a b c : Expr φ} {x y z : FVal φ} : Eval a x → Eval b y → Eval c z →
      Eval (.sub c (.mul a b)) (fma φ (Fp.neg x) y z)

/-- Not fusing is allowed. -/
theorem eval_unfused (e : Expr φ) : Eval e e.unfused := by
  induction e with
  | leaf v => exact .leaf v
  | add a b ha hb => exact .add ha hb
  | sub a b ha hb => exact .sub ha hb
  | mul a b ha hb => exact .mul ha hb

/-- The value when every product that is a term of a sum or difference is fused, the left one if both are, and the factors of a product. -/
def fuseParts : Expr φ → FVal φ × Option (FVal φ × FVal φ)
  | .leaf v => (v, none)
  | .mul a b => (a.fuseParts.1 * b.fuseParts.1, some (a.fuseParts.1, b.fuseParts.1))
  | .add a b => (match a.fuseParts.2, b.fuseParts.2 with
      | some p, _ => fma φ p.1 p.2 b.fuseParts.1
      | none, some p => fma φ p.1 p.2 a.fuseParts.1
      | none, none => a.fuseParts.1 + b.fuseParts.1, none)
  | .sub a b => (match a.fuseParts.2, b.fuseParts.2 with
      | some p, _ => fma φ p.1 p.2 (Fp.neg b.fuseParts.1)
      | none, some p => fma φ (Fp.neg p.1) p.2 a.fuseParts.1
      | none, none => a.fuseParts.1 - b.fuseParts.1, none)

/-- The value when everything is fused. -/
def fuse (e : Expr φ) : FVal φ := e.fuseParts.1

theorem eval_fuseParts (e : Expr φ) : Eval e e.fuseParts.1 ∧
    ∀ p, e.fuseParts.2 = some p → ∃ a b, e = .mul a b ∧ Eval a p.1 ∧ Eval b p.2 := by
  induction e with
  | leaf v => exact ⟨.leaf v, by simp [fuseParts]⟩
  | mul a b ha hb =>
    refine ⟨.mul ha.1 hb.1, fun p hp => ⟨a, b, rfl, ?_⟩⟩
    simp only [fuseParts, Option.some.injEq] at hp
    rw [← hp]
    exact ⟨ha.1, hb.1⟩
  | add a b ha hb =>
    refine ⟨?_, by simp [fuseParts]⟩
    unfold fuseParts
    dsimp only
    split
    · rename_i p h
      obtain ⟨c, d, rfl, hc, hd⟩ := ha.2 p h
      exact .fmadd hc hd hb.1
    · rename_i p _ h
      obtain ⟨c, d, rfl, hc, hd⟩ := hb.2 p h
      exact .fmadd' hc hd ha.1
    · exact .add ha.1 hb.1
  | sub a b ha hb =>
    refine ⟨?_, by simp [fuseParts]⟩
    unfold fuseParts
    dsimp only
    split
    · rename_i p h
      obtain ⟨c, d, rfl, hc, hd⟩ := ha.2 p h
      exact .fmsub hc hd hb.1
    · rename_i p _ h
      obtain ⟨c, d, rfl, hc, hd⟩ := hb.2 p h
      exact .fnmsub hc hd ha.1
    · exact .sub ha.1 hb.1

/-- Fusing is allowed. -/
theorem eval_fuse (e : Expr φ) : Eval e e.fuse := e.eval_fuseParts.1

/-- It makes a difference: `(1 + 2^-23)^2 - (1 + 2^-22)` is 0 rounded twice and `2^-46` rounded once. -/
example : unfused (φ := binary32) (.sub (.mul (.leaf (.fin false (1 + 1 / 2 ^ 23))) (.leaf (.fin false (1 + 1 / 2 ^ 23))))
      (.leaf (.fin false (1 + 1 / 2 ^ 22)))) = .fin false 0 ∧
    fuse (φ := binary32) (.sub (.mul (.leaf (.fin false (1 + 1 / 2 ^ 23))) (.leaf (.fin false (1 + 1 / 2 ^ 23))))
      (.leaf (.fin false (1 + 1 / 2 ^ 22)))) = .fin false (1 / 2 ^ 46) := by
  constructor
  · exact (by decide +kernel : Fp.sub binary32 (Fp.mul binary32 (.fin false (1 + 1 / 2 ^ 23)) (.fin false (1 + 1 / 2 ^ 23)))
      (.fin false (1 + 1 / 2 ^ 22)) = .fin false 0)
  · exact (by decide +kernel : fma binary32 (.fin false (1 + 1 / 2 ^ 23)) (.fin false (1 + 1 / 2 ^ 23))
      (Fp.neg (.fin false (1 + 1 / 2 ^ 22))) = .fin false (1 / 2 ^ 46))

/-- The exact value. -/
noncomputable def exact : Expr φ → ℝ
  | .leaf v => val v
  | .add a b => a.exact + b.exact
  | .sub a b => a.exact - b.exact
  | .mul a b => a.exact * b.exact

/-- A bound of the magnitude of every part. -/
noncomputable def size : Expr φ → ℝ
  | .leaf v => |val v|
  | .add a b => (1 + uR φ) * (a.size + b.size) + wR φ
  | .sub a b => (1 + uR φ) * (a.size + b.size) + wR φ
  | .mul a b => (1 + uR φ) * (a.size * b.size) + wR φ

/-- The usual running bound of the rounding error. -/
noncomputable def err : Expr φ → ℝ
  | .leaf _ => 0
  | .add a b => a.err + b.err + uR φ * (a.size + b.size) + wR φ
  | .sub a b => a.err + b.err + uR φ * (a.size + b.size) + wR φ
  | .mul a b => a.err * b.size + a.size * b.err + uR φ * (a.size * b.size) + wR φ

/-- All leaves are finite. -/
def Leaves : Expr φ → Prop
  | .leaf v => Finite v
  | .add a b => a.Leaves ∧ b.Leaves
  | .sub a b => a.Leaves ∧ b.Leaves
  | .mul a b => a.Leaves ∧ b.Leaves

/-- No part overflows. -/
def InRange : Expr φ → Prop
  | .leaf _ => True
  | .add a b => a.InRange ∧ b.InRange ∧ a.size + b.size ≤ 2 ^ φ.emax
  | .sub a b => a.InRange ∧ b.InRange ∧ a.size + b.size ≤ 2 ^ φ.emax
  | .mul a b => a.InRange ∧ b.InRange ∧ a.size * b.size ≤ 2 ^ φ.emax

theorem size_nonneg (e : Expr φ) : 0 ≤ e.size := by
  have := uR_pos φ
  have := wR_pos φ
  induction e with
  | leaf v => exact abs_nonneg _
  | add a b ha hb => unfold size; positivity
  | sub a b ha hb => unfold size; positivity
  | mul a b ha hb => unfold size; positivity

theorem exact_le (e : Expr φ) : |e.exact| ≤ e.size := by
  have hu := uR_pos φ
  have hw := wR_pos φ
  induction e with
  | leaf v => exact le_refl _
  | add a b ha hb =>
    have : 0 ≤ uR φ * (a.size + b.size) := mul_nonneg hu.le (add_nonneg a.size_nonneg b.size_nonneg)
    exact (abs_add_le _ _).trans (by unfold size; linarith)
  | sub a b ha hb =>
    have : 0 ≤ uR φ * (a.size + b.size) := mul_nonneg hu.le (add_nonneg a.size_nonneg b.size_nonneg)
    exact (abs_sub _ _).trans (by unfold size; linarith)
  | mul a b ha hb =>
    have : 0 ≤ uR φ * (a.size * b.size) := mul_nonneg hu.le (mul_nonneg a.size_nonneg b.size_nonneg)
    unfold exact
    rw [abs_mul]
    refine (mul_le_mul ha hb (abs_nonneg _) a.size_nonneg).trans ?_
    show _ ≤ (1 + uR φ) * (a.size * b.size) + wR φ
    linarith

theorem err_nonneg (e : Expr φ) : 0 ≤ e.err := by
  have hu := uR_pos φ
  have hw := wR_pos φ
  induction e with
  | leaf v => exact le_refl _
  | add a b ha hb =>
    have := a.size_nonneg
    have := b.size_nonneg
    unfold err; positivity
  | sub a b ha hb =>
    have := a.size_nonneg
    have := b.size_nonneg
    unfold err; positivity
  | mul a b ha hb =>
    have := a.size_nonneg
    have := b.size_nonneg
    unfold err; positivity

theorem mul_close {x y a b s t e f : ℝ} (hx : |x - a| ≤ e) (hy : |y - b| ≤ f) (hys : |y| ≤ t) (has : |a| ≤ s) :
    |x * y - a * b| ≤ e * t + s * f := by
  have : x * y - a * b = (x - a) * y + a * (y - b) := by ring
  rw [this]
  refine (abs_add_le _ _).trans (add_le_add ?_ ?_)
  · rw [abs_mul]
    exact mul_le_mul hx hys (abs_nonneg _) ((abs_nonneg _).trans hx)
  · rw [abs_mul]
    exact mul_le_mul has hy (abs_nonneg _) ((abs_nonneg _).trans has)

/-- A rounded value of an intermediate exact one. -/
theorem rounded {u w v m e B E : ℝ} (hu : 0 ≤ u) (h : |v - m| ≤ u * |m| + w) (hm : |m| ≤ B) (he : |m - e| ≤ E) :
    |v - e| ≤ E + u * B + w ∧ |v| ≤ (1 + u) * B + w := by
  have h1 := mul_le_mul_of_nonneg_left hm hu
  constructor
  · have : v - e = (v - m) + (m - e) := by ring
    rw [this]
    exact (abs_add_le _ _).trans (by linarith)
  · have : v = (v - m) + m := by ring
    rw [this]
    exact (abs_add_le _ _).trans (by linarith)

theorem finite_neg {v : Val} (h : Finite v) : Finite (neg v) ∧ val (neg v) = -val v := by
  have := is_neg (v := v) (x := v.toRat) ⟨h, rfl⟩
  exact ⟨this.1, by unfold val; rw [this.2]; push_cast; rfl⟩

/-- A fused operation is within the bounds of the two separate ones. -/
theorem fma_core (h : φ.Ok) {x y z : FVal φ} {A B C ea eb ec sa sb sc : ℝ} (hx : Finite x) (hy : Finite y) (hz : Finite z)
    (xa : |val x - A| ≤ ea) (yb : |val y - B| ≤ eb) (zc : |val z - C| ≤ ec) (xs : |val x| ≤ sa) (ys : |val y| ≤ sb)
    (zs : |val z| ≤ sc) (as : |A| ≤ sa) (ht : ((1 + uR φ) * (sa * sb) + wR φ) + sc ≤ 2 ^ φ.emax) :
    Finite (fma φ x y z) ∧
    |val (fma φ x y z) - (A * B + C)| ≤ (ea * sb + sa * eb + uR φ * (sa * sb) + wR φ) + ec
      + uR φ * (((1 + uR φ) * (sa * sb) + wR φ) + sc) + wR φ ∧
    |val (fma φ x y z)| ≤ (1 + uR φ) * (((1 + uR φ) * (sa * sb) + wR φ) + sc) + wR φ := by
  have hu := uR_pos φ
  have hw := wR_pos φ
  have hsa : 0 ≤ sa := (abs_nonneg _).trans xs
  have hsb : 0 ≤ sb := (abs_nonneg _).trans ys
  have hp : 0 ≤ uR φ * (sa * sb) := by positivity
  have hxy : |val x * val y| ≤ sa * sb := by
    rw [abs_mul]
    exact mul_le_mul xs ys (abs_nonneg _) hsa
  have hm : |val x * val y + val z| ≤ ((1 + uR φ) * (sa * sb) + wR φ) + sc :=
    (abs_add_le _ _).trans (by linarith)
  obtain ⟨c1, c2⟩ := fma_val h hx hy hz (hm.trans ht)
  refine ⟨c1, rounded hu.le c2 hm ?_⟩
  have : val x * val y + val z - (A * B + C) = (val x * val y - A * B) + (val z - C) := by ring
  rw [this]
  have := mul_close xa yb ys as
  exact (abs_add_le _ _).trans (by linarith)

/-- Whatever an implementation fuses, the value is finite, and the error is within the running bound of the unfused
computation. -/
theorem eval_err (h : φ.Ok) {e : Expr φ} {v : FVal φ} (hv : Eval e v) (hl : e.Leaves) (hr : e.InRange) :
    Finite v ∧ |val v - e.exact| ≤ e.err ∧ |val v| ≤ e.size := by
  have hu := uR_pos φ
  have hw := wR_pos φ
  induction hv with
  | leaf v => exact ⟨hl, by simp [exact, err], le_refl _⟩
  | @add a b x y _ _ ha hb =>
    obtain ⟨a1, a2, a3⟩ := ha hl.1 hr.1
    obtain ⟨b1, b2, b3⟩ := hb hl.2 hr.2.1
    have hm : |val x + val y| ≤ a.size + b.size := (abs_add_le _ _).trans (add_le_add a3 b3)
    obtain ⟨c1, c2⟩ := add_val h a1 b1 (hm.trans hr.2.2)
    refine ⟨c1, rounded hu.le c2 hm ?_⟩
    have : val x + val y - (a.exact + b.exact) = (val x - a.exact) + (val y - b.exact) := by ring
    show |val x + val y - (a.exact + b.exact)| ≤ a.err + b.err
    rw [this]
    exact (abs_add_le _ _).trans (add_le_add a2 b2)
  | @sub a b x y _ _ ha hb =>
    obtain ⟨a1, a2, a3⟩ := ha hl.1 hr.1
    obtain ⟨b1, b2, b3⟩ := hb hl.2 hr.2.1
    have hm : |val x - val y| ≤ a.size + b.size := (abs_sub _ _).trans (add_le_add a3 b3)
    obtain ⟨c1, c2⟩ := sub_val h a1 b1 (hm.trans hr.2.2)
    refine ⟨c1, rounded hu.le c2 hm ?_⟩
    have : val x - val y - (a.exact - b.exact) = (val x - a.exact) - (val y - b.exact) := by ring
    show |val x - val y - (a.exact - b.exact)| ≤ a.err + b.err
    rw [this]
    exact (abs_sub _ _).trans (add_le_add a2 b2)
  | @mul a b x y _ _ ha hb =>
    obtain ⟨a1, a2, a3⟩ := ha hl.1 hr.1
    obtain ⟨b1, b2, b3⟩ := hb hl.2 hr.2.1
    have hm : |val x * val y| ≤ a.size * b.size := by
      rw [abs_mul]
      exact mul_le_mul a3 b3 (abs_nonneg _) a.size_nonneg
    obtain ⟨c1, c2⟩ := mul_val h a1 b1 (hm.trans hr.2.2)
    exact ⟨c1, rounded hu.le c2 hm (mul_close a2 b2 b3 a.exact_le)⟩
  | @fmadd a b c x y z _ _ _ ha hb hc =>
    obtain ⟨a1, a2, a3⟩ := ha hl.1.1 hr.1.1
    obtain ⟨b1, b2, b3⟩ := hb hl.1.2 hr.1.2.1
    obtain ⟨c1, c2, c3⟩ := hc hl.2 hr.2.1
    exact fma_core h a1 b1 c1 a2 b2 c2 a3 b3 c3 a.exact_le hr.2.2
  | @fmadd' a b c x y z _ _ _ ha hb hc =>
    obtain ⟨a1, a2, a3⟩ := ha hl.2.1 hr.2.1.1
    obtain ⟨b1, b2, b3⟩ := hb hl.2.2 hr.2.1.2.1
    obtain ⟨c1, c2, c3⟩ := hc hl.1 hr.1
    have := fma_core h a1 b1 c1 a2 b2 c2 a3 b3 c3 a.exact_le (by rw [add_comm]; exact hr.2.2)
    refine ⟨this.1, ?_, ?_⟩
    · show |_ - (c.exact + a.exact * b.exact)| ≤ c.err + (mul a b).err + uR φ * (c.size + (mul a b).size) + wR φ
      rw [add_comm c.exact, add_comm c.err, add_comm c.size]
      exact this.2.1
    · show _ ≤ (1 + uR φ) * (c.size + (mul a b).size) + wR φ
      rw [add_comm c.size]
      exact this.2.2
  | @fmsub a b c x y z _ _ _ ha hb hc =>
    obtain ⟨a1, a2, a3⟩ := ha hl.1.1 hr.1.1
    obtain ⟨b1, b2, b3⟩ := hb hl.1.2 hr.1.2.1
    obtain ⟨c1, c2, c3⟩ := hc hl.2 hr.2.1
    obtain ⟨n1, n2⟩ := finite_neg c1
    have c2' : |val (Fp.neg z) - -c.exact| ≤ c.err := by
      rw [n2, ← abs_neg]
      have : -(-val z - -c.exact) = val z - c.exact := by ring
      rw [this]
      exact c2
    have c3' : |val (Fp.neg z)| ≤ c.size := by rw [n2, abs_neg]; exact c3
    have := fma_core h a1 b1 (z := Fp.neg z) n1 a2 b2 c2' a3 b3 c3' a.exact_le hr.2.2
    rw [← sub_eq_add_neg] at this
    exact this
  | @fnmsub a b c x y z _ _ _ ha hb hc =>
    obtain ⟨a1, a2, a3⟩ := ha hl.2.1 hr.2.1.1
    obtain ⟨b1, b2, b3⟩ := hb hl.2.2 hr.2.1.2.1
    obtain ⟨c1, c2, c3⟩ := hc hl.1 hr.1
    obtain ⟨n1, n2⟩ := finite_neg a1
    have a2' : |val (Fp.neg x) - -a.exact| ≤ a.err := by
      rw [n2, ← abs_neg]
      have : -(-val x - -a.exact) = val x - a.exact := by ring
      rw [this]
      exact a2
    have a3' : |val (Fp.neg x)| ≤ a.size := by rw [n2, abs_neg]; exact a3
    have := fma_core h (x := Fp.neg x) n1 b1 c1 a2' b2 c2 a3' b3 c3 (by rw [abs_neg]; exact a.exact_le)
      (by rw [add_comm]; exact hr.2.2)
    have e : -a.exact * b.exact + c.exact = c.exact - a.exact * b.exact := by ring
    rw [e] at this
    refine ⟨this.1, ?_, ?_⟩
    · show |_ - (c.exact - a.exact * b.exact)| ≤ c.err + (mul a b).err + uR φ * (c.size + (mul a b).size) + wR φ
      rw [add_comm c.err, add_comm c.size]
      exact this.2.1
    · show _ ≤ (1 + uR φ) * (c.size + (mul a b).size) + wR φ
      rw [add_comm c.size]
      exact this.2.2

/-- `e` has finite leaves and does not overflow; its parts are at most `S` and its error at most `E`. -/
structure Bd (e : Expr φ) (S E : ℝ) : Prop where
  leaves : e.Leaves
  range : e.InRange
  size : e.size ≤ S
  err : e.err ≤ E

theorem Bd.eval (h : φ.Ok) {e : Expr φ} {v : FVal φ} {S E : ℝ} (hb : Bd e S E) (hv : Eval e v) :
    Finite v ∧ |val v - e.exact| ≤ E :=
  let ⟨a, b, _⟩ := eval_err h hv hb.leaves hb.range
  ⟨a, b.trans hb.err⟩

theorem Bd.mono {e : Expr φ} {S E S' E' : ℝ} (h : Bd e S E) (hS : S ≤ S') (hE : E ≤ E') : Bd e S' E' :=
  ⟨h.leaves, h.range, h.size.trans hS, h.err.trans hE⟩

theorem bd_leaf {v : FVal φ} {S : ℝ} (hv : Finite v) (hS : |val v| ≤ S) : Bd (.leaf v) S 0 :=
  ⟨hv, trivial, hS, le_refl _⟩

theorem bd_add (h : φ.Ok) {a b : Expr φ} {S T E F : ℝ} (ha : Bd a S E) (hb : Bd b T F) (ht : S + T ≤ 2 ^ φ.emax) :
    Bd (a + b) (5 / 4 * (S + T) + wR φ) (E + F + uR φ * (S + T) + wR φ) := by
  have hu := uR_pos φ
  have hu4 := uR_le h
  have hs : a.size + b.size ≤ S + T := add_le_add ha.size hb.size
  have hs0 : 0 ≤ a.size + b.size := add_nonneg a.size_nonneg b.size_nonneg
  refine ⟨⟨ha.leaves, hb.leaves⟩, ⟨ha.range, hb.range, hs.trans ht⟩, ?_, ?_⟩
  · show (1 + uR φ) * (a.size + b.size) + wR φ ≤ _
    have : (1 + uR φ) * (a.size + b.size) ≤ 5 / 4 * (S + T) := mul_le_mul (by linarith) hs hs0 (by norm_num)
    linarith
  · show a.err + b.err + uR φ * (a.size + b.size) + wR φ ≤ _
    have := mul_le_mul_of_nonneg_left hs hu.le
    have := ha.err
    have := hb.err
    linarith

theorem bd_sub (h : φ.Ok) {a b : Expr φ} {S T E F : ℝ} (ha : Bd a S E) (hb : Bd b T F) (ht : S + T ≤ 2 ^ φ.emax) :
    Bd (a - b) (5 / 4 * (S + T) + wR φ) (E + F + uR φ * (S + T) + wR φ) :=
  let ⟨h1, h2, h3, h4⟩ := bd_add h ha hb ht
  ⟨h1, h2, h3, h4⟩

theorem bd_mul (h : φ.Ok) {a b : Expr φ} {S T E F : ℝ} (ha : Bd a S E) (hb : Bd b T F) (ht : S * T ≤ 2 ^ φ.emax) :
    Bd (a * b) (5 / 4 * (S * T) + wR φ) (E * T + S * F + uR φ * (S * T) + wR φ) := by
  have hu := uR_pos φ
  have hu4 := uR_le h
  have hS0 : 0 ≤ S := a.size_nonneg.trans ha.size
  have hs : a.size * b.size ≤ S * T := mul_le_mul ha.size hb.size b.size_nonneg hS0
  have hs0 : 0 ≤ a.size * b.size := mul_nonneg a.size_nonneg b.size_nonneg
  refine ⟨⟨ha.leaves, hb.leaves⟩, ⟨ha.range, hb.range, hs.trans ht⟩, ?_, ?_⟩
  · show (1 + uR φ) * (a.size * b.size) + wR φ ≤ _
    have : (1 + uR φ) * (a.size * b.size) ≤ 5 / 4 * (S * T) := mul_le_mul (by linarith) hs hs0 (by norm_num)
    linarith
  · show a.err * b.size + a.size * b.err + uR φ * (a.size * b.size) + wR φ ≤ _
    have h1 := mul_le_mul_of_nonneg_left hs hu.le
    have h2 : a.err * b.size ≤ E * T := mul_le_mul ha.err hb.size b.size_nonneg (a.err_nonneg.trans ha.err)
    have h3 : a.size * b.err ≤ S * F := mul_le_mul ha.size hb.err b.err_nonneg hS0
    linarith

end Expr
end Verif.Fp
