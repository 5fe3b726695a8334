import Verif.Filt.DesignProps
import Verif.Filt.RespProps
import Verif.Fp.FpFma

/-!
# Property C108: the designs with a gain, and where rounding spoils a design
-/

namespace Verif.Filt
open Verif.Conv Verif.Fp

/-! ### The functions `math.Pow` and `math.Sqrt` -/

/-- `math.Pow(10, y)` for exponents of moderate size. -/
def PowOk (pow : FVal binary64 → FVal binary64 → FVal binary64) : Prop :=
  ∀ x y : FVal binary64, Is x 10 → Finite y → |val y| ≤ 2 → Finite (pow x y) ∧ |val (pow x y) - (10 : ℝ) ^ val y| ≤ 1 / 2 ^ 40

/-- `math.Sqrt` of numbers of moderate size. -/
def SqrtOk (sqrt : FVal binary64 → FVal binary64) : Prop :=
  ∀ x : FVal binary64, Finite x → 1 / 2 ^ 100 ≤ val x → val x ≤ 2 ^ 100 →
    Finite (sqrt x) ∧ |val (sqrt x) - √(val x)| ≤ √(val x) / 2 ^ 50

/-- Gains from -40 to 40 decibels. -/
structure GainOk (dB : FVal binary64) : Prop where
  fin : Finite dB
  size : |val dB| ≤ 40

/-- The computed `a`. -/
theorem gain_val {sin cos sqrt pow} (hp : PowOk pow) {dB : FVal binary64} (h : GainOk dB) :
    let L := lib64 sin cos sqrt pow
    let a := L.pow (L.lit 10) (dB / L.lit 40)
    Finite a ∧ 1 / 16 ≤ val a ∧ val a ≤ 16 := by
  intro L a
  obtain ⟨l1, l1'⟩ := lit64 (sin := sin) (cos := cos) (sqrt := sqrt) (pow := pow) 40 (by norm_num)
  push_cast at l1'
  have hb : |val dB / val ((lib64 sin cos sqrt pow).lit 40)| ≤ 1 := by
    rw [l1', abs_div, abs_of_pos (show (0 : ℝ) < 40 by norm_num), div_le_one (by norm_num)]
    exact h.size
  obtain ⟨d1, d2⟩ := Dft.div_val binary64_ok h.fin l1 (by rw [l1']; norm_num)
    (hb.trans (le_trans (by norm_num) big64))
  have hu := mul_le_mul_of_nonneg_left hb (uR_pos binary64).le
  rw [uR64] at d2 hu
  have hw := wR64
  have hy : |val (dB / (lib64 sin cos sqrt pow).lit 40 : FVal binary64)| ≤ 11 / 10 := by
    obtain ⟨z1, z2⟩ := abs_le.1 d2
    obtain ⟨z3, z4⟩ := abs_le.1 hb
    rw [abs_le]
    norm_num at z1 z2 hu hw
    constructor <;> linarith
  obtain ⟨y1, y2⟩ := abs_le.1 hy
  have i10 : Is (L.lit 10) 10 := by
    have := lib64_lit sin cos sqrt pow 10 (by norm_num)
    simpa using this
  obtain ⟨p1, p2⟩ := hp (L.lit 10) (dB / L.lit 40) i10 d1 (hy.trans (by norm_num))
  have top : (10 : ℝ) ^ (11 / 10 : ℝ) ≤ 15 := by
    have h1 : ((10 : ℝ) ^ (11 : ℝ)) ^ (1 / 10 : ℝ) ≤ ((15 : ℝ) ^ (10 : ℝ)) ^ (1 / 10 : ℝ) :=
      Real.rpow_le_rpow (by positivity) (by
        rw [show (11 : ℝ) = ((11 : ℕ) : ℝ) by norm_num, show (10 : ℝ) = ((10 : ℕ) : ℝ) by norm_num, Real.rpow_natCast,
          Real.rpow_natCast]
        norm_num) (by norm_num)
    rw [← Real.rpow_mul (by norm_num), ← Real.rpow_mul (by norm_num)] at h1
    norm_num at h1 ⊢
    exact h1
  have hi : (10 : ℝ) ^ val (dB / L.lit 40) ≤ 15 := (Real.rpow_le_rpow_of_exponent_le (by norm_num) y2).trans top
  have lo : 1 / 15 ≤ (10 : ℝ) ^ val (dB / L.lit 40) := by
    have h1 : (10 : ℝ) ^ (-(11 / 10) : ℝ) ≤ (10 : ℝ) ^ val (dB / L.lit 40) :=
      Real.rpow_le_rpow_of_exponent_le (by norm_num) y1
    rw [Real.rpow_neg (by norm_num)] at h1
    refine le_trans ?_ h1
    rw [one_div]
    exact inv_anti₀ (by positivity) top
  obtain ⟨z1, z2⟩ := abs_le.1 p2
  refine ⟨p1, ?_, ?_⟩
  · change 1 / 16 ≤ val (pow (L.lit 10) (dB / L.lit 40))
    norm_num at z1 z2 ⊢
    linarith
  · change val (pow (L.lit 10) (dB / L.lit 40)) ≤ 16
    norm_num at z1 z2 ⊢
    linarith

/-! ### Peaking equaliser -/

/-- C108, peaking equaliser with gains up to 40 decibels. -/
theorem C108_peaking {sin cos sqrt pow} {η : ℝ} (hη : η ≤ 1 / 2 ^ 50) (hT : Dft.Trig cos sin 4 η) (hp : PowOk pow)
    {fs f q dB : FVal binary64} (h : FreqOk64 20 fs f) (hq : QOk q) (hq1 : 1 / 2 ^ 6 ≤ val q) (hq2 : val q ≤ 2 ^ 20)
    (hg : GainOk dB) : Stable ((lib64 sin cos sqrt pow).peaking fs f q dB) := by
  obtain ⟨a1, a2, a3, -⟩ := alpha_val (sqrt := sqrt) (pow := pow) hη hT h hq
  obtain ⟨⟨c1, c2, c3, -⟩, -⟩ := lib_margin (sqrt := sqrt) (pow := pow) hη hT (le_refl 20) h
  obtain ⟨g1, g2, g3⟩ := gain_val (sin := sin) (cos := cos) (sqrt := sqrt) hp hg
  set L := lib64 sin cos sqrt pow with hL
  set a := L.pow (L.lit 10) (dB / L.lit 40) with had
  set α := L.alpha fs f q with hαd
  have hq0 : 0 < val q := lt_of_lt_of_le (by norm_num) hq1
  have hg0 : 0 < val a := lt_of_lt_of_le (by norm_num) g2
  have l1 : 1 / 2 ^ 42 ≤ val α := by
    refine le_trans ?_ a2
    rw [div_div, div_le_div_iff₀ (by positivity) (by positivity)]
    norm_num at hq2 ⊢
    linarith
  have l2 : val α ≤ 96 := by
    refine a3.trans ?_
    rw [div_le_iff₀ hq0]
    norm_num at hq1 ⊢
    linarith
  have hα0 : 0 < val α := lt_of_lt_of_le (by norm_num) l1
  have m1 : val α / val a ≤ 1536 := by
    rw [div_le_iff₀ hg0]
    linarith
  have m2 : 1 / 2 ^ 46 ≤ val α / val a := by
    rw [le_div_iff₀ hg0]
    norm_num at l1 ⊢
    linarith
  have m3 : |val α / val a| ≤ 1536 := by rwa [abs_of_pos (by positivity)]
  obtain ⟨d1, d2⟩ := Dft.div_val binary64_ok a1 g1 hg0.ne' (m3.trans (le_trans (by norm_num) big64))
  have hu : uR binary64 * |val α / val a| ≤ uR binary64 * (val α / val a) := by
    rw [abs_of_pos (by positivity)]
  have hw := wR64
  rw [uR64] at d2 hu
  obtain ⟨z1, z2⟩ := abs_le.1 d2
  have k1 : 1 / 2 ^ 47 ≤ val (α / a : FVal binary64) := by
    norm_num at z1 hu hw m2 ⊢
    linarith
  have k2 : val (α / a : FVal binary64) ≤ 2 ^ 11 := by
    norm_num at z2 hu hw m1 ⊢
    linarith
  refine stable_alpha binary64_ok (by decide) (lib64_lit sin cos sqrt pow) (vα := α / a)
    (vc := cos (L.w0 fs f)) rfl rfl rfl (α := (α / a : FVal binary64).toRat)
    ⟨d1, rfl⟩ ⟨c1, rfl⟩ c2 (m := 11) (by decide) (by decide) ?_ ?_ ?_
  · have : (1 / 2 ^ 47 : ℚ) ≤ (α / a : FVal binary64).toRat := by
      refine (Rat.cast_le (K := ℝ)).1 ?_
      push_cast
      exact k1
    refine lt_of_lt_of_le ?_ this
    norm_num [binary64]
  · refine (Rat.cast_le (K := ℝ)).1 ?_
    push_cast
    exact k2
  · have : |(cos (L.w0 fs f)).toRat| ≤ 1 - 1 / 4 ^ 20 := by
      refine (Rat.cast_le (K := ℝ)).1 ?_
      push_cast
      exact c3
    refine this.trans ?_
    norm_num [binary64]

/-! ### Shelves, with any of the products and sums fused -/

/-- `A0` and `A2` of the low shelf, dsp/biquad.go:172-178: `(a+1) + (a-1)*cosW0 ± temp` with `temp = 2*sqrt(a)*alpha`. -/
def lowA (L : Lib (FVal binary64)) (plus : Bool) (a c sa al : FVal binary64) : Expr binary64 :=
  let p := (Expr.leaf a + .leaf (L.lit 1)) + (Expr.leaf a - .leaf (L.lit 1)) * .leaf c
  let t := Expr.leaf (L.lit 2) * .leaf sa * .leaf al
  if plus then p + t else p - t

/-- `A1` of the low shelf. -/
def lowA1 (L : Lib (FVal binary64)) (a c : FVal binary64) : Expr binary64 :=
  .leaf (L.lit (-2)) * ((Expr.leaf a - .leaf (L.lit 1)) + (Expr.leaf a + .leaf (L.lit 1)) * .leaf c)

/-- `A0` and `A2` of the high shelf, dsp/biquad.go:190-196. -/
def highA (L : Lib (FVal binary64)) (plus : Bool) (a c sa al : FVal binary64) : Expr binary64 :=
  let p := (Expr.leaf a + .leaf (L.lit 1)) - (Expr.leaf a - .leaf (L.lit 1)) * .leaf c
  let t := Expr.leaf (L.lit 2) * .leaf sa * .leaf al
  if plus then p + t else p - t

/-- `A1` of the high shelf. -/
def highA1 (L : Lib (FVal binary64)) (a c : FVal binary64) : Expr binary64 :=
  .leaf (L.lit 2) * ((Expr.leaf a - .leaf (L.lit 1)) - (Expr.leaf a + .leaf (L.lit 1)) * .leaf c)

/-- The radicand of the shelves, dsp/biquad.go:169 and 187. -/
def radicand (L : Lib (FVal binary64)) (a slope : FVal binary64) : Expr binary64 :=
  (Expr.leaf a + .leaf (L.lit 1 / a)) * (.leaf (L.lit 1 / slope) - .leaf (L.lit 1)) + .leaf (L.lit 2)

namespace Shelf
open Expr

theorem mono {e : Expr binary64} {S E S' E' : ℝ} (h : Bd e S E) (hS : S ≤ S') (hE : E ≤ E') : Bd e S' E' :=
  ⟨h.leaves, h.range, h.size.trans hS, h.err.trans hE⟩

theorem add64 {a b : Expr binary64} {S T E F : ℝ} (ha : Bd a S E) (hb : Bd b T F) (ht : S + T ≤ 2 ^ 100) {S' E' : ℝ}
    (hS : 5 / 4 * (S + T) + 1 / 2 ^ 200 ≤ S') (hE : E + F + 1 / 2 ^ 53 * (S + T) + 1 / 2 ^ 200 ≤ E') : Bd (a + b) S' E' := by
  have hw := wR64
  refine mono (bd_add binary64_ok ha hb (ht.trans (le_trans (by norm_num) big64))) (by linarith) ?_
  rw [uR64]
  linarith

theorem sub64 {a b : Expr binary64} {S T E F : ℝ} (ha : Bd a S E) (hb : Bd b T F) (ht : S + T ≤ 2 ^ 100) {S' E' : ℝ}
    (hS : 5 / 4 * (S + T) + 1 / 2 ^ 200 ≤ S') (hE : E + F + 1 / 2 ^ 53 * (S + T) + 1 / 2 ^ 200 ≤ E') : Bd (a - b) S' E' := by
  have hw := wR64
  refine mono (bd_sub binary64_ok ha hb (ht.trans (le_trans (by norm_num) big64))) (by linarith) ?_
  rw [uR64]
  linarith

theorem mul64 {a b : Expr binary64} {S T E F : ℝ} (ha : Bd a S E) (hb : Bd b T F) (ht : S * T ≤ 2 ^ 100) {S' E' : ℝ}
    (hS : 5 / 4 * (S * T) + 1 / 2 ^ 200 ≤ S') (hE : E * T + S * F + 1 / 2 ^ 53 * (S * T) + 1 / 2 ^ 200 ≤ E') :
    Bd (a * b) S' E' := by
  have hw := wR64
  refine mono (bd_mul binary64_ok ha hb (ht.trans (le_trans (by norm_num) big64))) (by linarith) ?_
  rw [uR64]
  linarith

variable {sin cos sqrt : FVal binary64 → FVal binary64} {pow : FVal binary64 → FVal binary64 → FVal binary64}

/-- Bounds of the parts. -/
structure In (a c sa al : FVal binary64) : Prop where
  fin : Finite a ∧ Finite c ∧ Finite sa ∧ Finite al
  ha : 1 / 16 ≤ val a ∧ val a ≤ 16
  hc : |val c| ≤ 1 - 1 / 2 ^ 20
  hsa : 1 / 8 ≤ val sa ∧ val sa ≤ 5
  hal : 1 / 2 ^ 13 ≤ val al ∧ val al ≤ 2 ^ 10

theorem jury {A C SA AL x0 x1 x2 e s : ℝ} (hs : |s| = 1) (ha : 1 / 16 ≤ A) (hc : |C| ≤ 1 - 1 / 2 ^ 20) (hsa : 1 / 8 ≤ SA)
    (hal : 1 / 2 ^ 13 ≤ AL) (he : e ≤ 1 / 2 ^ 34) (h0 : |x0 - ((A + 1) + s * ((A - 1) * C) + 2 * SA * AL)| ≤ e)
    (h2 : |x2 - ((A + 1) + s * ((A - 1) * C) - 2 * SA * AL)| ≤ e)
    (h1 : |x1 - -s * 2 * ((A - 1) + s * ((A + 1) * C))| ≤ e) : |x2| < x0 ∧ |x1| < x0 + x2 := by
  obtain ⟨a1, a2⟩ := abs_le.1 h0
  obtain ⟨b1, b2⟩ := abs_le.1 h1
  obtain ⟨d1, d2⟩ := abs_le.1 h2
  obtain ⟨c1, c2⟩ := abs_le.1 hc
  have hT : 1 / 2 ^ 16 ≤ SA * AL := by
    have := mul_le_mul hsa hal (by norm_num) (by linarith)
    refine le_trans (by norm_num) this
  have p1 : 1 / 2 ^ 20 ≤ 1 - C := by linarith
  have p2 : 1 / 2 ^ 20 ≤ 1 + C := by linarith
  have q1 : 1 / 16 * (1 / 2 ^ 20) ≤ A * (1 - C) := mul_le_mul ha p1 (by norm_num) (by linarith)
  have q2 : 1 / 16 * (1 / 2 ^ 20) ≤ A * (1 + C) := mul_le_mul ha p2 (by norm_num) (by linarith)
  have e1 : 2 * SA * AL = 2 * (SA * AL) := by ring
  rw [e1] at a1 a2 d1 d2
  norm_num at p1 p2 q1 q2 hT he
  rcases (abs_eq (by norm_num)).1 hs with hs | hs <;> subst hs
  · constructor <;> rw [abs_lt] <;> constructor <;> nlinarith
  · constructor <;> rw [abs_lt] <;> constructor <;> nlinarith

theorem bd_parts {a c sa al : FVal binary64} (h : In a c sa al) :
    let L := lib64 sin cos sqrt pow
    Bd (Expr.leaf a + .leaf (L.lit 1)) 22 (1 / 2 ^ 48) ∧ Bd (Expr.leaf a - .leaf (L.lit 1)) 22 (1 / 2 ^ 48) ∧
    Bd ((Expr.leaf a - .leaf (L.lit 1)) * .leaf c) 28 (1 / 2 ^ 46) ∧
    Bd ((Expr.leaf a + .leaf (L.lit 1)) * .leaf c) 28 (1 / 2 ^ 46) ∧
    Bd (Expr.leaf (L.lit 2) * .leaf sa * .leaf al) 16384 (1 / 2 ^ 36) := by
  intro L
  obtain ⟨⟨fa, fc, fsa, fal⟩, ⟨a1, a2⟩, c1, ⟨s1, s2⟩, l1, l2⟩ := h
  obtain ⟨o1, o2⟩ := lit64 (sin := sin) (cos := cos) (sqrt := sqrt) (pow := pow) 1 (by norm_num)
  obtain ⟨t1, t2⟩ := lit64 (sin := sin) (cos := cos) (sqrt := sqrt) (pow := pow) 2 (by norm_num)
  push_cast at o2 t2
  have ba : Bd (.leaf a) 16 0 := bd_leaf fa (by rw [abs_of_pos (by linarith)]; exact a2)
  have bo : Bd (.leaf (L.lit 1)) 1 0 := bd_leaf o1 (by change |val ((lib64 sin cos sqrt pow).lit 1)| ≤ 1; rw [o2, abs_one])
  have bt : Bd (.leaf (L.lit 2)) 2 0 := bd_leaf t1 (by change |val ((lib64 sin cos sqrt pow).lit 2)| ≤ 2; rw [t2, abs_two])
  have bc : Bd (.leaf c) 1 0 := bd_leaf fc (c1.trans (by norm_num))
  have bs : Bd (.leaf sa) 5 0 := bd_leaf fsa (by rw [abs_of_pos (by linarith)]; exact s2)
  have bl : Bd (.leaf al) (2 ^ 10) 0 := bd_leaf fal (by rw [abs_of_pos (lt_of_lt_of_le (by norm_num) l1)]; exact l2)
  have x1 : Bd (Expr.leaf a + .leaf (L.lit 1)) 22 (1 / 2 ^ 48) := add64 ba bo (by norm_num) (by norm_num) (by norm_num)
  have x2 : Bd (Expr.leaf a - .leaf (L.lit 1)) 22 (1 / 2 ^ 48) := sub64 ba bo (by norm_num) (by norm_num) (by norm_num)
  have x4 : Bd (Expr.leaf (L.lit 2) * .leaf sa) (51 / 4) (1 / 2 ^ 49) :=
    mul64 bt bs (by norm_num) (by norm_num) (by norm_num)
  exact ⟨x1, x2, mul64 x2 bc (by norm_num) (by norm_num) (by norm_num), mul64 x1 bc (by norm_num) (by norm_num) (by norm_num),
    mul64 x4 bl (by norm_num) (by norm_num) (by norm_num)⟩

theorem stable_of_vals {F : BQ (FVal binary64)} (h0 : Finite F.A0) (h1 : Finite F.A1) (h2 : Finite F.A2)
    (j : |val F.A2| < val F.A0 ∧ |val F.A1| < val F.A0 + val F.A2) : Stable F :=
  ⟨h0, h1, h2, polesInside_of_jury j.1 j.2⟩

theorem low {a c sa al : FVal binary64} (h : In a c sa al) {F : BQ (FVal binary64)}
    (h0 : Eval (lowA (lib64 sin cos sqrt pow) true a c sa al) F.A0) (h1 : Eval (lowA1 (lib64 sin cos sqrt pow) a c) F.A1)
    (h2 : Eval (lowA (lib64 sin cos sqrt pow) false a c sa al) F.A2) : Stable F := by
  obtain ⟨p1, p2, p3, p4, p5⟩ := bd_parts (sin := sin) (cos := cos) (sqrt := sqrt) (pow := pow) h
  obtain ⟨o1, o2⟩ := lit64 (sin := sin) (cos := cos) (sqrt := sqrt) (pow := pow) 1 (by norm_num)
  obtain ⟨t1, t2⟩ := lit64 (sin := sin) (cos := cos) (sqrt := sqrt) (pow := pow) 2 (by norm_num)
  obtain ⟨m1, m2⟩ := lit64 (sin := sin) (cos := cos) (sqrt := sqrt) (pow := pow) (-2) (by norm_num)
  push_cast at o2 t2 m2
  have bm : Bd (.leaf ((lib64 sin cos sqrt pow).lit (-2))) 2 0 := bd_leaf m1 (by rw [m2, abs_neg, abs_two])
  have q1 := add64 p1 p3 (by norm_num) (S' := 64) (by norm_num) (E' := 1 / 2 ^ 44) (by norm_num)
  have q2 := add64 q1 p5 (by norm_num) (S' := 32768) (by norm_num) (E' := 1 / 2 ^ 34) (by norm_num)
  have q3 := sub64 q1 p5 (by norm_num) (S' := 32768) (by norm_num) (E' := 1 / 2 ^ 34) (by norm_num)
  have q4 := add64 p2 p4 (by norm_num) (S' := 64) (by norm_num) (E' := 1 / 2 ^ 44) (by norm_num)
  have q5 := mul64 bm q4 (by norm_num) (S' := 256) (by norm_num) (E' := 1 / 2 ^ 34) (by norm_num)
  obtain ⟨r0, r0'⟩ := q2.eval binary64_ok h0
  obtain ⟨r1, r1'⟩ := q5.eval binary64_ok h1
  obtain ⟨r2, r2'⟩ := q3.eval binary64_ok h2
  refine stable_of_vals r0 r1 r2 (jury (s := 1) abs_one h.ha.1 h.hc h.hsa.1 h.hal.1 (le_refl _) ?_ ?_ ?_)
  · change |val F.A0 - (val a + val _ + (val a - val _) * val c + val _ * val sa * val al)| ≤ _ at r0'
    rw [o2, t2] at r0'
    rw [one_mul]
    exact r0'
  · change |val F.A2 - (val a + val _ + (val a - val _) * val c - val _ * val sa * val al)| ≤ _ at r2'
    rw [o2, t2] at r2'
    rw [one_mul]
    exact r2'
  · change |val F.A1 - val _ * (val a - val _ + (val a + val _) * val c)| ≤ _ at r1'
    rw [o2, m2] at r1'
    rw [one_mul, show (-1 * 2 : ℝ) = -2 by norm_num]
    exact r1'

theorem high {a c sa al : FVal binary64} (h : In a c sa al) {F : BQ (FVal binary64)}
    (h0 : Eval (highA (lib64 sin cos sqrt pow) true a c sa al) F.A0) (h1 : Eval (highA1 (lib64 sin cos sqrt pow) a c) F.A1)
    (h2 : Eval (highA (lib64 sin cos sqrt pow) false a c sa al) F.A2) : Stable F := by
  obtain ⟨p1, p2, p3, p4, p5⟩ := bd_parts (sin := sin) (cos := cos) (sqrt := sqrt) (pow := pow) h
  obtain ⟨o1, o2⟩ := lit64 (sin := sin) (cos := cos) (sqrt := sqrt) (pow := pow) 1 (by norm_num)
  obtain ⟨t1, t2⟩ := lit64 (sin := sin) (cos := cos) (sqrt := sqrt) (pow := pow) 2 (by norm_num)
  push_cast at o2 t2
  have bm : Bd (.leaf ((lib64 sin cos sqrt pow).lit 2)) 2 0 := bd_leaf t1 (by rw [t2, abs_two])
  have q1 := sub64 p1 p3 (by norm_num) (S' := 64) (by norm_num) (E' := 1 / 2 ^ 44) (by norm_num)
  have q2 := add64 q1 p5 (by norm_num) (S' := 32768) (by norm_num) (E' := 1 / 2 ^ 34) (by norm_num)
  have q3 := sub64 q1 p5 (by norm_num) (S' := 32768) (by norm_num) (E' := 1 / 2 ^ 34) (by norm_num)
  have q4 := sub64 p2 p4 (by norm_num) (S' := 64) (by norm_num) (E' := 1 / 2 ^ 44) (by norm_num)
  have q5 := mul64 bm q4 (by norm_num) (S' := 256) (by norm_num) (E' := 1 / 2 ^ 34) (by norm_num)
  obtain ⟨r0, r0'⟩ := q2.eval binary64_ok h0
  obtain ⟨r1, r1'⟩ := q5.eval binary64_ok h1
  obtain ⟨r2, r2'⟩ := q3.eval binary64_ok h2
  refine stable_of_vals r0 r1 r2 (jury (s := -1) (by norm_num) h.ha.1 h.hc h.hsa.1 h.hal.1 (le_refl _) ?_ ?_ ?_)
  · change |val F.A0 - (val a + val _ - (val a - val _) * val c + val _ * val sa * val al)| ≤ _ at r0'
    rw [o2, t2] at r0'
    rw [neg_one_mul, ← sub_eq_add_neg]
    exact r0'
  · change |val F.A2 - (val a + val _ - (val a - val _) * val c - val _ * val sa * val al)| ≤ _ at r2'
    rw [o2, t2] at r2'
    rw [neg_one_mul, ← sub_eq_add_neg]
    exact r2'
  · change |val F.A1 - val _ * (val a - val _ - (val a + val _) * val c)| ≤ _ at r1'
    rw [o2, t2] at r1'
    rw [neg_one_mul, ← sub_eq_add_neg, show (- -1 * 2 : ℝ) = 2 by norm_num]
    exact r1'

end Shelf

/-- Shelf slopes from about a thousandth to one. -/
structure ShelfOk (slope : FVal binary64) : Prop where
  fin : Finite slope
  low : 1 / 2 ^ 10 ≤ val slope
  high : val slope ≤ 1

namespace Shelf
open Expr
variable {sin cos sqrt : FVal binary64 → FVal binary64} {pow : FVal binary64 → FVal binary64 → FVal binary64}

theorem inv_val {x : FVal binary64} (hx : Finite x) {lo hi : ℝ} (h1 : lo ≤ 1 / val x)
    (h2 : 1 / val x ≤ hi) (h0 : 0 < val x) (hhi : hi ≤ 2 ^ 20) :
    let y := (lib64 sin cos sqrt pow).lit 1 / x
    Finite y ∧ lo - 1 / 2 ^ 30 ≤ val y ∧ val y ≤ hi + 1 / 2 ^ 30 := by
  intro y
  obtain ⟨o1, o2⟩ := lit64 (sin := sin) (cos := cos) (sqrt := sqrt) (pow := pow) 1 (by norm_num)
  push_cast at o2
  have hb : |val ((lib64 sin cos sqrt pow).lit 1) / val x| ≤ hi := by
    rw [o2, abs_of_pos (by positivity)]
    exact h2
  obtain ⟨d1, d2⟩ := Dft.div_val binary64_ok o1 hx h0.ne' (hb.trans (hhi.trans (le_trans (by norm_num) big64)))
  have hu := mul_le_mul_of_nonneg_left hb (uR_pos binary64).le
  have hw := wR64
  rw [uR64] at d2 hu
  rw [o2] at d2 hu
  change Finite y at d1
  change |val y - 1 / val x| ≤ _ at d2
  obtain ⟨z1, z2⟩ := abs_le.1 d2
  generalize 1 / val x = r at *
  refine ⟨d1, ?_, ?_⟩ <;>
  · norm_num at hhi z1 z2 hu hw ⊢
    linarith

theorem radicand_val {a slope X : FVal binary64} (ha : Finite a) (a1 : 1 / 16 ≤ val a) (a2 : val a ≤ 16) (hs : ShelfOk slope)
    (hX : Eval (radicand (lib64 sin cos sqrt pow) a slope) X) : Finite X ∧ 1 ≤ val X ∧ val X ≤ 2 ^ 16 := by
  have ha0 : 0 < val a := lt_of_lt_of_le (by norm_num) a1
  have hs0 : 0 < val slope := lt_of_lt_of_le (by norm_num) hs.low
  obtain ⟨o1, o2⟩ := lit64 (sin := sin) (cos := cos) (sqrt := sqrt) (pow := pow) 1 (by norm_num)
  obtain ⟨t1, t2⟩ := lit64 (sin := sin) (cos := cos) (sqrt := sqrt) (pow := pow) 2 (by norm_num)
  push_cast at o2 t2
  obtain ⟨y1, y2, y3⟩ := inv_val (sin := sin) (cos := cos) (sqrt := sqrt) (pow := pow) ha (lo := 1 / 16) (hi := 16)
    (one_div_le_one_div_of_le ha0 a2)
    ((one_div_le_one_div_of_le (by norm_num) a1).trans (by norm_num)) ha0 (by norm_num)
  obtain ⟨z1, z2, z3⟩ := inv_val (sin := sin) (cos := cos) (sqrt := sqrt) (pow := pow) hs.fin (lo := 1) (hi := 2 ^ 10)
    (by rw [le_div_iff₀ hs0, one_mul]; exact hs.high)
    ((one_div_le_one_div_of_le (by norm_num) hs.low).trans (by norm_num)) hs0 (by norm_num)
  set L := lib64 sin cos sqrt pow with hL
  set y := L.lit 1 / a with hy
  set z := L.lit 1 / slope with hz
  have ba : Bd (.leaf a) 16 0 := bd_leaf ha (by rw [abs_of_pos ha0]; exact a2)
  have bo : Bd (.leaf (L.lit 1)) 1 0 := bd_leaf o1 (by rw [o2, abs_one])
  have bt : Bd (.leaf (L.lit 2)) 2 0 := bd_leaf t1 (by rw [t2, abs_two])
  have by' : Bd (.leaf y) 17 0 := bd_leaf y1 (by
    norm_num at y2 y3
    rw [abs_le]; constructor <;> linarith)
  have bz : Bd (.leaf z) 1025 0 := bd_leaf z1 (by
    norm_num at z2 z3
    rw [abs_le]; constructor <;> linarith)
  have q1 := add64 ba by' (by norm_num) (S' := 42) (by norm_num) (E' := 1 / 2 ^ 47) (by norm_num)
  have q2 := sub64 bz bo (by norm_num) (S' := 1300) (by norm_num) (E' := 1 / 2 ^ 42) (by norm_num)
  have q3 := mul64 q1 q2 (by norm_num) (S' := 70000) (by norm_num) (E' := 1 / 2 ^ 34) (by norm_num)
  have q4 := add64 q3 bt (by norm_num) (S' := 90000) (by norm_num) (E' := 1 / 2 ^ 30) (by norm_num)
  obtain ⟨r0, r1⟩ := q4.eval binary64_ok hX
  refine ⟨r0, ?_⟩
  change |val X - ((val a + val y) * (val z - val (L.lit 1)) + val (L.lit 2))| ≤ _ at r1
  rw [o2, t2] at r1
  obtain ⟨w1, w2⟩ := abs_le.1 r1
  have hay : 0 ≤ val a + val y := by norm_num at y2; linarith
  have hay2 : val a + val y ≤ 33 := by norm_num at y3; linarith
  have hzl : -(1 / 2 ^ 30) ≤ val z - 1 := by linarith
  have hzu : val z - 1 ≤ 1024 := by norm_num at z3; linarith
  have g1 : -(1 / 2 ^ 30) * 33 ≤ (val a + val y) * (val z - 1) := by
    have := mul_le_mul_of_nonneg_left hzl hay
    have h3 : (val a + val y) * (1 / 2 ^ 30) ≤ 33 * (1 / 2 ^ 30) := mul_le_mul_of_nonneg_right hay2 (by norm_num)
    linarith
  have g2 : (val a + val y) * (val z - 1) ≤ 33 * 1024 := by
    have h3 := mul_le_mul_of_nonneg_left hzu hay
    have h4 : (val a + val y) * 1024 ≤ 33 * 1024 := mul_le_mul_of_nonneg_right hay2 (by norm_num)
    linarith
  generalize (val a + val y) * (val z - 1) = P at *
  norm_num at w1 w2 g1 g2 ⊢
  constructor <;> linarith

theorem sqrt_val (hs : SqrtOk sqrt) {x : FVal binary64} (hx : Finite x) {lo hi : ℝ} (hlo : 1 / 16 ≤ lo) (h1 : lo ^ 2 ≤ val x)
    (h2 : val x ≤ hi ^ 2) (hhi0 : 0 ≤ hi) (hhi : hi ≤ 2 ^ 10) :
    Finite (sqrt x) ∧ lo - 1 / 2 ^ 30 ≤ val (sqrt x) ∧ val (sqrt x) ≤ hi + 1 / 2 ^ 30 := by
  have hlo0 : 0 < lo := lt_of_lt_of_le (by norm_num) hlo
  have h3 : (1 / 16 : ℝ) ^ 2 ≤ lo ^ 2 := pow_le_pow_left₀ (by norm_num) hlo 2
  have h4 : hi ^ 2 ≤ (2 ^ 10) ^ 2 := pow_le_pow_left₀ hhi0 hhi 2
  obtain ⟨a1, a2⟩ := hs x hx (le_trans (by norm_num) (h3.trans h1)) (h2.trans (h4.trans (by norm_num)))
  have b1 : lo ≤ √(val x) := Real.le_sqrt_of_sq_le h1
  have b2 : √(val x) ≤ hi := (Real.sqrt_le_left hhi0).2 h2
  obtain ⟨z1, z2⟩ := abs_le.1 a2
  generalize √(val x) = r at *
  refine ⟨a1, ?_, ?_⟩ <;>
  · norm_num at z1 z2 hhi ⊢
    linarith

theorem parts {η : ℝ} (hη : η ≤ 1 / 2 ^ 50) (hT : Dft.Trig cos sin 4 η) (hp : PowOk pow) (hsq : SqrtOk sqrt)
    {fs f slope dB X : FVal binary64} (h : FreqOk64 10 fs f) (hs : ShelfOk slope) (hg : GainOk dB) :
    let L := lib64 sin cos sqrt pow
    let w := L.w0 fs f
    let a := L.pow (L.lit 10) (dB / L.lit 40)
    Eval (radicand L a slope) X → In a (cos w) (sqrt a) (sin w / L.lit 2 * sqrt X) := by
  intro L w a hX
  obtain ⟨⟨c1, -, c3, -⟩, s1, s2, s3, -⟩ := lib_margin (sqrt := sqrt) (pow := pow) hη hT (show 10 ≤ 20 by norm_num) h
  obtain ⟨g1, g2, g3⟩ := gain_val (sin := sin) (cos := cos) (sqrt := sqrt) hp hg
  obtain ⟨x1, x2, x3⟩ := radicand_val g1 g2 g3 hs hX
  obtain ⟨t1, t2⟩ := lit64 (sin := sin) (cos := cos) (sqrt := sqrt) (pow := pow) 2 (by norm_num)
  push_cast at t2
  obtain ⟨u1, u2, u3⟩ := sqrt_val hsq g1 (lo := 1 / 4) (hi := 4) (by norm_num) (le_trans (by norm_num) g2)
    (g3.trans (by norm_num)) (by norm_num) (by norm_num)
  obtain ⟨v1, v2, v3⟩ := sqrt_val hsq x1 (lo := 1) (hi := 2 ^ 8) (by norm_num) (by rw [one_pow]; exact x2)
    (x3.trans (by norm_num)) (by norm_num) (by norm_num)
  change Finite (cos w) at c1
  change Finite (sin w) at s1
  change _ ≤ val (sin w) at s2
  change val (sin w) ≤ 2 at s3
  have hsw : 0 < val (sin w) := lt_of_lt_of_le (by norm_num) s2
  obtain ⟨d1, d2⟩ := near_half s1 t1 t2 (x := val (sin w)) (e := 0) (by rw [sub_self, abs_zero]) (B := 2)
    (by rw [abs_of_pos hsw]; exact s3) (by norm_num)
  change Finite (sin w / L.lit 2) at d1
  change |val (sin w / L.lit 2) - val (sin w) / 2| ≤ _ at d2
  obtain ⟨e1, e2⟩ := abs_le.1 d2
  have f1 : 1 / 2 ^ 12 ≤ val (sin w / L.lit 2) := by norm_num at e1 s2 ⊢; linarith
  have f2 : val (sin w / L.lit 2) ≤ 2 := by norm_num at e2 s3 ⊢; linarith
  have v2' : 3 / 4 ≤ val (sqrt X) := by norm_num at v2; linarith
  have v3' : val (sqrt X) ≤ 2 ^ 9 - 1 := by norm_num at v3 ⊢; linarith
  have f0 : 0 < val (sin w / L.lit 2) := lt_of_lt_of_le (by norm_num) f1
  have v0 : 0 < val (sqrt X) := by linarith
  have m1 : val (sin w / L.lit 2) * val (sqrt X) ≤ 2 * (2 ^ 9 - 1) := mul_le_mul f2 v3' v0.le (by norm_num)
  have m2 : 1 / 2 ^ 12 * (3 / 4) ≤ val (sin w / L.lit 2) * val (sqrt X) := mul_le_mul f1 v2' (by norm_num) f0.le
  have m3 : |val (sin w / L.lit 2) * val (sqrt X)| ≤ 2 * (2 ^ 9 - 1) := by rw [abs_of_pos (by positivity)]; exact m1
  obtain ⟨n1, n2⟩ := mul_val binary64_ok d1 v1 (m3.trans (le_trans (by norm_num) big64))
  have hu := mul_le_mul_of_nonneg_left m3 (uR_pos binary64).le
  have hw := wR64
  rw [uR64] at n2 hu
  obtain ⟨k1, k2⟩ := abs_le.1 n2
  refine ⟨⟨g1, c1, u1, n1⟩, ⟨g2, g3⟩, c3.trans (by norm_num), ⟨?_, ?_⟩, ?_, ?_⟩
  · norm_num at u2 ⊢
    linarith
  · norm_num at u3
    linarith
  · norm_num at k1 hu hw m2 ⊢
    linarith
  · norm_num at k2 hu hw m1 ⊢
    linarith

end Shelf

/-- C108, low shelf, whichever products and sums are fused: gains up to 40 decibels, frequencies at least a thousandth of the
sample rate from zero and from half of it. -/
theorem C108_low_shelf_fused {sin cos sqrt pow} {η : ℝ} (hη : η ≤ 1 / 2 ^ 50) (hT : Dft.Trig cos sin 4 η) (hp : PowOk pow)
    (hsq : SqrtOk sqrt) {fs f slope dB : FVal binary64} (h : FreqOk64 10 fs f) (hs : ShelfOk slope) (hg : GainOk dB) :
    let L := lib64 sin cos sqrt pow
    let w := L.w0 fs f
    let a := L.pow (L.lit 10) (dB / L.lit 40)
    ∀ (X : FVal binary64) (F : BQ (FVal binary64)), (radicand L a slope).Eval X →
      (lowA L true a (cos w) (sqrt a) (sin w / L.lit 2 * sqrt X)).Eval F.A0 → (lowA1 L a (cos w)).Eval F.A1 →
      (lowA L false a (cos w) (sqrt a) (sin w / L.lit 2 * sqrt X)).Eval F.A2 → Stable F := by
  intro L w a X F hX h0 h1 h2
  exact Shelf.low (Shelf.parts hη hT hp hsq h hs hg hX) h0 h1 h2

/-- C108, high shelf, whichever products and sums are fused. -/
theorem C108_high_shelf_fused {sin cos sqrt pow} {η : ℝ} (hη : η ≤ 1 / 2 ^ 50) (hT : Dft.Trig cos sin 4 η) (hp : PowOk pow)
    (hsq : SqrtOk sqrt) {fs f slope dB : FVal binary64} (h : FreqOk64 10 fs f) (hs : ShelfOk slope) (hg : GainOk dB) :
    let L := lib64 sin cos sqrt pow
    let w := L.w0 fs f
    let a := L.pow (L.lit 10) (dB / L.lit 40)
    ∀ (X : FVal binary64) (F : BQ (FVal binary64)), (radicand L a slope).Eval X →
      (highA L true a (cos w) (sqrt a) (sin w / L.lit 2 * sqrt X)).Eval F.A0 → (highA1 L a (cos w)).Eval F.A1 →
      (highA L false a (cos w) (sqrt a) (sin w / L.lit 2 * sqrt X)).Eval F.A2 → Stable F := by
  intro L w a X F hX h0 h1 h2
  exact Shelf.high (Shelf.parts hη hT hp hsq h hs hg hX) h0 h1 h2

/-- C108, low shelf as written, every operation rounded. -/
theorem C108_low_shelf {sin cos sqrt pow} {η : ℝ} (hη : η ≤ 1 / 2 ^ 50) (hT : Dft.Trig cos sin 4 η) (hp : PowOk pow)
    (hsq : SqrtOk sqrt) {fs f slope dB : FVal binary64} (h : FreqOk64 10 fs f) (hs : ShelfOk slope) (hg : GainOk dB) :
    Stable ((lib64 sin cos sqrt pow).lowShelf fs f slope dB) :=
  C108_low_shelf_fused hη hT hp hsq h hs hg _ _ (Expr.eval_unfused _) (Expr.eval_unfused _) (Expr.eval_unfused _)
    (Expr.eval_unfused _)

/-- C108, high shelf as written, every operation rounded. -/
theorem C108_high_shelf {sin cos sqrt pow} {η : ℝ} (hη : η ≤ 1 / 2 ^ 50) (hT : Dft.Trig cos sin 4 η) (hp : PowOk pow)
    (hsq : SqrtOk sqrt) {fs f slope dB : FVal binary64} (h : FreqOk64 10 fs f) (hs : ShelfOk slope) (hg : GainOk dB) :
    Stable ((lib64 sin cos sqrt pow).highShelf fs f slope dB) :=
  C108_high_shelf_fused hη hT hp hsq h hs hg _ _ (Expr.eval_unfused _) (Expr.eval_unfused _) (Expr.eval_unfused _)
    (Expr.eval_unfused _)

/-! ### Designs spoilt by rounding -/

theorem grid_gt_one {φ : Format} {x : ℚ} (h : Grid φ x) (h1 : 1 < x) : 1 + 2 ^ (1 - (φ.p : ℤ)) ≤ x := by
  have h2 : (2 : ℚ) ≠ 0 := by norm_num
  obtain ⟨m, e, hm, he, hx⟩ := h
  rw [abs_of_pos (by linarith)] at hx
  rcases le_or_gt (1 - (φ.p : ℤ)) e with hp | hp
  · obtain ⟨d, hd⟩ := Int.eq_ofNat_of_zero_le (show 0 ≤ e - (1 - φ.p) by omega)
    have ed : (2 : ℚ) ^ e = 2 ^ d * 2 ^ (1 - (φ.p : ℤ)) := by
      rw [← zpow_natCast, ← zpow_add₀ h2]
      congr 1
      omega
    have hpos : (0 : ℚ) < 2 ^ (1 - (φ.p : ℤ)) := by positivity
    rcases Nat.eq_zero_or_pos φ.p with h0 | h0
    · rw [h0] at hm
      have : m = 0 := by omega
      rw [this, Nat.cast_zero, zero_mul] at hx
      linarith
    · have hone : (1 : ℚ) = (2 ^ (φ.p - 1) : ℕ) * 2 ^ (1 - (φ.p : ℤ)) := by
        push_cast
        rw [← zpow_natCast, ← zpow_add₀ h2, Nat.cast_sub h0]
        simp
      have h3 : (2 ^ (φ.p - 1) : ℕ) < m * 2 ^ d := by
        have h4 : ((2 ^ (φ.p - 1) : ℕ) : ℚ) * 2 ^ (1 - (φ.p : ℤ)) < ((m * 2 ^ d : ℕ) : ℚ) * 2 ^ (1 - (φ.p : ℤ)) := by
          rw [← hone]
          push_cast
          rw [mul_assoc, ← ed, ← hx]
          exact h1
        have := lt_of_mul_lt_mul_right h4 hpos.le
        exact_mod_cast this
      have h4 : ((2 ^ (φ.p - 1) : ℕ) : ℚ) + 1 ≤ ((m * 2 ^ d : ℕ) : ℚ) := by exact_mod_cast h3
      have h5 := mul_le_mul_of_nonneg_right h4 hpos.le
      rw [add_mul, ← hone, one_mul] at h5
      push_cast at h5
      rw [mul_assoc, ← ed, ← hx] at h5
      exact h5
  · have h3 : (m : ℚ) ≤ 2 ^ φ.p := by exact_mod_cast hm.le
    have h4 : (2 : ℚ) ^ e ≤ 2 ^ (-(φ.p : ℤ)) := zpow_le_zpow_right₀ (by norm_num) (by omega)
    have h6 : (m : ℚ) * 2 ^ e ≤ 2 ^ φ.p * 2 ^ (-(φ.p : ℤ)) := mul_le_mul h3 h4 (by positivity) (by positivity)
    rw [show (2 : ℚ) ^ φ.p * 2 ^ (-(φ.p : ℤ)) = 1 by rw [← zpow_natCast, ← zpow_add₀ h2]; simp] at h6
    linarith

/-- A number of the format very near one is one. -/
theorem grid_eq_one {x : ℚ} (h : Grid binary64 x) (h1 : 1 - 1 / 2 ^ 53 < x) (h2 : x < 1 + 1 / 2 ^ 52) : x = 1 := by
  rcases lt_trichotomy x 1 with h3 | h3 | h3
  · have := grid_lt_one h h3
    norm_num [binary64] at this h1
    linarith
  · exact h3
  · have := grid_gt_one h h3
    norm_num [binary64] at this h2
    linarith

theorem grid_one : Grid binary64 1 := by
  have := grid_pow binary64 (by decide) 0 (by decide)
  rwa [zpow_zero] at this

/-- A tiny change of one is lost. -/
theorem rd_one_add {α : ℚ} (h : |α| ≤ 1 / 2 ^ 55) : rd binary64 (1 + α) = 1 := by
  have hn := rd_nearest binary64 (by decide) (1 + α) grid_one
  rw [show (1 : ℚ) + α - 1 = α by ring] at hn
  obtain ⟨a, b⟩ := abs_le.1 (hn.trans h)
  obtain ⟨c, d⟩ := abs_le.1 h
  refine grid_eq_one (grid_rd binary64 (by decide) _) ?_ ?_ <;>
  · norm_num at a b c d ⊢
    linarith

/-- Poles with product one are not both inside the unit circle. -/
theorem not_polesInside {F : BQ ℝ} (h : F.A2 = F.A0) : ¬ PolesInside F := by
  rintro ⟨h0, hz⟩
  have h0' : (F.A0 : ℂ) ≠ 0 := by exact_mod_cast h0
  obtain ⟨d, hd⟩ := IsAlgClosed.exists_pow_nat_eq ((F.A1 : ℂ) ^ 2 - 4 * F.A0 * F.A0) (show 0 < 2 by norm_num)
  have r1 := hz ((-F.A1 + d) / (2 * F.A0)) (by
    rw [h]
    field_simp
    linear_combination hd)
  have r2 := hz ((-F.A1 - d) / (2 * F.A0)) (by
    rw [h]
    field_simp
    linear_combination hd)
  have e : ((-F.A1 + d) / (2 * F.A0)) * ((-F.A1 - d) / (2 * F.A0)) = (1 : ℂ) := by
    field_simp
    linear_combination -hd
  have := congrArg norm e
  rw [norm_mul, norm_one] at this
  have := mul_lt_one_of_nonneg_of_lt_one_left (norm_nonneg _) r1 r2.le
  linarith

/-- C108, sharp resonances: from quality factor `2^57` on, whatever the frequency, `alpha` is lost in `1 + alpha` and
`1 - alpha`.  The poles are then on the unit circle and the filter is not stable, although the exact design is. -/
theorem C108_violated_sharp {sin cos sqrt pow} {η : ℝ} (hη : η ≤ 1 / 2 ^ 50) (hT : Dft.Trig cos sin 4 η)
    {fs f q : FVal binary64} (h : FreqOk64 20 fs f) (hq : Finite q) (hqg : Grid binary64 q.toRat) (hq1 : 2 ^ 57 ≤ val q)
    (hq2 : val q ≤ 2 ^ 100) :
    ¬ Stable ((lib64 sin cos sqrt pow).lowPass fs f q) ∧ PolesInside (newLowPass (val fs) (val f) (val q)) := by
  have hq0 : 0 < val q := lt_of_lt_of_le (by norm_num) hq1
  constructor
  · obtain ⟨-, hs, s1, s2, s3⟩ := lib_margin (sqrt := sqrt) (pow := pow) hη hT (le_refl 20) h
    have hl := lib64_lit sin cos sqrt pow 2 (by norm_num)
    have hl1 := lib64_lit sin cos sqrt pow 1 (by norm_num)
    obtain ⟨d1, d2⟩ := double_val binary64_ok (by simpa using hl) hq hqg (by
      rw [abs_of_pos hq0]
      refine hq2.trans ?_
      rw [← zpow_natCast]
      exact zpow_le_zpow_right₀ (by norm_num) (by decide))
    set L := lib64 sin cos sqrt pow with hL
    set s := sin (L.w0 fs f) with hsd
    have hs0 : 0 < val s := lt_of_lt_of_le (by norm_num) s1
    have b1 : |val s / val (L.lit 2 * q)| ≤ 1 / 2 ^ 57 := by
      rw [d2, abs_of_pos (by positivity), div_le_div_iff₀ (by positivity) (by positivity)]
      norm_num at hq1 ⊢
      linarith
    obtain ⟨a1, a2⟩ := Dft.div_val binary64_ok hs d1 (by rw [d2]; positivity) (b1.trans (le_trans (by norm_num) big64))
    have hw := wR64
    have b2 := mul_le_mul_of_nonneg_left b1 (uR_pos binary64).le
    rw [uR64] at a2 b2
    have a3 : |val (s / (L.lit 2 * q) : FVal binary64)| ≤ 1 / 2 ^ 55 := by
      obtain ⟨z1, z2⟩ := abs_le.1 a2
      obtain ⟨z3, z4⟩ := abs_le.1 b1
      rw [abs_le]
      norm_num at z1 z2 z3 z4 b2 hw ⊢
      constructor <;> linarith
    have a4 : |(s / (L.lit 2 * q) : FVal binary64).toRat| ≤ 1 / 2 ^ 55 := by
      refine (Rat.cast_le (K := ℝ)).1 ?_
      push_cast
      exact a3
    have i1 : Is (L.lit 1) 1 := by simpa using hl1
    have top : |(1 : ℚ)| < 2 ^ (binary64.emax + 1) := by
      rw [abs_one]
      exact one_lt_zpow₀ (by norm_num) (by decide)
    have r1 := rd_one_add a4
    have r2 : rd binary64 (1 - (s / (L.lit 2 * q) : FVal binary64).toRat) = 1 := by
      have := rd_one_add (α := -(s / (L.lit 2 * q) : FVal binary64).toRat) (by rw [abs_neg]; exact a4)
      rwa [← sub_eq_add_neg] at this
    have k0 := add_rd binary64 i1 (w := (s / (L.lit 2 * q) : FVal binary64)) ⟨a1, rfl⟩ (by rw [r1]; exact top)
    have k2 := sub_rd binary64 i1 (w := (s / (L.lit 2 * q) : FVal binary64)) ⟨a1, rfl⟩ (by rw [r2]; exact top)
    rw [r1] at k0
    rw [r2] at k2
    rintro ⟨-, -, -, hP⟩
    refine not_polesInside ?_ hP
    exact (val_of_is k2).trans (val_of_is k0).symm
  · obtain ⟨⟨hfs, hf⟩, h1, h2, h3, h4⟩ := h
    have hS0 : 0 < val fs := lt_of_lt_of_le (by norm_num) h3
    refine C42_low_pass _ _ _ ⟨lt_of_lt_of_le (by positivity) h1, ?_⟩ hq0
    norm_num at h2
    linarith

/-- C108, very low frequencies: below `2^-31` of the sample rate the cosine of a good library is one, and the low-pass filter
has no feedforward coefficients: its response is zero everywhere, where the exact design passes constant signals. -/
theorem C108_violated_low {sin cos sqrt pow} {η : ℝ} (hη : η ≤ 3 / 2 ^ 55) (hT : Dft.Trig cos sin 4 η) {k : ℕ}
    {fs f q : FVal binary64} (h : FreqOk64 k fs f) (hf : val f ≤ val fs / 2 ^ 31) (hq : 0 < val q) :
    (∀ z, response ((lib64 sin cos sqrt pow).lowPass fs f q).vals z = 0) ∧
      response (newLowPass (val fs) (val f) (val q)) 1 = 1 := by
  obtain ⟨hw1, hw2⟩ := w0_near (sin := sin) (cos := cos) (sqrt := sqrt) (pow := pow) h
  obtain ⟨⟨hfs, hff⟩, h1, h2, h3, h4⟩ := h
  have hS0 : 0 < val fs := lt_of_lt_of_le (by norm_num) h3
  have hF0 : 0 < val f := lt_of_lt_of_le (by positivity) h1
  have hok : FreqOk (val fs) (val f) := by
    refine ⟨hF0, ?_⟩
    norm_num at hf
    linarith
  constructor
  · have hl2 := lib64_lit sin cos sqrt pow 2 (by norm_num)
    have hl1 := lib64_lit sin cos sqrt pow 1 (by norm_num)
    set L := lib64 sin cos sqrt pow with hL
    set w := L.w0 fs f with hwd
    have hpi := Real.pi_lt_d2
    have hpi0 := Real.pi_pos
    have hW : 2 * Real.pi * val f / val fs ≤ 7 / 2 ^ 31 := by
      rw [div_le_iff₀ hS0]
      have : Real.pi * val f ≤ 3.15 * val f := mul_le_mul_of_nonneg_right hpi.le hF0.le
      norm_num at hf this ⊢
      linarith
    have hW0 : 0 ≤ 2 * Real.pi * val f / val fs := by positivity
    obtain ⟨w1, w2⟩ := abs_le.1 hw2
    have hwb : |val w| ≤ 1 / 2 ^ 28 := by
      rw [abs_le]
      norm_num at w1 w2 hW ⊢
      constructor <;> linarith
    obtain ⟨⟨t1, t2, t3⟩, -⟩ := hT w hw1 (hwb.trans (by norm_num))
    have c1 := Real.one_sub_sq_div_two_le_cos (x := val w)
    have c2 := Real.cos_le_one (val w)
    have c3 : val w ^ 2 ≤ (1 / 2 ^ 28) ^ 2 := by
      rw [← sq_abs (val w)]
      exact pow_le_pow_left₀ (abs_nonneg _) hwb 2
    obtain ⟨t4, t5⟩ := abs_le.1 t3
    have e1 : (cos w).toRat = 1 := by
      refine grid_eq_one t2 ?_ ?_
      · refine (Rat.cast_lt (K := ℝ)).1 ?_
        push_cast
        change _ < val (cos w)
        norm_num at hη c3 ⊢
        linarith
      · refine (Rat.cast_lt (K := ℝ)).1 ?_
        push_cast
        change val (cos w) < _
        norm_num at hη ⊢
        linarith
    have i1 : Is (L.lit 1) 1 := by simpa using hl1
    have i2 : Is (L.lit 2) 2 := by simpa using hl2
    have ic : Is (cos w) 1 := ⟨t1, e1⟩
    have top : |(0 : ℚ)| < 2 ^ (binary64.emax + 1) := by
      rw [abs_zero]
      positivity
    have k1 := sub_rd binary64 i1 ic (by rw [sub_self, rd_zero]; exact top)
    rw [sub_self, rd_zero] at k1
    have k2 := div_rd binary64 k1 i2 (by norm_num) (by rw [zero_div, rd_zero]; exact top)
    rw [zero_div, rd_zero] at k2
    have v1 : val (L.lit 1 - cos w) = 0 := (val_of_is k1).trans Rat.cast_zero
    have v2 : val ((L.lit 1 - cos w) / L.lit 2) = 0 := (val_of_is k2).trans Rat.cast_zero
    intro z
    change (((val ((L.lit 1 - cos w) / L.lit 2) : ℝ) : ℂ) + (val (L.lit 1 - cos w) : ℝ) * z⁻¹
      + (val ((L.lit 1 - cos w) / L.lit 2) : ℝ) * z⁻¹ ^ 2) / _ = 0
    rw [v1, v2]
    simp
  · have := (C43_low_pass (val fs) (val f) (val q) hok hq).1
    rw [show unitAt (val fs) 0 = 1 by simp [unitAt]] at this
    exact this

/-! ### The hypotheses can be met -/

/-- Every real number is within any distance of a value. -/
theorem exists_val (r : ℝ) {e : ℝ} (he : 0 < e) : ∃ v : FVal binary64, Finite v ∧ |val v - r| ≤ e := by
  obtain ⟨q, q1, q2⟩ := exists_rat_btwn (show r < r + e by linarith)
  rcases le_or_gt 0 q with h0 | h0
  · refine ⟨Val.fin false q, ⟨_, _, rfl, h0⟩, ?_⟩
    rw [val_fin, abs_le]
    simp
    constructor <;> linarith
  · refine ⟨Val.fin true (-q), ⟨_, _, rfl, by linarith⟩, ?_⟩
    rw [val_fin, abs_le]
    simp
    constructor <;> linarith

example : ∃ sin cos sqrt pow, Dft.Trig cos sin 4 (1 / 2 ^ 50) ∧ PowOk pow ∧ SqrtOk sqrt := by
  choose c c1 c2 c3 using fun x : FVal binary64 => Dft.exists_float (Real.cos (val x)) (Real.abs_cos_le_one _)
  choose s s1 _ s3 using fun x : FVal binary64 => Dft.exists_float (Real.sin (val x)) (Real.abs_sin_le_one _)
  choose p p1 p2 using fun y : FVal binary64 => exists_val ((10 : ℝ) ^ val y) (e := 1 / 2 ^ 40) (by norm_num)
  choose r r1 r2 using fun y : FVal binary64 => exists_val √(val y) (e := 1 / 2 ^ 200) (by norm_num)
  refine ⟨s, c, r, fun _ y => p y, fun x _ _ => ⟨⟨c1 x, c2 x, c3 x⟩, s1 x, s3 x⟩, fun x y _ _ _ => ⟨p1 y, p2 y⟩,
    fun x _ h1 _ => ⟨r1 x, (r2 x).trans ?_⟩⟩
  have : 1 / 2 ^ 50 ≤ √(val x) := Real.le_sqrt_of_sq_le (le_trans (by norm_num) h1)
  norm_num at this ⊢
  linarith

theorem val_ofInt64 {n : ℤ} (h : |n| < 2 ^ 53) : Finite (ofInt binary64 n) ∧ val (ofInt binary64 n) = n := by
  have := is_ofInt64 h
  exact ⟨this.1, by unfold val; rw [this.2]; push_cast; rfl⟩

/-- A filter at 1 kHz for 48 kHz samples, quality factor 3, gain 6 dB, slope 1. -/
example : FreqOk64 10 (ofInt binary64 48000) (ofInt binary64 1000) ∧ FreqOk64 20 (ofInt binary64 48000) (ofInt binary64 1000) ∧
    QOk (ofInt binary64 3) ∧ GainOk (ofInt binary64 6) ∧ ShelfOk (ofInt binary64 1) := by
  obtain ⟨a1, a2⟩ := val_ofInt64 (n := 48000) (by norm_num)
  obtain ⟨b1, b2⟩ := val_ofInt64 (n := 1000) (by norm_num)
  obtain ⟨c1, c2⟩ := val_ofInt64 (n := 3) (by norm_num)
  obtain ⟨d1, d2⟩ := val_ofInt64 (n := 6) (by norm_num)
  obtain ⟨e1, e2⟩ := val_ofInt64 (n := 1) (by norm_num)
  push_cast at a2 b2 c2 d2 e2
  refine ⟨⟨⟨a1, b1⟩, ?_, ?_, ?_, ?_⟩, ⟨⟨a1, b1⟩, ?_, ?_, ?_, ?_⟩, ⟨c1, ?_, ?_, ?_⟩, ⟨d1, ?_⟩, ⟨e1, ?_, ?_⟩⟩
  all_goals try (simp only [a2, b2, c2, d2, e2]; norm_num)
  rw [(is_ofInt64 (n := 3) (by norm_num)).2]
  exact ⟨3, 0, by decide, by decide, by norm_num⟩

/-- Every real number of size at most one is within little more than half a unit of a `float64`. -/
theorem exists_float54 (r : ℝ) (hr : |r| ≤ 1) :
    ∃ v : FVal binary64, Finite v ∧ Grid binary64 v.toRat ∧ |val v - r| ≤ 3 / 2 ^ 55 := by
  -- a rational number in the interval, near `r`
  obtain ⟨q, q1, q2, q3⟩ : ∃ q : ℚ, |q| ≤ 1 ∧ r - 1 / 2 ^ 55 ≤ q ∧ (q : ℝ) ≤ r + 1 / 2 ^ 55 := by
    obtain ⟨r1, r2⟩ := abs_le.1 hr
    rcases le_or_gt 0 r with h | h
    · obtain ⟨q, q1, q2⟩ := exists_rat_btwn (show r - 1 / 2 ^ 55 < r by norm_num)
      refine ⟨q, ?_, q1.le, by norm_num at q2 ⊢; linarith⟩
      rw [← Rat.cast_le (K := ℝ)]
      push_cast
      rw [abs_le]
      norm_num at q1
      constructor <;> linarith
    · obtain ⟨q, q1, q2⟩ := exists_rat_btwn (show r < r + 1 / 2 ^ 55 by norm_num)
      refine ⟨q, ?_, by norm_num at q1 ⊢; linarith, q2.le⟩
      rw [← Rat.cast_le (K := ℝ)]
      push_cast
      rw [abs_le]
      norm_num at q2
      constructor <;> linarith
  have h1 := rd_err_upto binary64 (by decide) (x := q) (k := -1) (by decide) (by rw [neg_add_cancel, zpow_zero]; exact q1)
  have h2 : |((rd binary64 q : ℚ) : ℝ) - q| ≤ 1 / 2 ^ 54 := by
    have : ((|rd binary64 q - q| : ℚ) : ℝ) ≤ ((2 ^ (-1 - (binary64.p : ℤ)) : ℚ) : ℝ) := Rat.cast_le.2 h1
    push_cast at this
    refine this.trans (le_of_eq ?_)
    norm_num [binary64]
  have hgr : Grid binary64 (rd binary64 q) := grid_rd binary64 (by decide) q
  have main : |((rd binary64 q : ℚ) : ℝ) - r| ≤ 3 / 2 ^ 55 := by
    obtain ⟨z1, z2⟩ := abs_le.1 h2
    rw [abs_le]
    norm_num at z1 z2 q2 q3 ⊢
    constructor <;> linarith
  rcases le_or_gt 0 (rd binary64 q) with h0 | h0
  · exact ⟨Val.fin false (rd binary64 q), ⟨_, _, rfl, h0⟩, hgr, by rw [val_fin]; exact main⟩
  · refine ⟨Val.fin true (-rd binary64 q), ⟨_, _, rfl, by linarith⟩, ?_, ?_⟩
    · show Grid binary64 (-(-rd binary64 q))
      rw [neg_neg]
      exact hgr
    · rw [val_fin]
      simpa using main

/-- The hypotheses of `C108_violated_low`: a frequency of 1 for a sample rate of `2^40`. -/
example : (∃ sin cos, Dft.Trig cos sin 4 (3 / 2 ^ 55)) ∧ FreqOk64 40 (ofInt binary64 (2 ^ 40)) (ofInt binary64 1) ∧
    val (ofInt binary64 1) ≤ val (ofInt binary64 (2 ^ 40)) / 2 ^ 31 := by
  refine ⟨?_, ?_⟩
  · choose c c1 c2 c3 using fun x : FVal binary64 => exists_float54 (Real.cos (val x)) (Real.abs_cos_le_one _)
    choose s s1 _ s3 using fun x : FVal binary64 => exists_float54 (Real.sin (val x)) (Real.abs_sin_le_one _)
    exact ⟨s, c, fun x _ _ => ⟨⟨c1 x, c2 x, c3 x⟩, s1 x, s3 x⟩⟩
  · obtain ⟨a1, a2⟩ := val_ofInt64 (n := 2 ^ 40) (by norm_num)
    obtain ⟨b1, b2⟩ := val_ofInt64 (n := 1) (by norm_num)
    generalize ofInt binary64 (2 ^ 40) = S at *
    generalize ofInt binary64 1 = T at *
    push_cast at a2 b2
    refine ⟨⟨⟨a1, b1⟩, ?_, ?_, ?_, ?_⟩, ?_⟩ <;> simp only [a2, b2] <;> norm_num

/-- The quality factor of `C108_violated_sharp`: `2^57`. -/
example : ∃ q : FVal binary64, Finite q ∧ Grid binary64 q.toRat ∧ 2 ^ 57 ≤ val q ∧ val q ≤ 2 ^ 100 := by
  refine ⟨Val.fin false (2 ^ 57), ⟨_, _, rfl, by norm_num⟩, ?_, ?_, ?_⟩
  · exact ⟨1, 57, by decide, by decide, by simp [Val.toRat]⟩
  · rw [val_fin]; norm_num
  · rw [val_fin]; norm_num

end Verif.Filt
