import Verif.Angle.AtanFpLemmas
import Verif.Fp.FpFma

/-!
# The fast arctangents when products may be fused (dsp/math32.go:128-183): model and the polynomial

The Go specification lets an implementation compute `x*y + z` with a single rounding.  The functions below are `fastAtan2` and `fastAtan2_2` with the two
expressions in which that can happen left to a parameter `ev`, which may pick for each expression any of the values `Expr.Eval` allows.  An assignment
rounds, so nothing is fused across `zz := z * z`, and a division is never part of a fused operation.
-/

namespace Verif.Angle

open Real Verif.Fp Verif.Arm Verif.Fp.Expr

/-- `k + (0.1963*r*r-0.9817)*r`, dsp/math32.go:137 (`k = pi34`) and 140 (`k = pi4`). -/
def tailExpr (k r : Val) : Expr binary32 :=
  .leaf k + (.leaf (go32.lit .c1963) * .leaf r * .leaf r - .leaf (go32.lit .c9817)) * .leaf r

/-- `fastAtan2`, dsp/math32.go:128-152. -/
def fastAtan2By (ev : Expr binary32 → Val) (y x : Val) : Val :=
  let absY := if go32.lt y (go32.lit .zero) then go32.neg y else y
  let absY := go32.add absY (go32.lit .tiny)
  if go32.lt x (go32.lit .zero) then
    let r := go32.div (go32.add x absY) (go32.sub absY x)
    let angle := ev (tailExpr (go32.lit .threeQuarterPi) r)
    if go32.lt y (go32.lit .zero) then go32.neg angle else angle
  else if go32.gt x (go32.lit .zero) then
    let r := go32.div (go32.sub x absY) (go32.add x absY)
    let angle := ev (tailExpr (go32.lit .quarterPi) r)
    if go32.lt y (go32.lit .zero) then go32.neg angle else angle
  else if go32.lt y (go32.lit .zero) then go32.lit .negHalfPi
  else if go32.gt y (go32.lit .zero) then go32.lit .halfPi
  else go32.lit .zero

/-- `1.0 + 0.28*zz`, dsp/math32.go:169. -/
def denExpr (zz : Val) : Expr binary32 := .leaf (go32.lit .one) + .leaf (go32.lit .c28) * .leaf zz

/-- `fastAtan2_2`, dsp/math32.go:156-183. -/
def fastAtan2_2By (ev : Expr binary32 → Val) (y x : Val) : Val :=
  if go32.eq x (go32.lit .zero) then
    if go32.gt y (go32.lit .zero) then go32.lit .halfPi
    else if go32.lt y (go32.lit .zero) then go32.lit .negHalfPi
    else go32.lit .zero
  else
    let z := go32.div y x
    let zz := go32.mul z z
    if go32.lt zz (go32.lit .one) then
      let atan := go32.div z (ev (denExpr zz))
      if go32.lt x (go32.lit .zero) then
        if go32.lt y (go32.lit .zero) then go32.sub atan (go32.lit .pi) else go32.add atan (go32.lit .pi)
      else atan
    else
      let atan := go32.sub (go32.lit .halfPi) (go32.div z (go32.add zz (go32.lit .c28)))
      if go32.lt y (go32.lit .zero) then go32.sub atan (go32.lit .pi) else atan

/-- Without fusion these are the functions of `AtanModel`. -/
theorem fastAtan2By_unfused (y x : Val) : fastAtan2By unfused y x = fastAtan2Go go32 y x := rfl
theorem fastAtan2_2By_unfused (y x : Val) : fastAtan2_2By unfused y x = fastAtan2_2Go go32 y x := rfl

theorem uR32 : uR binary32 = 1 / 2 ^ 24 := by norm_num [uR, binary32]
theorem wR32 : wR binary32 ≤ 1e-30 := by
  have : wR binary32 = 1 / 2 ^ 150 := by norm_num [wR, binary32]
  rw [this]; norm_num
theorem emax32 : (1e30 : ℝ) ≤ 2 ^ binary32.emax := by norm_num [binary32]

theorem tail_bd {k r : Val} (hr : Finite r) (h : |val r| ≤ 1.01) (hk : Finite k) (hk2 : |val k| ≤ 2.5) :
    Finite k ∧ Bd (tailExpr k r) 10 5e-7 := by
  have hu := uR32
  have hw := wR32
  have hw0 := wR_pos binary32
  have hm := emax32
  have c1 := lit_close .c1963
  have c2 := lit_close .c9817
  have v1 : |val (go32.lit .c1963) - 1963 / 10000| ≤ 2e-8 := by
    have := close_of (e := 2e-8) (b := 1963 / 10000) c1 (by simp only [Const.go]; norm_num [abs_of_nonneg]) (by norm_num)
    simpa [Const.go] using this
  have v2 : |val (go32.lit .c9817) - 9817 / 10000| ≤ 6e-8 := by
    have := close_of (e := 6e-8) (b := 9817 / 10000) c2 (by simp only [Const.go]; norm_num [abs_of_nonneg]) (by norm_num)
    simpa [Const.go] using this
  have s1 : |val (go32.lit .c1963)| ≤ 0.2 := by rw [abs_le] at v1 ⊢; constructor <;> linarith [v1.1, v1.2]
  have s2 : |val (go32.lit .c9817)| ≤ 0.99 := by rw [abs_le] at v2 ⊢; constructor <;> linarith [v2.1, v2.2]
  have lr : Bd (φ := binary32) (.leaf r) 1.01 0 := bd_leaf hr h
  have b1 := (bd_mul binary32_ok (bd_leaf (φ := binary32) c1.1 s1) lr (by norm_num at *; linarith)).mono (S' := 0.26) (E' := 1.3e-8)
    (by norm_num at *; linarith) (by rw [hu]; norm_num at *; linarith)
  have b2 := (bd_mul binary32_ok b1 lr (by norm_num at *; linarith)).mono (S' := 0.33) (E' := 3e-8)
    (by norm_num at *; linarith) (by rw [hu]; norm_num at *; linarith)
  have b3 := (bd_sub binary32_ok b2 (bd_leaf (φ := binary32) c2.1 s2) (by norm_num at *; linarith)).mono (S' := 1.66) (E' := 1.1e-7)
    (by norm_num at *; linarith) (by rw [hu]; norm_num at *; linarith)
  have b4 := (bd_mul binary32_ok b3 lr (by norm_num at *; linarith)).mono (S' := 2.1) (E' := 2.2e-7)
    (by norm_num at *; linarith) (by rw [hu]; norm_num at *; linarith)
  have b5 := (bd_add binary32_ok (bd_leaf (φ := binary32) hk hk2) b4 (by norm_num at *; linarith)).mono (S' := 10) (E' := 5e-7)
    (by norm_num at *; linarith) (by rw [hu]; norm_num at *; linarith)
  exact ⟨hk, b5⟩

/-- The common end of both branches: constant plus polynomial, whatever is fused. -/
theorem tail_eval {n d k v : Val} {N D C : ℝ} (hn : Close n N) (hd : Close d D) (hND : |N| ≤ D)
    (hD : 1e-30 ≤ D) (hk : Finite k) (hC : |val k - C| ≤ 2e-7) (hC2 : |C| ≤ 2.4)
    (hv : Eval (tailExpr k (Fp.div binary32 n d)) v) :
    Finite v ∧ |val v - (C + fastPoly (N / D))| ≤ 2e-6 := by
  obtain ⟨f1, e1, b1⟩ := quot_near hn hd hND hD
  have hD0 : 0 < D := by linarith
  have hND1 : |N / D| ≤ 1 := by rw [abs_div, abs_of_pos hD0, div_le_one hD0]; exact hND
  have e3 := (fastPoly_lipschitz b1 (hND1.trans (by norm_num))).trans e1
  generalize Fp.div binary32 n d = r at *
  obtain ⟨-, hb⟩ := tail_bd f1 b1 hk (by rw [abs_le] at hC hC2 ⊢; norm_num at *; constructor <;> linarith [hC.1, hC.2, hC2.1, hC2.2])
  obtain ⟨fv, ev⟩ := hb.eval binary32_ok hv
  refine ⟨fv, ?_⟩
  have ex : (tailExpr k r).exact = val k + (val (go32.lit .c1963) * val r * val r - val (go32.lit .c9817)) * val r := rfl
  rw [ex] at ev
  have v1 : |val (go32.lit .c1963) - 1963 / 10000| ≤ 2e-8 := by
    have := close_of (e := 2e-8) (b := 1963 / 10000) (lit_close .c1963) (by simp only [Const.go]; norm_num [abs_of_nonneg]) (by norm_num)
    simpa [Const.go] using this
  have v2 : |val (go32.lit .c9817) - 9817 / 10000| ≤ 6e-8 := by
    have := close_of (e := 6e-8) (b := 9817 / 10000) (lit_close .c9817) (by simp only [Const.go]; norm_num [abs_of_nonneg]) (by norm_num)
    simpa [Const.go] using this
  have m1 := mul_near (mul_near (mul_near v1 b1) b1) b1
  have m2 := mul_near v2 b1
  unfold fastPoly at e3
  have hp : |val k + (val (go32.lit .c1963) * val r * val r - val (go32.lit .c9817)) * val r - (C + fastPoly (N / D))| ≤ 1.4e-6 := by
    unfold fastPoly
    rw [abs_le] at *
    norm_num at *
    constructor <;> linarith [hC.1, hC.2, e3.1, e3.2, m1.1, m1.2, m2.1, m2.2, e1.1, e1.2]
  rw [abs_le] at *
  norm_num at *
  constructor <;> linarith [ev.1, ev.2, hp.1, hp.2]

end Verif.Angle
