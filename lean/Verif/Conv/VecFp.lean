import Verif.Conv.IeeeProps
import Verif.Fp.FpProduct
import Verif.Fp.FpTies
import Verif.Fp.Bits

/-!
# Property C148: the vector routines of `dsp/math32.go` in single precision

What `VMulC64xF32`, `VMulC64`, `VAddF32`, `VAddC64`, `VScaleF32` and `VScaleC64` leave in every element is the float32
nearest the exact result, or infinite beyond the largest float32.  A product of two `complex64` is computed by Go's compiler
in `float64` (each part converted, multiplied, subtracted or added, and converted back); that is the model of
`C148_vMulC64`.  The model of C19 (`vMulC64`, every operation rounded to `float32`) is an instance of `vMulBy` as well; its
error is bounded only relative to the magnitudes of the factors.
-/

namespace Verif.Conv
open Verif.Fp

/-! ## Specification -/

/-- A number a `float32` can hold, but for the bound on its exponent. -/
def Float32 (g : ℚ) : Prop := ∃ m e : ℤ, |m| < 2 ^ 24 ∧ -149 ≤ e ∧ g = m * (2 : ℚ) ^ e

/-- A number whose last bit as a `float32` is zero: 23 bits are enough for it. -/
def Even32 (g : ℚ) : Prop := ∃ m e : ℤ, |m| < 2 ^ 23 ∧ -148 ≤ e ∧ g = m * (2 : ℚ) ^ e

/-- `v` is the `float32` nearest to `x`, the one whose last bit is zero if there are two; from half a unit beyond the largest `float32` on, it is infinite. -/
def Nearest32 (v : Val) (x : ℚ) : Prop :=
  (|x| < 2 ^ 128 - 2 ^ 103 → Finite v ∧ Float32 v.toRat ∧ |v.toRat| < 2 ^ 128 ∧
    (∀ g, Float32 g → |x - v.toRat| ≤ |x - g|) ∧
    ∀ g, Float32 g → g ≠ v.toRat → |x - g| = |x - v.toRat| → Even32 v.toRat) ∧
  (2 ^ 128 - 2 ^ 103 ≤ |x| → v = .inf (decide (x < 0)))

/-- A finite `float32`. -/
def Sample (v : Val) : Prop := Finite v ∧ Float32 v.toRat ∧ |v.toRat| < 2 ^ 128

/-! ## Rounding -/

theorem float32_grid {g : ℚ} (h : Float32 g) : Grid binary32 g := by
  obtain ⟨m, e, h1, h2, rfl⟩ := h
  refine ⟨m.natAbs, e, ?_, h2, ?_⟩
  · have : ((m.natAbs : ℕ) : ℤ) < ((2 ^ 24 : ℕ) : ℤ) := by rw [Int.natCast_natAbs]; exact h1
    exact_mod_cast this
  · rw [abs_mul, abs_of_pos (two_zpow_pos e), ← Int.cast_abs, Int.abs_eq_natAbs, Int.cast_natCast]

theorem grid_float32 {g : ℚ} (h : Grid binary32 g) : Float32 g := by
  obtain ⟨m, e, h1, h2, h3⟩ := h
  have h1' : (m : ℤ) < 2 ^ 24 := by exact_mod_cast h1
  rcases abs_choice g with hg | hg
  · exact ⟨m, e, by rw [abs_of_nonneg (by positivity)]; exact h1', h2, by rw [← hg, h3]; push_cast; rfl⟩
  · exact ⟨-m, e, by rw [abs_neg, abs_of_nonneg (by positivity)]; exact h1', h2, by
      rw [← neg_eq_iff_eq_neg.2 hg, h3]; push_cast; ring⟩

theorem grid_signed {φ : Format} {g : ℚ} (h : Grid φ g) : ∃ m e : ℤ, |m| < 2 ^ φ.p ∧ φ.emin - (φ.p - 1) ≤ e ∧ g = m * (2 : ℚ) ^ e := by
  obtain ⟨m, e, h1, h2, h3⟩ := h
  have h1' : (m : ℤ) < 2 ^ φ.p := by exact_mod_cast h1
  rcases abs_choice g with hg | hg
  · exact ⟨m, e, by rw [abs_of_nonneg (by positivity)]; exact h1', h2, by rw [← hg, h3]; push_cast; rfl⟩
  · exact ⟨-m, e, by rw [abs_neg, abs_of_nonneg (by positivity)]; exact h1', h2, by
      rw [← neg_eq_iff_eq_neg.2 hg, h3]; push_cast; ring⟩

theorem even32_grid {g : ℚ} (h : Even32 g) : Grid ⟨binary32.p - 1, binary32.emin, binary32.emax⟩ g := by
  obtain ⟨m, e, h1, h2, rfl⟩ := h
  refine ⟨m.natAbs, e, ?_, h2, ?_⟩
  · have : ((m.natAbs : ℕ) : ℤ) < ((2 ^ 23 : ℕ) : ℤ) := by rw [Int.natCast_natAbs]; exact h1
    exact_mod_cast this
  · rw [abs_mul, abs_of_pos (two_zpow_pos e), ← Int.cast_abs, Int.abs_eq_natAbs, Int.cast_natCast]

theorem rd32_lt {x : ℚ} (hx : |x| < 2 ^ 128 - 2 ^ 103) : |rd binary32 x| < 2 ^ (binary32.emax + 1) := by
  have e : (2 : ℚ) ^ (binary32.emax + 1) = 2 ^ 128 := by simp only [binary32]; norm_num [zpow_ofNat]
  have hg : Grid binary32 (2 ^ 128 - 2 ^ 104) := by
    refine ⟨2 ^ 24 - 1, 104, by decide, by decide, ?_⟩
    norm_num [zpow_ofNat]
  rw [e, abs_rd]
  rcases le_total |x| (2 ^ 128 - 2 ^ 104) with h | h
  · exact (rd_le binary32 (by decide) hg h).trans_lt (by norm_num)
  · have h1 := rd_nearest binary32 (by decide) |x| hg
    rw [abs_of_nonneg (sub_nonneg.2 h)] at h1
    have h2 := neg_abs_le (|x| - rd binary32 |x|)
    norm_num at *
    linarith

theorem nearest_rd {v : Val} {x : ℚ} (h1 : |x| < 2 ^ 128 - 2 ^ 103 → Is v (rd binary32 x))
    (h2 : 2 ^ 128 - 2 ^ 103 ≤ |x| → v = .inf (decide (x < 0))) : Nearest32 v x := by
  refine ⟨fun h => ?_, h2⟩
  obtain ⟨a, b⟩ := h1 h
  have e : (2 : ℚ) ^ (binary32.emax + 1) = 2 ^ 128 := by simp only [binary32]; norm_num [zpow_ofNat]
  have hlt := rd32_lt h
  rw [b]
  exact ⟨a, grid_float32 (grid_rd binary32 (by decide) x), by rw [← e]; exact hlt,
    fun g hg => rd_nearest binary32 (by decide) x (float32_grid hg),
    fun g hg hne h => grid_signed (rd_tie binary32 (by decide) x (float32_grid hg) hne h)⟩

/-- C148: the specification leaves no choice of the number. -/
theorem C148_unique {v w : Val} {x : ℚ} (hv : Nearest32 v x) (hw : Nearest32 w x) : v.toRat = w.toRat := by
  by_cases h : |x| < 2 ^ 128 - 2 ^ 103
  · have key : ∀ u : Val, Nearest32 u x → u.toRat = rd binary32 x := by
      intro u hu
      obtain ⟨-, h1, -, h2, h3⟩ := hu.1 h
      exact rd_unique binary32 (by decide) x (float32_grid h1) (fun g hg => h2 g (grid_float32 hg))
        fun g hg hne hd => even32_grid (h3 g (grid_float32 hg) hne hd)
    rw [key v hv, key w hw]
  · rw [hv.2 (not_lt.1 h), hw.2 (not_lt.1 h)]

theorem round_inf32 (s : Bool) {q : ℚ} (h : 2 ^ 128 - 2 ^ 103 ≤ q) : round binary32 s q = .inf s :=
  round32_inf s q (by exact_mod_cast h)

theorem nearest_mul {v w : Val} (hv : Finite v) (hw : Finite w) : Nearest32 (mul binary32 v w) (v.toRat * w.toRat) := by
  refine nearest_rd (fun h => mul_rd binary32 ⟨hv, rfl⟩ ⟨hw, rfl⟩ (rd32_lt h)) fun h => ?_
  obtain ⟨s, q, rfl, hq⟩ := hv
  obtain ⟨t, r, rfl, hr⟩ := hw
  have habs : |(Val.fin s q).toRat * (Val.fin t r).toRat| = q * r := by
    cases s <;> cases t <;> simp [Val.toRat, abs_mul, abs_of_nonneg hq, abs_of_nonneg hr]
  rw [habs] at h
  have hpos : 0 < q * r := lt_of_lt_of_le (by norm_num) h
  show round binary32 (s != t) (q * r) = _
  rw [round_inf32 _ h]
  congr 1
  cases s <;> cases t <;> simp [Val.toRat, hpos, hpos.le]

theorem nearest_add {v w : Val} (hv : Finite v) (hw : Finite w) : Nearest32 (add binary32 v w) (v.toRat + w.toRat) := by
  refine nearest_rd (fun h => add_rd binary32 ⟨hv, rfl⟩ ⟨hw, rfl⟩ (rd32_lt h)) fun h => ?_
  obtain ⟨s, q, rfl, hq⟩ := hv
  obtain ⟨t, r, rfl, hr⟩ := hw
  have hne : (Val.fin s q).toRat + (Val.fin t r).toRat ≠ 0 := by
    intro h0
    rw [h0] at h
    norm_num at h
  unfold add
  dsimp only
  rw [if_neg hne]
  exact round_inf32 _ h

/-- Conversion of a `float64`. -/
theorem nearest_convert {v : Val} {x : ℚ} (h : Is v x) : Nearest32 (Verif.Filt.convert binary32 v) x := by
  refine nearest_rd (fun hx => Verif.Filt.convert_rd h (rd32_lt hx)) fun hx => ?_
  obtain ⟨⟨s, q, rfl, hq⟩, rfl⟩ := h
  have habs : |(Val.fin s q).toRat| = q := by cases s <;> simp [Val.toRat, abs_of_nonneg hq]
  rw [habs] at hx
  have hpos : 0 < q := lt_of_lt_of_le (by norm_num) hx
  show round binary32 s q = _
  rw [round_inf32 _ hx]
  congr 1
  cases s <;> simp [Val.toRat, hpos, hpos.le]

/-- Nearest is close: half a unit in the last place. -/
theorem Nearest32.close {v : Val} {x : ℚ} (h : Nearest32 v x) (hx : |x| < 2 ^ 128 - 2 ^ 103) :
    |v.toRat - x| ≤ 2 ^ (-24 : ℤ) * |x| + 2 ^ (-150 : ℤ) := by
  obtain ⟨-, -, -, h4, -⟩ := h.1 hx
  have h5 := h4 _ (grid_float32 (grid_rd binary32 (by decide) x))
  have h6 := rd_err binary32 x
  rw [abs_sub_comm] at h5
  rw [abs_sub_comm x (rd binary32 x)] at h5
  refine (h5.trans h6).trans (le_of_eq ?_)
  show |x| * 2 ^ (-24 : ℤ) + 2 ^ (-126 - 24 : ℤ) = _
  rw [mul_comm]
  rfl

/-! ## The routines without complex products -/

section
variable (o16 : Val → BitVec 16) (o8 : Val → BitVec 8) (bits : Val → BitVec 32) (sq : Val → Val)

/-- `vMulC64xF32` (dsp/math32.go:13-25): every part is the nearest float32 to the exact product. -/
theorem C148_vMulC64xF32 (input output : Slice) (m : Nat → Val × Val) (mul : Slice) (fm : Nat → Val)
    (h : NoOvertake output.base input.base (min (min input.len output.len) mul.len))
    (hm : ∀ i < min (min input.len output.len) mul.len, Finite (m (input.base + i)).1 ∧ Finite (m (input.base + i)).2)
    (hw : ∀ i < min (min input.len output.len) mul.len, Finite (fm (mul.base + i))) :
    ∃ m', vMulC64xF32 (ieee o16 o8 bits sq) input output m mul fm = some m' ∧
      ∀ i < min (min input.len output.len) mul.len,
        Nearest32 (m' (output.base + i)).1 ((m (input.base + i)).1.toRat * (fm (mul.base + i)).toRat) ∧
        Nearest32 (m' (output.base + i)).2 ((m (input.base + i)).2.toRat * (fm (mul.base + i)).toRat) := by
  refine ⟨_, C19_vMulC64xF32 _ input output m mul fm h, fun i hi => ?_⟩
  rw [fill_in hi]
  exact ⟨nearest_mul (hm i hi).1 (hw i hi), nearest_mul (hm i hi).2 (hw i hi)⟩

/-- `VAddF32` (dsp/math32.go:43-51). -/
theorem C148_vAddF32 (input output : Slice) (m : Nat → Val) (h : NoOvertake output.base input.base (min input.len output.len))
    (hm : ∀ i < min input.len output.len, Finite (m (input.base + i)) ∧ Finite (m (output.base + i))) :
    ∃ m', vAddF32 (ieee o16 o8 bits sq) input output m = some m' ∧ ∀ i < min input.len output.len,
      Nearest32 (m' (output.base + i)) ((m (output.base + i)).toRat + (m (input.base + i)).toRat) := by
  refine ⟨_, C19_vAddF32 _ input output m h, fun i hi => ?_⟩
  rw [fill_in hi]
  exact nearest_add (hm i hi).2 (hm i hi).1

/-- `VAddC64` (dsp/math32.go:53-61). -/
theorem C148_vAddC64 (input output : Slice) (m : Nat → Val × Val) (h : NoOvertake output.base input.base (min input.len output.len))
    (hm : ∀ i < min input.len output.len, (Finite (m (input.base + i)).1 ∧ Finite (m (input.base + i)).2) ∧
      Finite (m (output.base + i)).1 ∧ Finite (m (output.base + i)).2) :
    ∃ m', vAddC64 (ieee o16 o8 bits sq) input output m = some m' ∧ ∀ i < min input.len output.len,
      Nearest32 (m' (output.base + i)).1 ((m (output.base + i)).1.toRat + (m (input.base + i)).1.toRat) ∧
      Nearest32 (m' (output.base + i)).2 ((m (output.base + i)).2.toRat + (m (input.base + i)).2.toRat) := by
  refine ⟨_, C19_vAddC64 _ input output m h, fun i hi => ?_⟩
  rw [fill_in hi]
  exact ⟨nearest_add (hm i hi).2.1 (hm i hi).1.1, nearest_add (hm i hi).2.2 (hm i hi).1.2⟩

/-- `vscaleF32` (dsp/math32.go:70-78). -/
theorem C148_vscaleF32 (input output : Slice) (m : Nat → Val) (scale : Val)
    (h : NoOvertake output.base input.base (min input.len output.len)) (hs : Finite scale)
    (hm : ∀ i < min input.len output.len, Finite (m (input.base + i))) :
    ∃ m', vscaleF32 (ieee o16 o8 bits sq) input output m scale = some m' ∧ ∀ i < min input.len output.len,
      Nearest32 (m' (output.base + i)) ((m (input.base + i)).toRat * scale.toRat) := by
  refine ⟨_, C19_vscaleF32 _ input output m scale h, fun i hi => ?_⟩
  rw [fill_in hi]
  exact nearest_mul (hm i hi) hs

/-- `VScaleC64` (dsp/math32.go:63-67).  Full statement: for all slices; it panics on empty ones and on those longer than `2^25`
(`C19_violated_vScaleC64`). -/
theorem C148_vScaleC64_partial (input output : Slice) (m : Nat → Val × Val) (scale : Val)
    (h : NoOvertake output.base input.base (min input.len output.len)) (hi : 0 < input.len) (ho : 0 < output.len)
    (hi2 : input.len ≤ 2 ^ 25) (ho2 : output.len ≤ 2 ^ 25) (hs : Finite scale)
    (hm : ∀ i < min input.len output.len, Finite (m (input.base + i)).1 ∧ Finite (m (input.base + i)).2) :
    ∃ m', vScaleC64 (ieee o16 o8 bits sq) input output m scale = some m' ∧ ∀ i < min input.len output.len,
      Nearest32 (m' (output.base + i)).1 ((m (input.base + i)).1.toRat * scale.toRat) ∧
      Nearest32 (m' (output.base + i)).2 ((m (input.base + i)).2.toRat * scale.toRat) := by
  refine ⟨_, C19_vScaleC64_partial _ input output m scale h hi ho hi2 ho2, fun i hi => ?_⟩
  rw [fill_in hi]
  exact ⟨nearest_mul (hm i hi).1 hs, nearest_mul (hm i hi).2 hs⟩
end

/-! ## Complex products -/

/-- `VMulC64` (dsp/math32.go:30-41), for any product of complex numbers. -/
def vMulBy {C : Type} (mulc : C → C → C) (input output mul : Slice) (m : Nat → C) : Option (Nat → C) := do
  let n := input.len
  let n := if output.len < n then output.len else n
  let n := if mul.len < n then mul.len else n
  let inp ← input.take n
  forRange n m fun i m => do
    let v ← inp.read m i
    let w ← mul.read m i
    output.write m i (mulc v w)

theorem vMulC64_by {F D : Type} (o : FloatOps F D) : vMulC64 o = vMulBy (cmul o) := rfl

/-- What the routine does, whatever the product. -/
theorem vMulBy_fill {C : Type} (mulc : C → C → C) (input output mul : Slice) (m : Nat → C)
    (h : NoOvertake output.base input.base (min (min input.len output.len) mul.len))
    (h2 : NoOvertake output.base mul.base (min (min input.len output.len) mul.len)) :
    vMulBy mulc input output mul m = some (fill m output.base (min (min input.len output.len) mul.len) fun i =>
        mulc (m (input.base + i)) (m (mul.base + i))) := by
  simp only [vMulBy, minIf, Option.bind_eq_bind]
  rw [take_ok (by omega)]
  refine forRange_states (S := fun i => fill m output.base i fun i => mulc (m (input.base + i)) (m (mul.base + i)))
    (fill_zero ..) ?_
  intro i hi
  rw [read_ok hi, Option.bind_some, read_ok (by omega), Option.bind_some, write_ok (by omega), update_fill]
  simp only [fill_ahead h hi, fill_ahead h2 hi]

/-- The products of `complex64` numbers as Go's compiler makes them: in `float64`, with or without fused operations, each
part converted to `float32` at the end. -/
def WideProduct (mulc : Val × Val → Val × Val → Val × Val) : Prop := ∀ a b,
  (∃ w : FVal binary64, Expr.Eval (diffOf binary64 a.1 b.1 a.2 b.2) w ∧ (mulc a b).1 = Verif.Filt.convert binary32 w) ∧
  (∃ w : FVal binary64, Expr.Eval (sumTwo binary64 a.1 b.2 a.2 b.1) w ∧ (mulc a b).2 = Verif.Filt.convert binary32 w)

/-- The product of two samples is exact in `float64`. -/
theorem mul64 {a b : Val} (ha : Sample a) (hb : Sample b) : Is (mul binary64 a b) (a.toRat * b.toRat) ∧
    ∃ z : ℤ, a.toRat * b.toRat = z * 2 ^ (-298 : ℤ) := by
  obtain ⟨ha1, ⟨m, e, hm, he, hx⟩, ha3⟩ := ha
  obtain ⟨hb1, ⟨n, f, hn, hf, hy⟩, hb3⟩ := hb
  have hp : a.toRat * b.toRat = (m * n : ℤ) * (2 : ℚ) ^ (e + f) := by
    rw [hx, hy, zpow_add₀ (by norm_num)]; push_cast; ring
  have hg : Grid binary64 (a.toRat * b.toRat) := by
    refine ⟨(m * n).natAbs, e + f, ?_, ?_, ?_⟩
    · have : |m * n| < 2 ^ 53 := by
        rw [abs_mul]
        nlinarith [abs_nonneg m, abs_nonneg n]
      have : (((m * n).natAbs : ℕ) : ℤ) < ((2 ^ 53 : ℕ) : ℤ) := by rw [Int.natCast_natAbs]; exact_mod_cast this
      exact_mod_cast this
    · show (-1022 : ℤ) - ((53 : ℕ) - 1) ≤ e + f
      push_cast
      omega
    · rw [hp, abs_mul, abs_of_pos (two_zpow_pos _), ← Int.cast_abs, Int.abs_eq_natAbs, Int.cast_natCast]
  have hr := rd_grid binary64 (by decide) hg
  have hi := mul_rd binary64 (v := a) (w := b) ⟨ha1, rfl⟩ ⟨hb1, rfl⟩ (by
    rw [hr, abs_mul]
    have h1 : |a.toRat| * |b.toRat| ≤ 2 ^ 128 * 2 ^ 128 := mul_le_mul ha3.le hb3.le (abs_nonneg _) (by positivity)
    refine h1.trans_lt ?_
    have : (2 : ℚ) ^ (256 : ℤ) < 2 ^ (binary64.emax + 1) := zpow_lt_zpow_right₀ (by norm_num) (by decide)
    refine lt_of_le_of_lt ?_ this
    norm_num [zpow_ofNat])
  rw [hr] at hi
  refine ⟨hi, ?_⟩
  obtain ⟨d, hd⟩ := Int.eq_ofNat_of_zero_le (show 0 ≤ e + f + 298 by omega)
  refine ⟨m * n * 2 ^ d, ?_⟩
  rw [hp, show e + f = (d : ℤ) + (-298) by omega, zpow_add₀ (by norm_num)]
  push_cast
  rw [zpow_natCast]
  ring

theorem top64 {x : ℚ} (h : |x| ≤ 2 ^ 257) : |rd binary64 x| < 2 ^ (binary64.emax + 1) := by
  have hg : Grid binary64 (2 ^ (257 : ℤ)) := grid_pow binary64 (by decide) 257 (by decide)
  refine (abs_rd_le binary64 (by decide) hg (h.trans (le_of_eq ?_))).trans_lt (zpow_lt_zpow_right₀ (by norm_num) (by decide))
  norm_num [zpow_ofNat]

theorem prod_le {a b : Val} (ha : Sample a) (hb : Sample b) : |a.toRat * b.toRat| ≤ 2 ^ 256 := by
  rw [abs_mul]
  refine (mul_le_mul ha.2.2.le hb.2.2.le (abs_nonneg _) (by positivity)).trans (le_of_eq ?_)
  norm_num

/-- The only value of a product of samples in `float64`. -/
theorem eval_mul64 {a b : Val} (ha : Sample a) (hb : Sample b) {w : FVal binary64}
    (h : Expr.Eval (.mul (.leaf (a : FVal binary64)) (.leaf (b : FVal binary64))) w) : Is w (a.toRat * b.toRat) := by
  cases h with
  | mul h1 h2 => cases h1; cases h2; exact (mul64 ha hb).1

/-- Two products in `float64`: the exact difference, rounded once; fusing changes nothing. -/
theorem eval_diff64 {a b c d : Val} (ha : Sample a) (hb : Sample b) (hc : Sample c) (hd : Sample d) {w : FVal binary64}
    (h : Expr.Eval (diffOf binary64 a b c d) w) : Is w (rd binary64 (a.toRat * b.toRat - c.toRat * d.toRat)) := by
  have ht : |a.toRat * b.toRat - c.toRat * d.toRat| ≤ 2 ^ 257 := by
    refine (abs_sub _ _).trans ((add_le_add (prod_le ha hb) (prod_le hc hd)).trans (le_of_eq ?_))
    rw [← two_mul, ← pow_succ']
  unfold diffOf at h
  cases h with
  | sub h1 h2 => exact sub_rd binary64 (eval_mul64 ha hb h1) (eval_mul64 hc hd h2) (top64 ht)
  | fmsub h1 h2 h3 =>
    cases h1; cases h2
    have := fma_rd binary64 (a := a) (b := b) ⟨ha.1, rfl⟩ ⟨hb.1, rfl⟩ (is_neg (eval_mul64 hc hd h3))
      (by rw [← sub_eq_add_neg]; exact top64 ht)
    rw [← sub_eq_add_neg] at this
    exact this
  | fnmsub h1 h2 h3 =>
    cases h1; cases h2
    have e : -c.toRat * d.toRat + a.toRat * b.toRat = a.toRat * b.toRat - c.toRat * d.toRat := by ring
    have := fma_rd binary64 (b := d) (is_neg (v := c) ⟨hc.1, rfl⟩) ⟨hd.1, rfl⟩ (eval_mul64 ha hb h3)
      (by rw [e]; exact top64 ht)
    rw [e] at this
    exact this

theorem eval_sum64 {a b c d : Val} (ha : Sample a) (hb : Sample b) (hc : Sample c) (hd : Sample d) {w : FVal binary64}
    (h : Expr.Eval (sumTwo binary64 a b c d) w) : Is w (rd binary64 (a.toRat * b.toRat + c.toRat * d.toRat)) := by
  have ht : |a.toRat * b.toRat + c.toRat * d.toRat| ≤ 2 ^ 257 := by
    refine (abs_add_le _ _).trans ((add_le_add (prod_le ha hb) (prod_le hc hd)).trans (le_of_eq ?_))
    rw [← two_mul, ← pow_succ']
  unfold sumTwo at h
  cases h with
  | add h1 h2 => exact add_rd binary64 (eval_mul64 ha hb h1) (eval_mul64 hc hd h2) (top64 ht)
  | fmadd h1 h2 h3 =>
    cases h1; cases h2
    exact fma_rd binary64 (a := a) (b := b) ⟨ha.1, rfl⟩ ⟨hb.1, rfl⟩ (eval_mul64 hc hd h3) (top64 ht)
  | fmadd' h1 h2 h3 =>
    cases h1; cases h2
    rw [add_comm] at ht ⊢
    exact fma_rd binary64 (a := c) (b := d) ⟨hc.1, rfl⟩ ⟨hd.1, rfl⟩ (eval_mul64 ha hb h3) (top64 ht)

/-- A multiple of `2^-298` is rounded to `float64` with a relative error. -/
theorem rd64_rel {x : ℚ} {z : ℤ} (hx : x = z * 2 ^ (-298 : ℤ)) : |rd binary64 x - x| ≤ 2 ^ (-52 : ℤ) * |x| := by
  rcases eq_or_ne z 0 with rfl | h0
  · have : x = 0 := by rw [hx]; simp
    rw [this, rd_zero]; simp
  · have h1 : (2 : ℚ) ^ (-298 : ℤ) ≤ |x| := by
      rw [hx, abs_mul, abs_of_pos (two_zpow_pos _), ← Int.cast_abs]
      have : (1 : ℚ) ≤ ((|z| : ℤ) : ℚ) := by exact_mod_cast Int.one_le_abs h0
      have h2 := two_zpow_pos (-298)
      nlinarith
    have h2 := rd_err binary64 x
    have e1 : |x| * (2 : ℚ) ^ (-(binary64.p : ℤ)) + 2 ^ (binary64.emin - binary64.p) = 2 ^ (-53 : ℤ) * |x| + 2 ^ (-777 : ℤ) * 2 ^ (-298 : ℤ) := by
      rw [← zpow_add₀ (by norm_num), mul_comm]
      rfl
    have h3 : (2 : ℚ) ^ (-777 : ℤ) * 2 ^ (-298 : ℤ) ≤ 2 ^ (-777 : ℤ) * |x| := mul_le_mul_of_nonneg_left h1 (two_zpow_pos _).le
    have h4 : (2 : ℚ) ^ (-777 : ℤ) * |x| ≤ 2 ^ (-53 : ℤ) * |x| :=
      mul_le_mul_of_nonneg_right (zpow_le_zpow_right₀ (by norm_num) (by norm_num)) (abs_nonneg _)
    have h5 : (2 : ℚ) ^ (-52 : ℤ) = 2 ^ (-53 : ℤ) + 2 ^ (-53 : ℤ) := by
      rw [show (-52 : ℤ) = -53 + 1 by norm_num, zpow_add₀ (by norm_num)]; ring
    rw [e1] at h2
    rw [h5]
    linarith

/-- Specification of a part of the product: the exact value is rounded to 53 bits and the result to the nearest `float32`. -/
def Rounded2 (v : Val) (x : ℚ) : Prop := ∃ y, |y - x| ≤ 2 ^ (-52 : ℤ) * |x| ∧ Nearest32 v y

/-- Hence it is accurate relative to the exact value itself, whatever cancels. -/
theorem Rounded2.close {v : Val} {x : ℚ} (h : Rounded2 v x) (hx : |x| ≤ 2 ^ 127) :
    Finite v ∧ |v.toRat - x| ≤ (2 ^ (-24 : ℤ) + 2 ^ (-51 : ℤ)) * |x| + 2 ^ (-150 : ℤ) := by
  obtain ⟨y, h1, h2⟩ := h
  have hy : |y| ≤ |x| + 2 ^ (-52 : ℤ) * |x| := by
    have := abs_add_le (y - x) x
    rw [sub_add_cancel] at this
    linarith
  have hlt : |y| < 2 ^ 128 - 2 ^ 103 := by
    have : (2 : ℚ) ^ (-52 : ℤ) * |x| ≤ 1 / 2 * |x| := mul_le_mul_of_nonneg_right (by norm_num) (abs_nonneg _)
    norm_num at *
    linarith
  refine ⟨(h2.1 hlt).1, ?_⟩
  have h3 := h2.close hlt
  have h4 := abs_add_le (v.toRat - y) (y - x)
  rw [sub_add_sub_cancel] at h4
  have h5 : (2 : ℚ) ^ (-24 : ℤ) * |y| ≤ 2 ^ (-24 : ℤ) * (|x| + 2 ^ (-52 : ℤ) * |x|) := mul_le_mul_of_nonneg_left hy (by positivity)
  norm_num at *
  linarith [abs_nonneg x]

/-- `VMulC64` (dsp/math32.go:30-41) with products as Go's compiler makes them: both parts of every product are the exact
ones, rounded to `float64` and then to `float32`; nothing is lost by cancellation and it does not matter which operations
are fused. -/
theorem C148_vMulC64 (mulc : Val × Val → Val × Val → Val × Val) (hc : WideProduct mulc) (input output mul : Slice)
    (m : Nat → Val × Val) (h : NoOvertake output.base input.base (min (min input.len output.len) mul.len))
    (h2 : NoOvertake output.base mul.base (min (min input.len output.len) mul.len))
    (hm : ∀ i < min (min input.len output.len) mul.len, (Sample (m (input.base + i)).1 ∧ Sample (m (input.base + i)).2) ∧
      Sample (m (mul.base + i)).1 ∧ Sample (m (mul.base + i)).2) :
    ∃ m', vMulBy mulc input output mul m = some m' ∧ ∀ i < min (min input.len output.len) mul.len,
      Rounded2 (m' (output.base + i)).1 ((m (input.base + i)).1.toRat * (m (mul.base + i)).1.toRat
        - (m (input.base + i)).2.toRat * (m (mul.base + i)).2.toRat) ∧
      Rounded2 (m' (output.base + i)).2 ((m (input.base + i)).1.toRat * (m (mul.base + i)).2.toRat
        + (m (input.base + i)).2.toRat * (m (mul.base + i)).1.toRat) := by
  refine ⟨_, vMulBy_fill mulc input output mul m h h2, fun i hi => ?_⟩
  rw [fill_in hi]
  obtain ⟨⟨a1, a2⟩, b1, b2⟩ := hm i hi
  obtain ⟨⟨w, hw, ew⟩, v, hv, ev⟩ := hc (m (input.base + i)) (m (mul.base + i))
  rw [ew, ev]
  obtain ⟨z1, e1⟩ := (mul64 a1 b1).2
  obtain ⟨z2, e2⟩ := (mul64 a2 b2).2
  obtain ⟨z3, e3⟩ := (mul64 a1 b2).2
  obtain ⟨z4, e4⟩ := (mul64 a2 b1).2
  refine ⟨⟨_, rd64_rel (z := z1 - z2) ?_, nearest_convert (eval_diff64 a1 b1 a2 b2 hw)⟩,
    ⟨_, rd64_rel (z := z3 + z4) ?_, nearest_convert (eval_sum64 a1 b2 a2 b1 hv)⟩⟩
  · rw [e1, e2]; push_cast; ring
  · rw [e3, e4]; push_cast; ring

/-- In numbers: as long as the exact parts are at most `2^127`, both are finite and wrong by at most `2^-24 + 2^-51` of
themselves and `2^-150`. -/
theorem C148_vMulC64_error (mulc : Val × Val → Val × Val → Val × Val) (hc : WideProduct mulc) (input output mul : Slice)
    (m : Nat → Val × Val) (h : NoOvertake output.base input.base (min (min input.len output.len) mul.len))
    (h2 : NoOvertake output.base mul.base (min (min input.len output.len) mul.len))
    (hm : ∀ i < min (min input.len output.len) mul.len, (Sample (m (input.base + i)).1 ∧ Sample (m (input.base + i)).2) ∧
      Sample (m (mul.base + i)).1 ∧ Sample (m (mul.base + i)).2) :
    ∃ m', vMulBy mulc input output mul m = some m' ∧ ∀ i < min (min input.len output.len) mul.len, ∀ x y : ℚ,
      x = (m (input.base + i)).1.toRat * (m (mul.base + i)).1.toRat - (m (input.base + i)).2.toRat * (m (mul.base + i)).2.toRat →
      y = (m (input.base + i)).1.toRat * (m (mul.base + i)).2.toRat + (m (input.base + i)).2.toRat * (m (mul.base + i)).1.toRat →
      (|x| ≤ 2 ^ 127 → Finite (m' (output.base + i)).1 ∧
        |(m' (output.base + i)).1.toRat - x| ≤ (2 ^ (-24 : ℤ) + 2 ^ (-51 : ℤ)) * |x| + 2 ^ (-150 : ℤ)) ∧
      (|y| ≤ 2 ^ 127 → Finite (m' (output.base + i)).2 ∧
        |(m' (output.base + i)).2.toRat - y| ≤ (2 ^ (-24 : ℤ) + 2 ^ (-51 : ℤ)) * |y| + 2 ^ (-150 : ℤ)) := by
  obtain ⟨m', h1, h3⟩ := C148_vMulC64 mulc hc input output mul m h h2 hm
  refine ⟨m', h1, ?_⟩
  rintro i hi x y rfl rfl
  exact ⟨fun hx => (h3 i hi).1.close hx, fun hy => (h3 i hi).2.close hy⟩

/-- The compiler's product without fused operations. -/
def wideMul (a b : Val × Val) : Val × Val :=
  (Verif.Filt.convert binary32 (diffOf binary64 a.1 b.1 a.2 b.2).unfused,
   Verif.Filt.convert binary32 (sumTwo binary64 a.1 b.2 a.2 b.1).unfused)

theorem wide_wideMul : WideProduct wideMul := fun _ _ =>
  ⟨⟨_, Expr.eval_unfused _, rfl⟩, ⟨_, Expr.eval_unfused _, rfl⟩⟩

/-- The compiler's product with everything fused. -/
def wideFused (a b : Val × Val) : Val × Val :=
  (Verif.Filt.convert binary32 (diffOf binary64 a.1 b.1 a.2 b.2).fuse,
   Verif.Filt.convert binary32 (sumTwo binary64 a.1 b.2 a.2 b.1).fuse)

theorem wide_wideFused : WideProduct wideFused := fun _ _ =>
  ⟨⟨_, Expr.eval_fuse _, rfl⟩, ⟨_, Expr.eval_fuse _, rfl⟩⟩

/-- `1 + 2^-12 + i` and `1 + 2^-12 + i(1 + 2^-11)`. -/
def factor1 : Val × Val := (.fin false (1 + 1 / 4096), .fin false 1)
def factor2 : Val × Val := (.fin false (1 + 1 / 4096), .fin false (1 + 1 / 2048))

/-- With every operation rounded to `float32` (the model of C19) cancellation is not harmless: the exact real part of this
product is `2^-24`, the computed one zero. -/
theorem C148_violated_single (o16 : Val → BitVec 16) (o8 : Val → BitVec 8) (bits : Val → BitVec 32) (sq : Val → Val) :
    ((vMulC64 (ieee o16 o8 bits sq) ⟨0, 1⟩ ⟨2, 1⟩ ⟨1, 1⟩ (fun i => if i = 0 then factor1 else factor2)).map fun m => (m 2).1)
      = some (.fin false 0) ∧
    ((vMulBy wideMul ⟨0, 1⟩ ⟨2, 1⟩ ⟨1, 1⟩ (fun i => if i = 0 then factor1 else factor2)).map fun m => (m 2).1)
      = some (.fin false (1 / 2 ^ 24)) ∧
    factor1.1.toRat * factor2.1.toRat - factor1.2.toRat * factor2.2.toRat = 1 / 2 ^ 24 := by
  refine ⟨?_, ?_, by norm_num [factor1, factor2, Val.toRat]⟩
  · change some (sub binary32 (mul binary32 factor1.1 factor2.1) (mul binary32 factor1.2 factor2.2)) = _
    decide +kernel
  · change some (wideMul factor1 factor2).1 = _
    decide +kernel

/-! ## Examples: the hypotheses can be met, and what follows from them -/

theorem sample_factor : (Sample factor1.1 ∧ Sample factor1.2) ∧ Sample factor2.1 ∧ Sample factor2.2 := by
  refine ⟨⟨⟨⟨_, _, rfl, by norm_num⟩, ⟨4097, -12, by norm_num, by norm_num, ?_⟩, ?_⟩,
    ⟨⟨_, _, rfl, by norm_num⟩, ⟨1, 0, by norm_num, by norm_num, ?_⟩, ?_⟩⟩,
    ⟨⟨_, _, rfl, by norm_num⟩, ⟨4097, -12, by norm_num, by norm_num, ?_⟩, ?_⟩,
    ⟨⟨_, _, rfl, by norm_num⟩, ⟨2049, -11, by norm_num, by norm_num, ?_⟩, ?_⟩⟩ <;>
    norm_num [factor1, factor2, Val.toRat, zpow_neg, zpow_ofNat]

/-- Ten products over the memory with `factor1` in the first ten cells and `factor2` in the others, into the first ten. -/
example : ∃ m', vMulBy wideFused ⟨0, 10⟩ ⟨0, 10⟩ ⟨10, 12⟩ (fun i => if i < 10 then factor1 else factor2) = some m' ∧
    ∀ i < 10, Rounded2 (m' i).1 (1 / 2 ^ 24) := by
  obtain ⟨m', h1, h2⟩ := C148_vMulC64 wideFused wide_wideFused ⟨0, 10⟩ ⟨0, 10⟩ ⟨10, 12⟩ (fun i => if i < 10 then factor1 else factor2)
    (Or.inl (by decide)) (Or.inl (by decide)) (fun i hi => by
      have : i < 10 := lt_of_lt_of_eq hi (by decide)
      simp only [Nat.zero_add, if_pos this, show ¬ 10 + i < 10 by omega, if_false]
      exact sample_factor)
  refine ⟨m', h1, fun i hi => ?_⟩
  have := (h2 i (lt_of_lt_of_eq hi (by decide))).1
  simp only [Nat.zero_add, if_pos hi, show ¬ 10 + i < 10 by omega, if_false] at this
  convert this using 1
  norm_num [factor1, factor2, Val.toRat]

/-- Scaling by 2^64 makes 2^64 infinite and 3 exact. -/
example (o16 : Val → BitVec 16) (o8 : Val → BitVec 8) (bits : Val → BitVec 32) (sq : Val → Val) :
    ∃ m', vscaleF32 (ieee o16 o8 bits sq) ⟨0, 2⟩ ⟨0, 2⟩ (fun i => .fin false (if i = 0 then 2 ^ 64 else 3)) (.fin false (2 ^ 64)) = some m' ∧
      m' 0 = .inf false ∧ (m' 1).toRat = 3 * 2 ^ 64 := by
  obtain ⟨m', h1, h2⟩ := C148_vscaleF32 o16 o8 bits sq ⟨0, 2⟩ ⟨0, 2⟩ (fun i => .fin false (if i = 0 then 2 ^ 64 else 3)) (.fin false (2 ^ 64))
    (Or.inl (by decide)) ⟨_, _, rfl, by norm_num⟩ (fun i _ => ⟨_, _, rfl, by split <;> norm_num⟩)
  refine ⟨m', h1, ?_, ?_⟩
  · have := (h2 0 (by decide)).2 (by norm_num [Val.toRat])
    rw [show (0 : ℕ) = 0 + 0 from rfl, this]
    norm_num [Val.toRat]
  · obtain ⟨-, -, -, h, -⟩ := (h2 1 (by decide)).1 (by norm_num [Val.toRat])
    have := h (3 * 2 ^ 64) ⟨3, 64, by norm_num, by norm_num, by norm_num [zpow_ofNat]⟩
    norm_num [Val.toRat] at this ⊢
    linarith [sub_eq_zero.1 this]

/-- Half way between 1 and the next `float32`, the specification wants 1: the last bit of the other is one. -/
example : ¬ Nearest32 (.fin false (1 + 1 / 2 ^ 23)) (1 + 1 / 2 ^ 24) := by
  intro h
  obtain ⟨-, -, -, -, h5⟩ := h.1 (by norm_num)
  obtain ⟨m, e, h6, -, h7⟩ := h5 1 ⟨1, 0, by norm_num, by norm_num, by norm_num⟩ (by norm_num [Val.toRat]) (by
    simp only [Val.toRat, Bool.false_eq_true, if_false]
    rw [abs_of_pos (by norm_num), abs_of_neg (by norm_num)]
    norm_num)
  have h8 : ((2 ^ 23 + 1 : ℤ) : ℚ) = m * (2 : ℚ) ^ (e + 23) := by
    rw [zpow_add₀ (by norm_num), ← mul_assoc, ← h7]
    norm_num [Val.toRat]
  rcases le_or_gt 1 (e + 23) with he | he
  · obtain ⟨k, hk⟩ := Int.eq_ofNat_of_zero_le (by omega : 0 ≤ e + 23 - 1)
    rw [show e + 23 = (k + 1 : ℕ) by push_cast; omega, zpow_natCast] at h8
    have h9 : (2 ^ 23 + 1 : ℤ) = m * 2 ^ (k + 1) := by exact_mod_cast h8
    have h10 : (2 : ℤ) ∣ 2 ^ 23 + 1 := ⟨m * 2 ^ k, by rw [h9]; ring⟩
    norm_num at h10
  · have h9 : (2 : ℚ) ^ (e + 23) ≤ 1 := by
      have := zpow_le_zpow_right₀ (by norm_num : (1 : ℚ) ≤ 2) (by omega : e + 23 ≤ 0)
      simpa using this
    have h10 : (m : ℚ) < 2 ^ 23 := by exact_mod_cast (abs_lt.1 h6).2
    have h11 := two_zpow_pos (e + 23)
    rcases le_total 0 (m : ℚ) with hm | hm
    · have : (m : ℚ) * 2 ^ (e + 23) ≤ m * 1 := mul_le_mul_of_nonneg_left h9 hm
      push_cast at h8
      linarith
    · have : (m : ℚ) * 2 ^ (e + 23) ≤ 0 := mul_nonpos_of_nonpos_of_nonneg hm h11.le
      push_cast at h8
      linarith

/-- Windowing and adding. -/
example (o16 : Val → BitVec 16) (o8 : Val → BitVec 8) (bits : Val → BitVec 32) (sq : Val → Val) :
    (∃ m', vMulC64xF32 (ieee o16 o8 bits sq) ⟨4, 3⟩ ⟨2, 3⟩ (fun _ => factor1) ⟨7, 5⟩ (fun _ => .fin true (1 / 4)) = some m' ∧
      ∀ i < 3, Nearest32 (m' (2 + i)).1 (-(1 + 1 / 4096) / 4)) ∧
    (∃ m', vAddC64 (ieee o16 o8 bits sq) ⟨4, 3⟩ ⟨4, 3⟩ (fun _ => factor1) = some m' ∧ ∀ i < 3, Nearest32 (m' (4 + i)).2 2) ∧
    (∃ m', vAddF32 (ieee o16 o8 bits sq) ⟨4, 3⟩ ⟨4, 3⟩ (fun _ => factor1.1) = some m' ∧ ∀ i < 3, Nearest32 (m' (4 + i)) (2 + 1 / 2048)) ∧
    (∃ m', vScaleC64 (ieee o16 o8 bits sq) ⟨4, 3⟩ ⟨4, 3⟩ (fun _ => factor1) factor2.2 = some m' ∧
      ∀ i < 3, Nearest32 (m' (4 + i)).2 (1 + 1 / 2048)) := by
  obtain ⟨⟨f1, f2⟩, f3, f4⟩ := sample_factor
  refine ⟨?_, ?_, ?_, ?_⟩
  · obtain ⟨m', h1, h2⟩ := C148_vMulC64xF32 o16 o8 bits sq ⟨4, 3⟩ ⟨2, 3⟩ (fun _ => factor1) ⟨7, 5⟩ (fun _ => .fin true (1 / 4))
      (Or.inl (by decide)) (fun _ _ => ⟨f1.1, f2.1⟩) (fun _ _ => ⟨_, _, rfl, by norm_num⟩)
    refine ⟨m', h1, fun i hi => ?_⟩
    convert (h2 i hi).1 using 1
    norm_num [factor1, Val.toRat]
  · obtain ⟨m', h1, h2⟩ := C148_vAddC64 o16 o8 bits sq ⟨4, 3⟩ ⟨4, 3⟩ (fun _ => factor1)
      (Or.inl (by decide)) (fun _ _ => ⟨⟨f1.1, f2.1⟩, f1.1, f2.1⟩)
    refine ⟨m', h1, fun i hi => ?_⟩
    convert (h2 i hi).2 using 1
    norm_num [factor1, Val.toRat]
  · obtain ⟨m', h1, h2⟩ := C148_vAddF32 o16 o8 bits sq ⟨4, 3⟩ ⟨4, 3⟩ (fun _ => factor1.1)
      (Or.inl (by decide)) (fun _ _ => ⟨f1.1, f1.1⟩)
    refine ⟨m', h1, fun i hi => ?_⟩
    convert h2 i hi using 1
    norm_num [factor1, Val.toRat]
  · obtain ⟨m', h1, h2⟩ := C148_vScaleC64_partial o16 o8 bits sq ⟨4, 3⟩ ⟨4, 3⟩ (fun _ => factor1) factor2.2
      (Or.inl (by decide)) (by decide) (by decide) (by decide) (by decide) f4.1 (fun _ _ => ⟨f1.1, f2.1⟩)
    refine ⟨m', h1, fun i hi => ?_⟩
    convert (h2 i hi).2 using 1
    norm_num [factor1, factor2, Val.toRat]

end Verif.Conv
