import Verif.Angle.FixedProps

/-!
# Property C32: `Atan2LUT`
-/

namespace Verif.Angle
open Real

/-- A table whose entries are within a little more than one unit of the exact values: the code
truncates a floating-point value, so this covers truncation plus rounding errors up to 1/1000 unit. -/
def GoodLUT (lut : Nat → Int) : Prop :=
  ∀ i : Nat, i < 131072 → |(lut i : ℝ) - arctan (i / 256) / π * 16384| ≤ 1.001

/-- The table without floating-point rounding errors. -/
noncomputable def exactLUT (i : Nat) : Int := ⌊arctan (i / 256) / π * 16384⌋

theorem exactLUT_good : GoodLUT exactLUT := by
  intro i _
  unfold exactLUT
  have h1 := Int.floor_le (arctan (i / 256) / π * 16384)
  have h2 := Int.lt_floor_add_one (arctan (i / 256) / π * 16384)
  rw [abs_le]
  constructor <;> linarith

theorem goodLUT_error {lut : Nat → Int} (h : GoodLUT lut) {i : Nat} (hi : i < 131072) :
    |(lut i : ℝ) * π / 16384 - arctan (i / 256)| ≤ 0.0002 := by
  have hp := pi_gt_d6
  have hp' := pi_lt_d6
  have hl := h i hi
  have e : (lut i : ℝ) * π / 16384 - arctan (i / 256)
      = ((lut i : ℝ) - arctan (i / 256) / π * 16384) * (π / 16384) := by
    field_simp
  rw [e, abs_mul, abs_of_pos (a := π / 16384) (by positivity)]
  have : (0 : ℝ) ≤ |(lut i : ℝ) - arctan (i / 256) / π * 16384| := abs_nonneg _
  nlinarith

theorem goodLUT_range {lut : Nat → Int} (h : GoodLUT lut) {i : Nat} (hi : i < 131072) (h1 : 1 ≤ i) :
    0 ≤ lut i ∧ lut i ≤ 8193 := by
  have hl := h i hi
  have hp := pi_gt_d6
  have hp' := pi_lt_d6
  have ha1 := arctan_lt_pi_div_two ((i : ℝ) / 256)
  have ha2 : (1 : ℝ) / 512 ≤ arctan ((i : ℝ) / 256) := by
    have : (1 : ℝ) / 256 ≤ (i : ℝ) / 256 := by
      have : (1 : ℝ) ≤ i := by exact_mod_cast h1
      linarith
    have h2 := arctan_mono this
    have h3 := arctan_ge_2 (x := 1 / 256) (by norm_num)
    norm_num at h3
    linarith
  rw [abs_le] at hl
  have q1 : arctan ((i : ℝ) / 256) / π * 16384 ≤ 8192 := by
    rw [div_mul_eq_mul_div, div_le_iff₀ (by positivity)]; linarith
  have q2 : 2 ≤ arctan ((i : ℝ) / 256) / π * 16384 := by
    rw [div_mul_eq_mul_div, le_div_iff₀ (by positivity)]; linarith
  constructor
  · have : (0 : ℝ) ≤ lut i := by linarith
    exact_mod_cast this
  · have : (lut i : ℝ) < ((8194 : Int) : ℝ) := by push_cast; linarith
    have : lut i < 8194 := by exact_mod_cast this
    omega

/-- The quotient `t`: a machine integer, `minInt` only when the shifted `y` is `minInt` and `x = ±1`. -/
theorem goDiv_isInt (a b : Int) (hb : b ≠ 0) : ∃ t, goDiv a b = some t ∧ t = wrap (Int.tdiv a b) ∧ IsInt t :=
  ⟨_, by rw [goDiv, if_neg hb], rfl, wrap_isInt _⟩

theorem tdiv_half {a b : Int} (hb : 2 ≤ b.natAbs) : 2 * (Int.tdiv a b).natAbs ≤ a.natAbs := by
  rw [Int.natAbs_tdiv]
  have h1 : a.natAbs / b.natAbs ≤ a.natAbs / 2 := Nat.div_le_div_left hb (by omega)
  have h2 : Nat.div a.natAbs b.natAbs ≤ a.natAbs / 2 := h1
  omega

/-- C32, panic and range part, exact (partial because panics exist, see `C32_violated`): `Atan2LUT`
panics iff `256·y` wraps around to `minInt` and `x = ±1`; otherwise the result is in
`[-2^14, 2^14]`, for all pairs of 64-bit integers. -/
theorem C32_range_partial (lut : Nat → Int) (hl : GoodLUT lut) (y x : Int) (hx : IsInt x) :
    (atan2LUT lut y x = none ↔ wrap (y * 256) = minInt ∧ (x = 1 ∨ x = -1)) ∧
      ∀ v, atan2LUT lut y x = some v → -16384 ≤ v ∧ v ≤ 16384 := by
  unfold atan2LUT
  by_cases h0 : x = 0
  · rw [if_pos h0]
    refine ⟨⟨fun h => ?_, fun h => by omega⟩, fun v hv => ?_⟩
    · split at h
      · simp at h
      · split at h <;> simp at h
    · split at hv
      · simp at hv; omega
      · split at hv <;> simp at hv <;> omega
  rw [if_neg h0]
  obtain ⟨t, ht, ht2, hti⟩ := goDiv_isInt (wrap (y * 256)) x h0
  rw [ht, Option.bind_some]
  have hwi := wrap_isInt (y * 256)
  have hmin : t = minInt ↔ wrap (y * 256) = minInt ∧ (x = 1 ∨ x = -1) := by
    constructor
    · intro h
      by_cases hx2 : 2 ≤ x.natAbs
      · have := tdiv_half (a := wrap (y * 256)) hx2
        unfold IsInt minInt wrap at *
        omega
      · have : x = 1 ∨ x = -1 := by omega
        refine ⟨?_, this⟩
        rcases this with rfl | rfl
        · rw [Int.tdiv_one] at ht2; rw [wrap_of_isInt hwi] at ht2; omega
        · rw [Int.tdiv_neg, Int.tdiv_one] at ht2
          unfold IsInt minInt wrap at *
          omega
    · rintro ⟨h, rfl | rfl⟩ <;> rw [ht2, h] <;> decide
  rw [← hmin]
  unfold IsInt minInt at *
  have inr : ∀ i : Int, 0 < i → i < 131072 → lutAt lut i = some (lut i.toNat) ∧ 0 ≤ lut i.toNat ∧ lut i.toNat ≤ 8193 := by
    intro i h1 h2
    refine ⟨by rw [lutAt, if_pos (by omega)], goodLUT_range hl (by omega) (by omega)⟩
  by_cases ht0 : t = 0
  · rw [if_pos ht0]
    refine ⟨⟨fun h => ?_, fun h => by omega⟩, fun v hv => ?_⟩
    · split at h
      · simp at h
      · split at h <;> simp at h
    · split at hv
      · simp at hv; omega
      · split at hv <;> simp at hv <;> omega
  rw [if_neg ht0]
  by_cases hbig : t ≥ 131072 ∨ wrap (-t) ≥ 131072
  · rw [if_pos hbig]
    refine ⟨⟨fun h => ?_, fun h => by unfold wrap at hbig; omega⟩, fun v hv => ?_⟩
    · split at h <;> simp at h
    · split at hv <;> simp at hv <;> omega
  rw [if_neg hbig]
  by_cases htp : t > 0
  · rw [if_pos htp]
    obtain ⟨e, b1, b2⟩ := inr t htp (by omega)
    rw [e]
    refine ⟨⟨fun h => ?_, fun h => by omega⟩, fun v hv => ?_⟩
    · split at h <;> simp at h
    · split at hv <;> simp at hv <;> unfold wrap at * <;> omega
  · rw [if_neg htp]
    by_cases htm : t = -9223372036854775808
    · subst htm
      have : lutAt lut (wrap (- -9223372036854775808)) = none := by rw [lutAt, if_neg (by decide)]
      rw [this]
      refine ⟨⟨fun _ => rfl, fun _ => by split <;> rfl⟩, fun v hv => ?_⟩
      split at hv <;> simp at hv
    · obtain ⟨e, b1, b2⟩ := inr (wrap (-t)) (by unfold wrap at *; omega) (by omega)
      rw [e]
      refine ⟨⟨fun h => ?_, fun h => by omega⟩, fun v hv => ?_⟩
      · split at h <;> simp at h
      · generalize lut (wrap (-t)).toNat = w at *
        split at hv <;> simp at hv <;> unfold wrap at hv <;> omega

/-- C32 is violated: for every table `Atan2LUT` panics at `y = 2^55, x = 1` (and `x = -1`). -/
theorem C32_violated (lut : Nat → Int) :
    IsInt 36028797018963968 ∧ atan2LUT lut 36028797018963968 1 = none ∧
      atan2LUT lut 36028797018963968 (-1) = none := by
  refine ⟨by unfold IsInt; omega, ?_, ?_⟩
  · have e : goDiv (wrap (36028797018963968 * 256)) 1 = some minInt := by decide
    unfold atan2LUT lutAt
    rw [if_neg (by decide), e]
    rfl
  · have e : goDiv (wrap (36028797018963968 * 256)) (-1) = some minInt := by decide
    unfold atan2LUT lutAt
    rw [if_neg (by decide), e]
    rfl

/-! ## Error bound -/

theorem tdiv_real' {a b : Int} (hb : b ≠ 0) : |((Int.tdiv a b : Int) : ℝ) - (a : ℝ) / b| ≤ 1 := by
  rcases lt_or_gt_of_ne hb with h | h
  · have := tdiv_real (a := a) (s := -b) (by omega)
    rw [Int.tdiv_neg] at this
    push_cast at this
    rw [div_neg, ← neg_add', abs_neg] at this
    rw [sub_eq_add_neg]
    convert this using 2
  · exact tdiv_real h

theorem arctan_lipschitz (x y : ℝ) : |arctan x - arctan y| ≤ |x - y| := by
  rcases le_total x y with h | h
  · have h1 := arctan_sub_le h
    have h2 := arctan_mono h
    rw [abs_sub_comm, abs_of_nonneg (by linarith), abs_sub_comm, abs_of_nonneg (by linarith)]
    exact h1
  · have h1 := arctan_sub_le h
    have h2 := arctan_mono h
    rw [abs_of_nonneg (by linarith), abs_of_nonneg (by linarith)]
    exact h1

/-- The part of the result that depends on the quotient only. -/
def lutPart (lut : Nat → Int) (t : Int) : Int :=
  if t = 0 then 0 else if t ≥ 131072 then 8192 else if -t ≥ 131072 then -8192
  else if t > 0 then lut t.toNat else -lut (-t).toNat

theorem lutPart_big {q : ℝ} (h : 511 ≤ q) : |(8192 : ℝ) * π / 16384 - arctan q| ≤ 0.005 := by
  have hq : 0 < q := by linarith
  have h1 := arctan_inv_of_pos hq
  have h2 := arctan_le_self (x := q⁻¹) (by positivity)
  have h3 : q⁻¹ ≤ 1 / 511 := by rw [inv_eq_one_div]; exact one_div_le_one_div_of_le (by norm_num) h
  have h4 := arctan_lt_pi_div_two q
  rw [abs_le]
  constructor <;> linarith

theorem lutPart_error {lut : Nat → Int} (hl : GoodLUT lut) (q : ℝ) (t : Int)
    (ht : |(t : ℝ) - 256 * q| ≤ 1) : |(lutPart lut t : ℝ) * π / 16384 - arctan q| ≤ 0.005 := by
  have small : ∀ i : Nat, i < 131072 → ∀ q : ℝ, |(i : ℝ) - 256 * q| ≤ 1 →
      |(lut i : ℝ) * π / 16384 - arctan q| ≤ 0.005 := by
    intro i hi q hq
    have h1 := goodLUT_error hl hi
    have h2 := arctan_lipschitz (i / 256) q
    have h3 : |(i : ℝ) / 256 - q| ≤ 1 / 256 := by
      rw [abs_le] at hq ⊢
      constructor <;> linarith
    have := abs_le.mp h1
    have := abs_le.mp (h2.trans h3)
    rw [abs_le]
    constructor <;> linarith
  have hq := abs_le.mp ht
  unfold lutPart
  split
  · rename_i h
    subst h
    have h2 := arctan_lipschitz 0 q
    have h3 : |(0 : ℝ) - q| ≤ 1 / 256 := by
      push_cast at hq
      rw [abs_le]
      constructor <;> linarith
    have := abs_le.mp (h2.trans h3)
    rw [arctan_zero] at this
    rw [abs_le]; push_cast
    constructor <;> linarith
  · split
    · rename_i h
      have : (131072 : ℝ) ≤ t := by exact_mod_cast h
      exact_mod_cast lutPart_big (q := q) (by linarith)
    · split
      · rename_i h
        have : (131072 : ℝ) ≤ -t := by exact_mod_cast h
        have := lutPart_big (q := -q) (by linarith)
        rw [arctan_neg] at this
        rw [← abs_neg]
        convert this using 2
        push_cast; ring
      · split
        · have := small t.toNat (by omega) q
          have e : ((t.toNat : Nat) : ℝ) = (t : ℝ) := by
            have : ((t.toNat : Nat) : Int) = t := by omega
            exact_mod_cast this
          rw [e] at this
          exact this ht
        · have := small (-t).toNat (by omega) (-q)
          have e : (((-t).toNat : Nat) : ℝ) = (-t : ℝ) := by
            have : (((-t).toNat : Nat) : Int) = -t := by omega
            exact_mod_cast this
          rw [e, arctan_neg] at this
          have h2 := this (by rw [← abs_neg]; convert ht using 2; ring)
          rw [← abs_neg]
          convert h2 using 2
          push_cast; ring

/-- The half turn added by quadrant. -/
def offset (y x : Int) : Int := if x > 0 then 0 else if y < 0 then -16384 else 16384

theorem atan2LUT_eq {lut : Nat → Int} (hl : GoodLUT lut) (y x : Int) (hx : x ≠ 0) (hy : y.natAbs < 18014398509481984) :
    atan2LUT lut y x = some (lutPart lut (Int.tdiv (y * 256) x) + offset y x) := by
  have w1 : wrap (y * 256) = y * 256 := wrap_of_isInt (by unfold IsInt; omega)
  have hle : (Int.tdiv (y * 256) x).natAbs ≤ (y * 256).natAbs := by
    rw [Int.natAbs_tdiv]; exact Nat.div_le_self _ _
  have w2 : wrap (Int.tdiv (y * 256) x) = Int.tdiv (y * 256) x := wrap_of_isInt (by unfold IsInt; omega)
  unfold atan2LUT
  rw [if_neg hx, w1, goDiv, if_neg hx, Option.bind_some, w2]
  have hs1 : x > 0 → y ≥ 0 → 0 ≤ Int.tdiv (y * 256) x := fun h1 h2 => Int.tdiv_nonneg (by omega) (by omega)
  have hs2 : x > 0 → y ≤ 0 → 0 ≤ - Int.tdiv (y * 256) x := fun h1 h2 => by
    rw [← Int.neg_tdiv]; exact Int.tdiv_nonneg (by omega) (by omega)
  have hs3 : x < 0 → y ≥ 0 → 0 ≤ - Int.tdiv (y * 256) x := fun h1 h2 => by
    rw [← Int.tdiv_neg]; exact Int.tdiv_nonneg (by omega) (by omega)
  have hs4 : x < 0 → y ≤ 0 → 0 ≤ Int.tdiv (y * 256) x := fun h1 h2 => by
    rw [← Int.neg_tdiv_neg]; exact Int.tdiv_nonneg (by omega) (by omega)
  have hz : y = 0 → Int.tdiv (y * 256) x = 0 := by rintro rfl; simp
  generalize Int.tdiv (y * 256) x = t at *
  have w3 : wrap (-t) = -t := wrap_of_isInt (by unfold IsInt; omega)
  rw [w3]
  unfold lutPart offset
  by_cases h0 : t = 0
  · simp only [h0, if_true, zero_add]
    split
    · rfl
    · split <;> rfl
  rw [if_neg h0, if_neg h0]
  by_cases hb : t ≥ 131072 ∨ -t ≥ 131072
  · rw [if_pos hb]
    split_ifs <;> first | omega | rfl
  rw [if_neg hb, if_neg (by omega : ¬ t ≥ 131072), if_neg (by omega : ¬ -t ≥ 131072)]
  by_cases hp : t > 0
  · have e : lutAt lut t = some (lut t.toNat) := by rw [lutAt, if_pos (by omega)]
    rw [if_pos hp, if_pos hp, e]
    have hr := goodLUT_range hl (i := t.toNat) (by omega) (by omega)
    simp only [Option.map_some]
    unfold wrap
    split_ifs <;> first | omega | (congr 1; omega)
  · have e : lutAt lut (-t) = some (lut (-t).toNat) := by rw [lutAt, if_pos (by omega)]
    rw [if_neg hp, if_neg hp, e]
    have hr := goodLUT_range hl (i := (-t).toNat) (by omega) (by omega)
    simp only [Option.map_some]
    unfold wrap
    split_ifs <;> first | omega | (congr 1; omega)

/-- C32, accuracy part: for every table that is right to 1.001 units and all `x, y` with
`|y| < 2^54`, `Atan2LUT` returns a value within 0.005 radians of the angle of `(x, y)`. -/
theorem C32_error (lut : Nat → Int) (hl : GoodLUT lut) (y x : Int) (h0 : ¬ (x = 0 ∧ y = 0))
    (hy : y.natAbs < 18014398509481984) :
    ∃ v, atan2LUT lut y x = some v ∧ |(v : ℝ) * π / 16384 - Complex.arg ⟨x, y⟩| ≤ 0.005 := by
  change ∃ v : Int, _ ∧ |(v : ℝ) * π / 16384 - angle x y| ≤ 0.005
  by_cases hx : x = 0
  · subst hx
    unfold atan2LUT
    rw [if_pos rfl]
    rcases lt_trichotomy y 0 with h | h | h
    · refine ⟨_, by rw [if_neg (by omega), if_pos h], ?_⟩
      have hy' : (y : ℝ) < 0 := by exact_mod_cast h
      push_cast
      rw [angle_neg hy', angle_up (by linarith)]
      rw [abs_le]; constructor <;> linarith
    · omega
    · refine ⟨_, by rw [if_pos h], ?_⟩
      have hy' : (0 : ℝ) < y := by exact_mod_cast h
      push_cast
      rw [angle_up hy']
      rw [abs_le]; constructor <;> linarith
  refine ⟨_, atan2LUT_eq hl y x hx hy, ?_⟩
  have ht := tdiv_real' (a := y * 256) hx
  have e : ((y * 256 : Int) : ℝ) / x = 256 * (y / x) := by push_cast; ring
  rw [e] at ht
  have hm := lutPart_error hl _ _ ht
  have ha : angle x y = arctan ((y : ℝ) / x) + (offset y x : ℝ) * π / 16384 := by
    unfold offset
    by_cases h1 : x > 0
    · rw [if_pos h1, angle_right (by exact_mod_cast h1)]; push_cast; ring
    · have h1' : (x : ℝ) < 0 := by exact_mod_cast (by omega : x < 0)
      rw [if_neg h1]
      by_cases h2 : y < 0
      · have h2' : (y : ℝ) < 0 := by exact_mod_cast h2
        rw [if_pos h2, angle_neg h2', angle_left h1' (by linarith), neg_div, arctan_neg]
        push_cast; ring
      · have h2' : (0 : ℝ) ≤ y := by exact_mod_cast (by omega : 0 ≤ y)
        rw [if_neg h2, angle_left h1' h2']
        push_cast; ring
  rw [ha]
  convert hm using 2
  push_cast; ring

example : ∃ lut, GoodLUT lut ∧ ¬ ((3 : Int) = 0 ∧ (-4 : Int) = 0) ∧ (-4 : Int).natAbs < 18014398509481984 :=
  ⟨exactLUT, exactLUT_good, by omega, by omega⟩

end Verif.Angle
