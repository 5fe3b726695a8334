import Verif.Angle.Fixed32Model
import Verif.Angle.LutProps

/-!
# Property C102: `dsp/mathfixed.go` where `int` has 32 bits, and the table computed with rounding
-/

namespace Verif.Angle
open Real

/-! ## Panics and range, for every pair of 32-bit integers -/

theorem wrap32_of_isInt {x : Int} (h : IsInt32 x) : wrap32 x = x := by unfold wrap32; unfold IsInt32 at h; omega
theorem wrap32_isInt (x : Int) : IsInt32 (wrap32 x) := by unfold wrap32 IsInt32; omega
theorem wrap32_abs_le (x : Int) : (wrap32 x).natAbs ≤ x.natAbs := by unfold wrap32; omega

/-- The quotient of both branches of `FastAtan2Fixed`: between −4096 and 4096. -/
theorem quot_bound32 {d s : Int} (hs : s ≠ 0) (h : d.natAbs ≤ s.natAbs) :
    ∃ q, goDiv32 (wrap32 (4096 * d)) s = some q ∧ -4096 ≤ q ∧ q ≤ 4096 := by
  have h1 := wrap32_abs_le (4096 * d)
  have h3 := tdiv_abs_le (a := wrap32 (4096 * d)) (b := s) (c := 4096) (by omega)
  have h4 : IsInt32 (Int.tdiv (wrap32 (4096 * d)) s) := by unfold IsInt32; omega
  refine ⟨_, by rw [goDiv32, if_neg hs, wrap32_of_isInt h4], ?_, ?_⟩ <;> omega

/-- The angle computed from `yAbs`, before the final negation. -/
def core32 (ya x : Int) : Option Int :=
  if x ≥ 0 then (goDiv32 (wrap32 (4096 * wrap32 (x - ya))) (wrap32 (x + ya))).map fun q => wrap32 (4096 - q)
  else (goDiv32 (wrap32 (4096 * wrap32 (x + ya))) (wrap32 (ya - x))).map fun q => wrap32 (12288 - q)

theorem fast_eq32 (y x : Int) (h0 : ¬ (x = 0 ∧ y = 0)) : fastAtan2Fixed32 y x
    = (core32 (if y < 0 then wrap32 (-y) else y) x).map fun a => if y < 0 then wrap32 (-a) else a := by
  unfold fastAtan2Fixed32 core32
  rw [if_neg h0]

theorem core_range32 (ya x : Int) (hya : IsInt32 ya) (hx : IsInt32 x) (h0 : ¬ (x = 0 ∧ ya = 0))
    (hm : 0 ≤ ya ∨ (ya = minInt32 ∧ x ≠ minInt32)) :
    ∃ a, core32 ya x = some a ∧ 0 ≤ a ∧ a ≤ 16384 := by
  unfold IsInt32 minInt32 at *
  unfold core32
  by_cases hx0 : x ≥ 0
  · rw [if_pos hx0]
    obtain ⟨q, hq, h1, h2⟩ := quot_bound32 (d := wrap32 (x - ya)) (s := wrap32 (x + ya)) (by
      unfold wrap32; omega) (by unfold wrap32; omega)
    rw [hq]
    refine ⟨_, rfl, ?_, ?_⟩ <;> dsimp only [wrap32] <;> omega
  · rw [if_neg hx0]
    obtain ⟨q, hq, h1, h2⟩ := quot_bound32 (d := wrap32 (x + ya)) (s := wrap32 (ya - x)) (by
      unfold wrap32; omega) (by unfold wrap32; omega)
    rw [hq]
    refine ⟨_, rfl, ?_, ?_⟩ <;> dsimp only [wrap32] <;> omega

/-- C102: with 32-bit `int`, `FastAtan2Fixed` panics exactly at `y = x = -2^31`, and every result lies in `[-2^14, 2^14]`, also
where intermediate results overflow. -/
theorem C102_fast_range (y x : Int) (hy : IsInt32 y) (hx : IsInt32 x) :
    (fastAtan2Fixed32 y x = none ↔ y = minInt32 ∧ x = minInt32) ∧
      ∀ v, fastAtan2Fixed32 y x = some v → -16384 ≤ v ∧ v ≤ 16384 := by
  by_cases h0 : x = 0 ∧ y = 0
  · obtain ⟨rfl, rfl⟩ := h0
    constructor
    · simp [fastAtan2Fixed32, minInt32]
    · intro v hv; simp [fastAtan2Fixed32] at hv; omega
  rw [fast_eq32 y x h0]
  by_cases hp : y = minInt32 ∧ x = minInt32
  · obtain ⟨rfl, rfl⟩ := hp
    have : core32 (if minInt32 < 0 then wrap32 (-minInt32) else minInt32) minInt32 = none := by decide
    rw [this]; simp
  · obtain ⟨a, ha, h1, h2⟩ := core_range32 (if y < 0 then wrap32 (-y) else y) x
      (by split; exact wrap32_isInt _; exact hy) hx
      (by unfold IsInt32 wrap32 at *; split <;> omega)
      (by unfold IsInt32 wrap32 minInt32 at *; split <;> omega)
    rw [ha]
    refine ⟨by simp [hp], fun v hv => ?_⟩
    simp only [Option.map_some, Option.some.injEq] at hv
    unfold wrap32 at hv
    split at hv <;> omega

theorem goDiv32_isInt (a b : Int) (hb : b ≠ 0) : ∃ t, goDiv32 a b = some t ∧ t = wrap32 (Int.tdiv a b) ∧ IsInt32 t :=
  ⟨_, by rw [goDiv32, if_neg hb], rfl, wrap32_isInt _⟩

/-- C102: with 32-bit `int`, `Atan2LUT` panics iff `256·y` wraps around to `-2^31` and `x = ±1`; otherwise the result is in
`[-2^14, 2^14]`. -/
theorem C102_lut_range (lut : Nat → Int) (hl : GoodLUT lut) (y x : Int) (hx : IsInt32 x) :
    (atan2LUT32 lut y x = none ↔ wrap32 (y * 256) = minInt32 ∧ (x = 1 ∨ x = -1)) ∧
      ∀ v, atan2LUT32 lut y x = some v → -16384 ≤ v ∧ v ≤ 16384 := by
  unfold atan2LUT32
  by_cases h0 : x = 0
  · rw [if_pos h0]
    refine ⟨⟨fun h => ?_, fun h => by omega⟩, fun v hv => ?_⟩
    · split at h
      · simp at h
      · split at h <;> simp at h
    · split at hv
      · simp at hv; omega
      · split at hv <;> simp at hv <;> omega
  rw [if_neg h0]
  obtain ⟨t, ht, ht2, hti⟩ := goDiv32_isInt (wrap32 (y * 256)) x h0
  rw [ht, Option.bind_some]
  have hwi := wrap32_isInt (y * 256)
  have hmin : t = minInt32 ↔ wrap32 (y * 256) = minInt32 ∧ (x = 1 ∨ x = -1) := by
    constructor
    · intro h
      by_cases hx2 : 2 ≤ x.natAbs
      · have := tdiv_half (a := wrap32 (y * 256)) hx2
        unfold IsInt32 minInt32 wrap32 at *
        omega
      · have : x = 1 ∨ x = -1 := by omega
        refine ⟨?_, this⟩
        rcases this with rfl | rfl
        · rw [Int.tdiv_one] at ht2; rw [wrap32_of_isInt hwi] at ht2; omega
        · rw [Int.tdiv_neg, Int.tdiv_one] at ht2
          unfold IsInt32 minInt32 wrap32 at *
          omega
    · rintro ⟨h, rfl | rfl⟩ <;> rw [ht2, h] <;> decide
  rw [← hmin]
  unfold IsInt32 minInt32 at *
  have inr : ∀ i : Int, 0 < i → i < 131072 → lutAt lut i = some (lut i.toNat) ∧ 0 ≤ lut i.toNat ∧ lut i.toNat ≤ 8193 := by
    intro i h1 h2
    refine ⟨by rw [lutAt, if_pos (by omega)], goodLUT_range hl (by omega) (by omega)⟩
  by_cases ht0 : t = 0
  · rw [if_pos ht0]
    refine ⟨⟨fun h => ?_, fun h => by omega⟩, fun v hv => ?_⟩
    · split at h
      · simp at h
      · split at h <;> simp at h
    · split at hv
      · simp at hv; omega
      · split at hv <;> simp at hv <;> omega
  rw [if_neg ht0]
  by_cases hbig : t ≥ 131072 ∨ wrap32 (-t) ≥ 131072
  · rw [if_pos hbig]
    refine ⟨⟨fun h => ?_, fun h => by unfold wrap32 at hbig; omega⟩, fun v hv => ?_⟩
    · split at h <;> simp at h
    · split at hv <;> simp at hv <;> omega
  rw [if_neg hbig]
  by_cases htp : t > 0
  · rw [if_pos htp]
    obtain ⟨e, b1, b2⟩ := inr t htp (by omega)
    rw [e]
    refine ⟨⟨fun h => ?_, fun h => by omega⟩, fun v hv => ?_⟩
    · split at h <;> simp at h
    · split at hv <;> simp at hv <;> unfold wrap32 at * <;> omega
  · rw [if_neg htp]
    by_cases htm : t = -2147483648
    · subst htm
      have : lutAt lut (wrap32 (- -2147483648)) = none := by rw [lutAt, if_neg (by decide)]
      rw [this]
      refine ⟨⟨fun _ => rfl, fun _ => by split <;> rfl⟩, fun v hv => ?_⟩
      split at hv <;> simp at hv
    · obtain ⟨e, b1, b2⟩ := inr (wrap32 (-t)) (by unfold wrap32 at *; omega) (by omega)
      rw [e]
      refine ⟨⟨fun h => ?_, fun h => by omega⟩, fun v hv => ?_⟩
      · split at h <;> simp at h
      · generalize lut (wrap32 (-t)).toNat = w at *
        split at hv <;> simp at hv <;> unfold wrap32 at hv <;> omega


/-! ## Where nothing overflows, the width does not matter -/

theorem core_agrees (ya x : Int) (hya : 0 ≤ ya) (h0 : ¬ (x = 0 ∧ ya = 0)) (hb : x.natAbs + ya.natAbs < 524288) :
    core32 ya x = core ya x := by
  have key : ∀ c d s : Int, (c = 4096 ∨ c = 12288) → 0 < s → s < 524288 → d.natAbs ≤ s.natAbs →
      (goDiv32 (wrap32 (4096 * wrap32 d)) (wrap32 s)).map (fun q => wrap32 (c - q))
        = (goDiv (wrap (4096 * wrap d)) (wrap s)).map fun q => wrap (c - q) := by
    intro c d s hc hs hs2 hd
    have e1 : wrap32 d = d := wrap32_of_isInt (by unfold IsInt32; omega)
    have e2 : wrap32 s = s := wrap32_of_isInt (by unfold IsInt32; omega)
    have e3 : wrap32 (4096 * d) = 4096 * d := wrap32_of_isInt (by unfold IsInt32; omega)
    have f1 : wrap d = d := wrap_of_isInt (by unfold IsInt; omega)
    have f2 : wrap s = s := wrap_of_isInt (by unfold IsInt; omega)
    have f3 : wrap (4096 * d) = 4096 * d := wrap_of_isInt (by unfold IsInt; omega)
    have hb2 := tdiv_abs_le (a := 4096 * d) (b := s) (c := 4096) (by omega)
    rw [e1, e2, e3, f1, f2, f3, goDiv32, goDiv, if_neg (by omega), if_neg (by omega)]
    generalize Int.tdiv (4096 * d) s = q at *
    rw [wrap32_of_isInt (by unfold IsInt32; omega), wrap_of_isInt (by unfold IsInt; omega), Option.map_some, Option.map_some,
      wrap32_of_isInt (by unfold IsInt32; omega), wrap_of_isInt (by unfold IsInt; omega)]
  unfold core32 core
  by_cases hx : x ≥ 0
  · rw [if_pos hx, if_pos hx]
    exact key _ _ _ (Or.inl rfl) (by omega) (by omega) (by omega)
  · rw [if_neg hx, if_neg hx]
    exact key _ _ _ (Or.inr rfl) (by omega) (by omega) (by omega)

/-- C102: for |x| + |y| < 2^19 the results of `FastAtan2Fixed` are the same for both widths. -/
theorem C102_fast_agrees (y x : Int) (hb : x.natAbs + y.natAbs < 524288) : fastAtan2Fixed32 y x = fastAtan2Fixed y x := by
  by_cases h0 : x = 0 ∧ y = 0
  · unfold fastAtan2Fixed32 fastAtan2Fixed
    rw [if_pos h0, if_pos h0]
  rw [fast_eq32 y x h0, fast_eq y x h0]
  have ey : (if y < 0 then wrap32 (-y) else y) = y.natAbs := by unfold wrap32; split <;> omega
  have ey' : (if y < 0 then wrap (-y) else y) = y.natAbs := by unfold wrap; split <;> omega
  rw [ey, ey', core_agrees _ x (by omega) (by omega) (by omega)]
  obtain ⟨a, ha, r1, r2⟩ := core_range y.natAbs x (by unfold IsInt; omega) (by unfold IsInt; omega) (by omega) (by omega)
  rw [ha, Option.map_some, Option.map_some, wrap32_of_isInt (by unfold IsInt32; omega), wrap_of_isInt (by unfold IsInt; omega)]

/-- C102: the error of `FastAtan2Fixed` with 32-bit `int`, below 2^19. -/
theorem C102_fast_error (y x : Int) (h0 : ¬ (x = 0 ∧ y = 0)) (hb : x.natAbs + y.natAbs < 524288) :
    ∃ v : Int, fastAtan2Fixed32 y x = some v ∧ |(v : ℝ) * π / 16384 - Complex.arg ⟨x, y⟩| ≤ 0.08 := by
  rw [C102_fast_agrees y x hb]
  exact C31_error y x h0 (by omega)

/-- The bound of C102 is sharp: at `x = 2^19, y = 0` the product wraps around and the result is off by a quarter of a turn. -/
theorem C102_violated_fast : IsInt32 524288 ∧
    fastAtan2Fixed32 0 524288 = some 8192 ∧ Complex.arg ⟨(524288 : ℝ), 0⟩ = 0 := by
  refine ⟨by unfold IsInt32; omega, by decide, ?_⟩
  have h := angle_right (x := 524288) (y := 0) (by norm_num)
  rw [zero_div, arctan_zero] at h
  exact h

/-- C102: for |y| < 2^23 the results of `Atan2LUT` are the same for both widths, for every table it can read. -/
theorem C102_lut_agrees (lut : Nat → Int) (hl : GoodLUT lut) (y x : Int) (hy : y.natAbs < 8388608) :
    atan2LUT32 lut y x = atan2LUT lut y x := by
  unfold atan2LUT32 atan2LUT
  by_cases hx : x = 0
  · rw [if_pos hx, if_pos hx]
  have w1 : wrap32 (y * 256) = y * 256 := wrap32_of_isInt (by unfold IsInt32; omega)
  have w1' : wrap (y * 256) = y * 256 := wrap_of_isInt (by unfold IsInt; omega)
  have hle : (Int.tdiv (y * 256) x).natAbs ≤ (y * 256).natAbs := by
    rw [Int.natAbs_tdiv]; exact Nat.div_le_self _ _
  have w2 : wrap32 (Int.tdiv (y * 256) x) = Int.tdiv (y * 256) x := wrap32_of_isInt (by unfold IsInt32; omega)
  have w2' : wrap (Int.tdiv (y * 256) x) = Int.tdiv (y * 256) x := wrap_of_isInt (by unfold IsInt; omega)
  rw [if_neg hx, if_neg hx, w1, w1', goDiv32, goDiv, if_neg hx, if_neg hx, w2, w2', Option.bind_some, Option.bind_some]
  generalize Int.tdiv (y * 256) x = t at *
  have w3 : wrap32 (-t) = -t := wrap32_of_isInt (by unfold IsInt32; omega)
  have w3' : wrap (-t) = -t := wrap_of_isInt (by unfold IsInt; omega)
  rw [w3, w3']
  by_cases h0 : t = 0
  · rw [if_pos h0, if_pos h0]
  rw [if_neg h0, if_neg h0]
  by_cases hb : t ≥ 131072 ∨ -t ≥ 131072
  · rw [if_pos hb, if_pos hb]
  rw [if_neg hb, if_neg hb]
  by_cases hp : t > 0
  · have e : lutAt lut t = some (lut t.toNat) := by rw [lutAt, if_pos (by omega)]
    have hr := goodLUT_range hl (i := t.toNat) (by omega) (by omega)
    rw [if_pos hp, if_pos hp, e]
    simp only [Option.map_some, wrap32, wrap]
    split
    · rfl
    · congr 1; omega
  · have e : lutAt lut (-t) = some (lut (-t).toNat) := by rw [lutAt, if_pos (by omega)]
    have hr := goodLUT_range hl (i := (-t).toNat) (by omega) (by omega)
    rw [if_neg hp, if_neg hp, e]
    simp only [Option.map_some, wrap32, wrap]
    split <;> (congr 1; omega)

/-- C102: the error of `Atan2LUT` with 32-bit `int`, for |y| < 2^23. -/
theorem C102_lut_error (lut : Nat → Int) (hl : GoodLUT lut) (y x : Int) (h0 : ¬ (x = 0 ∧ y = 0)) (hy : y.natAbs < 8388608) :
    ∃ v, atan2LUT32 lut y x = some v ∧ |(v : ℝ) * π / 16384 - Complex.arg ⟨x, y⟩| ≤ 0.005 := by
  rw [C102_lut_agrees lut hl y x hy]
  exact C32_error lut hl y x h0 (by omega)

/-- The bound is sharp: from `y = 2^23` the shifted value wraps around.  `Atan2LUT` panics at `x = 1`, and on the diagonal the
result is off by a quarter of a turn, whatever the table holds for the diagonal. -/
theorem C102_violated_lut (lut : Nat → Int) (hl : GoodLUT lut) : IsInt32 8388608 ∧ atan2LUT32 lut 8388608 1 = none ∧
    ∃ v : Int, atan2LUT32 lut 8388608 8388608 = some v ∧ 12286 ≤ v ∧ Complex.arg ⟨(8388608 : ℝ), 8388608⟩ = π / 4 := by
  refine ⟨by unfold IsInt32; omega, (C102_lut_range lut hl 8388608 1 (by unfold IsInt32; omega)).1.2 ⟨by decide, Or.inl rfl⟩, ?_⟩
  have hg := hl 256 (by norm_num)
  have e1 : arctan (((256 : Nat) : ℝ) / 256) = π / 4 := by
    rw [show (((256 : Nat) : ℝ) / 256) = 1 by norm_num, arctan_one]
  rw [e1, show π / 4 / π * 16384 = 4096 by field_simp; norm_num, abs_le] at hg
  have b1 : lut 256 < 4098 := by
    have : (lut 256 : ℝ) < ((4098 : Int) : ℝ) := by push_cast; linarith [hg.2]
    exact_mod_cast this
  have b0 : 4094 < lut 256 := by
    have : (((4094 : Int)) : ℝ) < (lut 256 : ℝ) := by push_cast; linarith [hg.1]
    exact_mod_cast this
  refine ⟨16384 - lut 256, ?_, by omega, ?_⟩
  · have e : goDiv32 (wrap32 (8388608 * 256)) 8388608 = some (-256) := by decide
    unfold atan2LUT32
    rw [if_neg (by decide), e, Option.bind_some, if_neg (by decide), if_neg (by decide), if_neg (by decide), if_pos (by decide)]
    have : lutAt lut (wrap32 (- -256)) = some (lut 256) := by rw [lutAt, if_pos (by decide)]; rfl
    rw [this, Option.map_some]
    unfold wrap32
    congr 1
    omega
  · have h := angle_right (x := 8388608) (y := 8388608) (by norm_num)
    rw [div_self (by norm_num), arctan_one] at h
    exact h

/-- Values with 32-bit `int`, and inputs where the products overflow. -/
example : fastAtan2Fixed32 3 4 = some 3511 ∧ fastAtan2Fixed32 (-3) (-4) = some (-12873) ∧ IsInt32 2147483647 ∧
    fastAtan2Fixed32 2147483647 (-2147483647) = some 12288 ∧ fastAtan2Fixed32 minInt32 minInt32 = none := by
  refine ⟨by decide, by decide, by unfold IsInt32; omega, by decide, by decide⟩

/-- The hypotheses of `C102_lut_error`. -/
example : GoodLUT exactLUT ∧ ¬ ((3 : Int) = 0 ∧ (-7 : Int) = 0) ∧ (-7 : Int).natAbs < 8388608 :=
  ⟨exactLUT_good, by decide, by decide⟩

end Verif.Angle
