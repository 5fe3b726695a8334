import Verif.Interp.InterpFpModel
import Verif.Interp.InterpProps
import Mathlib.Data.Rat.Cast.Order

/-!
# Property C100: the interpolators with rounding

For data of any format, on any platform (with or without fused operations), at any finite position, the interpolators
return what they return in exact arithmetic (properties C53, C54, C73), up to a small multiple of the unit roundoff times
the largest sample.
-/

namespace Verif.Interp
open Verif.Fp Verif.Angle Verif.Filt Expr

variable {φ : Format}

/-- The exact values of samples. -/
noncomputable def exactly (s : List (FVal φ)) : List ℝ := s.map fun v : FVal φ => val v

/-- A finite datum of the format. -/
structure Datum (φ : Format) (v : FVal φ) : Prop where
  fin : Finite v
  grid : Grid φ (Val.toRat v)
  range : |Val.toRat v| < 2 ^ (φ.emax + 1)

/-- A floor function of the format. -/
def Floor (φ : Format) (flo : FVal φ → FVal φ) : Prop := ∀ x : FVal φ, Datum φ x → Is (flo x) ⌊Val.toRat x⌋

/-! ## The floor and the fraction -/

theorem is_floorV {v : Val} {x : ℚ} (h : Is v x) : Is (floorV v) ⌊x⌋ := by
  obtain ⟨⟨s, q, rfl, hq⟩, hx⟩ := h
  cases s with
  | false =>
    have e : q = x := hx
    subst e
    exact ⟨⟨_, _, rfl, by exact_mod_cast Int.floor_nonneg.2 hq⟩, rfl⟩
  | true =>
    have e : -q = x := hx
    subst e
    refine ⟨⟨_, _, rfl, by exact_mod_cast Int.ceil_nonneg hq⟩, ?_⟩
    show -((⌈q⌉ : ℤ) : ℚ) = _
    rw [Int.floor_neg]
    push_cast
    rfl

theorem floor_abs_le {x : ℚ} {m : ℕ} {e : ℤ} (he : e < 0) (h : |x| = m * (2 : ℚ) ^ e) : |⌊x⌋| ≤ m := by
  have h2 : (2 : ℚ) ^ e ≤ 1 / 2 := by
    have : (2 : ℚ) ^ e ≤ 2 ^ (-1 : ℤ) := zpow_le_zpow_right₀ (by norm_num) (by omega)
    rw [zpow_neg_one] at this
    linarith
  have hx : |x| ≤ m / 2 := by
    rw [h]
    have := mul_le_mul_of_nonneg_left h2 (Nat.cast_nonneg (α := ℚ) m)
    linarith
  obtain ⟨x1, x2⟩ := abs_le.1 hx
  have f1 := Int.floor_le x
  have f2 := Int.lt_floor_add_one x
  have u : (⌊x⌋ : ℚ) ≤ m := by linarith [Nat.cast_nonneg (α := ℚ) m]
  have l : (-(m : ℚ)) - 1 < ⌊x⌋ ∨ m = 0 := by
    rcases Nat.eq_zero_or_pos m with h0 | h0
    · exact Or.inr h0
    · left
      have : (1 : ℚ) ≤ m := by exact_mod_cast h0
      linarith
  rcases l with l | l
  · have l' : -(m : ℤ) - 1 < ⌊x⌋ := by exact_mod_cast l
    have u' : ⌊x⌋ ≤ m := by exact_mod_cast u
    rw [abs_le]
    constructor <;> omega
  · subst l
    have : x = 0 := by
      have : |x| = 0 := by rw [h]; simp
      exact abs_eq_zero.1 this
    subst this
    simp

/-- The floor of a datum is a datum. -/
theorem grid_floor (h : φ.Ok) {x : ℚ} (hg : Grid φ x) : Grid φ (⌊x⌋ : ℚ) := by
  obtain ⟨m, e, h1, h2, h3⟩ := hg
  have hp := h.hp
  have hm := h.hmin
  rcases lt_or_ge e 0 with he | he
  · refine grid_small (by omega) ⌊x⌋ ?_
    have := floor_abs_le he h3
    have h1' : (m : ℤ) < 2 ^ φ.p := by exact_mod_cast h1
    omega
  · obtain ⟨k, rfl⟩ := Int.eq_ofNat_of_zero_le he
    have hz : ∃ z : ℤ, x = z := by
      rcases abs_choice x with hc | hc
      · exact ⟨m * 2 ^ k, by rw [hc] at h3; rw [h3]; push_cast; rw [zpow_natCast]⟩
      · exact ⟨-(m * 2 ^ k), by rw [hc] at h3; push_cast; rw [← zpow_natCast, ← h3, neg_neg]⟩
    obtain ⟨z, rfl⟩ := hz
    rw [Int.floor_intCast]
    exact ⟨m, _, h1, h2, h3⟩

/-- The fraction of a non-negative datum is a datum: the subtraction is exact. -/
theorem grid_fract {x : ℚ} (h0 : 0 ≤ x) (hg : Grid φ x) : Grid φ (x - ⌊x⌋) := by
  obtain ⟨m, e, h1, h2, h3⟩ := hg
  rw [abs_of_nonneg h0] at h3
  have f0 : 0 ≤ x - ⌊x⌋ := Int.fract_nonneg x
  rcases lt_or_ge e 0 with he | he
  · obtain ⟨k, hk⟩ := Int.eq_ofNat_of_zero_le (show 0 ≤ -e by omega)
    have e1 : (2 : ℚ) ^ k * 2 ^ e = 1 := by
      rw [← zpow_natCast, ← zpow_add₀ (by norm_num), ← hk, neg_add_cancel, zpow_zero]
    have hf0 : 0 ≤ ⌊x⌋ := Int.floor_nonneg.2 h0
    obtain ⟨n, hn⟩ := Int.eq_ofNat_of_zero_le hf0
    have e2 : x - ⌊x⌋ = ((m : ℤ) - n * 2 ^ k : ℤ) * (2 : ℚ) ^ e := by
      rw [hn, h3]
      push_cast
      rw [sub_mul, mul_assoc, e1, mul_one]
    have hp : (0 : ℚ) < 2 ^ e := by positivity
    have hpos : 0 ≤ (m : ℤ) - n * 2 ^ k := by
      rw [e2] at f0
      have := nonneg_of_mul_nonneg_left f0 hp
      exact_mod_cast this
    obtain ⟨d, hd⟩ := Int.eq_ofNat_of_zero_le hpos
    refine ⟨d, e, ?_, h2, ?_⟩
    · have : (0 : ℤ) ≤ n * 2 ^ k := by positivity
      have h1' : (m : ℤ) < 2 ^ φ.p := by exact_mod_cast h1
      have : (d : ℤ) < 2 ^ φ.p := by omega
      exact_mod_cast this
    · rw [abs_of_nonneg f0, e2, hd]
      push_cast
      rfl
  · obtain ⟨k, rfl⟩ := Int.eq_ofNat_of_zero_le he
    have : x = ((m * 2 ^ k : ℤ) : ℚ) := by rw [h3]; push_cast; rw [zpow_natCast]
    rw [this, Int.floor_intCast, sub_self]
    exact grid_zero φ

/-- C100: both floor functions of the source are the floor. -/
theorem C100_floor : Floor binary64 floor64 ∧ Floor binary32 floor32 := by
  refine ⟨fun x hx => is_floorV ⟨hx.fin, rfl⟩, fun x hx => ?_⟩
  have hr : |Val.toRat x| < 2 ^ (128 : ℤ) := hx.range
  have w := convert_rd (φ := binary64) (v := x) (x := Val.toRat x) ⟨hx.fin, rfl⟩ (by
    rw [rd_grid binary64 (by decide) (grid_mono hx.grid)]
    exact hr.trans (zpow_lt_zpow_right₀ (by norm_num) (by decide)))
  rw [rd_grid binary64 (by decide) (grid_mono hx.grid)] at w
  have f := is_floorV w
  have hgf := grid_floor binary32_ok hx.grid
  have hrd := rd_grid binary32 (by decide) hgf
  have hb : |(⌊Val.toRat x⌋ : ℚ)| ≤ |Val.toRat x| + 1 := by
    have f1 := Int.floor_le (Val.toRat x)
    have f2 := Int.lt_floor_add_one (Val.toRat x)
    have g1 := neg_abs_le (Val.toRat x)
    have g2 := le_abs_self (Val.toRat x)
    rw [abs_le]
    constructor <;> linarith
  -- the floor is a datum below 2^128 + 1, hence below 2^128
  have hlt : |(⌊Val.toRat x⌋ : ℚ)| < 2 ^ (128 : ℤ) := by
    obtain ⟨m, e, h1, h2, h3⟩ := hx.grid
    have h1' : m < 2 ^ 24 := h1
    rcases lt_or_ge e 0 with he | he
    · have := floor_abs_le he h3
      have h4 : |(⌊Val.toRat x⌋ : ℚ)| ≤ m := by exact_mod_cast this
      have h5 : (m : ℚ) < 2 ^ (24 : ℤ) := by exact_mod_cast h1'
      exact (h4.trans_lt h5).trans (zpow_lt_zpow_right₀ (by norm_num) (by norm_num))
    · obtain ⟨k, rfl⟩ := Int.eq_ofNat_of_zero_le he
      have hz : ∃ z : ℤ, Val.toRat x = z := by
        rcases abs_choice (Val.toRat x) with hc | hc
        · exact ⟨m * 2 ^ k, by rw [hc] at h3; rw [h3]; push_cast; rw [zpow_natCast]⟩
        · exact ⟨-(m * 2 ^ k), by rw [hc] at h3; push_cast; rw [← zpow_natCast, ← h3, neg_neg]⟩
      obtain ⟨z, hz⟩ := hz
      rw [hz, Int.floor_intCast, ← hz]
      exact hr
  have c := convert_rd (φ := binary32) f (by rw [hrd]; exact hlt)
  rw [hrd] at c
  exact c

/-- The fraction, as computed. -/
theorem fract_sca {X : ℝ} (h : Scale φ X) {flo : FVal φ → FVal φ} (hf : Floor φ flo) {x : FVal φ} (hx : Datum φ x) :
    (Sca (.leaf (x - flo x)) (Int.fract (val x)) 1 2) ∧ 0 ≤ val (x - flo x : FVal φ) ∧
      (0 ≤ val x → val (x - flo x : FVal φ) = Int.fract (val x) ∧ Sca (.leaf (x - flo x)) (Int.fract (val x)) 1 0) := by
  have hu := uR_pos φ
  set q := Val.toRat x with hq
  have f0 : 0 ≤ q - ⌊q⌋ := Int.fract_nonneg q
  have f1 : q - ⌊q⌋ < 1 := Int.fract_lt_one q
  have g1 : Grid φ 1 := by
    have := grid_pow φ (by have := h.ok.hp; omega) 0 (by have := h.ok.hmin; have := h.ok.hp; omega)
    rwa [zpow_zero] at this
  have hp1 : 1 ≤ φ.p := by have := h.ok.hp; omega
  have r0 := rd_nonneg φ f0
  have r1 := rd_le φ hp1 g1 f1.le
  have hi := sub_rd φ (v := x) (w := flo x) ⟨hx.fin, rfl⟩ (hf x hx) (by
    rw [← hq, abs_of_nonneg r0]
    refine r1.trans_lt ?_
    have : (2 : ℚ) ^ (0 : ℤ) < 2 ^ (φ.emax + 1) := zpow_lt_zpow_right₀ (by norm_num) (by have := h.ok.hmax; omega)
    rwa [zpow_zero] at this)
  rw [← hq] at hi
  have hv : val (x - flo x : FVal φ) = ((rd φ (q - ⌊q⌋) : ℚ) : ℝ) := val_of_is hi
  have hfr : Int.fract (val x) = ((q - ⌊q⌋ : ℚ) : ℝ) := by
    unfold Int.fract val
    rw [Rat.floor_cast]
    push_cast
    rfl
  have f0' : (0 : ℝ) ≤ Int.fract (val x) := Int.fract_nonneg _
  have f1' : Int.fract (val x) < 1 := Int.fract_lt_one _
  have r0' : (0 : ℝ) ≤ ((rd φ (q - ⌊q⌋) : ℚ) : ℝ) := by exact_mod_cast r0
  have r1' : ((rd φ (q - ⌊q⌋) : ℚ) : ℝ) ≤ 1 := by exact_mod_cast r1
  refine ⟨⟨.leaf hi.1 ?_ ?_ ?_, by norm_num, by norm_num⟩, by rw [hv]; exact r0', fun h0 => ?_⟩
  · rw [hv, hfr]
    obtain ⟨-, h2⟩ := rd_real h.ok (x := q - ⌊q⌋) (by
      rw [← hfr, abs_of_nonneg f0']
      linarith [h.top1])
    refine h2.trans ?_
    rw [← hfr, abs_of_nonneg f0']
    have h3 := mul_le_mul_of_nonneg_left f1'.le hu.le
    have h4 := h.w1
    have h5 : uR φ / 2 ^ 24 ≤ uR φ := div_le_self hu.le (by norm_num)
    linarith
  · rw [hv, abs_of_nonneg r0']
    exact r1'
  · rw [abs_of_nonneg f0']
    exact f1'.le
  · have hq0 : 0 ≤ q := by unfold val at h0; exact_mod_cast h0
    have e : val (x - flo x : FVal φ) = Int.fract (val x) := by
      rw [hv, hfr, rd_grid φ hp1 (grid_fract hq0 hx.grid)]
    refine ⟨e, ⟨.leaf hi.1 ?_ ?_ ?_, by norm_num, by norm_num⟩⟩
    · rw [e, sub_self, abs_zero, zero_mul]
    · rw [e, abs_of_nonneg f0']; exact f1'.le
    · rw [abs_of_nonneg f0']; exact f1'.le

/-! ## Indices and taps -/

theorem intV_eq {v : Val} (h : Finite v) : intV v = goInt (val v) := by
  obtain ⟨s, q, rfl, hq⟩ := h
  have e : trunc (val (.fin s q)) = if s then -⌊q⌋ else ⌊q⌋ := by
    rw [val_fin]
    cases s with
    | false =>
      simp only [Bool.false_eq_true, if_false]
      rw [trunc, if_pos (by exact_mod_cast hq), Rat.floor_cast]
    | true =>
      simp only [if_true]
      rcases hq.eq_or_lt with h0 | h0
      · rw [← h0]
        simp [trunc]
      · rw [trunc, if_neg (not_le.2 (neg_lt_zero.2 (by exact_mod_cast h0))), Int.ceil_neg, Rat.floor_cast]
  unfold goInt
  rw [e]
  rfl

theorem intV_floor {flo : FVal φ → FVal φ} (hf : Floor φ flo) {x : FVal φ} (hx : Datum φ x) :
    intV (flo x) = goInt ((⌊val x⌋ : ℤ) : ℝ) := by
  have h := hf x hx
  rw [intV_eq h.1, val_of_is h]
  unfold val
  rw [Rat.floor_cast]
  push_cast
  rfl

theorem indexV_eq (s : List (FVal φ)) (j : Int) : index (exactly s) j = (indexV s j).map fun v : FVal φ => val v := by
  unfold index indexV exactly
  split
  · rw [List.getElem?_map]
  · rfl

theorem val_zero : val (0 : FVal φ) = 0 := by
  show val (Val.fin false 0) = 0
  rw [val_fin]
  simp

theorem exactly_length (s : List (FVal φ)) : (exactly s).length = s.length := List.length_map _

theorem highV_eq (s : List (FVal φ)) (j : Int) : highValue (exactly s) j = (highV s j).map fun v : FVal φ => val v := by
  unfold highValue highV
  simp only
  rw [exactly_length]
  split
  · simp [val_zero]
  · exact indexV_eq s _

theorem tapV_eq (s : List (FVal φ)) (xi i : Int) : tap (exactly s) xi i = val (tapV s xi i) := by
  unfold tap tapV
  simp only
  rw [exactly_length]
  split
  · unfold exactly
    rw [List.getD_eq_getElem?_getD, List.getD_eq_getElem?_getD, List.getElem?_map]
    cases s[(wrap (xi + i)).toNat]? with
    | none => exact val_zero.symm
    | some v => rfl
  · exact val_zero.symm

/-- Samples that are finite and at most `X`. -/
def Bounded (X : ℝ) (s : List (FVal φ)) : Prop := ∀ v ∈ s, Finite v ∧ |val v| ≤ X

theorem finite_zero : Finite (0 : FVal φ) := ⟨false, 0, rfl, le_rfl⟩

theorem bounded_index {X : ℝ} {s : List (FVal φ)} (hs : Bounded X s) {j : Int} {v : FVal φ} (h : indexV s j = some v) :
    Finite v ∧ |val v| ≤ X := by
  unfold indexV at h
  split at h
  · exact hs v (List.mem_of_getElem? h)
  · cases h

theorem bounded_high {X : ℝ} (hX : 0 ≤ X) {s : List (FVal φ)} (hs : Bounded X s) {j : Int} {v : FVal φ}
    (h : highV s j = some v) : Finite v ∧ |val v| ≤ X := by
  unfold highV at h
  simp only at h
  split at h
  · cases h
    exact ⟨finite_zero, by rw [val_zero, abs_zero]; exact hX⟩
  · exact bounded_index hs h

theorem bounded_tap {X : ℝ} (hX : 0 ≤ X) {s : List (FVal φ)} (hs : Bounded X s) (xi i : Int) :
    Finite (tapV s xi i) ∧ |val (tapV s xi i)| ≤ X := by
  have hz : Finite (0 : FVal φ) ∧ |val (0 : FVal φ)| ≤ X := ⟨finite_zero, by rw [val_zero, abs_zero]; exact hX⟩
  unfold tapV
  simp only
  split
  · rw [List.getD_eq_getElem?_getD]
    cases hc : s[(wrap (xi + i)).toNat]? with
    | none => exact hz
    | some v => exact hs v (List.mem_of_getElem? hc)
  · exact hz

/-! ## The error bounds -/

/-- What a platform may return. -/
def Returns (r : Option (Expr φ)) (v : FVal φ) : Prop := ∃ e, r = some e ∧ Eval e v

theorem line_bound {X : ℝ} (h : Scale φ X) {a t b : FVal φ} {T : ℝ} (h0 : Vec X (.leaf a) (val a) 1 0)
    (ht : Sca (.leaf t) T 1 0) (h1 : Vec X (.leaf b) (val b) 1 0) :
    Vec X (lineBody (.leaf a) (.leaf t) (.leaf b)) (val a + T * (val b - val a)) 4 11 := by
  have d1 := Vec.sub h h1 h0 (by norm_num) (20001 / 10000) 3 (by norm_num) (by norm_num)
  have d2 := Vec.mul' h ht d1 (by norm_num) (10001 / 5000) (60001 / 10000) (by norm_num) (by norm_num)
  have d3 := Vec.add h h0 d2 (by norm_num) (30003 / 10000) (100003 / 10000) (by norm_num) (by norm_num)
  exact ⟨d3.1.mono (mul_le_mul_of_nonneg_right (by norm_num) h.pos.le)
    (mul_le_mul_of_nonneg_right (by norm_num) (mul_nonneg (uR_pos φ).le h.pos.le)), by norm_num, by norm_num⟩

/-- C100: linear interpolation.  Where exact arithmetic panics the code panics, and elsewhere every value a platform may
return is within `11 u X` of the exact one. -/
theorem C100_line {X : ℝ} (h : Scale φ X) (flo : FVal φ → FVal φ) (hf : Floor φ flo) (s : List (FVal φ)) (hs : Bounded X s)
    (x : FVal φ) (hx : Datum φ x) :
    match linear (exactly s) (val x) with
    | none => line flo s x = none
    | some r => line flo s x ≠ none ∧ ∀ v, Returns (line flo s x) v → Finite v ∧ |val v - r| ≤ 11 * uR φ * X := by
  have hX := h.pos
  unfold linear line
  simp only
  rw [exactly_length, intV_floor hf hx, indexV_eq, highV_eq]
  by_cases hlt : goInt ((⌊val x⌋ : ℤ) : ℝ) < s.length
  · rw [if_pos hlt, if_pos hlt]
    cases ha : indexV s (goInt ((⌊val x⌋ : ℤ) : ℝ)) with
    | none => simp
    | some a =>
      cases hb : highV s (goInt ((⌊val x⌋ : ℤ) : ℝ)) with
      | none => simp
      | some b =>
        simp only [Option.map_some, Option.bind_eq_bind, Option.bind_some]
        obtain ⟨a1, a2⟩ := bounded_index hs ha
        obtain ⟨b1, b2⟩ := bounded_high hX.le hs hb
        -- a negative position would have a negative index
        have h0 : 0 ≤ val x := by
          by_contra hn
          have := goInt_floor_neg (not_le.1 hn)
          unfold indexV at ha
          rw [if_neg (by omega)] at ha
          cases ha
        obtain ⟨-, -, t2⟩ := fract_sca h hf hx
        have hv := line_bound h (.leaf a1 a2) (t2 h0).2 (.leaf b1 b2)
        refine ⟨by simp, ?_⟩
        rintro v ⟨e, he, hev⟩
        cases he
        obtain ⟨v1, v2, -⟩ := hv.eval h hev
        exact ⟨v1, v2⟩
  · rw [if_neg hlt, if_neg hlt]
    refine ⟨by simp, ?_⟩
    rintro v ⟨e, he, hev⟩
    cases he
    cases hev
    refine ⟨finite_zero, ?_⟩
    rw [val_zero, sub_zero, abs_zero]
    have := uR_pos φ
    positivity

theorem lt_val {a b : Val} (ha : Finite a) (hb : Finite b) : Fp.lt a b ↔ val a < val b := by
  obtain ⟨s, q, rfl, -⟩ := ha
  obtain ⟨t, r, rfl, -⟩ := hb
  unfold val
  rw [Rat.cast_lt]
  rfl

theorem ltV_val {a b : Val} (ha : Finite a) (hb : Finite b) : ltV a b = true ↔ val a < val b := by
  unfold ltV
  rw [decide_eq_true_iff]
  exact lt_val ha hb

theorem max32_val : Finite max32 ∧ val max32 = maxFloat32 := by
  have e : (show Val from max32) = Val.fin false ((2 ^ 24 - 1) * 2 ^ 104) := by decide +kernel
  change Finite (show Val from max32) ∧ val (show Val from max32) = maxFloat32
  rw [e]
  refine ⟨⟨_, _, rfl, by norm_num⟩, ?_⟩
  rw [val_fin]
  simp only [Bool.false_eq_true, if_false]
  unfold maxFloat32
  push_cast
  rfl

/-- C100: `Linear` in double precision. -/
theorem C100_linear64 {X : ℝ} (h : Scale binary64 X) (s : List (FVal binary64)) (hs : Bounded X s) (x : FVal binary64)
    (hx : Datum binary64 x) :
    match linear (exactly s) (val x) with
    | none => linear64 s x = none
    | some r => linear64 s x ≠ none ∧
        ∀ v, Returns (linear64 s x) v → Finite v ∧ |val v - r| ≤ 11 * uR binary64 * X :=
  C100_line h floor64 C100_floor.1 s hs x hx

/-- C100: `LinearF32`. -/
theorem C100_linear32 {X : ℝ} (h : Scale binary32 X) (s : List (FVal binary32)) (hs : Bounded X s) (x : FVal binary32)
    (hx : Datum binary32 x) :
    match linearF32 (exactly s) (val x) with
    | none => linear32 s x = none
    | some r => linear32 s x ≠ none ∧
        ∀ v, Returns (linear32 s x) v → Finite v ∧ |val v - r| ≤ 11 * uR binary32 * X := by
  have hX := h.pos
  have hz : ltV x (0 : FVal binary32) = true ↔ val x < 0 := by
    have := ltV_val hx.fin (finite_zero (φ := binary32))
    rwa [val_zero] at this
  have hm : ltV max32 x = true ↔ maxFloat32 < val x := by
    have := ltV_val max32_val.1 hx.fin
    rwa [max32_val.2] at this
  unfold linear32
  by_cases hc : val x < 0 ∨ val x > maxFloat32
  · have hb : (ltV x (0 : FVal binary32) || ltV max32 x) = true := by
      rw [Bool.or_eq_true]
      rcases hc with hc | hc
      · exact Or.inl (hz.2 hc)
      · exact Or.inr (hm.2 hc)
    unfold linearF32
    rw [if_pos hc, if_pos hb]
    refine ⟨by simp, ?_⟩
    rintro v ⟨e, he, hev⟩
    cases he
    cases hev
    refine ⟨finite_zero, ?_⟩
    rw [val_zero, sub_zero, abs_zero]
    have := uR_pos binary32
    positivity
  · have hb : ¬ (ltV x (0 : FVal binary32) || ltV max32 x) = true := by
      rw [Bool.or_eq_true, hz, hm]
      exact hc
    rw [if_neg hb]
    have := C100_line h floor32 C100_floor.2 s hs x hx
    unfold linearF32
    rw [if_neg hc]
    exact this

theorem hermite_body (s : List ℝ) (x : ℝ) :
    hermite s x = hermiteBody (fun q : ℚ => (q : ℝ)) (tap s (goInt x) (-1)) (tap s (goInt x) 0) (tap s (goInt x) 1)
      (tap s (goInt x) 2) (Int.fract x) := by
  unfold hermite hermiteBody Int.fract
  push_cast
  rfl

theorem hermite_bound {X : ℝ} (h : Scale φ X) {a b c d t : FVal φ} {T : ℝ} (h0 : Vec X (.leaf a) (val a) 1 0)
    (h1 : Vec X (.leaf b) (val b) 1 0) (h2 : Vec X (.leaf c) (val c) 1 0) (h3 : Vec X (.leaf d) (val d) 1 0)
    (ht : Sca (.leaf t) T 1 2) :
    Vec X (hermiteBody kE (.leaf a) (.leaf b) (.leaf c) (.leaf d) (.leaf t))
      (hermiteBody (fun q : ℚ => (q : ℝ)) (val a) (val b) (val c) (val d) T) 13 171 := by
  have k1 := Sca.const h (1 / 2) (1 / 2) (by norm_num [q17, q18, abs_le]) (by norm_num)
  have k2 := Sca.const h (5 / 2) (5 / 2) (by norm_num [q17, q18, abs_le]) (by norm_num)
  have k3 := Sca.const h (2) 2 (by norm_num [q17, q18, abs_le]) (by norm_num)
  have k4 := Sca.const h (3 / 2) (3 / 2) (by norm_num [q17, q18, abs_le]) (by norm_num)
  have a1 := Vec.sub h h2 h0 (by norm_num) (20001 / 10000) 3 (by norm_num) (by norm_num)
  have c1 := Vec.mul' h k1 a1 (by norm_num) (10001 / 10000) (22501 / 5000) (by norm_num) (by norm_num)
  have a2 := Vec.mul' h k2 h1 (by norm_num) (25001 / 10000) (60001 / 10000) (by norm_num) (by norm_num)
  have a3 := Vec.sub h h0 a2 (by norm_num) (17501 / 5000) (52501 / 5000) (by norm_num) (by norm_num)
  have a4 := Vec.mul' h k3 h2 (by norm_num) (20001 / 10000) (50001 / 10000) (by norm_num) (by norm_num)
  have a5 := Vec.add h a3 a4 (by norm_num) (13751 / 2500) (110003 / 5000) (by norm_num) (by norm_num)
  have a6 := Vec.mul' h k1 h3 (by norm_num) (5001 / 10000) (20001 / 10000) (by norm_num) (by norm_num)
  have c2 := Vec.sub h a5 a6 (by norm_num) (30003 / 5000) (77503 / 2500) (by norm_num) (by norm_num)
  have a7 := Vec.sub h h3 h0 (by norm_num) (20001 / 10000) 3 (by norm_num) (by norm_num)
  have a8 := Vec.mul' h k1 a7 (by norm_num) (10001 / 10000) (22501 / 5000) (by norm_num) (by norm_num)
  have a9 := Vec.sub h h1 h2 (by norm_num) (20001 / 10000) 3 (by norm_num) (by norm_num)
  have a10 := Vec.mul' h k4 a9 (by norm_num) (15001 / 5000) (28751 / 2500) (by norm_num) (by norm_num)
  have c3 := Vec.add h a8 a10 (by norm_num) (10001 / 2500) (210009 / 10000) (by norm_num) (by norm_num)
  have p1 := Vec.mul h c3 ht (by norm_num) (8001 / 2000) (340021 / 10000) (by norm_num) (by norm_num)
  have p2 := Vec.add h p1 c2 (by norm_num) (25003 / 2500) (190011 / 2500) (by norm_num) (by norm_num)
  have p3 := Vec.mul h p2 ht (by norm_num) (100013 / 10000) (13376 / 125) (by norm_num) (by norm_num)
  have p4 := Vec.add h p3 c1 (by norm_num) (22003 / 2000) (154387 / 1250) (by norm_num) (by norm_num)
  have p5 := Vec.mul h p4 ht (by norm_num) (6876 / 625) (1575141 / 10000) (by norm_num) (by norm_num)
  have p6 := Vec.add h p5 h1 (by norm_num) (120017 / 10000) (1705157 / 10000) (by norm_num) (by norm_num)
  exact ⟨p6.1.mono (mul_le_mul_of_nonneg_right (by norm_num) h.pos.le)
    (mul_le_mul_of_nonneg_right (by norm_num) (mul_nonneg (uR_pos φ).le h.pos.le)), by norm_num, by norm_num⟩

/-- C100: Hermite interpolation, at every finite position. -/
theorem C100_hermite {X : ℝ} (h : Scale φ X) (flo : FVal φ → FVal φ) (hf : Floor φ flo) (s : List (FVal φ))
    (hs : Bounded X s) (x : FVal φ) (hx : Datum φ x) (v : FVal φ) (hv : Eval (hermiteFp flo s x) v) :
    Finite v ∧ |val v - hermite (exactly s) (val x)| ≤ 171 * uR φ * X := by
  have tp := fun i => bounded_tap h.pos.le hs (intV x) i
  have lf := fun i => Vec.leaf (tp i).1 (tp i).2
  have := (hermite_bound h (lf (-1)) (lf 0) (lf 1) (lf 2) (fract_sca h hf hx).1).eval h hv
  rw [hermite_body, ← intV_eq hx.fin, tapV_eq, tapV_eq, tapV_eq, tapV_eq]
  exact ⟨this.1, this.2.1⟩

theorem z_sca {X : ℝ} (h : Scale φ X) {flo : FVal φ → FVal φ} (hf : Floor φ flo) {x : FVal φ} (hx : Datum φ x) :
    Sca (.leaf (zFp flo x)) (Int.fract (val x) - 1 / 2) (1 / 2) 3 := by
  have hu := uR_pos φ
  have hp1 : 1 ≤ φ.p := by have := h.ok.hp; omega
  obtain ⟨⟨t0, -, -⟩, t4, -⟩ := fract_sca h hf hx
  obtain ⟨t1, t2, t3⟩ := t0.leaf_inv
  have gh : Grid φ (1 / 2) := by
    have := grid_pow φ hp1 (-1) (by have := h.ok.hmin; have := h.ok.hp; omega)
    rwa [zpow_neg_one, ← one_div] at this
  have hk : Is (konst φ (1 / 2)) (1 / 2) := by
    obtain ⟨k0, -, -⟩ := Sca.const h (1 / 2) (1 / 2) (by norm_num [abs_le]) (by norm_num)
    obtain ⟨k1, -, -⟩ := k0.leaf_inv
    refine ⟨k1, ?_⟩
    have e : konst φ (1 / 2) = round φ false (1 / 2) := by
      show roundRat φ (1 / 2) = _
      unfold roundRat
      norm_num [abs_of_pos]
    have htop : (1 / 2 : ℚ) < 2 ^ (φ.emax + 1) := by
      have : (2 : ℚ) ^ (0 : ℤ) < 2 ^ (φ.emax + 1) := zpow_lt_zpow_right₀ (by norm_num) (by have := h.ok.hmax; omega)
      rw [zpow_zero] at this
      linarith
    have hr := round_rd φ false (q := 1 / 2) (by norm_num) (by rw [rd_grid φ hp1 gh]; exact htop)
    rw [rd_grid φ hp1 gh] at hr
    rw [e, hr]
    rfl
  set t : FVal φ := x - flo x with ht
  set q := Val.toRat t with hq
  have q0 : 0 ≤ q := by unfold val at t4; exact_mod_cast t4
  have q1 : q ≤ 1 := by
    rw [abs_of_nonneg t4] at t3
    unfold val at t3
    exact_mod_cast t3
  have habs : |q - 1 / 2| ≤ 1 / 2 := by rw [abs_le]; constructor <;> linarith
  have hrd := abs_rd_le φ hp1 gh habs
  have hi := sub_rd φ (v := t) (w := konst φ (1 / 2)) ⟨t1, rfl⟩ hk (by
    refine hrd.trans_lt ?_
    have : (2 : ℚ) ^ (0 : ℤ) < 2 ^ (φ.emax + 1) := zpow_lt_zpow_right₀ (by norm_num) (by have := h.ok.hmax; omega)
    rw [zpow_zero] at this
    linarith)
  have hv : val (zFp flo x) = ((rd φ (q - 1 / 2) : ℚ) : ℝ) := val_of_is hi
  have habs' : |((q - 1 / 2 : ℚ) : ℝ)| ≤ 1 / 2 := by
    rw [← Rat.cast_abs]
    have : ((|q - 1 / 2| : ℚ) : ℝ) ≤ ((1 / 2 : ℚ) : ℝ) := by exact_mod_cast habs
    refine this.trans (by norm_num)
  obtain ⟨-, h2⟩ := rd_real h.ok (x := q - 1 / 2) (habs'.trans (by linarith [h.top1]))
  have h3 := mul_le_mul_of_nonneg_left habs' hu.le
  have h4 := h.w1
  have h5 : uR φ / 2 ^ 24 ≤ uR φ / 2 := div_le_div_of_nonneg_left hu.le (by norm_num) (by norm_num)
  have et : val t = (q : ℝ) := rfl
  refine ⟨.leaf hi.1 ?_ ?_ ?_, by norm_num, by norm_num⟩
  · rw [hv]
    have e : ((rd φ (q - 1 / 2) : ℚ) : ℝ) - (Int.fract (val x) - 1 / 2)
        = (((rd φ (q - 1 / 2) : ℚ) : ℝ) - ((q - 1 / 2 : ℚ) : ℝ)) + (val t - Int.fract (val x)) := by
      rw [et]
      push_cast
      ring
    rw [e]
    exact (abs_add_le _ _).trans (by linarith)
  · rw [hv, ← Rat.cast_abs]
    have : ((|rd φ (q - 1 / 2)| : ℚ) : ℝ) ≤ ((1 / 2 : ℚ) : ℝ) := by exact_mod_cast hrd
    exact this.trans (by norm_num)
  · have f0 := Int.fract_nonneg (val x)
    have f1 := Int.fract_lt_one (val x)
    rw [abs_le]
    constructor <;> linarith

theorem opt4_body (s : List ℝ) (x : ℝ) :
    optimal4 s x = opt4Body (fun q : ℚ => (q : ℝ)) (tap s (goInt x)) (Int.fract x - 1 / 2) := by
  unfold optimal4 opt4Body Int.fract e17 e18 q17 q18
  push_cast
  rfl

theorem opt4_bound {X : ℝ} (h : Scale φ X) {s : Int → FVal φ} {z : FVal φ} {Z : ℝ}
    (hs : ∀ i, Vec X (.leaf (s i)) (val (s i)) 1 0) (hz : Sca (.leaf z) Z (1 / 2) 3) :
    Vec X (opt4Body kE (fun i => .leaf (s i)) (.leaf z)) (opt4Body (fun q : ℚ => (q : ℝ)) (fun i => val (s i)) Z) 3 34 := by
  have e1 := Vec.add h (hs 1) (hs 0) (by norm_num) (20001 / 10000) 3 (by norm_num) (by norm_num)
  have o1 := Vec.sub h (hs 1) (hs 0) (by norm_num) (20001 / 10000) 3 (by norm_num) (by norm_num)
  have e2 := Vec.add h (hs 2) (hs (-1)) (by norm_num) (20001 / 10000) 3 (by norm_num) (by norm_num)
  have o2 := Vec.sub h (hs 2) (hs (-1)) (by norm_num) (20001 / 10000) 3 (by norm_num) (by norm_num)
  have k00 := Sca.const h (q17 (45645918406487612)) (913 / 2000) (by norm_num [q17, q18, abs_le]) (by norm_num)
  have m00 := Vec.mul h e1 k00 (by norm_num) (9131 / 10000) (10489 / 2500) (by norm_num) (by norm_num)
  have k01 := Sca.const h (q17 (4354173901996461)) (109 / 2500) (by norm_num [q17, q18, abs_le]) (by norm_num)
  have m01 := Vec.mul h e2 k01 (by norm_num) (873 / 10000) (13053 / 10000) (by norm_num) (by norm_num)
  have n01 := Vec.add h m00 m01 (by norm_num) (2001 / 2000) (75013 / 10000) (by norm_num) (by norm_num)
  have k10 := Sca.const h (q17 (47236675362442071)) (1181 / 2500) (by norm_num [q17, q18, abs_le]) (by norm_num)
  have m10 := Vec.mul h o1 k10 (by norm_num) (9449 / 10000) (43069 / 10000) (by norm_num) (by norm_num)
  have k11 := Sca.const h (q17 (17686613581136501)) (1769 / 10000) (by norm_num [q17, q18, abs_le]) (by norm_num)
  have m11 := Vec.mul h o2 k11 (by norm_num) (3539 / 10000) (1399 / 625) (by norm_num) (by norm_num)
  have n11 := Vec.add h m10 m11 (by norm_num) (12989 / 10000) (88441 / 10000) (by norm_num) (by norm_num)
  have k20 := Sca.const h (q18 (-253674794204558521)) (2537 / 10000) (by norm_num [q17, q18, abs_le]) (by norm_num)
  have m20 := Vec.mul h e1 k20 (by norm_num) (203 / 400) (347 / 125) (by norm_num) (by norm_num)
  have k21 := Sca.const h (q17 (25371918651882464)) (1269 / 5000) (by norm_num [q17, q18, abs_le]) (by norm_num)
  have m21 := Vec.mul h e2 k21 (by norm_num) (5077 / 10000) (27767 / 10000) (by norm_num) (by norm_num)
  have n21 := Vec.add h m20 m21 (by norm_num) (10153 / 10000) (75679 / 10000) (by norm_num) (by norm_num)
  have k30 := Sca.const h (q17 (-37917091811631082)) (237 / 625) (by norm_num [q17, q18, abs_le]) (by norm_num)
  have m30 := Vec.mul h o1 k30 (by norm_num) (1517 / 2000) (7309 / 2000) (by norm_num) (by norm_num)
  have k31 := Sca.const h (q17 (11952965967158000)) (299 / 2500) (by norm_num [q17, q18, abs_le]) (by norm_num)
  have m31 := Vec.mul h o2 k31 (by norm_num) (2393 / 10000) (18373 / 10000) (by norm_num) (by norm_num)
  have n31 := Vec.add h m30 m31 (by norm_num) (9979 / 10000) (4681 / 625) (by norm_num) (by norm_num)
  have k40 := Sca.const h (q17 (4252164479749607)) (213 / 5000) (by norm_num [q17, q18, abs_le]) (by norm_num)
  have m40 := Vec.mul h e1 k40 (by norm_num) (853 / 10000) (12983 / 10000) (by norm_num) (by norm_num)
  have k41 := Sca.const h (q17 (-4289144034653719)) (429 / 10000) (by norm_num [q17, q18, abs_le]) (by norm_num)
  have m41 := Vec.mul h e2 k41 (by norm_num) (859 / 10000) (3251 / 2500) (by norm_num) (by norm_num)
  have n41 := Vec.add h m40 m41 (by norm_num) (1713 / 10000) (37699 / 10000) (by norm_num) (by norm_num)
  have p3 := Vec.mul h n41 hz (by norm_num) (857 / 10000) (6969 / 2000) (by norm_num) (by norm_num)
  have r3 := Vec.add h p3 n31 (by norm_num) (10837 / 10000) (130577 / 10000) (by norm_num) (by norm_num)
  have p2 := Vec.mul h r3 hz (by norm_num) (5419 / 10000) (56609 / 5000) (by norm_num) (by norm_num)
  have r2 := Vec.add h p2 n21 (by norm_num) (15573 / 10000) (214469 / 10000) (by norm_num) (by norm_num)
  have p1 := Vec.mul h r2 hz (by norm_num) (7787 / 10000) (8587 / 500) (by norm_num) (by norm_num)
  have r1 := Vec.add h p1 n11 (by norm_num) (20777 / 10000) (290957 / 10000) (by norm_num) (by norm_num)
  have p0 := Vec.mul h r1 hz (by norm_num) (10389 / 10000) (114099 / 5000) (by norm_num) (by norm_num)
  have r0 := Vec.add h p0 n01 (by norm_num) (4079 / 2000) (66721 / 2000) (by norm_num) (by norm_num)
  exact ⟨r0.1.mono (mul_le_mul_of_nonneg_right (by norm_num) h.pos.le)
    (mul_le_mul_of_nonneg_right (by norm_num) (mul_nonneg (uR_pos φ).le h.pos.le)), by norm_num, by norm_num⟩

/-- C100: the four-point interpolator, at every finite position. -/
theorem C100_optimal4 {X : ℝ} (h : Scale φ X) (flo : FVal φ → FVal φ) (hf : Floor φ flo) (s : List (FVal φ))
    (hs : Bounded X s) (x : FVal φ) (hx : Datum φ x) (v : FVal φ) (hv : Eval (opt4Fp flo s x) v) :
    Finite v ∧ |val v - optimal4 (exactly s) (val x)| ≤ 34 * uR φ * X := by
  have tp := fun i => bounded_tap h.pos.le hs (intV x) i
  have := (opt4_bound h (fun i => Vec.leaf (tp i).1 (tp i).2) (z_sca h hf hx)).eval h hv
  have e : tap (exactly s) (intV x) = fun i => val (tapV s (intV x) i) := funext (tapV_eq s _)
  rw [opt4_body, ← intV_eq hx.fin, e]
  exact ⟨this.1, this.2.1⟩

theorem opt6_body (s : List ℝ) (x : ℝ) :
    optimal6 s x = opt6Body (fun q : ℚ => (q : ℝ)) (tap s (goInt x)) (Int.fract x - 1 / 2) := by
  unfold optimal6 opt6Body Int.fract e17 e18 q17 q18
  push_cast
  rfl

theorem opt6_bound {X : ℝ} (h : Scale φ X) {s : Int → FVal φ} {z : FVal φ} {Z : ℝ}
    (hs : ∀ i, Vec X (.leaf (s i)) (val (s i)) 1 0) (hz : Sca (.leaf z) Z (1 / 2) 3) :
    Vec X (opt6Body kE (fun i => .leaf (s i)) (.leaf z)) (opt6Body (fun q : ℚ => (q : ℝ)) (fun i => val (s i)) Z) 3 35 := by
  have e1 := Vec.add h (hs 1) (hs 0) (by norm_num) (20001 / 10000) 3 (by norm_num) (by norm_num)
  have o1 := Vec.sub h (hs 1) (hs 0) (by norm_num) (20001 / 10000) 3 (by norm_num) (by norm_num)
  have e2 := Vec.add h (hs 2) (hs (-1)) (by norm_num) (20001 / 10000) 3 (by norm_num) (by norm_num)
  have o2 := Vec.sub h (hs 2) (hs (-1)) (by norm_num) (20001 / 10000) 3 (by norm_num) (by norm_num)
  have e3 := Vec.add h (hs 3) (hs (-2)) (by norm_num) (20001 / 10000) 3 (by norm_num) (by norm_num)
  have o3 := Vec.sub h (hs 3) (hs (-2)) (by norm_num) (20001 / 10000) 3 (by norm_num) (by norm_num)
  have k00 := Sca.const h (q17 (40513396007145713)) (1013 / 2500) (by norm_num [q17, q18, abs_le]) (by norm_num)
  have m00 := Vec.mul h e1 k00 (by norm_num) (1621 / 2000) (7673 / 2000) (by norm_num) (by norm_num)
  have k01 := Sca.const h (q17 (9251794438424393)) (463 / 5000) (by norm_num [q17, q18, abs_le]) (by norm_num)
  have m01 := Vec.mul h e2 k01 (by norm_num) (1853 / 10000) (16483 / 10000) (by norm_num) (by norm_num)
  have n01 := Vec.add h m00 m01 (by norm_num) (9959 / 10000) (37403 / 5000) (by norm_num) (by norm_num)
  have k02 := Sca.const h (q17 (234806603570670)) (3 / 1250) (by norm_num [q17, q18, abs_le]) (by norm_num)
  have m02 := Vec.mul h e3 k02 (by norm_num) (49 / 10000) (10169 / 10000) (by norm_num) (by norm_num)
  have n02 := Vec.add h n01 m02 (by norm_num) (10009 / 10000) (104983 / 10000) (by norm_num) (by norm_num)
  have k10 := Sca.const h (q17 (28342806338906690)) (567 / 2000) (by norm_num [q17, q18, abs_le]) (by norm_num)
  have m10 := Vec.mul h o1 k10 (by norm_num) (5671 / 10000) (14923 / 5000) (by norm_num) (by norm_num)
  have k11 := Sca.const h (q17 (21703277024054901)) (2171 / 10000) (by norm_num [q17, q18, abs_le]) (by norm_num)
  have m11 := Vec.mul h o2 k11 (by norm_num) (4343 / 10000) (12599 / 5000) (by norm_num) (by norm_num)
  have n11 := Vec.add h m10 m11 (by norm_num) (2003 / 2000) (37529 / 5000) (by norm_num) (by norm_num)
  have k12 := Sca.const h (q17 (1309294748731515)) (131 / 10000) (by norm_num [q17, q18, abs_le]) (by norm_num)
  have m12 := Vec.mul h o3 k12 (by norm_num) (263 / 10000) (5459 / 5000) (by norm_num) (by norm_num)
  have n12 := Vec.add h n11 m12 (by norm_num) (10279 / 10000) (53127 / 5000) (by norm_num) (by norm_num)
  have k20 := Sca.const h (q18 (-191337682540351941)) (957 / 5000) (by norm_num [q17, q18, abs_le]) (by norm_num)
  have m20 := Vec.mul h e1 k20 (by norm_num) (3829 / 10000) (23399 / 10000) (by norm_num) (by norm_num)
  have k21 := Sca.const h (q17 (16187844487943592)) (1619 / 10000) (by norm_num [q17, q18, abs_le]) (by norm_num)
  have m21 := Vec.mul h e2 k21 (by norm_num) (3239 / 10000) (10667 / 5000) (by norm_num) (by norm_num)
  have n21 := Vec.add h m20 m21 (by norm_num) (7069 / 10000) (61801 / 10000) (by norm_num) (by norm_num)
  have k22 := Sca.const h (q17 (2946017143111912)) (59 / 2000) (by norm_num [q17, q18, abs_le]) (by norm_num)
  have m22 := Vec.mul h e3 k22 (by norm_num) (591 / 10000) (6033 / 5000) (by norm_num) (by norm_num)
  have n22 := Vec.add h n21 m22 (by norm_num) (7661 / 10000) (91527 / 10000) (by norm_num) (by norm_num)
  have k30 := Sca.const h (q17 (-16471626190554542)) (103 / 625) (by norm_num [q17, q18, abs_le]) (by norm_num)
  have m30 := Vec.mul h o1 k30 (by norm_num) (3297 / 10000) (21537 / 10000) (by norm_num) (by norm_num)
  have k31 := Sca.const h (q17 (-154547203542499)) (1 / 625) (by norm_num [q17, q18, abs_le]) (by norm_num)
  have m31 := Vec.mul h o2 k31 (by norm_num) (33 / 10000) (10113 / 10000) (by norm_num) (by norm_num)
  have n31 := Vec.add h m30 m31 (by norm_num) (3331 / 10000) (2249 / 500) (by norm_num) (by norm_num)
  have k32 := Sca.const h (q17 (3399271444851909)) (17 / 500) (by norm_num [q17, q18, abs_le]) (by norm_num)
  have m32 := Vec.mul h o3 k32 (by norm_num) (681 / 10000) (12381 / 10000) (by norm_num) (by norm_num)
  have n32 := Vec.add h n31 m32 (by norm_num) (4013 / 10000) (71373 / 10000) (by norm_num) (by norm_num)
  have k40 := Sca.const h (q17 (3845798729588149)) (77 / 2000) (by norm_num [q17, q18, abs_le]) (by norm_num)
  have m40 := Vec.mul h e1 k40 (by norm_num) (771 / 10000) (1587 / 1250) (by norm_num) (by norm_num)
  have k41 := Sca.const h (q17 (-5712936104242644)) (143 / 2500) (by norm_num [q17, q18, abs_le]) (by norm_num)
  have m41 := Vec.mul h e2 k41 (by norm_num) (229 / 2000) (2801 / 2000) (by norm_num) (by norm_num)
  have n41 := Vec.add h m40 m41 (by norm_num) (1917 / 10000) (38617 / 10000) (by norm_num) (by norm_num)
  have k42 := Sca.const h (q17 (1866750929921070)) (187 / 10000) (by norm_num [q17, q18, abs_le]) (by norm_num)
  have m42 := Vec.mul h e3 k42 (by norm_num) (3 / 80) (1131 / 1000) (by norm_num) (by norm_num)
  have n42 := Vec.add h n41 m42 (by norm_num) (2293 / 10000) (62219 / 10000) (by norm_num) (by norm_num)
  have k50 := Sca.const h (q17 (4317950185225609)) (27 / 625) (by norm_num [q17, q18, abs_le]) (by norm_num)
  have m50 := Vec.mul h o1 k50 (by norm_num) (173 / 2000) (521 / 400) (by norm_num) (by norm_num)
  have k51 := Sca.const h (q17 (-1802814255926417)) (181 / 10000) (by norm_num [q17, q18, abs_le]) (by norm_num)
  have m51 := Vec.mul h o2 k51 (by norm_num) (363 / 10000) (2817 / 2500) (by norm_num) (by norm_num)
  have n51 := Vec.add h m50 m51 (by norm_num) (1229 / 10000) (35521 / 10000) (by norm_num) (by norm_num)
  have k52 := Sca.const h (q17 (152170021558204)) (1 / 625) (by norm_num [q17, q18, abs_le]) (by norm_num)
  have m52 := Vec.mul h o3 k52 (by norm_num) (33 / 10000) (10113 / 10000) (by norm_num) (by norm_num)
  have n52 := Vec.add h n51 m52 (by norm_num) (1263 / 10000) (3556 / 625) (by norm_num) (by norm_num)
  have p4 := Vec.mul h n52 hz (by norm_num) (79 / 1250) (42869 / 10000) (by norm_num) (by norm_num)
  have r4 := Vec.add h p4 n42 (by norm_num) (1463 / 5000) (118013 / 10000) (by norm_num) (by norm_num)
  have p3 := Vec.mul h r4 hz (by norm_num) (183 / 1250) (4953 / 625) (by norm_num) (by norm_num)
  have r3 := Vec.add h p3 n32 (by norm_num) (2739 / 5000) (83049 / 5000) (by norm_num) (by norm_num)
  have p2 := Vec.mul h r3 hz (by norm_num) (137 / 500) (56111 / 5000) (by norm_num) (by norm_num)
  have r2 := Vec.add h p2 n22 (by norm_num) (5201 / 5000) (4483 / 200) (by norm_num) (by norm_num)
  have p1 := Vec.mul h r2 hz (by norm_num) (2601 / 5000) (79241 / 5000) (by norm_num) (by norm_num)
  have r1 := Vec.add h p1 n12 (by norm_num) (7741 / 5000) (290217 / 10000) (by norm_num) (by norm_num)
  have p0 := Vec.mul h r1 hz (by norm_num) (3871 / 5000) (13081 / 625) (by norm_num) (by norm_num)
  have r0 := Vec.add h p0 n02 (by norm_num) (2219 / 1250) (34203 / 1000) (by norm_num) (by norm_num)
  exact ⟨r0.1.mono (mul_le_mul_of_nonneg_right (by norm_num) h.pos.le)
    (mul_le_mul_of_nonneg_right (by norm_num) (mul_nonneg (uR_pos φ).le h.pos.le)), by norm_num, by norm_num⟩

/-- C100: the six-point interpolator, at every finite position. -/
theorem C100_optimal6 {X : ℝ} (h : Scale φ X) (flo : FVal φ → FVal φ) (hf : Floor φ flo) (s : List (FVal φ))
    (hs : Bounded X s) (x : FVal φ) (hx : Datum φ x) (v : FVal φ) (hv : Eval (opt6Fp flo s x) v) :
    Finite v ∧ |val v - optimal6 (exactly s) (val x)| ≤ 35 * uR φ * X := by
  have tp := fun i => bounded_tap h.pos.le hs (intV x) i
  have := (opt6_bound h (fun i => Vec.leaf (tp i).1 (tp i).2) (z_sca h hf hx)).eval h hv
  have e : tap (exactly s) (intV x) = fun i => val (tapV s (intV x) i) := funext (tapV_eq s _)
  rw [opt6_body, ← intV_eq hx.fin, e]
  exact ⟨this.1, this.2.1⟩

end Verif.Interp
