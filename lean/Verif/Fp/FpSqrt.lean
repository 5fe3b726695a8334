import Verif.Fp.FpComplex
import Verif.Fp.Bits
import Mathlib.Analysis.SpecialFunctions.Pow.NNReal

/-!
# The IEEE-754 square root

The exact square root, rounded once. It is the nearest number of the format. A root in a format of more than twice the bits, rounded again, is the same
(`sqrt_double`), so `float32(math.Sqrt(float64(x)))` is the square root in float32.
-/

namespace Verif.Fp

/-- Half the spacing of the floating-point numbers around the square root of a positive rational. -/
def halfUlp (φ : Format) (q : ℚ) : ℚ := (2 : ℚ) ^ (max (Int.log 2 q / 2) φ.emin - φ.p)

/-- The multiples of half the spacing up to the square root. -/
def sqrtInt (φ : Format) (q : ℚ) : ℕ := Nat.sqrt ⌊q / halfUlp φ q ^ 2⌋₊

/-- A rational with the same rounding as the square root: the root itself if it is a multiple of half the spacing, and else the middle between the two
multiples of half the spacing around it. -/
def sqrtMag (φ : Format) (q : ℚ) : ℚ :=
  if (sqrtInt φ q * halfUlp φ q) ^ 2 = q then sqrtInt φ q * halfUlp φ q else (sqrtInt φ q + 1 / 2) * halfUlp φ q

/-- IEEE-754 square root. The root of −0 is −0. -/
def sqrt (φ : Format) : Val → Val
  | .nan => .nan
  | .inf s => if s then .nan else .inf false
  | .fin s q => if q = 0 then .fin s 0 else if s then .nan else round φ false (sqrtMag φ q)

/-! ### Lemmas -/

theorem halfUlp_pos (φ : Format) (q : ℚ) : 0 < halfUlp φ q := by unfold halfUlp; positivity

/-- The spacing inside of a cell. -/
theorem ulp_cell {φ : Format} {E : ℤ} {k : ℕ} {y : ℚ} (hE : φ.emin ≤ E) (hk : k + 1 ≤ 2 ^ (φ.p + 1)) (hk2 : E = φ.emin ∨ 2 ^ φ.p ≤ k) (hy : 0 < y)
    (h1 : k * (2 : ℚ) ^ (E - φ.p) ≤ y) (h2 : y < (k + 1) * (2 : ℚ) ^ (E - φ.p)) : ulp φ y = 2 * (2 : ℚ) ^ (E - φ.p) := by
  have h0 : (2 : ℚ) ≠ 0 := by norm_num
  have hh : (0 : ℚ) < 2 ^ (E - φ.p) := by positivity
  have up : Int.log 2 y ≤ E := by
    rw [← Int.lt_add_one_iff, ← Int.lt_zpow_iff_log_lt (by norm_num) hy]
    push_cast
    refine h2.trans_le ?_
    have : ((k : ℚ) + 1) ≤ 2 ^ (φ.p + 1) := by exact_mod_cast hk
    calc ((k : ℚ) + 1) * 2 ^ (E - φ.p) ≤ 2 ^ (φ.p + 1) * 2 ^ (E - φ.p) := mul_le_mul_of_nonneg_right this hh.le
      _ = 2 ^ (E + 1) := by
        rw [← zpow_natCast, ← zpow_add₀ h0]
        congr 1; push_cast; ring
  have e : max (Int.log 2 y) φ.emin = E := by
    rcases hk2 with h | h
    · rw [max_eq_right (by omega)]; exact h.symm
    · rw [max_eq_left]
      · refine le_antisymm up ?_
        rw [← Int.zpow_le_iff_le_log (by norm_num) hy]
        push_cast
        refine le_trans ?_ h1
        have : (2 : ℚ) ^ φ.p ≤ k := by exact_mod_cast h
        calc (2 : ℚ) ^ E = 2 ^ φ.p * 2 ^ (E - φ.p) := by
              rw [← zpow_natCast, ← zpow_add₀ h0]
              congr 1; ring
          _ ≤ _ := mul_le_mul_of_nonneg_right this hh.le
      · refine hE.trans ?_
        rw [← Int.zpow_le_iff_le_log (by norm_num) hy]
        push_cast
        refine le_trans ?_ h1
        have : (2 : ℚ) ^ φ.p ≤ k := by exact_mod_cast h
        calc (2 : ℚ) ^ E = 2 ^ φ.p * 2 ^ (E - φ.p) := by
              rw [← zpow_natCast, ← zpow_add₀ h0]
              congr 1; ring
          _ ≤ _ := mul_le_mul_of_nonneg_right this hh.le
  unfold ulp
  rw [e, mul_comm, ← zpow_add_one₀ h0]
  congr 1; ring

theorem roundEven_cell {k : ℕ} {z : ℚ} (h1 : (k : ℚ) / 2 < z) (h2 : z < ((k : ℚ) + 1) / 2) : roundEven z = ((k + 1) / 2 : ℕ) := by
  have hf : ⌊z⌋ = ((k / 2 : ℕ) : ℤ) := by
    rw [Int.floor_eq_iff]
    rcases Nat.even_or_odd' k with ⟨j, rfl | rfl⟩
    · rw [show 2 * j / 2 = j by omega]
      push_cast at *
      constructor <;> linarith
    · rw [show (2 * j + 1) / 2 = j by omega]
      push_cast at *
      constructor <;> linarith
  unfold roundEven
  simp only [hf]
  rcases Nat.even_or_odd' k with ⟨j, rfl | rfl⟩
  · rw [if_pos]
    · congr 1; omega
    · rw [show 2 * j / 2 = j by omega]
      push_cast at *
      linarith
  · rw [if_neg, if_pos]
    · rw [show (2 * j + 1) / 2 = j by omega, show (2 * j + 1 + 1) / 2 = j + 1 by omega]
      push_cast; rfl
    · rw [show (2 * j + 1) / 2 = j by omega]
      push_cast at *
      linarith
    · rw [show (2 * j + 1) / 2 = j by omega]
      push_cast at *
      linarith

/-- All of an open cell is rounded to the same number. -/
theorem rd_cell {φ : Format} {E : ℤ} {k : ℕ} {y : ℚ} (hE : φ.emin ≤ E) (hk : k + 1 ≤ 2 ^ (φ.p + 1)) (hk2 : E = φ.emin ∨ 2 ^ φ.p ≤ k)
    (h1 : k * (2 : ℚ) ^ (E - φ.p) < y) (h2 : y < (k + 1) * (2 : ℚ) ^ (E - φ.p)) :
    rd φ y = ((k + 1) / 2 : ℕ) * (2 * (2 : ℚ) ^ (E - φ.p)) := by
  have hh : (0 : ℚ) < 2 ^ (E - φ.p) := by positivity
  have hy : 0 < y := lt_of_le_of_lt (by positivity) h1
  rw [rd_pos φ hy, ulp_cell hE hk hk2 hy h1.le h2, roundEven_cell (k := k)]
  · push_cast; rfl
  · rw [lt_div_iff₀ (by positivity)]; linarith
  · rw [div_lt_iff₀ (by positivity)]; linarith

/-- Where the square root lies. -/
structure SqrtCell (φ : Format) (q : ℚ) (E : ℤ) (k : ℕ) : Prop where
  hE : φ.emin ≤ E
  hk : k + 1 ≤ 2 ^ (φ.p + 1)
  hk2 : E = φ.emin ∨ 2 ^ φ.p ≤ k
  lo : (k * (2 : ℚ) ^ (E - φ.p)) ^ 2 ≤ q
  hi : q < ((k + 1) * (2 : ℚ) ^ (E - φ.p)) ^ 2

theorem sqrt_bounds {q : ℚ} (hq : 0 < q) : (2 : ℚ) ^ (2 * (Int.log 2 q / 2)) ≤ q ∧ q < 2 ^ (2 * (Int.log 2 q / 2) + 2) := by
  constructor
  · have h := Int.zpow_log_le_self (b := 2) (by norm_num) hq
    push_cast at h
    exact (zpow_le_zpow_right₀ (by norm_num) (by omega)).trans h
  · have h := Int.lt_zpow_succ_log_self (b := 2) (by norm_num) q
    push_cast at h
    exact h.trans_le (zpow_le_zpow_right₀ (by norm_num) (by omega))

theorem sqrt_cell (φ : Format) {q : ℚ} (hq : 0 < q) : SqrtCell φ q (max (Int.log 2 q / 2) φ.emin) (sqrtInt φ q) := by
  have h0 : (2 : ℚ) ≠ 0 := by norm_num
  set E := max (Int.log 2 q / 2) φ.emin with hE
  set h := (2 : ℚ) ^ (E - φ.p) with hh
  have hp : 0 < h := by positivity
  have hdef : halfUlp φ q = h := rfl
  obtain ⟨b1, b2⟩ := sqrt_bounds hq
  have lo : ((sqrtInt φ q : ℕ) : ℚ) ^ 2 ≤ q / h ^ 2 := by
    have a := Nat.sqrt_le' ⌊q / halfUlp φ q ^ 2⌋₊
    have b := Nat.floor_le (show 0 ≤ q / halfUlp φ q ^ 2 by positivity)
    have c : ((sqrtInt φ q : ℕ) : ℚ) ^ 2 ≤ ⌊q / halfUlp φ q ^ 2⌋₊ := by exact_mod_cast a
    exact c.trans b
  have hi : q / h ^ 2 < ((sqrtInt φ q : ℕ) + 1 : ℚ) ^ 2 := by
    have a := Nat.lt_succ_sqrt' ⌊q / halfUlp φ q ^ 2⌋₊
    have b := Nat.lt_floor_add_one (q / halfUlp φ q ^ 2)
    have c : (⌊q / halfUlp φ q ^ 2⌋₊ : ℚ) + 1 ≤ ((sqrtInt φ q : ℕ) + 1 : ℚ) ^ 2 := by exact_mod_cast a
    exact b.trans_le c
  have sqE : ∀ j : ℤ, h ^ 2 * (2 : ℚ) ^ (2 * j) = 2 ^ (2 * (E - φ.p + j)) := by
    intro j
    rw [hh, ← zpow_natCast, ← zpow_mul, ← zpow_add₀ h0]
    congr 1; push_cast; ring
  refine ⟨le_max_right _ _, ?_, ?_, ?_, ?_⟩
  · have : ((sqrtInt φ q : ℕ) : ℚ) ^ 2 < (2 ^ (φ.p + 1)) ^ 2 := by
      refine lo.trans_lt ?_
      rw [div_lt_iff₀ (by positivity)]
      refine b2.trans_le ?_
      rw [← pow_mul, ← zpow_natCast, mul_comm _ (h ^ 2)]
      have := sqE (φ.p + 1)
      rw [show (((φ.p + 1) * 2 : ℕ) : ℤ) = 2 * ((φ.p : ℤ) + 1) by push_cast; ring, this]
      exact zpow_le_zpow_right₀ (by norm_num) (by omega)
    have := lt_of_pow_lt_pow_left₀ 2 (by positivity) this
    exact_mod_cast this
  · rcases le_total (Int.log 2 q / 2) φ.emin with c | c
    · exact Or.inl (by rw [hE, max_eq_right c])
    · right
      have e : E = Int.log 2 q / 2 := by rw [hE, max_eq_left c]
      have : (2 ^ φ.p : ℚ) ^ 2 < ((sqrtInt φ q : ℕ) + 1 : ℚ) ^ 2 := by
        refine lt_of_le_of_lt ?_ hi
        rw [le_div_iff₀ (by positivity)]
        refine le_trans ?_ b1
        rw [← pow_mul, ← zpow_natCast, mul_comm]
        have := sqE φ.p
        rw [show ((φ.p * 2 : ℕ) : ℤ) = 2 * (φ.p : ℤ) by push_cast; ring, this]
        exact zpow_le_zpow_right₀ (by norm_num) (by omega)
      have := lt_of_pow_lt_pow_left₀ 2 (by positivity) this
      have : 2 ^ φ.p < sqrtInt φ q + 1 := by exact_mod_cast this
      omega
  · rw [mul_pow]
    rwa [le_div_iff₀ (by positivity)] at lo
  · rw [mul_pow]
    rwa [div_lt_iff₀ (by positivity)] at hi

theorem SqrtCell.unique {φ : Format} {q : ℚ} {E : ℤ} {k l : ℕ} (h : SqrtCell φ q E k) (h' : SqrtCell φ q E l) : k = l := by
  have hh : (0 : ℚ) < 2 ^ (E - φ.p) := by positivity
  have key : ∀ {k l : ℕ}, SqrtCell φ q E k → SqrtCell φ q E l → k ≤ l := by
    intro k l h h'
    have := lt_of_pow_lt_pow_left₀ 2 (by positivity) (h.lo.trans_lt h'.hi)
    have := lt_of_mul_lt_mul_right this hh.le
    have : k < l + 1 := by exact_mod_cast this
    omega
  exact le_antisymm (key h h') (key h' h)

/-- The proxy lies in the cell. -/
theorem sqrtMag_mem (φ : Format) {q : ℚ} :
    (sqrtInt φ q * halfUlp φ q) ^ 2 = q ∧ sqrtMag φ q = sqrtInt φ q * halfUlp φ q ∨
      (sqrtInt φ q * halfUlp φ q) ^ 2 ≠ q ∧ sqrtInt φ q * halfUlp φ q < sqrtMag φ q ∧ sqrtMag φ q < (sqrtInt φ q + 1) * halfUlp φ q := by
  have hh := halfUlp_pos φ q
  unfold sqrtMag
  split
  · rename_i c; exact Or.inl ⟨c, rfl⟩
  · rename_i c
    refine Or.inr ⟨c, ?_, ?_⟩ <;> nlinarith

/-- The value of the root, before the test for overflow. -/
def sqrtRd (φ : Format) (q : ℚ) : ℚ := rd φ (sqrtMag φ q)

/-- Rounding any rational of the cell gives the root. -/
theorem rd_eq_sqrt (φ : Format) {q y : ℚ} (hq : 0 < q) (hne : (sqrtInt φ q * halfUlp φ q) ^ 2 ≠ q) (h1 : sqrtInt φ q * halfUlp φ q < y)
    (h2 : y < (sqrtInt φ q + 1) * halfUlp φ q) : rd φ y = sqrtRd φ q := by
  have hc := sqrt_cell φ hq
  rcases sqrtMag_mem φ (q := q) with ⟨c, -⟩ | ⟨-, c1, c2⟩
  · exact absurd c hne
  · rw [sqrtRd, rd_cell hc.hE hc.hk hc.hk2 h1 h2, rd_cell hc.hE hc.hk hc.hk2 c1 c2]

theorem sqrtMag_pos (φ : Format) {q : ℚ} (hq : 0 < q) : 0 < sqrtMag φ q := by
  have hh := halfUlp_pos φ q
  rcases sqrtMag_mem φ (q := q) with ⟨c, d⟩ | ⟨-, c1, c2⟩
  · rw [d]
    rcases Nat.eq_zero_or_pos (sqrtInt φ q) with h | h
    · rw [h] at c; simp at c; exact absurd c hq.ne
    · positivity
  · exact lt_of_le_of_lt (by positivity) c1

theorem sq_real {x : ℚ} (hx : 0 ≤ x) : √((x ^ 2 : ℚ) : ℝ) = x := by
  push_cast
  exact Real.sqrt_sq (by exact_mod_cast hx)

/-- **The root is a nearest number of the format.** -/
theorem sqrt_nearest (φ : Format) (hp : 1 ≤ φ.p) {q : ℚ} (hq : 0 < q) {g : ℚ} (hg : Grid φ g) :
    |√(q : ℝ) - sqrtRd φ q| ≤ |√(q : ℝ) - g| := by
  have hh := halfUlp_pos φ q
  rcases sqrtMag_mem φ (q := q) with ⟨c, d⟩ | ⟨c, c1, c2⟩
  · have e : √(q : ℝ) = (sqrtMag φ q : ℚ) := by
      rw [d, ← sq_real (x := sqrtInt φ q * halfUlp φ q) (by positivity), c]
    rw [e, sqrtRd]
    have := rd_nearest φ hp (sqrtMag φ q) hg
    exact_mod_cast this
  · have hc := sqrt_cell φ hq
    have lo : ((sqrtInt φ q * halfUlp φ q : ℚ) : ℝ) < √(q : ℝ) := by
      rw [← sq_real (x := sqrtInt φ q * halfUlp φ q) (by positivity)]
      refine Real.sqrt_lt_sqrt (by positivity) ?_
      have : (sqrtInt φ q * halfUlp φ q) ^ 2 < q := lt_of_le_of_ne hc.lo c
      exact_mod_cast this
    have hi : √(q : ℝ) < (((sqrtInt φ q + 1) * halfUlp φ q : ℚ) : ℝ) := by
      rw [← sq_real (x := (sqrtInt φ q + 1) * halfUlp φ q) (by positivity)]
      refine Real.sqrt_lt_sqrt (by positivity) ?_
      exact_mod_cast hc.hi
    by_contra hcon
    rw [not_le] at hcon
    set δ := (|√(q : ℝ) - sqrtRd φ q| - |√(q : ℝ) - g|) / 2 with hδ
    have hδ0 : 0 < δ := by rw [hδ]; linarith
    obtain ⟨y, y1, y2⟩ := exists_rat_btwn (show √(q : ℝ) < min (√(q : ℝ) + δ) (((sqrtInt φ q + 1) * halfUlp φ q : ℚ) : ℝ) from lt_min (by linarith) hi)
    rw [lt_min_iff] at y2
    have hr := rd_eq_sqrt φ (y := y) hq c (by exact_mod_cast lo.trans y1) (by exact_mod_cast y2.2)
    have n := rd_nearest φ hp y hg
    rw [hr] at n
    have n' : |(y : ℝ) - sqrtRd φ q| ≤ |(y : ℝ) - g| := by exact_mod_cast n
    have hd : |√(q : ℝ) - y| < δ := by rw [abs_sub_lt_iff]; constructor <;> linarith
    have t1 := abs_sub_le (√(q : ℝ)) y (sqrtRd φ q)
    have t2 := abs_sub_le (y : ℝ) (√(q : ℝ)) g
    rw [abs_sub_comm (y : ℝ) (√(q : ℝ))] at t2
    linarith

theorem sqrt_cell_real {φ : Format} {q : ℚ} (hq : 0 < q) :
    ((sqrtInt φ q * halfUlp φ q : ℚ) : ℝ) ≤ √(q : ℝ) ∧ √(q : ℝ) < (((sqrtInt φ q + 1) * halfUlp φ q : ℚ) : ℝ) := by
  have hh := halfUlp_pos φ q
  have hc := sqrt_cell φ hq
  constructor
  · rw [← sq_real (x := sqrtInt φ q * halfUlp φ q) (by positivity)]
    refine Real.sqrt_le_sqrt ?_
    exact_mod_cast hc.lo
  · rw [← sq_real (x := (sqrtInt φ q + 1) * halfUlp φ q) (by positivity)]
    refine Real.sqrt_lt_sqrt (by positivity) ?_
    exact_mod_cast hc.hi

/-- Half a unit in the last place. -/
theorem sqrt_err (φ : Format) (hp : 1 ≤ φ.p) {q : ℚ} (hq : 0 < q) : |√(q : ℝ) - sqrtRd φ q| ≤ halfUlp φ q := by
  have hh := halfUlp_pos φ q
  have hc := sqrt_cell φ hq
  have h0 : (2 : ℚ) ≠ 0 := by norm_num
  obtain ⟨lo, hi⟩ := sqrt_cell_real (φ := φ) hq
  -- one of the two ends is a number of the format
  have grid : ∀ j : ℕ, j ≤ 2 ^ φ.p → Grid φ (2 * j * halfUlp φ q) := by
    intro j hj
    rcases hj.eq_or_lt with rfl | hj
    · have e : 2 * ((2 ^ φ.p : ℕ) : ℚ) * halfUlp φ q = 2 ^ (max (Int.log 2 q / 2) φ.emin + 1) := by
        unfold halfUlp
        push_cast
        rw [← zpow_natCast, mul_assoc, ← zpow_add₀ h0, mul_comm, ← zpow_add_one₀ h0]
        congr 1; ring
      rw [e]
      exact grid_pow φ hp _ (by have := hc.hE; omega)
    · refine ⟨j, max (Int.log 2 q / 2) φ.emin - φ.p + 1, hj, by have := hc.hE; omega, ?_⟩
      rw [abs_of_nonneg (by positivity), zpow_add_one₀ h0]
      unfold halfUlp
      ring
  have hk := hc.hk
  rw [pow_succ] at hk
  rcases Nat.even_or_odd' (sqrtInt φ q) with ⟨j, hj | hj⟩
  · refine (sqrt_nearest φ hp hq (grid j (by omega))).trans ?_
    rw [hj] at lo hi
    push_cast at lo hi
    push_cast
    rw [abs_le]
    constructor <;> nlinarith
  · refine (sqrt_nearest φ hp hq (grid (j + 1) (by omega))).trans ?_
    rw [hj] at lo hi
    push_cast at lo hi
    push_cast
    rw [abs_le]
    constructor <;> nlinarith

theorem sqrt_lt_top {φ : Format} {q : ℚ} (h : φ.Ok) (hq : 0 < q) (ht : q < 2 ^ (φ.emax + 1)) : sqrtRd φ q < 2 ^ (φ.emax + 1) := by
  have hc := sqrt_cell φ hq
  have hh := halfUlp_pos φ q
  have h0 : (2 : ℚ) ≠ 0 := by norm_num
  have hp := h.hp
  have he : max (Int.log 2 q / 2) φ.emin < φ.emax := by
    have h1 := h.hmin
    have h2 := h.hmax
    refine max_lt ?_ (by omega)
    have := (Int.lt_zpow_iff_log_lt (b := 2) (by norm_num) hq).1 (by push_cast; exact ht)
    omega
  refine lt_of_le_of_lt (rd_le φ (by omega) (grid_pow φ (by omega) (max (Int.log 2 q / 2) φ.emin + 1) (by omega)) ?_)
    (zpow_lt_zpow_right₀ (by norm_num) (by omega))
  have : sqrtMag φ q ≤ (sqrtInt φ q + 1) * halfUlp φ q := by
    rcases sqrtMag_mem φ (q := q) with ⟨-, d⟩ | ⟨-, -, c2⟩
    · rw [d]; nlinarith
    · exact c2.le
  refine this.trans ?_
  have : ((sqrtInt φ q : ℚ) + 1) ≤ 2 ^ (φ.p + 1) := by exact_mod_cast hc.hk
  refine (mul_le_mul_of_nonneg_right this hh.le).trans (le_of_eq ?_)
  unfold halfUlp
  rw [← zpow_natCast, ← zpow_add₀ h0]
  congr 1; push_cast; ring

theorem sqrt_fin {φ : Format} (h : φ.Ok) {q : ℚ} (hq : 0 < q) (ht : q < 2 ^ (φ.emax + 1)) : sqrt φ (.fin false q) = .fin false (sqrtRd φ q) := by
  show (if q = 0 then Val.fin false 0 else if false = true then Val.nan else round φ false (sqrtMag φ q)) = _
  rw [if_neg hq.ne', if_neg (by decide)]
  exact round_rd φ false (sqrtMag_pos φ hq).le (sqrt_lt_top h hq ht)

/-- A root in a format of more than twice the bits, rounded again. -/
theorem sqrt_double {φ ψ : Format} (hp : 1 ≤ φ.p) (hψ : 2 * φ.p + 3 ≤ ψ.p) {q : ℚ} (hq : 0 < q) (hg : Grid φ q) (he : φ.emin ≤ Int.log 2 q / 2)
    (hm : ψ.emin ≤ φ.emin) : rd φ (sqrtRd ψ q) = sqrtRd φ q := by
  have h0 : (2 : ℚ) ≠ 0 := by norm_num
  have hc := sqrt_cell φ hq
  have hh := halfUlp_pos φ q
  obtain ⟨b1, b2⟩ := sqrt_bounds hq
  have eh : halfUlp φ q = 2 ^ (Int.log 2 q / 2 - φ.p) := by unfold halfUlp; rw [max_eq_left he]
  have eψ : halfUlp ψ q = 2 ^ (Int.log 2 q / 2 - ψ.p) := by unfold halfUlp; rw [max_eq_left (by omega)]
  set e := Int.log 2 q / 2 with hedef
  rcases sqrtMag_mem φ (q := q) with ⟨c, d⟩ | ⟨c, -, -⟩
  · -- the root is a multiple of half the spacing
    have g : Grid ψ (sqrtInt φ q * halfUlp φ q) := by
      refine ⟨sqrtInt φ q, e - φ.p, ?_, by omega, ?_⟩
      · have := hc.hk
        have : 2 ^ (φ.p + 1) ≤ 2 ^ ψ.p := Nat.pow_le_pow_right (by norm_num) (by omega)
        omega
      · rw [abs_of_nonneg (by positivity), eh]
    have n := sqrt_nearest ψ (by omega) hq g
    have r : √(q : ℝ) = ((sqrtInt φ q * halfUlp φ q : ℚ) : ℝ) := by
      rw [← sq_real (x := sqrtInt φ q * halfUlp φ q) (by positivity), c]
    rw [r, sub_self, abs_zero] at n
    have := abs_nonpos_iff.1 n
    have : sqrtRd ψ q = sqrtInt φ q * halfUlp φ q := by
      have : ((sqrtInt φ q * halfUlp φ q : ℚ) : ℝ) = sqrtRd ψ q := by linarith
      exact_mod_cast this.symm
    rw [this, sqrtRd, d]
  · -- the root and the root in the other format lie in the same cell
    obtain ⟨N, hN⟩ : ∃ N : ℕ, q = N * halfUlp φ q ^ 2 := by
      obtain ⟨m, t, m1, m2, m3⟩ := hg
      rw [abs_of_pos hq] at m3
      have : (2 : ℚ) ^ (2 * e) < 2 ^ (φ.p + t) := by
        refine b1.trans_lt ?_
        rw [m3, zpow_add₀ h0, zpow_natCast]
        exact mul_lt_mul_of_pos_right (by exact_mod_cast m1) (by positivity)
      have := (zpow_lt_zpow_iff_right₀ (by norm_num : (1 : ℚ) < 2)).1 this
      obtain ⟨j, hj⟩ := Int.eq_ofNat_of_zero_le (show 0 ≤ t - 2 * (e - φ.p) by omega)
      refine ⟨m * 2 ^ j, ?_⟩
      rw [eh, m3]
      push_cast
      rw [mul_assoc, ← zpow_natCast, ← zpow_natCast, ← zpow_mul, ← zpow_add₀ h0]
      congr 2
      push_cast
      omega
    have k2 : ((sqrtInt φ q : ℕ) : ℝ) + 1 ≤ 2 ^ (φ.p + 1) := by exact_mod_cast hc.hk
    have hhR : (0 : ℝ) < (halfUlp φ q : ℚ) := by exact_mod_cast hh
    have lo : sqrtInt φ q ^ 2 + 1 ≤ N := by
      have a := lt_of_le_of_ne hc.lo c
      have a' : (sqrtInt φ q * halfUlp φ q) ^ 2 < N * halfUlp φ q ^ 2 := by rw [← hN]; exact a
      rw [mul_pow] at a'
      have := lt_of_mul_lt_mul_right a' (by positivity)
      have : sqrtInt φ q ^ 2 < N := by exact_mod_cast this
      omega
    have hi : N + 1 ≤ (sqrtInt φ q + 1) ^ 2 := by
      have a' : N * halfUlp φ q ^ 2 < ((sqrtInt φ q + 1) * halfUlp φ q) ^ 2 := by rw [← hN]; exact hc.hi
      rw [mul_pow] at a'
      have := lt_of_mul_lt_mul_right a' (by positivity)
      have : N < (sqrtInt φ q + 1) ^ 2 := by exact_mod_cast this
      omega
    have lo' : (sqrtInt φ q : ℝ) ^ 2 + 1 ≤ N := by exact_mod_cast lo
    have hi' : (N : ℝ) + 1 ≤ ((sqrtInt φ q : ℝ) + 1) ^ 2 := by exact_mod_cast hi
    have rq : √(q : ℝ) = √(N : ℝ) * (halfUlp φ q : ℚ) := by
      conv_lhs => rw [hN]
      push_cast
      rw [Real.sqrt_mul (by positivity), Real.sqrt_sq hhR.le]
    have s0 := Real.sqrt_nonneg (N : ℝ)
    have s2 := Real.sq_sqrt (show (0 : ℝ) ≤ N by positivity)
    set s := √(N : ℝ)
    set k : ℝ := ((sqrtInt φ q : ℕ) : ℝ) with hk
    have k0 : 0 ≤ k := by rw [hk]; positivity
    set P : ℝ := 2 ^ (φ.p + 1) with hP
    have P0 : 0 < P := by positivity
    have su : s < k + 1 := by nlinarith
    have sl : k < s := by nlinarith
    have g1 : k + 1 / (2 * P) < s := by
      rw [← sub_pos]
      have : 1 ≤ (s - k) * (s + k) := by nlinarith
      have : 1 < (s - k) * (2 * P) := by nlinarith
      have : 1 / (2 * P) < s - k := by rw [div_lt_iff₀ (by positivity)]; exact this
      linarith
    have g2 : s + 1 / (2 * P) < k + 1 := by
      have : 1 ≤ (k + 1 - s) * (k + 1 + s) := by nlinarith
      have : 1 < (k + 1 - s) * (2 * P) := by nlinarith
      have : 1 / (2 * P) < k + 1 - s := by rw [div_lt_iff₀ (by positivity)]; exact this
      linarith
    have er := sqrt_err ψ (by omega) hq
    have el : ((halfUlp ψ q : ℚ) : ℝ) ≤ 1 / (2 * P) * (halfUlp φ q : ℚ) := by
      rw [eh, eψ, hP]
      push_cast
      have : (1 : ℝ) / (2 * 2 ^ (φ.p + 1)) = 2 ^ (-(φ.p : ℤ) - 2) := by
        rw [one_div, show (2 : ℝ) * 2 ^ (φ.p + 1) = 2 ^ ((φ.p : ℤ) + 2) by
          rw [show ((φ.p : ℤ) + 2) = ((φ.p + 2 : ℕ) : ℤ) by push_cast; rfl, zpow_natCast]; ring, ← zpow_neg]
        congr 1; ring
      rw [this, ← zpow_add₀ (by norm_num)]
      exact zpow_le_zpow_right₀ (by norm_num) (by omega)
    rw [rq, abs_le] at er
    refine rd_eq_sqrt φ hq c ?_ ?_
    · have : ((sqrtInt φ q * halfUlp φ q : ℚ) : ℝ) < (sqrtRd ψ q : ℚ) := by
        push_cast
        rw [← hk]
        nlinarith
      exact_mod_cast this
    · have : ((sqrtRd ψ q : ℚ) : ℝ) < (((sqrtInt φ q + 1) * halfUlp φ q : ℚ) : ℝ) := by
        push_cast
        rw [← hk]
        nlinarith
      exact_mod_cast this

/-- Conversion of a float64 to a float32. -/
def narrow : Val → Val
  | .fin s q => round binary32 s q
  | v => v

/-- **The square root of a float32 by way of float64**, `float32(math.Sqrt(float64(x)))`, is the square root in float32. -/
theorem narrow_sqrt {v : Val} (hv : Repr32 v) : narrow (sqrt binary64 v) = sqrt binary32 v := by
  rcases v with _ | s | ⟨s, q⟩
  · rfl
  · cases s <;> rfl
  · obtain ⟨h0, h1, h2⟩ := hv
    rcases h0.eq_or_lt with rfl | hq
    · simp [sqrt, narrow, round]
    · cases s
      · have t32 : q < 2 ^ (binary32.emax + 1) := by
          refine h1.trans_le ?_
          rw [← zpow_natCast]
          exact zpow_le_zpow_right₀ (by norm_num) (by decide)
        have t64 : q < 2 ^ (binary64.emax + 1) := t32.trans_le (zpow_le_zpow_right₀ (by norm_num) (by decide))
        rw [sqrt_fin binary64_ok hq t64, sqrt_fin binary32_ok hq t32]
        have e : rd binary32 (sqrtRd binary64 q) = sqrtRd binary32 q := by
          refine sqrt_double (by decide) (by decide) hq h2 ?_ (by decide)
          obtain ⟨m, e, m1, m2, m3⟩ := h2
          rw [abs_of_pos hq] at m3
          have : (2 : ℚ) ^ (-149 : ℤ) ≤ q := by
            have m0 : 1 ≤ m := by
              rcases Nat.eq_zero_or_pos m with h | h
              · rw [h] at m3; simp at m3; exact absurd m3 hq.ne'
              · exact h
            have a : (2 : ℚ) ^ (-149 : ℤ) ≤ 2 ^ e := zpow_le_zpow_right₀ (by norm_num) (by
              have : binary32.emin - ((binary32.p : ℤ) - 1) = -149 := by decide
              omega)
            have b : (1 : ℚ) ≤ m := by exact_mod_cast m0
            rw [m3]
            have : (0 : ℚ) < 2 ^ e := by positivity
            nlinarith
          have := (Int.zpow_le_iff_le_log (b := 2) (by norm_num) hq).1 (by push_cast; exact this)
          show (-126 : ℤ) ≤ _
          omega
        show round binary32 false (sqrtRd binary64 q) = _
        rw [round_rd binary32 false (show 0 ≤ sqrtRd binary64 q from rd_nonneg _ (sqrtMag_pos _ hq).le) (by rw [e]; exact sqrt_lt_top binary32_ok hq t32), e]
      · simp [sqrt, narrow, hq.ne']

/-- The square root of a float32 is a float32. -/
theorem repr32_sqrt {v : Val} (hv : Repr32 v) : Repr32 (sqrt binary32 v) := by
  rcases v with _ | s | ⟨s, q⟩
  · exact hv
  · cases s <;> trivial
  · obtain ⟨h0, h1, h2⟩ := hv
    have top : (2 : ℚ) ^ (binary32.emax + 1) = 2 ^ 128 := by
      rw [← zpow_natCast]; rfl
    rcases h0.eq_or_lt with rfl | hq
    · simp only [sqrt, if_true]
      exact ⟨le_rfl, by positivity, grid_zero _⟩
    · cases s
      · rw [sqrt_fin binary32_ok hq (by rw [top]; exact h1)]
        exact ⟨rd_nonneg _ (sqrtMag_pos _ hq).le, by rw [← top]; exact sqrt_lt_top binary32_ok hq (by rw [top]; exact h1), grid_rd _ (by decide) _⟩
      · simp only [sqrt, hq.ne', if_false, if_true]
        trivial

/-- The rounding error of the square root in float32. -/
theorem sqrt32 {v : Val} (hv : Finite v) (h0 : 0 ≤ val v) (ht : val v < 2 ^ 128) : Close (sqrt binary32 v) √(val v) := by
  obtain ⟨s, q, rfl, hq⟩ := hv
  rcases hq.eq_or_lt with rfl | hq
  · have : val (.fin s 0) = 0 := by rw [val_fin]; split <;> simp
    rw [this, Real.sqrt_zero]
    simp only [sqrt, if_true]
    exact close_zero s
  · cases s
    · rw [val_fin, if_neg (by decide)] at ht ⊢
      have ht' : q < 2 ^ (binary32.emax + 1) := by
        have : q < 2 ^ 128 := by exact_mod_cast ht
        rw [← zpow_natCast] at this
        exact this
      rw [sqrt_fin binary32_ok hq ht']
      refine ⟨⟨_, _, rfl, rd_nonneg _ (sqrtMag_pos _ hq).le⟩, ?_⟩
      rw [val_fin, if_neg (by decide), abs_sub_comm]
      refine (sqrt_err binary32 (by decide) hq).trans ?_
      rw [abs_of_nonneg (Real.sqrt_nonneg _)]
      have hs := Real.sqrt_nonneg (q : ℝ)
      unfold halfUlp
      rcases le_total (Int.log 2 q / 2) binary32.emin with c | c
      · rw [max_eq_right c]
        have : ((2 : ℚ) ^ (binary32.emin - binary32.p) : ℚ) ≤ 1e-45 := by
          simp only [binary32]; norm_num [zpow_neg]
        have : (((2 : ℚ) ^ (binary32.emin - binary32.p) : ℚ) : ℝ) ≤ 1e-45 := by
          have h : (((2 : ℚ) ^ (binary32.emin - binary32.p) : ℚ) : ℝ) ≤ ((1e-45 : ℚ) : ℝ) := by exact_mod_cast this
          norm_num at h ⊢
          exact h
        linarith
      · rw [max_eq_left c]
        obtain ⟨b1, -⟩ := sqrt_bounds hq
        have : ((2 : ℝ) ^ (Int.log 2 q / 2)) ≤ √(q : ℝ) := by
          apply Real.le_sqrt_of_sq_le
          rw [← zpow_natCast, ← zpow_mul, mul_comm]
          have : (((2 : ℚ) ^ (2 * (Int.log 2 q / 2)) : ℚ) : ℝ) ≤ q := by exact_mod_cast b1
          push_cast at this
          exact this
        push_cast
        rw [zpow_sub₀ (by norm_num)]
        have e : ((2 : ℝ) ^ ((binary32.p : ℕ) : ℤ))⁻¹ ≤ 6e-8 := by
          simp only [binary32]; norm_num
        rw [div_eq_mul_inv]
        have p0 : (0 : ℝ) < 2 ^ (Int.log 2 q / 2) := by positivity
        have := mul_le_mul this e (by positivity) hs
        linarith
    · rw [val_fin, if_pos rfl] at h0
      have : (0 : ℝ) < q := by exact_mod_cast hq
      linarith

end Verif.Fp
