import Verif.Asm.MaxModel
import Verif.Asm.ScaleProps
import Mathlib.Order.WithBot
import Mathlib.Algebra.Order.Ring.Rat

/-!
# Properties C26 and C27: maximum and minimum of a slice
-/

namespace Verif.Asm
open Verif.Fp
variable {F K : Type}

/-! ## Specification: position on the extended number line -/

/-- The position of a float on the extended line; the two zeros coincide, NaN has no position (its
value here is never used). -/
def key : Val → WithBot (WithTop ℚ)
  | .nan => ⊥
  | .inf true => ⊥
  | .inf false => ((⊤ : WithTop ℚ) : WithBot (WithTop ℚ))
  | .fin s q => (((Val.fin s q).toRat : WithTop ℚ) : WithBot (WithTop ℚ))

theorem lt_iff (a b : Val) : lt a b ↔ a ≠ .nan ∧ b ≠ .nan ∧ key a < key b := by
  rcases a with _ | s | ⟨s, q⟩ <;> rcases b with _ | t | ⟨t, r⟩ <;> simp only [lt, key]
  · simp
  · simp
  · simp
  · simp
  · cases s <;> cases t <;> simp
  · cases s <;> simp
  · simp
  · cases t
    · simp only [ne_eq, reduceCtorEq, not_false_eq_true, true_and, true_iff]
      exact WithBot.coe_lt_coe.2 (WithTop.coe_lt_top _)
    · simp
  · simp

/-- `a > b` of floats. -/
def gtF (a b : Val) : Bool := decide (lt b a)
/-- `a < b` of floats. -/
def ltF (a b : Val) : Bool := decide (lt a b)

theorem gtF_iff (a b : Val) : gtF a b = true ↔ a ≠ .nan ∧ b ≠ .nan ∧ key b < key a := by
  rw [gtF, decide_eq_true_eq, lt_iff]; tauto

theorem ltF_iff (a b : Val) : ltF a b = true ↔
    a ≠ .nan ∧ b ≠ .nan ∧ OrderDual.toDual (key b) < OrderDual.toDual (key a) := by
  rw [ltF, decide_eq_true_eq, lt_iff, OrderDual.toDual_lt_toDual]

/-! ## The extreme of a set of positions -/

/-- `x` is an extreme (largest key) of `init` and the good values among `im i`, `i ∈ S`. -/
structure IsExt [LinearOrder K] (good : F → Prop) (key : F → K) (init : F) (im : Nat → F) (S : Nat → Prop)
    (x : F) : Prop where
  isGood : good x
  ge_init : key init ≤ key x
  ge : ∀ i, S i → good (im i) → key (im i) ≤ key x
  mem : x = init ∨ ∃ i, S i ∧ x = im i

variable [LinearOrder K] {good : F → Prop} {key' : F → K} {gt : F → F → Bool} {init : F} {im : Nat → F}

theorem IsExt.unique {S : Nat → Prop} {x y : F} (hx : IsExt good key' init im S x)
    (hy : IsExt good key' init im S y) : key' x = key' y := by
  apply le_antisymm
  · rcases hx.mem with h | ⟨i, hi, h⟩
    · rw [h]; exact hy.ge_init
    · rw [h]; exact hy.ge i hi (h ▸ hx.isGood)
  · rcases hy.mem with h | ⟨i, hi, h⟩
    · rw [h]; exact hx.ge_init
    · rw [h]; exact hx.ge i hi (h ▸ hy.isGood)

theorem IsExt.base (h : good init) : IsExt good key' init im (fun _ => False) init :=
  ⟨h, le_refl _, fun _ h => h.elim, Or.inl rfl⟩

theorem IsExt.congr {S T : Nat → Prop} {x : F} (h : IsExt good key' init im S x) (e : ∀ i, S i ↔ T i) :
    IsExt good key' init im T x :=
  ⟨h.isGood, h.ge_init, fun i hi => h.ge i ((e i).2 hi), h.mem.imp_right fun ⟨i, hi, hx⟩ => ⟨i, (e i).1 hi, hx⟩⟩

theorem IsExt.max {S T : Nat → Prop} {x y : F}
    (hgt : ∀ a b, gt a b = true ↔ good a ∧ good b ∧ key' b < key' a)
    (hx : IsExt good key' init im S x) (hy : IsExt good key' init im T y) :
    IsExt good key' init im (fun i => S i ∨ T i) (maxps gt x y) := by
  unfold maxps
  by_cases h : gt x y = true
  · rw [if_pos h]
    have hk := ((hgt x y).1 h).2.2
    refine ⟨hx.isGood, hx.ge_init, fun i hi hg => ?_, hx.mem.imp_right fun ⟨i, hi, e⟩ => ⟨i, Or.inl hi, e⟩⟩
    rcases hi with hi | hi
    · exact hx.ge i hi hg
    · exact (hy.ge i hi hg).trans hk.le
  · rw [if_neg h]
    have hk : key' x ≤ key' y := not_lt.1 fun hlt => h ((hgt x y).2 ⟨hx.isGood, hy.isGood, hlt⟩)
    refine ⟨hy.isGood, hy.ge_init, fun i hi hg => ?_, hy.mem.imp_right fun ⟨i, hi, e⟩ => ⟨i, Or.inr hi, e⟩⟩
    rcases hi with hi | hi
    · exact (hx.ge i hi hg).trans hk
    · exact hy.ge i hi hg

theorem IsExt.single {S : Nat → Prop} {x : F} {j : Nat}
    (hgt : ∀ a b, gt a b = true ↔ good a ∧ good b ∧ key' b < key' a)
    (hx : IsExt good key' init im S x) (hg : good (im j)) :
    IsExt good key' init im (fun i => S i ∨ i = j) (maxps gt x (im j)) := by
  unfold maxps
  by_cases h : gt x (im j) = true
  · rw [if_pos h]
    have hk := ((hgt _ _).1 h).2.2
    refine ⟨hx.isGood, hx.ge_init, fun i hi hg => ?_, hx.mem.imp_right fun ⟨i, hi, e⟩ => ⟨i, Or.inl hi, e⟩⟩
    rcases hi with hi | rfl
    · exact hx.ge i hi hg
    · exact hk.le
  · rw [if_neg h]
    have hk : key' x ≤ key' (im j) := not_lt.1 fun hlt => h ((hgt _ _).2 ⟨hx.isGood, hg, hlt⟩)
    refine ⟨hg, hx.ge_init.trans hk, fun i hi hg => ?_, Or.inr ⟨j, Or.inr rfl, rfl⟩⟩
    rcases hi with hi | rfl
    · exact (hx.ge i hi hg).trans hk
    · exact le_refl _

theorem IsExt.step {S : Nat → Prop} {x : F} {j : Nat}
    (hgt : ∀ a b, gt a b = true ↔ good a ∧ good b ∧ key' b < key' a)
    (hx : IsExt good key' init im S x) :
    IsExt good key' init im (fun i => S i ∨ i = j) (if gt (im j) x then im j else x) := by
  by_cases h : gt (im j) x = true
  · rw [if_pos h]
    obtain ⟨hg, _, hk⟩ := (hgt _ _).1 h
    refine ⟨hg, hx.ge_init.trans hk.le, fun i hi hg => ?_, Or.inr ⟨j, Or.inr rfl, rfl⟩⟩
    rcases hi with hi | rfl
    · exact (hx.ge i hi hg).trans hk.le
    · exact le_refl _
  · rw [if_neg h]
    refine ⟨hx.isGood, hx.ge_init, fun i hi hg => ?_, hx.mem.imp_right fun ⟨i, hi, e⟩ => ⟨i, Or.inl hi, e⟩⟩
    rcases hi with hi | rfl
    · exact hx.ge i hi hg
    · exact not_lt.1 fun hlt => h ((hgt _ _).2 ⟨hg, hx.isGood, hlt⟩)

/-! ## The portable code -/

theorem vExtreme_ofFn_succ (gt : F → F → Bool) (init : F) (im : Nat → F) (n : Nat) :
    vExtreme gt init ((List.range (n + 1)).map im)
      = if gt (im n) (vExtreme gt init ((List.range n).map im)) then im n
        else vExtreme gt init ((List.range n).map im) := by
  rw [List.range_succ, List.map_append, vExtreme, List.foldl_append]
  rfl

theorem vExtreme_isExt (hgt : ∀ a b, gt a b = true ↔ good a ∧ good b ∧ key' b < key' a)
    (hi : good init) (im : Nat → F) (n : Nat) :
    IsExt good key' init im (fun i => i < n) (vExtreme gt init ((List.range n).map im)) := by
  induction n with
  | zero => exact (IsExt.base hi).congr fun i => by simp
  | succ n ih =>
    rw [vExtreme_ofFn_succ]
    exact (ih.step hgt (j := n)).congr fun i => by omega

/-! ## The amd64 code -/

theorem vmScalar_isExt (hgt : ∀ a b, gt a b = true ↔ good a ∧ good b ∧ key' b < key' a)
    (im : Nat → F) (n c : Nat) (x : F) (hc : c ≤ n) (hx : IsExt good key' init im (fun i => i < c) x) :
    ∃ y, vmScalar gt im n x c = some y ∧ IsExt good key' init im (fun i => i < n) y := by
  unfold vmScalar
  by_cases h : c ≥ n
  · rw [if_pos h]; exact ⟨x, rfl, hx.congr fun i => by omega⟩
  · rw [if_neg h]
    let S : Nat → F × Nat := fun k => Nat.rec (x, c) (fun _ s => (if gt (im s.2) s.1 then im s.2 else s.1, s.2 + 1)) k
    have hS : ∀ k, (S k).2 = c + k := by
      intro k; induction k with
      | zero => rfl
      | succ k ih => show (S k).2 + 1 = _; rw [ih]; rfl
    have hE : ∀ k, IsExt good key' init im (fun i => i < c + k) (S k).1 := by
      intro k; induction k with
      | zero => exact hx
      | succ k ih =>
        show IsExt good key' init im _ (if gt (im (S k).2) (S k).1 then im (S k).2 else (S k).1)
        rw [hS]
        exact (ih.step hgt (j := c + k)).congr fun i => by omega
    have := doWhile_run (body := vmStep gt im) (cond := fun s => decide (s.2 < n)) S (n - c) (n + 1)
      (by omega) (by omega) (fun i _ => rfl)
      (fun i _ hi => by
        show decide ((S i).2 < n) = true
        rw [hS, decide_eq_true_eq]; omega)
      (by
        show decide ((S (n - c)).2 < n) = false
        rw [hS, decide_eq_false_iff_not]; omega)
    refine ⟨(S (n - c)).1, ?_, (hE (n - c)).congr fun i => by omega⟩
    show (doWhile _ _ _ (S 0)).map _ = _
    rw [this]; rfl

theorem vmBlocks_isExt (hgt : ∀ a b, gt a b = true ↔ good a ∧ good b ∧ key' b < key' a)
    (hi : good init) (im : Nat → F) (w n bx : Nat) (hw : 0 < w) (hb : 0 < bx) (hd : 4 * w ∣ bx) (hn : bx ≤ n)
    (hg : ∀ i, i < bx → good (im i)) :
    ∃ s, doWhile (vmBlock gt w im) (fun s => decide (s.dx < bx)) (n + 1) ⟨fun _ _ => init, 0⟩ = some s ∧
      s.dx = bx ∧ ∀ r k, r < 4 → k < w →
        IsExt good key' init im (fun i => i < bx ∧ i % (4 * w) = w * r + k) (s.acc r k) := by
  obtain ⟨q, rfl⟩ := hd
  let S : Nat → StM F := fun j => Nat.rec ⟨fun _ _ => init, 0⟩
    (fun _ s => ⟨fun r k => maxps gt (s.acc r k) (im (s.dx + w * r + k)), s.dx + 4 * w⟩) j
  have hS : ∀ j, (S j).dx = 4 * w * j := by
    intro j; induction j with
    | zero => rfl
    | succ j ih => show (S j).dx + 4 * w = _; rw [ih, Nat.mul_succ]
  have hlt : ∀ r k, r < 4 → k < w → w * r + k < 4 * w := by
    intro r k hr hk
    have : w * r ≤ w * 3 := Nat.mul_le_mul_left w (by omega)
    omega
  have hE : ∀ j, j ≤ q → ∀ r k, r < 4 → k < w →
      IsExt good key' init im (fun i => i < 4 * w * j ∧ i % (4 * w) = w * r + k) ((S j).acc r k) := by
    intro j; induction j with
    | zero => intro _ r k _ _; exact (IsExt.base hi).congr fun i => by simp
    | succ j ih =>
      intro hj r k hr hk
      show IsExt good key' init im _ (maxps gt ((S j).acc r k) (im ((S j).dx + w * r + k)))
      rw [hS]
      have hl := hlt r k hr hk
      have hle : 4 * w * j + 4 * w ≤ 4 * w * q := by
        rw [← Nat.mul_succ]; exact Nat.mul_le_mul_left _ hj
      refine ((ih (by omega) r k hr hk).single hgt (hg _ (by omega))).congr fun i => ?_
      have e2 : (4 * w * j + w * r + k) % (4 * w) = w * r + k := by
        rw [Nat.add_assoc, Nat.mul_add_mod, Nat.mod_eq_of_lt hl]
      constructor
      · rintro (⟨h1, h2⟩ | h)
        · exact ⟨by rw [Nat.mul_succ]; omega, h2⟩
        · subst h; exact ⟨by rw [Nat.mul_succ]; omega, e2⟩
      · rintro ⟨h1, h2⟩
        by_cases hc : i < 4 * w * j
        · exact Or.inl ⟨hc, h2⟩
        · right
          obtain ⟨d, rfl⟩ := Nat.exists_eq_add_of_le (Nat.not_lt.1 hc)
          rw [Nat.mul_succ] at h1
          rw [Nat.mul_add_mod, Nat.mod_eq_of_lt (by omega)] at h2
          omega
  have hq : 0 < q := by
    rcases Nat.eq_zero_or_pos q with h | h
    · subst h; omega
    · exact h
  have hqn : q ≤ 4 * w * q := Nat.le_mul_of_pos_left q (by omega)
  have := doWhile_run (body := vmBlock gt w im) (cond := fun s => decide (s.dx < 4 * w * q)) S q (n + 1)
    hq (by omega) (fun i _ => rfl)
    (fun i _ hiq => by
      show decide ((S i).dx < 4 * w * q) = true
      rw [hS, decide_eq_true_eq]
      exact Nat.mul_lt_mul_of_pos_left hiq (by omega))
    (by
      show decide ((S q).dx < 4 * w * q) = false
      rw [hS, decide_eq_false_iff_not]; omega)
  exact ⟨S q, this, hS q, hE q (Nat.le_refl q)⟩

theorem vmJoin_isExt (hgt : ∀ a b, gt a b = true ↔ good a ∧ good b ∧ key' b < key' a)
    (im : Nat → F) (w bx : Nat) (acc : Nat → Nat → F)
    (h : ∀ r k, r < 4 → k < w → IsExt good key' init im (fun i => i < bx ∧ i % (4 * w) = w * r + k) (acc r k))
    (k : Nat) (hk : k < w) :
    IsExt good key' init im (fun i => i < bx ∧ i % w = k) (vmJoin gt acc k) := by
  refine ((((h 0 k (by omega) hk).max hgt (h 1 k (by omega) hk)).max hgt (h 2 k (by omega) hk)).max hgt
    (h 3 k (by omega) hk)).congr fun i => ?_
  have h1 : i % (4 * w) % w = i % w := Nat.mod_mod_of_dvd i ⟨4, Nat.mul_comm _ _⟩
  have hr : i % (4 * w) < 4 * w := Nat.mod_lt _ (by omega)
  have h2 := Nat.div_add_mod (i % (4 * w)) w
  have hq : i % (4 * w) / w < 4 := by rw [Nat.div_lt_iff_lt_mul (by omega)]; exact hr
  rw [h1] at h2
  generalize i % (4 * w) / w = q at h2 hq
  constructor
  · rintro (((⟨hb, e⟩ | ⟨hb, e⟩) | ⟨hb, e⟩) | ⟨hb, e⟩) <;> refine ⟨hb, ?_⟩ <;>
      rw [← h1, e, Nat.mul_add_mod, Nat.mod_eq_of_lt hk]
  · rintro ⟨hb, e⟩
    subst e
    have : q = 0 ∨ q = 1 ∨ q = 2 ∨ q = 3 := by omega
    rcases this with rfl | rfl | rfl | rfl
    · exact Or.inl (Or.inl (Or.inl ⟨hb, h2.symm⟩))
    · exact Or.inl (Or.inl (Or.inr ⟨hb, h2.symm⟩))
    · exact Or.inl (Or.inr ⟨hb, h2.symm⟩)
    · exact Or.inr ⟨hb, h2.symm⟩

theorem vmFold4_isExt (hgt : ∀ a b, gt a b = true ↔ good a ∧ good b ∧ key' b < key' a)
    (im : Nat → F) (bx : Nat) (x : Nat → F)
    (h : ∀ k, k < 4 → IsExt good key' init im (fun i => i < bx ∧ i % 4 = k) (x k)) :
    IsExt good key' init im (fun i => i < bx) (vmFold4 gt x) :=
  (((h 0 (by omega)).max hgt (h 2 (by omega))).max hgt ((h 1 (by omega)).max hgt (h 3 (by omega)))).congr
    fun i => by omega

theorem vmHalf_isExt (hgt : ∀ a b, gt a b = true ↔ good a ∧ good b ∧ key' b < key' a)
    (im : Nat → F) (bx : Nat) (y : Nat → F)
    (h : ∀ k, k < 8 → IsExt good key' init im (fun i => i < bx ∧ i % 8 = k) (y k)) (k : Nat) (hk : k < 4) :
    IsExt good key' init im (fun i => i < bx ∧ i % 4 = k) (vmHalf gt y k) :=
  ((h k (by omega)).max hgt (h (k + 4) (by omega))).congr fun i => by omega

/-- How much of the slice is handled by the vector loop. -/
def vecPart (useAVX2 useSSE2 : Bool) (n : Nat) : Nat :=
  if useAVX2 then n - n % 32 else if useSSE2 then n - n % 16 else 0

theorem vExtremeAmd_isExt (hgt : ∀ a b, gt a b = true ↔ good a ∧ good b ∧ key' b < key' a)
    (hi : good init) (useAVX2 useSSE2 : Bool) (n : Nat) (im : Nat → F)
    (hg : ∀ i, i < vecPart useAVX2 useSSE2 n → good (im i)) :
    ∃ y, vExtremeAmd gt init useAVX2 useSSE2 n im = some y ∧ IsExt good key' init im (fun i => i < n) y := by
  have h0 : IsExt good key' init im (fun i => i < 0) init := (IsExt.base hi).congr fun i => by simp
  unfold vExtremeAmd
  cases useAVX2 with
  | true =>
    simp only [if_true]
    by_cases hb : 0 ≥ n - n % 32
    · rw [if_pos hb]; exact vmScalar_isExt hgt im n 0 init (by omega) h0
    · rw [if_neg hb]
      obtain ⟨s, hs, hdx, hE⟩ := vmBlocks_isExt hgt hi im 8 n (n - n % 32) (by omega) (by omega) (by omega)
        (by omega) hg
      rw [hs, Option.bind_some, hdx]
      exact vmScalar_isExt hgt im n _ _ (by omega)
        (vmFold4_isExt hgt im _ _ (vmHalf_isExt hgt im _ _ (vmJoin_isExt hgt im 8 _ _ hE)))
  | false =>
    cases useSSE2 with
    | true =>
      simp only [Bool.false_eq_true, if_true, if_false]
      by_cases hb : 0 ≥ n - n % 16
      · rw [if_pos hb]; exact vmScalar_isExt hgt im n 0 init (by omega) h0
      · rw [if_neg hb]
        obtain ⟨s, hs, hdx, hE⟩ := vmBlocks_isExt hgt hi im 4 n (n - n % 16) (by omega) (by omega) (by omega)
          (by omega) hg
        rw [hs, Option.bind_some, hdx]
        exact vmScalar_isExt hgt im n _ _ (by omega)
          (vmFold4_isExt hgt im _ _ (vmJoin_isExt hgt im 4 _ _ hE))
    | false =>
      simp only [Bool.false_eq_true, if_false]
      exact vmScalar_isExt hgt im n 0 init (by omega) h0

theorem vmScalar_portable (gt : F → F → Bool) (im : Nat → F) (init : F) (n c : Nat) (hc : c ≤ n) :
    vmScalar gt im n (vExtreme gt init ((List.range c).map im)) c
      = some (vExtreme gt init ((List.range n).map im)) := by
  unfold vmScalar
  by_cases h : c ≥ n
  · rw [if_pos h, show c = n by omega]
  · rw [if_neg h]
    have := doWhile_run (body := vmStep gt im) (cond := fun s => decide (s.2 < n))
      (fun k => (vExtreme gt init ((List.range (c + k)).map im), c + k)) (n - c) (n + 1)
      (by omega) (by omega)
      (fun i _ => by rw [← Nat.add_assoc, vExtreme_ofFn_succ]; rfl)
      (fun i _ hi => by
        show decide (c + i < n) = true
        rw [decide_eq_true_eq]; omega)
      (by
        show decide (c + (n - c) < n) = false
        rw [decide_eq_false_iff_not]; omega)
    simp only [Nat.add_zero] at this
    rw [this, show c + (n - c) = n by omega]; rfl

/-! ## Property theorems -/

/-- C26 (partial: NaN elements only in the scalar tail; the claim with NaNs anywhere is false, see
`C26_violated`).  For every length and feature setting the amd64 maximum is not NaN, is −∞ or an
element, is at least every non-NaN element, and compares equal to the portable result. -/
theorem C26_max_partial (useAVX2 useSSE2 : Bool) (n : Nat) (im : Nat → Val)
    (hg : ∀ i, i < vecPart useAVX2 useSSE2 n → im i ≠ .nan) :
    ∃ y, vExtremeAmd gtF (.inf true) useAVX2 useSSE2 n im = some y ∧ y ≠ .nan ∧
      (y = .inf true ∨ ∃ i, i < n ∧ y = im i) ∧ (∀ i, i < n → im i ≠ .nan → key (im i) ≤ key y) ∧
      key y = key (vExtreme gtF (.inf true) ((List.range n).map im)) := by
  obtain ⟨y, hy, hE⟩ := vExtremeAmd_isExt (init := .inf true) gtF_iff (by simp) useAVX2 useSSE2 n im hg
  exact ⟨y, hy, hE.isGood, hE.mem, hE.ge, hE.unique (vExtreme_isExt gtF_iff (by simp) im n)⟩

/-- C26 for the minimum (partial in the same way). -/
theorem C26_min_partial (useAVX2 useSSE2 : Bool) (n : Nat) (im : Nat → Val)
    (hg : ∀ i, i < vecPart useAVX2 useSSE2 n → im i ≠ .nan) :
    ∃ y, vExtremeAmd ltF (.inf false) useAVX2 useSSE2 n im = some y ∧ y ≠ .nan ∧
      (y = .inf false ∨ ∃ i, i < n ∧ y = im i) ∧ (∀ i, i < n → im i ≠ .nan → key y ≤ key (im i)) ∧
      key y = key (vExtreme ltF (.inf false) ((List.range n).map im)) := by
  obtain ⟨y, hy, hE⟩ := vExtremeAmd_isExt (init := .inf false) ltF_iff (by simp) useAVX2 useSSE2 n im hg
  exact ⟨y, hy, hE.isGood, hE.mem, hE.ge, hE.unique (vExtreme_isExt ltF_iff (by simp) im n)⟩

/-- Without vector features the amd64 code returns exactly the portable result, NaNs included. -/
theorem C26_no_features (gt : F → F → Bool) (init : F) (n : Nat) (im : Nat → F) :
    vExtremeAmd gt init false false n im = some (vExtreme gt init ((List.range n).map im)) :=
  vmScalar_portable gt im init n 0 (by omega)

/-- C26 is violated: a NaN in the vector part hides larger elements before it in its lane.  The
maximum 5 at index 0 is lost because of the NaN at index 16 (SSE2) or 32 (AVX2). -/
theorem C26_violated :
    (∃ im : Nat → Val, im 0 = .fin false 5 ∧
      vExtremeAmd gtF (.inf true) false true 32 im = some (.fin false 0) ∧
      vExtreme gtF (.inf true) ((List.range 32).map im) = .fin false 5) ∧
    (∃ im : Nat → Val, im 0 = .fin false 5 ∧
      vExtremeAmd gtF (.inf true) true true 64 im = some (.fin false 0) ∧
      vExtreme gtF (.inf true) ((List.range 64).map im) = .fin false 5) ∧
    (∃ im : Nat → Val, im 0 = .fin true 5 ∧
      vExtremeAmd ltF (.inf false) false true 32 im = some (.fin false 0) ∧
      vExtreme ltF (.inf false) ((List.range 32).map im) = .fin true 5) := by
  refine ⟨⟨fun i => if i = 0 then .fin false 5 else if i = 16 then .nan else .fin false 0, rfl, ?_, ?_⟩,
    ⟨fun i => if i = 0 then .fin false 5 else if i = 32 then .nan else .fin false 0, rfl, ?_, ?_⟩,
    ⟨fun i => if i = 0 then .fin true 5 else if i = 16 then .nan else .fin false 0, rfl, ?_, ?_⟩⟩ <;>
  decide +kernel

/-- The partial theorem's hypothesis allows NaNs in the tail. -/
example : (∀ i, i < vecPart false true 35 → (if i = 33 then Val.nan else .fin (i % 2 == 0) i) ≠ .nan) ∧
    vExtremeAmd gtF (.inf true) false true 35 (fun i => if i = 33 then .nan else .fin (i % 2 == 0) i)
      = some (.fin false 31) := by
  refine ⟨fun i hi => ?_, by decide +kernel⟩
  simp only [vecPart] at hi
  rw [if_neg (by simp at hi; omega)]
  simp

theorem list_as_fn (l : List Val) : ∃ im : Nat → Val, l = (List.range l.length).map im ∧
    ∀ i, i < l.length → im i ∈ l := by
  refine ⟨fun i => l.getD i .nan, ?_, ?_⟩
  · apply List.ext_getElem
    · simp
    · intro i h1 h2; simp [h1]
  · intro i hi; simp [hi]

theorem vExtreme_spec {gt : Val → Val → Bool} {key' : Val → K} (init : Val)
    (hgt : ∀ a b, gt a b = true ↔ a ≠ .nan ∧ b ≠ .nan ∧ key' b < key' a) (hi : init ≠ .nan) (l : List Val) :
    vExtreme gt init l ≠ .nan ∧ key' init ≤ key' (vExtreme gt init l) ∧
      (∀ v ∈ l, v ≠ .nan → key' v ≤ key' (vExtreme gt init l)) ∧
      (vExtreme gt init l = init ∨ vExtreme gt init l ∈ l) := by
  obtain ⟨im, hl, hm⟩ := list_as_fn l
  have h := vExtreme_isExt (good := fun v => v ≠ .nan) hgt hi im l.length
  rw [← hl] at h
  refine ⟨h.isGood, h.ge_init, ?_, ?_⟩
  · intro v hv hn
    rw [hl] at hv
    obtain ⟨i, hi, rfl⟩ := List.mem_map.1 hv
    exact h.ge i (by simpa using hi) hn
  · rcases h.mem with h | ⟨i, hi, h⟩
    · exact Or.inl h
    · exact Or.inr (h ▸ hm i hi)

/-- Magnitudes are nonnegative (true of every float the arithmetic produces). -/
def WF : Val → Prop
  | .fin _ q => 0 ≤ q
  | _ => True

/-- Floats that are not NaN and have the same position are identical, or zeros. -/
theorem key_inj {a b : Val} (ha : WF a) (hb : WF b) (na : a ≠ .nan) (nb : b ≠ .nan) (h : key a = key b) :
    a = b ∨ ∃ s t, a = .fin s 0 ∧ b = .fin t 0 := by
  rcases a with _ | s | ⟨s, q⟩
  · exact absurd rfl na
  · rcases b with _ | t | ⟨t, r⟩
    · exact absurd rfl nb
    · cases s <;> cases t <;> simp [key] at h ⊢
    · cases s
      · exact absurd h (WithBot.coe_lt_coe.2 (WithTop.coe_lt_top _)).ne'
      · simp [key] at h
  rcases b with _ | t | ⟨t, r⟩
  · exact absurd rfl nb
  · cases t
    · exact absurd h (WithBot.coe_lt_coe.2 (WithTop.coe_lt_top _)).ne
    · simp [key] at h
  · simp only [key, Val.toRat, WithBot.coe_inj, WithTop.coe_inj] at h
    simp only [WF] at ha hb
    cases s <;> cases t <;> simp at h
    · left; rw [h]
    · right
      have : q = 0 := by linarith
      have : r = 0 := by linarith
      exact ⟨_, _, by rw [‹q = 0›], by rw [‹r = 0›]⟩
    · right
      have : q = 0 := by linarith
      have : r = 0 := by linarith
      exact ⟨_, _, by rw [‹q = 0›], by rw [‹r = 0›]⟩
    · left; rw [h]

/-- C27 for the maximum (partial: a slice holding only NaNs gives −∞, see `C27_violated`).  The
result is not NaN, is an element unless all elements are NaN (in particular when there are none),
bounds every non-NaN element, and for a permuted slice is the same value except that a zero may
change its sign. -/
theorem C27_max_partial (l : List Val) :
    vExtreme gtF (.inf true) l ≠ .nan ∧
      (∀ v ∈ l, v ≠ .nan → key v ≤ key (vExtreme gtF (.inf true) l)) ∧
      (vExtreme gtF (.inf true) l ∈ l ∨ (vExtreme gtF (.inf true) l = .inf true ∧ ∀ v ∈ l, v = .nan)) ∧
      ∀ l' : List Val, l.Perm l' → (∀ v ∈ l, WF v) →
        vExtreme gtF (.inf true) l = vExtreme gtF (.inf true) l' ∨
          ∃ s t, vExtreme gtF (.inf true) l = .fin s 0 ∧ vExtreme gtF (.inf true) l' = .fin t 0 := by
  obtain ⟨h1, h2, h3, h4⟩ := vExtreme_spec (.inf true) gtF_iff (by simp) l
  refine ⟨h1, h3, ?_, ?_⟩
  · by_cases hm : vExtreme gtF (.inf true) l ∈ l
    · exact Or.inl hm
    · right
      have he := h4.resolve_right hm
      refine ⟨he, fun v hv => ?_⟩
      by_contra hn
      have := h3 v hv hn
      rw [he] at this hm
      have hv' : v = .inf true := by
        rcases v with _ | s | ⟨s, q⟩
        · exact absurd rfl hn
        · cases s <;> simp [key] at this ⊢
        · simp [key] at this
      exact hm (hv' ▸ hv)
  · intro l' hp hw
    obtain ⟨g1, g2, g3, g4⟩ := vExtreme_spec (.inf true) gtF_iff (by simp) l'
    have w1 : WF (vExtreme gtF (.inf true) l) := by
      rcases h4 with h | h
      · rw [h]; trivial
      · exact hw _ h
    have w2 : WF (vExtreme gtF (.inf true) l') := by
      rcases g4 with h | h
      · rw [h]; trivial
      · exact hw _ (hp.mem_iff.2 h)
    refine key_inj w1 w2 h1 g1 (le_antisymm ?_ ?_)
    · rcases h4 with h | h
      · rw [h]; exact g2
      · exact g3 _ (hp.mem_iff.1 h) h1
    · rcases g4 with h | h
      · rw [h]; exact h2
      · exact h3 _ (hp.mem_iff.2 h) g1

/-- C27 for the minimum (partial in the same way). -/
theorem C27_min_partial (l : List Val) :
    vExtreme ltF (.inf false) l ≠ .nan ∧
      (∀ v ∈ l, v ≠ .nan → key (vExtreme ltF (.inf false) l) ≤ key v) ∧
      (vExtreme ltF (.inf false) l ∈ l ∨ (vExtreme ltF (.inf false) l = .inf false ∧ ∀ v ∈ l, v = .nan)) ∧
      ∀ l' : List Val, l.Perm l' → (∀ v ∈ l, WF v) →
        vExtreme ltF (.inf false) l = vExtreme ltF (.inf false) l' ∨
          ∃ s t, vExtreme ltF (.inf false) l = .fin s 0 ∧ vExtreme ltF (.inf false) l' = .fin t 0 := by
  obtain ⟨h1, h2, h3, h4⟩ := vExtreme_spec (.inf false) ltF_iff (by simp) l
  refine ⟨h1, h3, ?_, ?_⟩
  · by_cases hm : vExtreme ltF (.inf false) l ∈ l
    · exact Or.inl hm
    · right
      have he := h4.resolve_right hm
      refine ⟨he, fun v hv => ?_⟩
      by_contra hn
      have h5 : key (vExtreme ltF (.inf false) l) ≤ key v := h3 v hv hn
      rw [he] at h5 hm
      have hv' : v = .inf false := by
        rcases v with _ | s | ⟨s, q⟩
        · exact absurd rfl hn
        · cases s <;> simp [key] at h5 ⊢
        · exact absurd h5 (not_le.2 (WithBot.coe_lt_coe.2 (WithTop.coe_lt_top _)))
      exact hm (hv' ▸ hv)
  · intro l' hp hw
    obtain ⟨g1, g2, g3, g4⟩ := vExtreme_spec (.inf false) ltF_iff (by simp) l'
    have w1 : WF (vExtreme ltF (.inf false) l) := by
      rcases h4 with h | h
      · rw [h]; trivial
      · exact hw _ h
    have w2 : WF (vExtreme ltF (.inf false) l') := by
      rcases g4 with h | h
      · rw [h]; trivial
      · exact hw _ (hp.mem_iff.2 h)
    refine key_inj w1 w2 h1 g1 (le_antisymm ?_ ?_)
    · rcases g4 with h | h
      · rw [h]; exact h2
      · exact h3 _ (hp.mem_iff.2 h) g1
    · rcases h4 with h | h
      · rw [h]; exact g2
      · exact g3 _ (hp.mem_iff.1 h) h1

/-- C27 as stated is violated: a nonempty slice of NaNs yields −∞, which is not an element, and the
sign of a zero result depends on the order. -/
theorem C27_violated :
    vExtreme gtF (.inf true) [.nan, .nan] = .inf true ∧
      vExtreme gtF (.inf true) [.fin false 0, .fin true 0] = .fin false 0 ∧
      vExtreme gtF (.inf true) [.fin true 0, .fin false 0] = .fin true 0 := by decide +kernel

/-- A slice with NaNs, and its permutation. -/
example : vExtreme gtF (.inf true) [.nan, .fin true 3, .fin false 2, .nan] = .fin false 2 ∧
    vExtreme gtF (.inf true) [.fin false 2, .nan, .nan, .fin true 3] = .fin false 2 ∧
    vExtreme ltF (.inf false) [.nan, .fin true 3, .fin false 2, .inf true] = .inf true := by decide +kernel

end Verif.Asm
