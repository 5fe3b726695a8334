import Verif.Arm.AtanModel
import Verif.Angle.FastProps

/-!
# Property C85: `FastAtan2` and `FastAtan2_2` on 32-bit ARM
-/

namespace Verif.Arm
open Verif.Fp

/-- Zero of either sign. -/
def IsZero (v : Val) : Prop := ∃ s, v = .fin s 0

/-! ## binary32 -/

/-- The constants of assembly and Go are the same float32 numbers. -/
theorem lit_eq (c : Const) : (ieeeOps Const.asm).lit c = (ieeeOps Const.go).lit c := by
  cases c <;> decide +kernel

theorem ops_eq : ieeeOps Const.asm = ieeeOps Const.go := by
  have : (ieeeOps Const.asm).lit = (ieeeOps Const.go).lit := funext lit_eq
  unfold ieeeOps at this ⊢
  simp only at this ⊢
  rw [this]

theorem add_comm32 (a b : Val) : Fp.add binary32 a b = Fp.add binary32 b a := by
  rcases a with _ | s | ⟨s, q⟩ <;> rcases b with _ | t | ⟨t, r⟩ <;> try rfl
  · simp only [Fp.add]
    by_cases h : s = t
    · rw [if_pos h, if_pos h.symm, h]
    · rw [if_neg h, if_neg (Ne.symm h)]
  · simp only [Fp.add, add_comm, Bool.and_comm]

theorem mul_comm32 (a b : Val) : Fp.mul binary32 a b = Fp.mul binary32 b a := by
  have h : ∀ s t : Bool, (s != t) = (t != s) := by decide
  rcases a with _ | s | ⟨s, q⟩ <;> rcases b with _ | t | ⟨t, r⟩ <;> try rfl
  all_goals simp only [Fp.mul, h s t, mul_comm]

theorem add_nan_left (a : Val) : Fp.add binary32 .nan a = .nan := rfl
theorem add_nan_right (a : Val) : Fp.add binary32 a .nan = .nan := by cases a <;> rfl
theorem sub_nan_left (a : Val) : Fp.sub binary32 .nan a = .nan := rfl
theorem sub_nan_right (a : Val) : Fp.sub binary32 a .nan = .nan := by cases a <;> rfl
theorem mul_nan_left (a : Val) : Fp.mul binary32 .nan a = .nan := rfl
theorem mul_nan_right (a : Val) : Fp.mul binary32 a .nan = .nan := by cases a <;> rfl
theorem div_nan_left (a : Val) : Fp.div binary32 .nan a = .nan := rfl
theorem div_nan_right (a : Val) : Fp.div binary32 a .nan = .nan := by cases a <;> rfl

theorem lit_zero : (ieeeOps Const.go).lit .zero = .fin false 0 := by decide +kernel
theorem lit_one : (ieeeOps Const.go).lit .one = .fin false 1 := by decide +kernel

/-- How a number compares with zero. -/
theorem cmp_zero (v : Val) : v = .nan ∧ Fp.cmp v (.fin false 0) = none ∨ v ≠ .nan ∧ ¬ IsZero v ∧ Fp.cmp v (.fin false 0) = some .lt ∨
    v ≠ .nan ∧ ¬ IsZero v ∧ Fp.cmp v (.fin false 0) = some .gt ∨ IsZero v ∧ Fp.cmp v (.fin false 0) = some .eq := by
  rcases v with _ | s | ⟨s, q⟩
  · exact .inl ⟨rfl, rfl⟩
  · have h : ¬ IsZero (.inf s) := by rintro ⟨t, ht⟩; cases ht
    cases s
    · exact .inr (.inr (.inl ⟨by simp, h, rfl⟩))
    · exact .inr (.inl ⟨by simp, h, rfl⟩)
  · have e : Fp.cmp (.fin s q) (.fin false 0) = if (Val.fin s q).toRat < 0 then some .lt else if 0 < (Val.fin s q).toRat then some .gt else some .eq := rfl
    have hz : IsZero (.fin s q) ↔ (Val.fin s q).toRat = 0 := by
      constructor
      · rintro ⟨t, ht⟩
        cases ht
        simp [Val.toRat]
      · intro h
        refine ⟨s, ?_⟩
        simp only [Val.toRat] at h
        split at h
        · rw [neg_eq_zero.1 h]
        · rw [h]
    rw [e, hz]
    rcases lt_trichotomy (Val.fin s q).toRat 0 with h | h | h
    · exact .inr (.inl ⟨by simp, h.ne, if_pos h⟩)
    · exact .inr (.inr (.inr ⟨h, by rw [h, if_neg (lt_irrefl _), if_neg (lt_irrefl _)]⟩))
    · exact .inr (.inr (.inl ⟨by simp, h.ne', by rw [if_neg h.le.not_gt, if_pos h]⟩))

/-- The magnitude is a magnitude: so is every float. -/
def Proper (v : Val) : Prop := ∀ s q, v = .fin s q → 0 ≤ q

/-- Both ways of taking the magnitude give the same sum with the small constant. -/
theorem absTiny (y : Val) (hy : Proper y) :
    Fp.add binary32 (if Fp.cmp y (.fin false 0) == some .lt then Fp.neg y else y) ((ieeeOps Const.go).lit .tiny) = Fp.add binary32 (Fp.abs y) ((ieeeOps Const.go).lit .tiny) := by
  have ht : (ieeeOps Const.go).lit .tiny = .fin false ((ieeeOps Const.go).lit .tiny).toRat := by decide +kernel
  rw [ht]
  rcases y with _ | s | ⟨s, q⟩
  · rfl
  · cases s <;> rfl
  · have hq := hy s q rfl
    have e : Fp.cmp (.fin s q) (.fin false 0) = if (Val.fin s q).toRat < 0 then some .lt else if 0 < (Val.fin s q).toRat then some .gt else some .eq := rfl
    rw [e]
    cases s
    · have : ¬ (Val.fin false q).toRat < 0 := by simp only [Val.toRat]; exact not_lt.2 hq
      rw [if_neg this]
      split <;> rfl
    · rcases hq.lt_or_eq with h | h
      · have : (Val.fin true q).toRat < 0 := by simp only [Val.toRat, if_true]; linarith
        rw [if_pos this]
        rfl
      · subst h
        simp only [Fp.add, Fp.abs, Val.toRat]
        rfl

/-- The assembly by the outcome of the comparisons. -/
theorem fastAtan2Arm_eq {V : Type} (o : AOps V) (y x : V) : fastAtan2Arm o y x =
    match o.cmp x (o.lit .zero) with
    | some .gt => fatan2Tail o y (o.add x (o.add (o.abs y) (o.lit .tiny))) (o.sub x (o.add (o.abs y) (o.lit .tiny))) (o.lit .quarterPi)
    | some .eq => (match o.cmp y (o.lit .zero) with
      | some .gt => o.lit .halfPi
      | some .eq => y
      | _ => o.lit .negHalfPi)
    | _ => fatan2Tail o y (o.sub (o.add (o.abs y) (o.lit .tiny)) x) (o.add x (o.add (o.abs y) (o.lit .tiny))) (o.lit .threeQuarterPi) := by
  unfold fastAtan2Arm
  dsimp only
  rcases o.cmp x (o.lit .zero) with _ | _ | _ | _
  · rfl
  · rfl
  · rcases o.cmp y (o.lit .zero) with _ | _ | _ | _ <;> rfl
  · rfl

/-- The end of both branches. -/
def tailGo {V : Type} (o : AOps V) (y a b c : V) : V :=
  match o.cmp y (o.lit .zero) with
  | some .lt => o.neg (o.add c (polyGo o (o.div b a)))
  | _ => o.add c (polyGo o (o.div b a))

theorem fastAtan2Go_eq {V : Type} (o : AOps V) (y x : V) (k : V) (hk : o.add (if o.lt y (o.lit .zero) then o.neg y else y) (o.lit .tiny) = k) :
    fastAtan2Go o y x = match o.cmp x (o.lit .zero) with
    | some .lt => tailGo o y (o.sub k x) (o.add x k) (o.lit .threeQuarterPi)
    | some .gt => tailGo o y (o.add x k) (o.sub x k) (o.lit .quarterPi)
    | _ => (match o.cmp y (o.lit .zero) with
      | some .lt => o.lit .negHalfPi
      | some .gt => o.lit .halfPi
      | _ => o.lit .zero) := by
  unfold fastAtan2Go
  simp only [hk]
  unfold AOps.lt AOps.gt tailGo
  rcases o.cmp x (o.lit .zero) with _ | _ | _ | _ <;> rcases o.cmp y (o.lit .zero) with _ | _ | _ | _ <;> rfl

theorem fatan2Tail_nan (y a b c : Val) (h : a = .nan ∨ b = .nan) : fatan2Tail (ieeeOps Const.go) y a b c = .nan := by
  have : Fp.div binary32 b a = .nan := by
    rcases h with rfl | rfl
    · exact div_nan_right _
    · rfl
  unfold fatan2Tail
  simp only [ieeeOps, this, mul_nan_right]
  rw [add_nan_left]
  split <;> rfl

theorem tail_eq (y a b c : Val) (h : y ≠ .nan ∨ a = .nan) : fatan2Tail (ieeeOps Const.go) y a b c = tailGo (ieeeOps Const.go) y a b c := by
  rcases eq_or_ne y .nan with rfl | hy
  · have ha : a = .nan := by simpa using h
    rw [fatan2Tail_nan _ _ _ _ (.inl ha), ha]
    unfold tailGo polyGo
    simp only [ieeeOps, div_nan_right, mul_nan_right]
    exact (add_nan_right c).symm
  · have e : ∀ u v : Val, (ieeeOps Const.go).add u v = (ieeeOps Const.go).add v u := add_comm32
    unfold fatan2Tail tailGo polyGo
    dsimp only
    rw [e _ c, lit_zero, show (ieeeOps Const.go).cmp = Fp.cmp from rfl]
    rcases cmp_zero y with ⟨h, -⟩ | ⟨-, -, h⟩ | ⟨-, -, h⟩ | ⟨-, h⟩
    · exact absurd h hy
    all_goals rw [h]; rfl

/-- C85, `FastAtan2` in binary32 arithmetic: assembly and portable code return the same, NaNs and signs of zeros
included, except when `x` is a NaN, and when `x` is a zero and `y` a NaN or the negative zero.  In these cases they
differ (partial: the claim is that they never differ). -/
theorem C85_fast_partial (y x : Val) (hy : Proper y) :
    fastAtan2Arm (ieeeOps Const.asm) y x = fastAtan2Go (ieeeOps Const.go) y x ↔ ¬ (x = .nan ∨ IsZero x ∧ (y = .nan ∨ y = .fin true 0)) := by
  have hH : (ieeeOps Const.go).lit .halfPi ≠ .nan := by decide +kernel
  have hN : (ieeeOps Const.go).lit .negHalfPi ≠ .nan := by decide +kernel
  have hN0 : (ieeeOps Const.go).lit .negHalfPi ≠ .fin false 0 := by decide +kernel
  rw [ops_eq, fastAtan2Arm_eq, fastAtan2Go_eq _ _ _ (Fp.add binary32 (Fp.abs y) ((ieeeOps Const.go).lit .tiny)) (by
    rw [AOps.lt, lit_zero]; exact absTiny y hy), lit_zero, show (ieeeOps Const.go).cmp = Fp.cmp from rfl]
  have hnan : y ≠ .nan ∨ Fp.add binary32 (Fp.abs y) ((ieeeOps Const.go).lit .tiny) = .nan := by
    rcases eq_or_ne y .nan with rfl | h
    · exact .inr rfl
    · exact .inl h
  rcases cmp_zero x with ⟨rfl, hx⟩ | ⟨hn, hz, hx⟩ | ⟨hn, hz, hx⟩ | ⟨hz, hx⟩
  · rw [hx]
    simp only [true_or, not_true, iff_false]
    intro h
    have := h.symm.trans (fatan2Tail_nan y _ _ _ (.inr rfl))
    revert this
    split
    · exact hN
    · exact hH
    · simp
  · rw [hx]
    simp only [hn, hz, false_or, false_and, not_false_eq_true, iff_true]
    refine tail_eq y _ _ _ (hnan.imp id fun h => ?_)
    exact (congrArg (fun a => Fp.sub binary32 a x) h).trans rfl
  · rw [hx]
    simp only [hn, hz, false_or, false_and, not_false_eq_true, iff_true]
    refine tail_eq y _ _ _ (hnan.imp id fun h => ?_)
    exact (congrArg (fun a => Fp.add binary32 x a) h).trans (add_nan_right x)
  · rw [hx]
    have hn : x ≠ .nan := by rintro rfl; obtain ⟨s, hs⟩ := hz; cases hs
    simp only [hn, hz, false_or, true_and]
    rcases cmp_zero y with ⟨rfl, h⟩ | ⟨h1, h2, h⟩ | ⟨h1, h2, h⟩ | ⟨h2, h⟩
    · rw [h]
      simp only [true_or, not_true, iff_false]
      exact hN0
    · rw [h]
      have : y ≠ .fin true 0 := fun e => h2 ⟨_, e⟩
      simp [h1, this]
    · rw [h]
      have : y ≠ .fin true 0 := fun e => h2 ⟨_, e⟩
      simp [h1, this]
    · rw [h]
      obtain ⟨s, rfl⟩ := h2
      cases s <;> simp

/-! ## `FastAtan2_2` -/

/-- The portable code and the assembly where the square of the quotient is below one. -/
def innerGo {V : Type} (o : AOps V) (y x z zz : V) : V :=
  match o.cmp x (o.lit .zero) with
  | some .lt => (match o.cmp y (o.lit .zero) with
    | some .lt => o.sub (o.div z (o.add (o.lit .one) (o.mul (o.lit .c28) zz))) (o.lit .pi)
    | _ => o.add (o.div z (o.add (o.lit .one) (o.mul (o.lit .c28) zz))) (o.lit .pi))
  | _ => o.div z (o.add (o.lit .one) (o.mul (o.lit .c28) zz))

def outerGo {V : Type} (o : AOps V) (y z zz : V) : V :=
  match o.cmp y (o.lit .zero) with
  | some .lt => o.sub (o.sub (o.lit .halfPi) (o.div z (o.add zz (o.lit .c28)))) (o.lit .pi)
  | _ => o.sub (o.lit .halfPi) (o.div z (o.add zz (o.lit .c28)))

theorem fastAtan2_2Go_eq {V : Type} (o : AOps V) (y x : V) : fastAtan2_2Go o y x =
    match o.cmp x (o.lit .zero) with
    | some .eq => (match o.cmp y (o.lit .zero) with
      | some .gt => o.lit .halfPi
      | some .lt => o.lit .negHalfPi
      | _ => o.lit .zero)
    | _ => (match o.cmp (o.mul (o.div y x) (o.div y x)) (o.lit .one) with
      | some .lt => innerGo o y x (o.div y x) (o.mul (o.div y x) (o.div y x))
      | _ => outerGo o y (o.div y x) (o.mul (o.div y x) (o.div y x))) := by
  unfold fastAtan2_2Go
  unfold AOps.lt AOps.gt AOps.eq innerGo outerGo
  dsimp only
  rcases o.cmp x (o.lit .zero) with _ | _ | _ | _ <;> rcases o.cmp y (o.lit .zero) with _ | _ | _ | _ <;> try rfl
  all_goals rcases o.cmp (o.mul (o.div y x) (o.div y x)) (o.lit .one) with _ | _ | _ | _ <;> rfl

def innerArm {V : Type} (o : AOps V) (y x z zz : V) : V :=
  match o.cmp x (o.lit .zero) with
  | some .gt => o.div z (o.add (o.mul zz (o.lit .c28)) (o.lit .one))
  | some .eq => o.div z (o.add (o.mul zz (o.lit .c28)) (o.lit .one))
  | _ => (match o.cmp y (o.lit .zero) with
    | some .gt => o.add (o.div z (o.add (o.mul zz (o.lit .c28)) (o.lit .one))) (o.lit .pi)
    | some .eq => o.add (o.div z (o.add (o.mul zz (o.lit .c28)) (o.lit .one))) (o.lit .pi)
    | _ => o.sub (o.div z (o.add (o.mul zz (o.lit .c28)) (o.lit .one))) (o.lit .pi))

def outerArm {V : Type} (o : AOps V) (y z zz : V) : V :=
  match o.cmp y (o.lit .zero) with
  | some .gt => o.sub (o.lit .halfPi) (o.div z (o.add zz (o.lit .c28)))
  | some .eq => o.sub (o.lit .halfPi) (o.div z (o.add zz (o.lit .c28)))
  | _ => o.sub (o.sub (o.lit .halfPi) (o.div z (o.add zz (o.lit .c28)))) (o.lit .pi)

theorem fastAtan2_2Arm_eq {V : Type} (o : AOps V) (y x : V) : fastAtan2_2Arm o y x =
    match o.cmp x (o.lit .zero) with
    | some .eq => (match o.cmp y (o.lit .zero) with
      | some .gt => o.lit .halfPi
      | some .eq => x
      | _ => o.lit .negHalfPi)
    | _ => (match o.cmp (o.mul (o.div y x) (o.div y x)) (o.lit .one) with
      | some .gt => outerArm o y (o.div y x) (o.mul (o.div y x) (o.div y x))
      | _ => innerArm o y x (o.div y x) (o.mul (o.div y x) (o.div y x))) := by
  unfold fastAtan2_2Arm
  unfold innerArm outerArm
  dsimp only
  rcases o.cmp x (o.lit .zero) with _ | _ | _ | _ <;> rcases o.cmp y (o.lit .zero) with _ | _ | _ | _ <;> try rfl
  all_goals rcases o.cmp (o.mul (o.div y x) (o.div y x)) (o.lit .one) with _ | _ | _ | _ <;> rfl

/-- C85, `FastAtan2_2` in binary32 arithmetic (partial: see `C85_violated_diagonal`, `C85_violated_zero`): assembly
and portable code return the same unless the square of the quotient rounds to one, or `x` is a zero and `y` a NaN,
or both are zeros and `x` is the negative one.  A NaN in `x` makes both return a NaN. -/
theorem C85_fast2_partial (y x : Val) (h0 : IsZero x → y ≠ .nan ∧ (IsZero y → x = .fin false 0))
    (h1 : Fp.cmp (Fp.mul binary32 (Fp.div binary32 y x) (Fp.div binary32 y x)) (.fin false 1) ≠ some .eq) :
    fastAtan2_2Arm (ieeeOps Const.asm) y x = fastAtan2_2Go (ieeeOps Const.go) y x := by
  have hmn : ∀ z, Fp.cmp (Fp.mul binary32 z z) (.fin false 1) = none → z = .nan := by
    intro z hz
    rcases z with _ | s | ⟨s, q⟩
    · rfl
    · cases s <;> simp [Fp.mul, Fp.cmp, Fp.lt] at hz
    · exfalso
      simp only [Fp.mul, Fp.round] at hz
      split at hz
      · revert hz; simp only [Fp.cmp]; split <;> (try split) <;> simp
      · split at hz <;> revert hz <;> simp only [Fp.cmp] <;> split <;> (try split) <;> simp
  have hinN : ∀ zz, innerArm (ieeeOps Const.go) y x .nan zz = .nan := by
    intro zz
    unfold innerArm
    simp only [show (ieeeOps Const.go).div .nan = fun _ => Val.nan from funext fun a => rfl]
    split
    · rfl
    · rfl
    · split <;> rfl
  have houtN : ∀ zz, outerGo (ieeeOps Const.go) y .nan zz = .nan := by
    intro zz
    unfold outerGo
    simp only [show (ieeeOps Const.go).div .nan = fun _ => Val.nan from funext fun a => rfl]
    have : (ieeeOps Const.go).sub ((ieeeOps Const.go).lit .halfPi) .nan = .nan := sub_nan_right _
    split <;> rw [this] <;> rfl
  have comm : ∀ zz, (ieeeOps Const.go).add ((ieeeOps Const.go).mul zz ((ieeeOps Const.go).lit .c28)) ((ieeeOps Const.go).lit .one) =
      (ieeeOps Const.go).add ((ieeeOps Const.go).lit .one) ((ieeeOps Const.go).mul ((ieeeOps Const.go).lit .c28) zz) := by
    intro zz
    rw [show (ieeeOps Const.go).mul zz ((ieeeOps Const.go).lit .c28) = _ from mul_comm32 _ _]
    exact add_comm32 _ _
  have main : ¬ IsZero x → (match Fp.cmp (Fp.mul binary32 (Fp.div binary32 y x) (Fp.div binary32 y x)) (.fin false 1) with
      | some .gt => outerArm (ieeeOps Const.go) y (Fp.div binary32 y x) (Fp.mul binary32 (Fp.div binary32 y x) (Fp.div binary32 y x))
      | _ => innerArm (ieeeOps Const.go) y x (Fp.div binary32 y x) (Fp.mul binary32 (Fp.div binary32 y x) (Fp.div binary32 y x))) =
      (match Fp.cmp (Fp.mul binary32 (Fp.div binary32 y x) (Fp.div binary32 y x)) (.fin false 1) with
      | some .lt => innerGo (ieeeOps Const.go) y x (Fp.div binary32 y x) (Fp.mul binary32 (Fp.div binary32 y x) (Fp.div binary32 y x))
      | _ => outerGo (ieeeOps Const.go) y (Fp.div binary32 y x) (Fp.mul binary32 (Fp.div binary32 y x) (Fp.div binary32 y x))) := by
    intro hz
    rcases hc : Fp.cmp (Fp.mul binary32 (Fp.div binary32 y x) (Fp.div binary32 y x)) (.fin false 1) with _ | _ | _ | _
    · rw [hmn _ hc, hinN, houtN]
    · have hq : Fp.div binary32 y x ≠ .nan := by intro e; rw [e] at hc; cases hc
      have hxn : x ≠ .nan := by rintro rfl; exact hq (div_nan_right y)
      have hyn : y ≠ .nan := by rintro rfl; exact hq (div_nan_left x)
      unfold innerArm innerGo
      rw [comm, lit_zero, show (ieeeOps Const.go).cmp = Fp.cmp from rfl]
      rcases cmp_zero x with ⟨h, -⟩ | ⟨-, -, h⟩ | ⟨-, -, h⟩ | ⟨h, -⟩
      · exact absurd h hxn
      · rw [h]
        rcases cmp_zero y with ⟨h, -⟩ | ⟨-, -, h⟩ | ⟨-, -, h⟩ | ⟨-, h⟩
        · exact absurd h hyn
        all_goals rw [h]
      · rw [h]
      · exact absurd h hz
    · exact absurd hc h1
    · have hq : Fp.div binary32 y x ≠ .nan := by intro e; rw [e] at hc; cases hc
      have hyn : y ≠ .nan := by rintro rfl; exact hq (div_nan_left x)
      unfold outerArm outerGo
      rw [lit_zero, show (ieeeOps Const.go).cmp = Fp.cmp from rfl]
      rcases cmp_zero y with ⟨h, -⟩ | ⟨-, -, h⟩ | ⟨-, -, h⟩ | ⟨-, h⟩
      · exact absurd h hyn
      all_goals rw [h]
  rw [ops_eq, fastAtan2_2Arm_eq, fastAtan2_2Go_eq, lit_zero, lit_one, show (ieeeOps Const.go).cmp = Fp.cmp from rfl]
  rcases cmp_zero x with ⟨rfl, hx⟩ | ⟨hn, hz, hx⟩ | ⟨hn, hz, hx⟩ | ⟨hz, hx⟩
  · rw [hx]
    exact main (by rintro ⟨s, hs⟩; cases hs)
  · rw [hx]
    exact main hz
  · rw [hx]
    exact main hz
  · rw [hx]
    obtain ⟨g1, g2⟩ := h0 hz
    rcases cmp_zero y with ⟨h, -⟩ | ⟨-, -, h⟩ | ⟨-, -, h⟩ | ⟨h', h⟩
    · exact absurd h g1
    · rw [h]
    · rw [h]
    · rw [h]
      exact g2 h'

/-- C85 is violated on the diagonal: for every positive finite `q` the assembly returns 25/32 at the point `(q, q)`,
the portable code 6623195/8388608, a number greater by more than 0.008. -/
theorem C85_violated_diagonal (q : ℚ) (hq : 0 < q) :
    fastAtan2_2Arm (ieeeOps Const.asm) (.fin false q) (.fin false q) = .fin false (25 / 32) ∧
    fastAtan2_2Go (ieeeOps Const.go) (.fin false q) (.fin false q) = .fin false (6623195 / 8388608) ∧ (0.008 : ℚ) < 6623195 / 8388608 - 25 / 32 := by
  have hd : Fp.div binary32 (.fin false q) (.fin false q) = .fin false 1 := by
    simp only [Fp.div]
    rw [if_neg hq.ne', div_self hq.ne']
    decide +kernel
  have hz : Fp.cmp (.fin false q) (.fin false 0) = some .gt := by
    have e : Fp.cmp (.fin false q) (.fin false 0) = if q < 0 then some .lt else if 0 < q then some .gt else some .eq := rfl
    rw [e, if_neg hq.le.not_gt, if_pos hq]
  refine ⟨?_, ?_, by norm_num⟩
  · rw [ops_eq, fastAtan2_2Arm_eq]
    rw [show (ieeeOps Const.go).div (.fin false q) (.fin false q) = .fin false 1 from hd, lit_zero, show (ieeeOps Const.go).cmp = Fp.cmp from rfl, hz]
    unfold innerArm outerArm
    rw [lit_zero, show (ieeeOps Const.go).cmp = Fp.cmp from rfl, hz]
    dsimp only
    decide +kernel
  · rw [fastAtan2_2Go_eq]
    rw [show (ieeeOps Const.go).div (.fin false q) (.fin false q) = .fin false 1 from hd, lit_zero, show (ieeeOps Const.go).cmp = Fp.cmp from rfl, hz]
    unfold innerGo outerGo
    rw [lit_zero, show (ieeeOps Const.go).cmp = Fp.cmp from rfl, hz]
    dsimp only
    decide +kernel

/-- C85 is violated when `x` is a zero and `y` a NaN: both assembly functions return a number near `-π/2`, the
portable ones zero.  At two zeros the assembly returns one of its operands, the portable code zero. -/
theorem C85_violated_zero (s : Bool) :
    fastAtan2Arm (ieeeOps Const.asm) .nan (.fin s 0) = (ieeeOps Const.asm).lit .negHalfPi ∧ fastAtan2Go (ieeeOps Const.go) .nan (.fin s 0) = .fin false 0 ∧
    fastAtan2_2Arm (ieeeOps Const.asm) .nan (.fin s 0) = (ieeeOps Const.asm).lit .negHalfPi ∧ fastAtan2_2Go (ieeeOps Const.go) .nan (.fin s 0) = .fin false 0 ∧
    fastAtan2Arm (ieeeOps Const.asm) (.fin true 0) (.fin s 0) = .fin true 0 ∧ fastAtan2Go (ieeeOps Const.go) (.fin true 0) (.fin s 0) = .fin false 0 ∧
    fastAtan2_2Arm (ieeeOps Const.asm) (.fin s 0) (.fin true 0) = .fin true 0 ∧ fastAtan2_2Go (ieeeOps Const.go) (.fin s 0) (.fin true 0) = .fin false 0 := by
  cases s <;> decide +kernel

example : fastAtan2Arm (ieeeOps Const.asm) (.fin true 3) (.fin true 4) = fastAtan2Go (ieeeOps Const.go) (.fin true 3) (.fin true 4) :=
  (C85_fast_partial _ _ (by rintro s q ⟨⟩; norm_num)).2 (by
    rintro (h | ⟨⟨s, h⟩, -⟩)
    · cases h
    · simp at h)
example : fastAtan2_2Arm (ieeeOps Const.asm) (.fin true 3) (.inf true) = fastAtan2_2Go (ieeeOps Const.go) (.fin true 3) (.inf true) :=
  C85_fast2_partial _ _ (by rintro ⟨s, h⟩; cases h) (by decide +kernel)

/-! ## Exact arithmetic -/

open Real in
/-- C85 in exact arithmetic: the assembly `FastAtan2` is the portable one, at every point. -/
theorem C85_exact (y x : ℝ) : fastAtan2Arm (exactOps π) y x = Angle.fastAtan2 π y x := by
  rw [fastAtan2Arm_eq]
  unfold Angle.fastAtan2 fatan2Tail Angle.fastPoly Angle.kludge
  simp only [exactOps]
  rcases lt_trichotomy x 0 with hx | rfl | hx <;> rcases lt_trichotomy y 0 with hy | rfl | hy
  all_goals
    simp only [*, if_true, if_false, lt_irrefl, gt_iff_lt, Flags.ofCmp, Flags.lt, not_lt_of_gt]
    try simp
    try ring_nf

/-- `FastAtan2_2` of the assembly in exact arithmetic. -/
theorem fastAtan2_2Arm_exact {K : Type} [Field K] [LinearOrder K] [IsStrictOrderedRing K] (p y x : K) : fastAtan2_2Arm (exactOps p) y x =
    if x = 0 then if y > 0 then p / 2 else if y < 0 then -(p / 2) else 0
    else if 1 < y / x * (y / x) then
      if y < 0 then p / 2 - y / x / (y / x * (y / x) + 28 / 100) - p else p / 2 - y / x / (y / x * (y / x) + 28 / 100)
    else
      if x < 0 then
        if y < 0 then y / x / (1 + 28 / 100 * (y / x * (y / x))) - p else y / x / (1 + 28 / 100 * (y / x * (y / x))) + p
      else y / x / (1 + 28 / 100 * (y / x * (y / x))) := by
  have hc : ∀ a b : K, (exactOps p).cmp a b = if a < b then some .lt else if a > b then some .gt else some .eq := fun _ _ => rfl
  rw [fastAtan2_2Arm_eq]
  unfold innerArm outerArm
  simp only [hc]
  have e1 : (exactOps p).lit .zero = 0 := rfl
  have e2 : (exactOps p).lit .one = 1 := rfl
  have e3 : (exactOps p).mul ((exactOps p).div y x) ((exactOps p).div y x) = y / x * (y / x) := rfl
  have e4 : (exactOps p).add ((exactOps p).mul (y / x * (y / x)) ((exactOps p).lit .c28)) 1 = 1 + 28 / 100 * (y / x * (y / x)) := by
    show y / x * (y / x) * (28 / 100) + 1 = _
    ring
  simp only [e1, e2, e3, e4]
  rcases lt_trichotomy x 0 with hx | rfl | hx
  · rw [if_pos hx, if_neg hx.ne]
    rcases lt_trichotomy (y / x * (y / x)) 1 with hz | hz | hz
    · rw [if_pos hz, if_neg hz.le.not_gt, if_pos hx]
      rcases lt_trichotomy y 0 with hy | rfl | hy
      · rw [if_pos hy, if_pos hy]; rfl
      · rw [if_neg (lt_irrefl _), if_neg (lt_irrefl _), if_neg (lt_irrefl _)]; rfl
      · rw [if_neg hy.le.not_gt, if_neg hy.le.not_gt, if_pos hy]; rfl
    · rw [if_neg hz.not_lt, if_neg hz.not_gt, if_neg hz.not_gt, if_pos hx]
      rcases lt_trichotomy y 0 with hy | rfl | hy
      · rw [if_pos hy, if_pos hy]; rfl
      · rw [if_neg (lt_irrefl _), if_neg (lt_irrefl _), if_neg (lt_irrefl _)]; rfl
      · rw [if_neg hy.le.not_gt, if_neg hy.le.not_gt, if_pos hy]; rfl
    · rw [if_neg hz.le.not_gt, if_pos hz, if_pos hz]
      rcases lt_trichotomy y 0 with hy | rfl | hy
      · rw [if_pos hy, if_pos hy]; rfl
      · rw [if_neg (lt_irrefl _), if_neg (lt_irrefl _), if_neg (lt_irrefl _)]; rfl
      · rw [if_neg hy.le.not_gt, if_neg hy.le.not_gt, if_pos hy]; rfl
  · rw [if_neg (lt_irrefl _), if_neg (lt_irrefl _), if_pos rfl]
    rcases lt_trichotomy y 0 with hy | rfl | hy
    · rw [if_pos hy, if_neg hy.le.not_gt, if_pos hy]; rfl
    · rw [if_neg (lt_irrefl _), if_neg (lt_irrefl _), if_neg (lt_irrefl _), if_neg (lt_irrefl _)]
    · rw [if_neg hy.le.not_gt, if_pos hy, if_pos hy]; rfl
  · rw [if_neg hx.le.not_gt, if_pos hx, if_neg hx.ne']
    rcases lt_trichotomy (y / x * (y / x)) 1 with hz | hz | hz
    · rw [if_pos hz, if_neg hz.le.not_gt, if_neg hx.le.not_gt]; rfl
    · rw [if_neg hz.not_lt, if_neg hz.not_gt, if_neg hz.not_gt, if_neg hx.le.not_gt]; rfl
    · rw [if_neg hz.le.not_gt, if_pos hz, if_pos hz]
      rcases lt_trichotomy y 0 with hy | rfl | hy
      · rw [if_pos hy, if_pos hy]; rfl
      · rw [if_neg (lt_irrefl _), if_neg (lt_irrefl _), if_neg (lt_irrefl _)]; rfl
      · rw [if_neg hy.le.not_gt, if_neg hy.le.not_gt, if_pos hy]; rfl

open Real in
/-- C85 in exact arithmetic: off the diagonals the assembly `FastAtan2_2` is the portable one. -/
theorem C85_exact2_partial (y x : ℝ) (h : |y| = |x| → x = 0) : fastAtan2_2Arm (exactOps π) y x = Angle.fastAtan2_2 π y x := by
  rw [fastAtan2_2Arm_exact]
  unfold Angle.fastAtan2_2
  by_cases hx : x = 0
  · rw [if_pos hx, if_pos hx]
  rw [if_neg hx, if_neg hx]
  have hne : y / x * (y / x) ≠ 1 := by
    intro e
    apply hx
    apply h
    have : (y / x) ^ 2 = 1 := by rw [sq]; exact e
    rw [div_pow, div_eq_one_iff_eq (pow_ne_zero 2 hx)] at this
    exact (sq_eq_sq_iff_abs_eq_abs y x).1 this
  by_cases hz : 1 < y / x * (y / x)
  · rw [if_pos hz]
    dsimp only
    rw [if_neg hz.le.not_gt]
  · rw [if_neg hz]
    dsimp only
    rw [if_pos (lt_of_le_of_ne (not_lt.1 hz) hne)]

open Real in
/-- C85 in exact arithmetic: on the diagonals too the assembly `FastAtan2_2` is within 0.005 radians of the angle. -/
theorem C85_error (y x : ℝ) : |fastAtan2_2Arm (exactOps π) y x - Complex.arg ⟨x, y⟩| ≤ 0.005 := by
  by_cases h : |y| = |x| → x = 0
  · rw [C85_exact2_partial y x h]
    exact Angle.C34_error y x
  · obtain ⟨h1, hx⟩ : |y| = |x| ∧ x ≠ 0 := by tauto
    have e : y / x * (y / x) = 1 := by
      rw [div_mul_div_comm, div_eq_one_iff_eq (mul_ne_zero hx hx), ← abs_mul_abs_self y, h1, abs_mul_abs_self]
    rw [fastAtan2_2Arm_exact, if_neg hx, if_neg e.not_gt]
    exact Angle.inner_error hx e.le

example : fastAtan2_2Arm (exactOps Real.pi) 3 4 = Angle.fastAtan2_2 Real.pi 3 4 := C85_exact2_partial 3 4 (by norm_num)
example : (fastAtan2_2Arm (exactOps (22 / 7 : ℚ)) 4 4, Angle.fastAtan2_2 (22 / 7 : ℚ) 4 4) = (25 / 32, 11 / 7 - 25 / 32) := by decide +kernel
example : fastAtan2Arm (exactOps (22 / 7 : ℚ)) (-4) 3 = Angle.fastAtan2 (22 / 7 : ℚ) (-4) 3 := by decide +kernel

end Verif.Arm
