import Verif.A32.AtanLemmas
import Verif.A32.VMaxProps
import Verif.A32.VAbsProps
import Verif.Arm.AtanProps
import Verif.Angle.AtanFpProps

/-!
# Property C132: the instructions of `FastAtan2` and `FastAtan2_2` on 32-bit ARM

Lines 10–140 of `dsp/math32_arm.s`, one by one, with the numbers decoded. The values are those of the structured model of C85.
-/

namespace Verif.A32.Math
open Verif.A32 Verif.Mach Verif.Fp
open Verif.Arm (AOps Const ieeeOps fastAtan2Arm fastAtan2_2Arm fastAtan2Go fastAtan2_2Go IsZero)
open Verif.Angle (go32)

/-- After a call: one word of the frame, at `off`, is `x`; the rest of the frame and the memory are as before, and so is FPSCR but for the four flags. -/
structure Result (off : Nat) (x : BitVec 32) (s s' : St) : Prop where
  ret : s'.fp off = x
  frame : ∀ i, i ≠ off → s'.fp i = s.fp i
  mem : s'.mem = s.mem
  scr : ∀ k, k < 28 → s'.fpscr.getLsbD k = s.fpscr.getLsbD k

theorem result_of {x : BitVec 32} {s s' : St} (h1 : s'.mem = s.mem) (h2 : ∀ k n, k + n ≤ 28 → s'.fpscr.extractLsb' k n = s.fpscr.extractLsb' k n)
    (h3 : s'.fp = Function.update s.fp 8 x) : Result 8 x s s' := by
  refine ⟨by rw [h3, Function.update_self], fun i hi => by rw [h3, Function.update_of_ne hi], h1, fun k hk => ?_⟩
  have := congrArg (fun b => b.getLsbD k) (h2 0 28 (by decide))
  simpa [BitVec.getLsbD_extractLsb', hk] using this

/-- **C132, `FastAtan2`.** From any state with `y` and `x` in the frame and LEN = 0, whatever the floating-point unit computes, the routine returns,
and the result is that of the structured model (C85) with the arithmetic of the unit and the constants as the assembler rounds them. Nothing else in
the frame and in memory has changed, and of FPSCR nothing but the flags. -/
theorem C132_FastAtan2 {e : Env} {s : St} (hL : s.fpscr.extractLsb' 16 3 = 0) : ∃ s', Returns (sem e) prog 10 s s' ∧
    Result 8 (fastAtan2Arm (Atan.ops e.o) (s.fp 0) (s.fp 4)) s s' := by
  obtain ⟨s', h1, h2, h3, h4⟩ := Atan.routine (e := e) hL
  exact ⟨s', h1, result_of h2 h3 h4⟩

/-- **C132, `FastAtan2_2`.** The same, here also in vector mode. -/
theorem C132_FastAtan2_2 (e : Env) (s : St) : ∃ s', Returns (sem e) prog 70 s s' ∧
    Result 8 (fastAtan2_2Arm (Atan.ops e.o) (s.fp 0) (s.fp 4)) s s' := by
  obtain ⟨s', h1, h2, h3, h4⟩ := Atan.routine2 (e := e) s
  exact ⟨s', h1, result_of h2 h3 h4⟩

/-- **C132.** There is no other way for the routines to end. -/
theorem C132_only {e : Env} {s s' : St} :
    (s.fpscr.extractLsb' 16 3 = 0 → Returns (sem e) prog 10 s s' → Result 8 (fastAtan2Arm (Atan.ops e.o) (s.fp 0) (s.fp 4)) s s') ∧
    (Returns (sem e) prog 70 s s' → Result 8 (fastAtan2_2Arm (Atan.ops e.o) (s.fp 0) (s.fp 4)) s s') := by
  refine ⟨fun hL h => ?_, fun h => ?_⟩
  · obtain ⟨t, h1, h2⟩ := C132_FastAtan2 (e := e) hL
    rwa [h.unique h1]
  · obtain ⟨t, h1, h2⟩ := C132_FastAtan2_2 e s
    rwa [h.unique h1]

/-! ### Values -/

/-- Subtraction of bit patterns. -/
def ieeeSub (a b : BitVec 32) : BitVec 32 := toBits32 (Fp.sub binary32 (ofBits32 a) (ofBits32 b))

/-- Division of bit patterns. -/
def ieeeDiv (a b : BitVec 32) : BitVec 32 := toBits32 (Fp.div binary32 (ofBits32 a) (ofBits32 b))

/-- A unit with IEEE-754 arithmetic. -/
structure Ieee (o : Ops) : Prop where
  add : o.add = ieeeAdd
  sub : o.sub = ieeeSub
  mul : o.mul = X86.ieeeMul32
  div : o.div = ieeeDiv
  cmp : o.cmp = ieeeCmp

theorem ofBits32_subA (a b : BitVec 32) : ofBits32 (ieeeSub a b) = Fp.sub binary32 (ofBits32 a) (ofBits32 b) :=
  ofBits32_toBits32 _ (Verif.Conv.repr32_add _ _)

theorem repr32_div {v w : Val} (hv : Repr32 v) (hw : Repr32 w) : Repr32 (Fp.div binary32 v w) := by
  rcases v with _ | s | ⟨s, q⟩ <;> rcases w with _ | t | ⟨t, r⟩ <;> simp only [Fp.div]
  all_goals first | trivial | skip
  · exact ⟨le_rfl, by positivity, grid_zero _⟩
  · split
    · split <;> trivial
    · exact X86.repr32_round _ (div_nonneg hv.1 hw.1)

theorem ofBits32_divA (a b : BitVec 32) : ofBits32 (ieeeDiv a b) = Fp.div binary32 (ofBits32 a) (ofBits32 b) :=
  ofBits32_toBits32 _ (repr32_div (X86.repr32_ofBits a) (X86.repr32_ofBits b))

theorem fneg_nat (a : BitVec 32) : (fneg a).toNat = (if a.toNat < 2 ^ 31 then a.toNat + 2 ^ 31 else a.toNat - 2 ^ 31) := by
  have ha := a.isLt
  have key : ∀ b r, b < 2 → r < 2 ^ 31 → (2 ^ 31 * b + r) ^^^ 2 ^ 31 = 2 ^ 31 * (1 - b) + r := by
    intro b r hb hr
    apply Nat.eq_of_testBit_eq
    intro j
    rw [Nat.testBit_xor, Nat.testBit_two_pow_mul_add _ hr, Nat.testBit_two_pow_mul_add _ hr, Nat.testBit_two_pow]
    by_cases c : j < 31
    · rw [if_pos c, if_pos c, decide_eq_false (by omega), Bool.xor_false]
    · rw [if_neg c, if_neg c]
      obtain rfl | c' := Nat.eq_or_lt_of_le (Nat.not_lt.1 c)
      · obtain rfl | rfl : b = 0 ∨ b = 1 := by omega
        · rfl
        · rfl
      · rw [decide_eq_false (by omega), Bool.xor_false, Nat.testBit_lt_two_pow (x := b), Nat.testBit_lt_two_pow (x := 1 - b)]
        · exact lt_of_lt_of_le (by omega : 1 - b < 2 ^ 1) (Nat.pow_le_pow_right (by decide) (by omega))
        · exact lt_of_lt_of_le (by omega : b < 2 ^ 1) (Nat.pow_le_pow_right (by decide) (by omega))
  have h := key (a.toNat / 2 ^ 31) (a.toNat % 2 ^ 31) (by omega) (by omega)
  rw [Nat.div_add_mod] at h
  unfold fneg
  rw [BitVec.toNat_xor, show (0x80000000 : BitVec 32).toNat = 2 ^ 31 from rfl, h]
  split <;> omega

theorem fabs_nat (a : BitVec 32) : (fabs a).toNat = a.toNat % 2 ^ 31 := by
  unfold fabs
  rw [BitVec.toNat_and, show (0x7fffffff : BitVec 32).toNat = 2 ^ 31 - 1 from rfl, Nat.and_two_pow_sub_one_eq_mod]

/-- Changing the highest bit is changing the sign. -/
theorem ofBits32_fneg (a : BitVec 32) : ofBits32 (fneg a) = Fp.neg (ofBits32 a) := by
  have ha := a.isLt
  have h := fneg_nat a
  have h1 : (fneg a).toNat / 2 ^ 23 % 2 ^ 8 = a.toNat / 2 ^ 23 % 2 ^ 8 := by rw [h]; split <;> omega
  have h2 : (fneg a).toNat % 2 ^ 23 = a.toNat % 2 ^ 23 := by rw [h]; split <;> omega
  have h3 : decide (2 ^ 31 ≤ (fneg a).toNat) = !decide (2 ^ 31 ≤ a.toNat) := by
    rw [h, ← decide_not]
    congr 1
    apply propext
    split <;> omega
  unfold ofBits32
  simp only [h1, h2, h3]
  split
  · split <;> rfl
  · split <;> rfl

/-- Clearing the highest bit is taking the magnitude. -/
theorem ofBits32_fabs (a : BitVec 32) : ofBits32 (fabs a) = Fp.abs (ofBits32 a) := by
  have ha := a.isLt
  have h := fabs_nat a
  have h1 : (fabs a).toNat / 2 ^ 23 % 2 ^ 8 = a.toNat / 2 ^ 23 % 2 ^ 8 := by rw [h]; omega
  have h2 : (fabs a).toNat % 2 ^ 23 = a.toNat % 2 ^ 23 := by rw [h]; omega
  have h3 : decide (2 ^ 31 ≤ (fabs a).toNat) = false := by
    rw [h]
    exact decide_eq_false (by omega)
  unfold ofBits32
  simp only [h1, h2, h3]
  split
  · split <;> rfl
  · split <;> rfl

theorem ord_cmp (a b : BitVec 32) : Atan.ord (ieeeCmp a b) = Fp.cmp (ofBits32 a) (ofBits32 b) := by
  have asym : ∀ v w : Val, Fp.lt v w → ¬ Fp.lt w v := by
    intro v w
    rcases v with _ | s | ⟨s, q⟩ <;> rcases w with _ | t | ⟨t, r⟩ <;> simp only [Fp.lt] <;> intro h <;> simp_all
    exact h.le
  unfold ieeeCmp
  generalize ofBits32 a = v
  generalize ofBits32 b = w
  by_cases hv : v = .nan
  · subst hv
    have e : ¬ Fp.lt w .nan := by cases w <;> exact id
    rw [if_neg e, if_neg (show ¬ Fp.lt .nan w from id), if_pos (Or.inl rfl)]
    rfl
  by_cases hw : w = .nan
  · subst hw
    have e : ¬ Fp.lt v .nan := by cases v <;> exact id
    rw [if_neg (show ¬ Fp.lt .nan v from id), if_neg e, if_pos (Or.inr rfl)]
    cases v <;> rfl
  have hc : Fp.cmp v w = if Fp.lt v w then some .lt else if Fp.lt w v then some .gt else some .eq := by
    cases v <;> cases w <;> first | rfl | contradiction
  rw [hc, if_neg (show ¬ (v = .nan ∨ w = .nan) by tauto)]
  by_cases c : Fp.lt v w
  · rw [if_pos c, if_pos c, if_neg (asym _ _ c)]; rfl
  · rw [if_neg c, if_neg c]
    split <;> rfl

theorem lit_bits (c : Const) : ofBits32 (Atan.bits c) = (ieeeOps Const.asm).lit c := by
  cases c <;> decide +kernel

/-- Two arithmetics that agree up to `h` give results that agree up to `h`. -/
theorem hom1 {V W : Type} {o : AOps V} {o' : AOps W} (h : V → W) (ha : ∀ a b, h (o.add a b) = o'.add (h a) (h b)) (hs : ∀ a b, h (o.sub a b) = o'.sub (h a) (h b))
    (hm : ∀ a b, h (o.mul a b) = o'.mul (h a) (h b)) (hd : ∀ a b, h (o.div a b) = o'.div (h a) (h b)) (hn : ∀ a, h (o.neg a) = o'.neg (h a))
    (hb : ∀ a, h (o.abs a) = o'.abs (h a)) (hc : ∀ a b, o.cmp a b = o'.cmp (h a) (h b)) (hl : ∀ c, h (o.lit c) = o'.lit c) (y x : V) :
    h (fastAtan2Arm o y x) = fastAtan2Arm o' (h y) (h x) ∧ h (fastAtan2_2Arm o y x) = fastAtan2_2Arm o' (h y) (h x) := by
  constructor
  · unfold fastAtan2Arm Arm.fatan2Tail
    simp only [hc, hl, apply_ite h, ha, hs, hm, hd, hn, hb]
  · unfold fastAtan2_2Arm
    simp only [hc, hl, apply_ite h, ha, hs, hm, hd]

theorem ieee_hom {o : Ops} (ho : Ieee o) (y x : BitVec 32) :
    ofBits32 (fastAtan2Arm (Atan.ops o) y x) = fastAtan2Arm (ieeeOps Const.asm) (ofBits32 y) (ofBits32 x) ∧
    ofBits32 (fastAtan2_2Arm (Atan.ops o) y x) = fastAtan2_2Arm (ieeeOps Const.asm) (ofBits32 y) (ofBits32 x) := by
  refine hom1 (o := Atan.ops o) (o' := ieeeOps Const.asm) ofBits32 ?_ ?_ ?_ ?_ ofBits32_fneg ofBits32_fabs ?_ lit_bits y x
  · intro a b; show ofBits32 (o.add a b) = _; rw [ho.add]; exact ofBits32_addA a b
  · intro a b; show ofBits32 (o.sub a b) = _; rw [ho.sub]; exact ofBits32_subA a b
  · intro a b; show ofBits32 (o.mul a b) = _; rw [ho.mul]; exact X86.ofBits32_mul a b
  · intro a b; show ofBits32 (o.div a b) = _; rw [ho.div]; exact ofBits32_divA a b
  · intro a b; show Atan.ord (o.cmp a b) = _; rw [ho.cmp]; exact ord_cmp a b

/-- The arguments of a call. -/
def argY (s : St) : Val := ofBits32 (s.fp 0)
def argX (s : St) : Val := ofBits32 (s.fp 4)
/-- The result of a call. -/
def ret (s : St) : Val := ofBits32 (s.fp 8)

theorem proper (s : St) : Arm.Proper (argY s) := by
  intro t q h
  have := X86.repr32_ofBits (s.fp 0)
  rw [show ofBits32 (s.fp 0) = .fin t q from h] at this
  exact this.1

/-- **C132 with IEEE-754 arithmetic, `FastAtan2`, partial.** The value returned is the one of the portable Go code exactly when not `x` is a NaN, or
`x` is a zero and `y` a NaN or the negative zero. Missing: these cases, where it differs. -/
theorem C132_portable_partial {e : Env} (ho : Ieee e.o) {s s' : St} (hL : s.fpscr.extractLsb' 16 3 = 0) (h : Returns (sem e) prog 10 s s') :
    ret s' = fastAtan2Go (ieeeOps Const.go) (argY s) (argX s) ↔ ¬ (argX s = .nan ∨ IsZero (argX s) ∧ (argY s = .nan ∨ argY s = .fin true 0)) := by
  rw [ret, (C132_only.1 hL h).ret, (ieee_hom ho _ _).1]
  exact Arm.C85_fast_partial _ _ (proper s)

/-- **C132 with IEEE-754 arithmetic, `FastAtan2_2`, partial.** The value returned is the one of the portable Go code unless the square of the quotient
rounds to one, or `x` is a zero and `y` a NaN, or both are zeros and `x` is the negative one. Missing: these cases (`C132_violated`). -/
theorem C132_portable2_partial {e : Env} (ho : Ieee e.o) {s s' : St} (h : Returns (sem e) prog 70 s s')
    (h0 : IsZero (argX s) → argY s ≠ .nan ∧ (IsZero (argY s) → argX s = .fin false 0))
    (h1 : Fp.cmp (Fp.mul binary32 (Fp.div binary32 (argY s) (argX s)) (Fp.div binary32 (argY s) (argX s))) (.fin false 1) ≠ some .eq) :
    ret s' = fastAtan2_2Go (ieeeOps Const.go) (argY s) (argX s) := by
  rw [ret, (C132_only.2 h).ret, (ieee_hom ho _ _).2]
  exact Arm.C85_fast2_partial _ _ h0 h1

/-- **C132, violated.** On the diagonal `FastAtan2_2` returns 25/32 and not 6623195/8388608 as the portable code does; with `x` a zero and `y` a NaN
both routines return a number near `-π/2`, the portable code zero. -/
theorem C132_violated {e : Env} (ho : Ieee e.o) {s s' : St} (h : Returns (sem e) prog 70 s s') :
    (∀ q : ℚ, 0 < q → argY s = .fin false q → argX s = .fin false q → ret s' = .fin false (25 / 32) ∧
      fastAtan2_2Go (ieeeOps Const.go) (argY s) (argX s) = .fin false (6623195 / 8388608)) ∧
    (argY s = .nan → IsZero (argX s) → (ret s').toRat < -1.57 ∧ fastAtan2_2Go (ieeeOps Const.go) (argY s) (argX s) = .fin false 0) := by
  have e1 : ret s' = fastAtan2_2Arm (ieeeOps Const.asm) (argY s) (argX s) := by
    rw [ret, (C132_only.2 h).ret, (ieee_hom ho _ _).2]
    rfl
  refine ⟨fun q hq hy hx => ?_, fun hy hx => ?_⟩
  · have := Arm.C85_violated_diagonal q hq
    rw [e1, hy, hx]
    exact ⟨this.1, this.2.1⟩
  · obtain ⟨t, ht⟩ := hx
    have := Arm.C85_violated_zero t
    rw [e1, hy, ht, this.2.2.1]
    exact ⟨by decide +kernel, this.2.2.2.1⟩

/-- **C132, accuracy of `FastAtan2`, partial.** For finite arguments not both below 1e-15 and with magnitudes that add to at most 3.402823e38 the result
is finite and within 0.0102 radians of the angle. Missing: as in C89. -/
theorem C132_accuracy_partial {e : Env} (ho : Ieee e.o) {s s' : St} (hL : s.fpscr.extractLsb' 16 3 = 0) (h : Returns (sem e) prog 10 s s')
    (hy : Finite (argY s)) (hx : Finite (argX s)) (hlow : 1e-15 ≤ max |val (argX s)| |val (argY s)|)
    (hhigh : |val (argX s)| + |val (argY s)| ≤ 3.402823e38) :
    Finite (ret s') ∧ |val (ret s') - Complex.arg ⟨val (argX s), val (argY s)⟩| ≤ 0.0102 := by
  have z : ∀ {v : Val}, IsZero v → val v = 0 := by
    rintro v ⟨t, rfl⟩
    rw [val_fin]
    simp
  rw [(C132_portable_partial ho hL h).2 ?_]
  · exact Angle.C89_fast_partial _ _ hy hx hlow hhigh
  · rintro (c | ⟨c, d | d⟩)
    · obtain ⟨_, _, g, -⟩ := hx
      rw [c] at g
      cases g
    · obtain ⟨_, _, g, -⟩ := hy
      rw [d] at g
      cases g
    · rw [z c, z ⟨true, d⟩] at hlow
      norm_num at hlow

/-- The assembly `FastAtan2_2` in binary32, on the diagonals too. -/
theorem accuracy2 {y x : Val} (hy : Finite y) (hx : Finite x) (h : val x = 0 ∨ |val y| < (2 ^ 128 - 2 ^ 103) * |val x|) :
    Finite (fastAtan2_2Arm (ieeeOps Const.asm) y x) ∧ |val (fastAtan2_2Arm (ieeeOps Const.asm) y x) - Complex.arg ⟨val x, val y⟩| ≤ 0.005 := by
  have fin_ne : ∀ {v : Val}, Finite v → v ≠ .nan := by
    rintro v ⟨_, _, rfl, -⟩
    simp
  have zero_iff : ∀ {v : Val}, Finite v → (val v = 0 ↔ IsZero v) := by
    rintro v ⟨t, q, rfl, hq⟩
    rw [val_fin]
    constructor
    · intro h
      refine ⟨t, ?_⟩
      cases t <;> simp at h <;> rw [h]
    · rintro ⟨t', e⟩
      cases e
      simp
  by_cases hx0 : val x = 0
  · by_cases hy0 : val y = 0
    · obtain ⟨t, rfl⟩ := (zero_iff hx).1 hx0
      obtain ⟨t', rfl⟩ := (zero_iff hy).1 hy0
      have : fastAtan2_2Arm (ieeeOps Const.asm) (.fin t' 0) (.fin t 0) = .fin t 0 := by cases t <;> cases t' <;> decide +kernel
      rw [this, hx0, hy0]
      refine ⟨hx, ?_⟩
      rw [show (⟨0, 0⟩ : ℂ) = 0 from rfl, Complex.arg_zero]
      norm_num
    · rw [Arm.C85_fast2_partial y x (fun _ => ⟨fin_ne hy, fun c => absurd ((zero_iff hy).2 c) hy0⟩) ?_]
      · exact Angle.C89_fast2_partial y x hy hx h
      · obtain ⟨t, rfl⟩ := (zero_iff hx).1 hx0
        obtain ⟨t', q, rfl, hq⟩ := hy
        have hq' : q ≠ 0 := by
          rintro rfl
          exact hy0 (by rw [val_fin]; simp)
        have : Fp.div binary32 (.fin t' q) (.fin t 0) = .inf (t' != t) := by
          simp only [Fp.div, if_neg hq', if_true]
        rw [this]
        cases t' <;> cases t <;> decide
  · by_cases hc : Fp.cmp (Fp.mul binary32 (Fp.div binary32 y x) (Fp.div binary32 y x)) (.fin false 1) = some .eq
    · have cz : Close (Fp.div binary32 y x) (val y / val x) := Angle.div32_lt hy hx hx0 (by
        rw [abs_div, div_lt_iff₀ (abs_pos.2 hx0)]
        exact h.resolve_left hx0)
      have hf : Finite (go32.mul (Fp.div binary32 y x) (Fp.div binary32 y x)) := by
        rcases Angle.sq_or cz.1 with ⟨c, -⟩ | c
        · rw [c] at hc
          exact absurd hc (by decide)
        · exact c.1
      have hle : val (go32.mul (Fp.div binary32 y x) (Fp.div binary32 y x)) ≤ 1 := by
        by_contra c
        have := (Angle.gt_iff hf (Angle.lit_close .one).1).2 (by rw [Angle.val_one]; exact not_le.1 c)
        rw [AOps.gt, Angle.lit1] at this
        change (Fp.cmp (Fp.mul binary32 (Fp.div binary32 y x) (Fp.div binary32 y x)) _ == some .gt) = true at this
        rw [hc] at this
        revert this
        decide
      have main := Angle.inner_angle hx hy hx0 cz hf hle
      have comm : ∀ a b, go32.add (go32.mul a b) (go32.lit .one) = go32.add (go32.lit .one) (go32.mul b a) := fun a b =>
        (Arm.add_comm32 _ _).trans (congrArg _ (Arm.mul_comm32 _ _))
      have lt_eq : ∀ {v : Val} {c : Option Ordering}, Fp.cmp v (.fin false 0) = c → go32.lt v (go32.lit .zero) = (c == some .lt) := by
        intro v c h
        rw [Angle.lit0, AOps.lt, ← h]
        rfl
      have hc' : go32.cmp (go32.mul (go32.div y x) (go32.div y x)) (go32.lit .one) = some .eq := by rw [Angle.lit1]; exact hc
      rw [Arm.ops_eq, Arm.fastAtan2_2Arm_eq, hc']
      unfold Arm.innerArm
      simp only [comm]
      rw [show go32.cmp x (go32.lit .zero) = Fp.cmp x (.fin false 0) from by rw [Angle.lit0]; rfl,
        show go32.cmp y (go32.lit .zero) = Fp.cmp y (.fin false 0) from by rw [Angle.lit0]; rfl]
      rcases Arm.cmp_zero x with ⟨g, -⟩ | ⟨-, -, g⟩ | ⟨-, -, g⟩ | ⟨g, -⟩
      · exact absurd g (fin_ne hx)
      · rcases Arm.cmp_zero y with ⟨k, -⟩ | ⟨-, -, k⟩ | ⟨-, -, k⟩ | ⟨-, k⟩
        · exact absurd k (fin_ne hy)
        all_goals
          simp only [lt_eq g, lt_eq k] at main
          rw [g, k]
          exact main
      · simp only [lt_eq g] at main
        rw [g]
        exact main
      · exact absurd ((zero_iff hx).2 g) hx0
    · rw [Arm.C85_fast2_partial y x (fun c => absurd ((zero_iff hx).2 c) hx0) hc]
      exact Angle.C89_fast2_partial y x hy hx h

/-- **C132, accuracy of `FastAtan2_2`, partial.** For all finite arguments whose quotient does not overflow, on the diagonals too, the result is finite
and within 0.005 radians of the angle. Missing: quotients that overflow (as in C89). -/
theorem C132_accuracy2_partial {e : Env} (ho : Ieee e.o) {s s' : St} (h : Returns (sem e) prog 70 s s') (hy : Finite (argY s)) (hx : Finite (argX s))
    (hq : val (argX s) = 0 ∨ |val (argY s)| < (2 ^ 128 - 2 ^ 103) * |val (argX s)|) :
    Finite (ret s') ∧ |val (ret s') - Complex.arg ⟨val (argX s), val (argY s)⟩| ≤ 0.005 := by
  rw [ret, (C132_only.2 h).ret, (ieee_hom ho _ _).2]
  exact accuracy2 hy hx hq

/-! ### Examples -/

/-- A machine with IEEE-754 arithmetic and no memory to speak of. -/
def machineA : Env where
  o := { Conv.noOps with mul := X86.ieeeMul32, add := ieeeAdd, sub := ieeeSub, div := ieeeDiv, cmp := ieeeCmp }
  rd := fun _ => false
  wr := fun _ => false
  var := fun _ => 0
  strideOf := fun _ => none
  tmp := fun _ => 0

theorem machineA_ieee : Ieee machineA.o := ⟨rfl, rfl, rfl, rfl, rfl⟩

/-- A call: `y` and `x` in the frame, any word where the result goes, and FPSCR as given. -/
def callA (y x scr : BitVec 32) : St where
  r := fun _ => 7
  v := fun i => BitVec.ofNat 32 i
  fl := ⟨false, false, false, false⟩
  fpscr := scr
  mem := fun _ => 1
  fp := fun i => if i = 0 then y else if i = 4 then x else 0xDEADBEEF

theorem val_three : ofBits32 0x40400000 = .fin false 3 := by
  norm_num [ofBits32, show (0x40400000 : BitVec 32).toNat = 0x40400000 from rfl]
theorem val_minus_two : ofBits32 0xC0000000 = .fin true 2 := by
  norm_num [ofBits32, show (0xC0000000 : BitVec 32).toNat = 0xC0000000 from rfl]

/-- `FastAtan2(3, -2)`, flags set and rounding mode bits as they are: it returns, the result is near the angle, and FPSCR bit 24 is still set. -/
example : ∃ s', Returns (sem machineA) prog 10 (callA 0x40400000 0xC0000000 0xF1000000) s' ∧
    |val (ret s') - Complex.arg ⟨-2, 3⟩| ≤ 0.0102 ∧ ret s' = fastAtan2Go (ieeeOps Const.go) (.fin false 3) (.fin true 2) ∧
    s'.fpscr.getLsbD 24 = true ∧ s'.fp 12 = 0xDEADBEEF := by
  have hL : (callA 0x40400000 0xC0000000 0xF1000000).fpscr.extractLsb' 16 3 = 0 := by decide
  obtain ⟨s', h1, h2⟩ := C132_FastAtan2 (e := machineA) hL
  have hy : argY (callA 0x40400000 0xC0000000 0xF1000000) = .fin false 3 := val_three
  have hx : argX (callA 0x40400000 0xC0000000 0xF1000000) = .fin true 2 := val_minus_two
  have vy : val (.fin false 3) = 3 := by rw [val_fin]; norm_num
  have vx : val (.fin true 2) = -2 := by rw [val_fin]; norm_num
  have a := (C132_accuracy_partial machineA_ieee hL h1 (by rw [hy]; exact ⟨_, _, rfl, by norm_num⟩) (by rw [hx]; exact ⟨_, _, rfl, by norm_num⟩)
    (by rw [hy, hx, vy, vx]; norm_num) (by rw [hy, hx, vy, vx]; norm_num)).2
  rw [hy, hx, vy, vx] at a
  have b := (C132_portable_partial machineA_ieee hL h1).2 (by
    rw [hx]
    rintro (c | ⟨⟨t, c⟩, -⟩)
    · cases c
    · exact absurd (Val.fin.inj c).2 (by norm_num))
  rw [hy, hx] at b
  exact ⟨s', h1, a, b, (h2.scr 24 (by decide)).trans (by decide), h2.frame 12 (by decide)⟩

/-- `FastAtan2_2(3, 3)` in vector mode: 25/32, within 0.005 of the angle, and not what the portable code returns. -/
example : ∃ s', Returns (sem machineA) prog 70 (callA 0x40400000 0x40400000 0x00070000) s' ∧ ret s' = .fin false (25 / 32) ∧
    |val (ret s') - Complex.arg ⟨3, 3⟩| ≤ 0.005 ∧ ret s' ≠ fastAtan2_2Go (ieeeOps Const.go) (.fin false 3) (.fin false 3) := by
  obtain ⟨s', h1, -⟩ := C132_FastAtan2_2 machineA (callA 0x40400000 0x40400000 0x00070000)
  have hy : argY (callA 0x40400000 0x40400000 0x00070000) = .fin false 3 := val_three
  have hx : argX (callA 0x40400000 0x40400000 0x00070000) = .fin false 3 := val_three
  have vy : val (.fin false 3) = 3 := by rw [val_fin]; norm_num
  have f : Finite (.fin false 3) := ⟨_, _, rfl, by norm_num⟩
  have a := (C132_accuracy2_partial machineA_ieee h1 (by rw [hy]; exact f) (by rw [hx]; exact f)
    (Or.inr (by rw [hy, hx, vy]; norm_num))).2
  have b := (C132_violated machineA_ieee h1).1 3 (by norm_num) hy hx
  rw [hy, hx] at a b
  rw [vy] at a
  exact ⟨s', h1, b.1, a, by rw [b.1, b.2]; intro c; exact absurd (Val.fin.inj c).2 (by norm_num)⟩

/-- `FastAtan2_2(-2, 3)`: what the portable code returns. -/
example : ∃ s', Returns (sem machineA) prog 70 (callA 0xC0000000 0x40400000 0) s' ∧
    ret s' = fastAtan2_2Go (ieeeOps Const.go) (.fin true 2) (.fin false 3) := by
  obtain ⟨s', h1, -⟩ := C132_FastAtan2_2 machineA (callA 0xC0000000 0x40400000 0)
  have hy : argY (callA 0xC0000000 0x40400000 0) = .fin true 2 := val_minus_two
  have hx : argX (callA 0xC0000000 0x40400000 0) = .fin false 3 := val_three
  have b := C132_portable2_partial machineA_ieee h1
    (by rw [hx]; rintro ⟨t, c⟩; exact absurd (Val.fin.inj c).2 (by norm_num)) (by rw [hy, hx]; decide +kernel)
  rw [hy, hx] at b
  exact ⟨s', h1, b⟩

end Verif.A32.Math
