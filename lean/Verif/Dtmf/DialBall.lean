import Verif.Ax25.EarBall
import Mathlib.Algebra.BigOperators.Intervals

/-!
# Sums of complex exponentials by integer Horner steps

Helper for C140.  A sum `Σ c_n z^n` with `|z| = 1` is computed by Horner's rule in natural numbers (signed numbers are stored with an offset, because
the kernel computes fast with natural numbers only), and the error of this is bounded.
-/

namespace Verif.Dtmf.Dial
open Complex Verif.Ax25.Ear Verif.Ax25.Ear.Ball

/-- Evaluate the number before it is passed on. -/
noncomputable def force (x : Nat) (k : Nat → Bool) : Bool := Nat.rec (motive := fun _ => Bool) (k 0) (fun n _ => k (Nat.succ n)) x

theorem force_eq (x : Nat) (k : Nat → Bool) : force x k = k x := by cases x <;> rfl

/-- Evaluate the integer before it is passed on. -/
noncomputable def forceI (x : Int) (k : Int → Bool) : Bool :=
  Int.rec (motive := fun _ => Bool) (fun n => force n fun n => k (Int.ofNat n)) (fun n => force n fun n => k (Int.negSucc n)) x

theorem forceI_eq (x : Int) (k : Int → Bool) : forceI x k = k x := by cases x with
  | ofNat n => exact force_eq n fun n => k (Int.ofNat n)
  | negSucc n => exact force_eq n fun n => k (Int.negSucc n)

/-- Evaluate the disk before it is passed on. -/
noncomputable def forceB (b : Ball) (k : Ball → Bool) : Bool :=
  forceI b.re fun r => forceI b.im fun i => forceI b.err fun e => k ⟨r, i, e⟩

theorem forceB_eq (b : Ball) (k : Ball → Bool) : forceB b k = k b := by
  unfold forceB
  rw [forceI_eq, forceI_eq, forceI_eq]

/-- Offset of the numbers of Horner's rule. -/
def offA : Nat := 2 ^ 50

/-- Offset of the parts of `z`. -/
def offZ : Nat := 2 ^ 42

/-- The scale of `Ball` as a natural number. -/
def unitN : Nat := 1000000000000

/-- Horner's rule; `zn` is the negated imaginary part, `u` and `v` make the differences positive. -/
noncomputable def run (zr zi zn u v : Nat) (fin : Nat → Nat → Bool) (l : List Nat) : Nat → Nat → Bool :=
  List.rec (motive := fun _ => Nat → Nat → Bool) fin
    (fun c _ ih a b =>
      force (Nat.add (Nat.div (Nat.sub (Nat.add (Nat.add (Nat.mul a zr) (Nat.mul b zn)) u) (Nat.mul offZ (Nat.add (Nat.add a b) offA))) unitN) c) fun a' =>
      force (Nat.div (Nat.sub (Nat.add (Nat.add (Nat.mul a zi) (Nat.mul b zr)) v) (Nat.mul offZ (Nat.add (Nat.add a b) offA))) unitN) fun b' => ih a' b') l

theorem run_nil (zr zi zn u v : Nat) (fin : Nat → Nat → Bool) (a b : Nat) : run zr zi zn u v fin [] a b = fin a b := rfl

theorem run_cons (zr zi zn u v : Nat) (fin : Nat → Nat → Bool) (c : Nat) (l : List Nat) (a b : Nat) :
    run zr zi zn u v fin (c :: l) a b = run zr zi zn u v fin l
      ((a * zr + b * zn + u - offZ * (a + b + offA)) / unitN + c) ((a * zi + b * zr + v - offZ * (a + b + offA)) / unitN) := by
  have h1 := force_eq (Nat.add (Nat.div (Nat.sub (Nat.add (Nat.add (Nat.mul a zr) (Nat.mul b zn)) u) (Nat.mul offZ (Nat.add (Nat.add a b) offA))) unitN) c)
    fun a' => force (Nat.div (Nat.sub (Nat.add (Nat.add (Nat.mul a zi) (Nat.mul b zr)) v) (Nat.mul offZ (Nat.add (Nat.add a b) offA))) unitN) fun b' => run zr zi zn u v fin l a' b'
  have h2 := force_eq (Nat.div (Nat.sub (Nat.add (Nat.add (Nat.mul a zi) (Nat.mul b zr)) v) (Nat.mul offZ (Nat.add (Nat.add a b) offA))) unitN)
    fun b' => run zr zi zn u v fin l (Nat.add (Nat.div (Nat.sub (Nat.add (Nat.add (Nat.mul a zr) (Nat.mul b zn)) u) (Nat.mul offZ (Nat.add (Nat.add a b) offA))) unitN) c) b'
  exact h1.trans h2

/-- The whole sum for the disk `z`; `fin` receives the square of the size of the result. -/
noncomputable def evalAt (z : Ball) (l : List Nat) (fin : Nat → Bool) : Bool :=
  force (z.re + offZ).toNat fun zr =>
  force (z.im + offZ).toNat fun zi =>
  force (offZ - z.im).toNat fun zn =>
  force (offA * (unitN + offZ - z.re + z.im)).toNat fun u =>
  force (offA * (unitN + offZ - z.re - z.im)).toNat fun v =>
  run zr zi zn u v (fun a b => force (Nat.sub (Nat.add (Nat.add (Nat.mul a a) (Nat.mul b b)) (Nat.mul (Nat.mul 2 offA) offA)) (Nat.mul (Nat.mul 2 offA) (Nat.add a b))) fin)
    l offA offA

/-- Horner's rule. -/
noncomputable def hornerC (z : ℂ) (l : List Nat) (h : ℂ) : ℂ := l.foldl (fun h c => h * z + (c : ℂ) / (scale : ℝ)) h

/-- One step without offsets. -/
theorem stepA_eq (A B zr zi : Int) :
    (A + offA) * (zr + offZ) + (B + offA) * (offZ - zi) + offA * (unitN + offZ - zr + zi) - offZ * ((A + offA) + (B + offA) + offA)
      = A * zr - B * zi + offA * unitN := by ring

theorem stepB_eq (A B zr zi : Int) :
    (A + offA) * (zi + offZ) + (B + offA) * (zr + offZ) + offA * (unitN + offZ - zr - zi) - offZ * ((A + offA) + (B + offA) + offA)
      = A * zi + B * zr + offA * unitN := by ring

theorem scale_eq : (scale : Int) = (unitN : Int) := rfl

theorem toNat_step {A B zr zi : Int} {a b r n u : Nat} (ha : (a : Int) = A + offA) (hb : (b : Int) = B + offA) (hr : (r : Int) = zr + offZ)
    (hn : (n : Int) = offZ - zi) (hu : (u : Int) = offA * (unitN + offZ - zr + zi)) (h0 : 0 ≤ A * zr - B * zi + offA * unitN) (c : Nat) :
    (((a * r + b * n + u - offZ * (a + b + offA)) / unitN + c : Nat) : Int) = ((A * zr - B * zi) / scale + c) + offA := by
  have e := stepA_eq A B zr zi
  rw [← ha, ← hb, ← hr, ← hn, ← hu] at e
  have e2 : ((a * r + b * n + u - offZ * (a + b + offA) : Nat) : Int) = A * zr - B * zi + offA * unitN := by
    rw [Int.ofNat_sub]
    · push_cast; exact e
    · have : (0 : Int) ≤ (a * r + b * n + u : Nat) - (offZ * (a + b + offA) : Nat) := by push_cast; rw [e]; exact h0
      omega
  push_cast
  rw [e2, scale_eq, Int.add_mul_ediv_right _ _ (by decide)]
  ring

theorem toNat_stepB {A B zr zi : Int} {a b r i u : Nat} (ha : (a : Int) = A + offA) (hb : (b : Int) = B + offA) (hr : (r : Int) = zr + offZ)
    (hi : (i : Int) = zi + offZ) (hu : (u : Int) = offA * (unitN + offZ - zr - zi)) (h0 : 0 ≤ A * zi + B * zr + offA * unitN) :
    (((a * i + b * r + u - offZ * (a + b + offA)) / unitN : Nat) : Int) = ((A * zi + B * zr) / scale) + offA := by
  have e := stepB_eq A B zr zi
  rw [← ha, ← hb, ← hr, ← hi, ← hu] at e
  have e2 : ((a * i + b * r + u - offZ * (a + b + offA) : Nat) : Int) = A * zi + B * zr + offA * unitN := by
    rw [Int.ofNat_sub]
    · push_cast; exact e
    · have : (0 : Int) ≤ (a * i + b * r + u : Nat) - (offZ * (a + b + offA) : Nat) := by push_cast; rw [e]; exact h0
      omega
  push_cast
  rw [e2, scale_eq, Int.add_mul_ediv_right _ _ (by decide)]

/-- The largest error of `z` in units. -/
def errZ : Nat := 300000

theorem abs_parts {A B : Int} {M : ℝ} (h : ‖(⟨A, B⟩ : ℂ)‖ ≤ M) : |(A : ℝ)| ≤ M ∧ |(B : ℝ)| ≤ M :=
  ⟨(Complex.abs_re_le_norm (⟨A, B⟩ : ℂ)).trans h, (Complex.abs_im_le_norm (⟨A, B⟩ : ℂ)).trans h⟩

/-- What a run of Horner's rule has computed. -/
theorem run_spec {z : ℂ} (hz : ‖z‖ = 1) {Z : Ball} (hZ : Z.Has z) (he : Z.err ≤ errZ) {r i n u v : Nat} (hr : (r : Int) = Z.re + offZ)
    (hi : (i : Int) = Z.im + offZ) (hn : (n : Int) = offZ - Z.im) (hu : (u : Int) = offA * (unitN + offZ - Z.re + Z.im))
    (hv : (v : Int) = offA * (unitN + offZ - Z.re - Z.im)) (fin : Nat → Nat → Bool) (l : List Nat) :
    ∀ (A B : Int) (a b : Nat) (h : ℂ) (err : ℝ), (a : Int) = A + offA → (b : Int) = B + offA → ‖h * (scale : ℝ) - ⟨A, B⟩‖ ≤ err →
      ‖h‖ * scale + (l.sum : Nat) ≤ 33 * scale → err + l.length * (34 * errZ + 2) ≤ scale → run r i n u v fin l a b = true →
      ∃ (A' B' : Int) (a' b' : Nat), fin a' b' = true ∧ (a' : Int) = A' + offA ∧ (b' : Int) = B' + offA ∧
        ‖hornerC z l h * (scale : ℝ) - ⟨A', B'⟩‖ ≤ err + l.length * (34 * errZ + 2) := by
  have hs := scale_pos
  have hzz : |(Z.re : ℝ)| ≤ 2 * scale ∧ |(Z.im : ℝ)| ≤ 2 * scale := by
    have h1 : ‖(⟨Z.re, Z.im⟩ : ℂ)‖ ≤ 2 * scale := by
      have e : (⟨Z.re, Z.im⟩ : ℂ) = z * (scale : ℝ) - (z * (scale : ℝ) - Z.mid) := by rw [mid]; ring
      rw [e]
      refine (norm_sub_le _ _).trans ?_
      rw [norm_mul, hz, one_mul, Complex.norm_real, Real.norm_eq_abs, abs_of_pos hs]
      have : (Z.err : ℝ) ≤ scale := by
        have : Z.err ≤ scale := he.trans (by decide)
        exact_mod_cast this
      have := hZ
      unfold Has at this
      linarith
    exact abs_parts h1
  induction l with
  | nil =>
    intro A B a b h err ha hb hh _ _ hrun
    exact ⟨A, B, a, b, hrun, ha, hb, by simpa [hornerC] using hh⟩
  | cons c l ih =>
    intro A B a b h err ha hb hh hsum hlen hrun
    have hE0 : (0 : ℝ) ≤ 34 * (errZ : ℝ) + 2 := by positivity
    have herr0 : 0 ≤ err := (norm_nonneg _).trans hh
    rw [List.length_cons, Nat.cast_succ] at hlen
    have hll : (0 : ℝ) ≤ l.length * (34 * (errZ : ℝ) + 2) := by positivity
    have herrS : err ≤ scale := by linarith
    have hls : (0 : ℝ) ≤ ((l.sum : Nat) : ℝ) := Nat.cast_nonneg _
    have hcs : (0 : ℝ) ≤ (c : ℝ) := Nat.cast_nonneg _
    have hsum' : ‖h‖ * scale + (c + (l.sum : Nat)) ≤ 33 * scale := by
      rw [List.sum_cons, Nat.cast_add] at hsum
      exact hsum
    have hst : ‖(⟨A, B⟩ : ℂ)‖ ≤ 34 * scale := by
      have e : (⟨A, B⟩ : ℂ) = h * (scale : ℝ) - (h * (scale : ℝ) - ⟨A, B⟩) := by ring
      rw [e]
      refine (norm_sub_le _ _).trans ?_
      rw [norm_mul, Complex.norm_real, Real.norm_eq_abs, abs_of_pos hs]
      linarith
    obtain ⟨hA, hB⟩ := abs_parts hst
    have big : ∀ x y p q : ℝ, |x| ≤ 34 * (scale : ℝ) → |y| ≤ 34 * (scale : ℝ) → |p| ≤ 2 * (scale : ℝ) → |q| ≤ 2 * (scale : ℝ) →
        0 ≤ x * p + y * q + offA * unitN := by
      intro x y p q h1 h2 h3 h4
      have a1 : |x * p| ≤ 34 * (scale : ℝ) * (2 * scale) := by rw [abs_mul]; exact mul_le_mul h1 h3 (abs_nonneg _) (by positivity)
      have a2 : |y * q| ≤ 34 * (scale : ℝ) * (2 * scale) := by rw [abs_mul]; exact mul_le_mul h2 h4 (abs_nonneg _) (by positivity)
      rw [abs_le] at a1 a2
      have : (136 : ℝ) * scale * scale ≤ offA * unitN := by norm_num [scale, offA, unitN]
      nlinarith
    have p1 : 0 ≤ A * Z.re - B * Z.im + offA * unitN := by
      have := big A B Z.re (-Z.im) hA hB hzz.1 (by rw [abs_neg]; exact hzz.2)
      have h2 : (0 : ℝ) ≤ ((A * Z.re - B * Z.im + offA * unitN : Int) : ℝ) := by push_cast; linarith
      exact_mod_cast h2
    have p2 : 0 ≤ A * Z.im + B * Z.re + offA * unitN := by
      have := big A B Z.im Z.re hA hB hzz.2 hzz.1
      have h2 : (0 : ℝ) ≤ ((A * Z.im + B * Z.re + offA * unitN : Int) : ℝ) := by push_cast; linarith
      exact_mod_cast h2
    rw [run_cons] at hrun
    have q1 := toNat_step ha hb hr hn hu p1 c
    have q2 := toNat_stepB ha hb hr hi hv p2
    have hstep : ‖(h * z + (c : ℂ) / (scale : ℝ)) * (scale : ℝ) - ⟨((A * Z.re - B * Z.im) / scale + c : Int), ((A * Z.im + B * Z.re) / scale : Int)⟩‖
        ≤ err + (34 * (errZ : ℝ) + 2) := by
      have hsC : ((scale : ℝ) : ℂ) ≠ 0 := by exact_mod_cast hs.ne'
      have hm := mid_mul ⟨A, B, 0⟩ Z 0
      have e : (h * z + (c : ℂ) / (scale : ℝ)) * (scale : ℝ) - ⟨((A * Z.re - B * Z.im) / scale + c : Int), ((A * Z.im + B * Z.re) / scale : Int)⟩
          = (h * (scale : ℝ) - ⟨A, B⟩) * z + (⟨A, B⟩ : ℂ) * (z * (scale : ℝ) - Z.mid) / (scale : ℝ)
            + ((⟨A, B, 0⟩ : Ball).mid * Z.mid / (scale : ℝ) - (⟨(A * Z.re - B * Z.im) / scale, (A * Z.im + B * Z.re) / scale, 0⟩ : Ball).mid) := by
        have e1 : (⟨((A * Z.re - B * Z.im) / scale + c : Int), ((A * Z.im + B * Z.re) / scale : Int)⟩ : ℂ)
            = (⟨(A * Z.re - B * Z.im) / scale, (A * Z.im + B * Z.re) / scale, 0⟩ : Ball).mid + c := by
          apply Complex.ext <;> simp [mid]
        rw [e1]
        have e2 : ((⟨A, B, 0⟩ : Ball).mid) = (⟨A, B⟩ : ℂ) := rfl
        rw [e2]
        field_simp
        ring
      rw [e]
      have t1 : ‖(h * (scale : ℝ) - ⟨A, B⟩) * z‖ ≤ err := by rw [norm_mul, hz, mul_one]; exact hh
      have t2 : ‖(⟨A, B⟩ : ℂ) * (z * (scale : ℝ) - Z.mid) / ((scale : ℝ) : ℂ)‖ ≤ 34 * errZ := by
        rw [norm_div, Complex.norm_real, Real.norm_eq_abs, abs_of_pos hs, norm_mul, div_le_iff₀ hs]
        have heR : (Z.err : ℝ) ≤ errZ := by exact_mod_cast he
        calc _ ≤ 34 * (scale : ℝ) * errZ := mul_le_mul hst (le_trans hZ heR) (norm_nonneg _) (by positivity)
          _ = _ := by ring
      refine (norm_add_le _ _).trans ?_
      have := norm_add_le ((h * (scale : ℝ) - ⟨A, B⟩) * z) ((⟨A, B⟩ : ℂ) * (z * (scale : ℝ) - Z.mid) / (scale : ℝ))
      linarith
    obtain ⟨A', B', a', b', f1, f2, f3, f4⟩ := ih _ _ _ _ (h * z + (c : ℂ) / (scale : ℝ)) (err + (34 * (errZ : ℝ) + 2)) q1 q2 hstep (by
      have : ‖h * z + (c : ℂ) / ((scale : ℝ) : ℂ)‖ ≤ ‖h‖ + c / scale := by
        refine (norm_add_le _ _).trans ?_
        rw [norm_mul, hz, mul_one, norm_div, Complex.norm_real, Real.norm_eq_abs, abs_of_pos hs, Complex.norm_natCast]
      have h2 := mul_le_mul_of_nonneg_right this hs.le
      have h3 : (‖h‖ + c / scale) * (scale : ℝ) = ‖h‖ * scale + c := by field_simp
      linarith) (by linarith) hrun
    refine ⟨A', B', a', b', f1, f2, f3, ?_⟩
    rw [List.length_cons, Nat.cast_succ]
    refine le_trans f4 ?_
    linarith

/-- What `evalAt` has computed. -/
theorem evalAt_spec {z : ℂ} (hz : ‖z‖ = 1) {Z : Ball} (hZ : Z.Has z) (he : Z.err ≤ errZ) (l : List Nat) (hl : l.sum ≤ 33 * unitN)
    (hlen : l.length * (34 * errZ + 2) ≤ unitN) (fin : Nat → Bool) (h : evalAt Z l fin = true) :
    ∃ s : Nat, fin s = true ∧ |‖hornerC z l 0‖ * scale - Real.sqrt s| ≤ l.length * (34 * errZ + 2) := by
  have hs := scale_pos
  have hzz : |Z.re| ≤ 2 * unitN ∧ |Z.im| ≤ 2 * unitN := by
    have h1 : ‖(⟨Z.re, Z.im⟩ : ℂ)‖ ≤ 2 * scale := by
      have e : (⟨Z.re, Z.im⟩ : ℂ) = z * (scale : ℝ) - (z * (scale : ℝ) - Z.mid) := by rw [mid]; ring
      rw [e]
      refine (norm_sub_le _ _).trans ?_
      rw [norm_mul, hz, one_mul, Complex.norm_real, Real.norm_eq_abs, abs_of_pos hs]
      have : (Z.err : ℝ) ≤ scale := by
        have : Z.err ≤ scale := he.trans (by decide)
        exact_mod_cast this
      have := hZ
      unfold Has at this
      linarith
    obtain ⟨a, b⟩ := abs_parts h1
    rw [scale_eq] at a b
    exact ⟨by exact_mod_cast a, by exact_mod_cast b⟩
  obtain ⟨z1, z2⟩ := hzz
  rw [abs_le] at z1 z2
  have c1 : (2 * unitN : Int) ≤ offZ := by decide
  have c2 : (4 * unitN : Int) ≤ unitN + offZ := by decide
  unfold evalAt at h
  rw [force_eq, force_eq, force_eq, force_eq, force_eq] at h
  have hA0 : (0 : Int) ≤ offA := by decide
  obtain ⟨A, B, a, b, f1, f2, f3, f4⟩ := run_spec hz hZ he (Int.toNat_of_nonneg (by omega)) (Int.toNat_of_nonneg (by omega)) (Int.toNat_of_nonneg (by omega))
    (Int.toNat_of_nonneg (mul_nonneg hA0 (by omega)))
    (Int.toNat_of_nonneg (mul_nonneg hA0 (by omega))) _ l 0 0 offA offA 0 0 (by simp) (by simp) (by
      have : (⟨((0 : Int) : ℝ), ((0 : Int) : ℝ)⟩ : ℂ) = 0 := by apply Complex.ext <;> simp
      rw [this]; simp) (by
      rw [norm_zero, zero_mul, zero_add, scale_eq, Int.cast_natCast]
      have : ((l.sum : Nat) : ℝ) ≤ ((33 * unitN : Nat) : ℝ) := Nat.cast_le.2 hl
      rw [Nat.cast_mul] at this
      exact this) (by
      rw [zero_add, scale_eq]
      exact_mod_cast hlen) h
  rw [force_eq] at f1
  refine ⟨_, f1, ?_⟩
  have e2 : ((a * a + b * b + 2 * offA * offA - 2 * offA * (a + b) : Nat) : Int) = A * A + B * B := by
    have e3 : ((a : Int) * a + b * b + 2 * offA * offA) - 2 * offA * (a + b) = A * A + B * B := by rw [f2, f3]; ring
    rw [Int.ofNat_sub]
    · push_cast; exact e3
    · have : (0 : Int) ≤ (a * a + b * b + 2 * offA * offA : Nat) - (2 * offA * (a + b) : Nat) := by
        push_cast; rw [e3]; exact add_nonneg (mul_self_nonneg _) (mul_self_nonneg _)
      omega
  have e4 : Real.sqrt ((a * a + b * b + 2 * offA * offA - 2 * offA * (a + b) : Nat) : ℝ) = ‖(⟨A, B⟩ : ℂ)‖ := by
    have : ((a * a + b * b + 2 * offA * offA - 2 * offA * (a + b) : Nat) : ℝ) = (A : ℝ) * A + B * B := by exact_mod_cast congrArg (Int.cast : Int → ℝ) e2
    rw [this, Complex.norm_def, Complex.normSq_mk]
  have e5 : ‖hornerC z l 0‖ * scale = ‖hornerC z l 0 * (scale : ℝ)‖ := by
    rw [norm_mul, Complex.norm_real, Real.norm_eq_abs, abs_of_pos hs]
  show |_ - Real.sqrt ((a * a + b * b + 2 * offA * offA - 2 * offA * (a + b) : Nat) : ℝ)| ≤ _
  rw [e4, e5]
  refine (abs_norm_sub_norm_le _ _).trans (f4.trans ?_)
  rw [zero_add]

end Verif.Dtmf.Dial
