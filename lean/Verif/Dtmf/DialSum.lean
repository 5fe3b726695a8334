import Verif.Dtmf.DialBall

/-!
# Sums of complex exponentials with many terms, for the kernel

Helper for C140 and C151.  A sum `∑ cₙ zⁿ` is cut into rows of `m` terms.  The `i`-th terms of all rows are packed into one large number, so that the sums
of all rows are computed together with `m` multiplications; they are combined by Horner's rule in `z ^ m`.
-/

namespace Verif.Dtmf.Dial
open Complex Verif.Ax25.Ear Verif.Ax25.Ear.Ball

/-! ## Packed numbers -/

/-- The base of the packed numbers. -/
def radix : Nat := 2 ^ 104

/-- The largest error of `z` in units. -/
def errQ : Nat := 80000

/-- The largest error of the powers of `z` in units. -/
def errP : Nat := 5500000

/-- Sum of products. -/
def dot : List Nat → List Nat → Nat
  | c :: l, a :: k => c * a + dot l k
  | _, _ => 0

/-- One more row. -/
def packStep (acc row : List Nat) : List Nat := List.zipWith (fun a c => a * radix + c) acc row

/-- The `i`-th entries of all rows in one number. -/
def pack (m : Nat) (rows : List (List Nat)) : List Nat := rows.foldl packStep (List.replicate m 0)

/-- One number for each row in one number. -/
def packVals (f : List Nat → Nat) (rows : List (List Nat)) : Nat := rows.foldl (fun h r => h * radix + f r) 0

theorem dot_packStep (acc : List Nat) : ∀ (row a : List Nat), acc.length = row.length → dot (packStep acc row) a = dot acc a * radix + dot row a := by
  induction acc with
  | nil =>
    intro row a h
    obtain rfl : row = [] := List.length_eq_zero_iff.1 h.symm
    simp [packStep, dot]
  | cons x acc ih =>
    intro row a h
    cases row with
    | nil => simp at h
    | cons y row =>
      cases a with
      | nil => simp [packStep, dot]
      | cons b a =>
        have := ih row a (by simpa using h)
        simp only [packStep, List.zipWith_cons_cons, dot] at this ⊢
        rw [this]
        ring

theorem packStep_length {acc row : List Nat} (h : acc.length = row.length) : (packStep acc row).length = row.length := by
  rw [packStep, List.length_zipWith, h, Nat.min_self]

theorem dot_foldl {m : Nat} (a : List Nat) (rows : List (List Nat)) : ∀ acc : List Nat, acc.length = m → (∀ r ∈ rows, r.length = m) →
    dot (rows.foldl packStep acc) a = rows.foldl (fun h r => h * radix + dot r a) (dot acc a) := by
  induction rows with
  | nil => intros; rfl
  | cons r rows ih =>
    intro acc h1 h2
    have hr := h2 r (by simp)
    rw [List.foldl_cons, List.foldl_cons, ih _ (by rw [packStep_length (by omega), hr]) fun r' h' => h2 r' (by simp [h']), dot_packStep _ _ _ (by omega)]

theorem dot_replicate (m : Nat) : ∀ a : List Nat, dot (List.replicate m 0) a = 0 := by
  induction m with
  | zero => intro a; rfl
  | succ m ih =>
    intro a
    cases a with
    | nil => rfl
    | cons b a => rw [List.replicate_succ, dot, ih]; simp

theorem dot_pack {m : Nat} (a : List Nat) (rows : List (List Nat)) (h : ∀ r ∈ rows, r.length = m) :
    dot (pack m rows) a = packVals (fun r => dot r a) rows := by
  rw [pack, dot_foldl a rows _ (by simp) h, dot_replicate]
  rfl

theorem pack_length {m : Nat} (rows : List (List Nat)) (h : ∀ r ∈ rows, r.length = m) : (pack m rows).length = m := by
  unfold pack
  have : ∀ acc : List Nat, acc.length = m → (rows.foldl packStep acc).length = m := by
    induction rows with
    | nil => exact fun acc h => h
    | cons r rows ih =>
      intro acc h1
      have hr := h r (by simp)
      exact ih (fun r' h' => h r' (by simp [h'])) _ (by rw [packStep_length (by omega), hr])
  exact this _ (by simp)

theorem packVals_concat (f : List Nat → Nat) (rows : List (List Nat)) (r : List Nat) : packVals f (rows ++ [r]) = packVals f rows * radix + f r := by
  rw [packVals, List.foldl_append]
  rfl

/-! ## What the kernel computes -/

/-- The parts of a disk made natural numbers. -/
def reN (P : Ball) : Nat := (P.re + offA).toNat
def imN (P : Ball) : Nat := (P.im + offA).toNat

/-- The numbers made from a disk with the parts `p - offA` and `q - offA` for `run`. -/
noncomputable def consts (p q : Nat) (k : Nat → Nat → Nat → Nat → Nat → Bool) : Bool :=
  force (Nat.sub p (Nat.sub offA offZ)) fun zr => force (Nat.sub q (Nat.sub offA offZ)) fun zi => force (Nat.sub (Nat.add offA offZ) q) fun zn =>
  force (Nat.mul offA (Nat.sub (Nat.add (Nat.add unitN offZ) q) p)) fun u =>
  force (Nat.mul offA (Nat.sub (Nat.add (Nat.add unitN offZ) (Nat.mul 2 offA)) (Nat.add p q))) fun v => k zr zi zn u v

/-- All rows multiplied with the powers of `z`; `p` and `q` are the parts of the next power. -/
noncomputable def inner (zr zi zn u v : Nat) (fin : Nat → Nat → Nat → Nat → Bool) (l : List Nat) : Nat → Nat → Nat → Nat → Bool :=
  List.rec (motive := fun _ => Nat → Nat → Nat → Nat → Bool) fin
    (fun c _ ih r i p q => force (Nat.add r (Nat.mul c p)) fun r' => force (Nat.add i (Nat.mul c q)) fun i' =>
      force (Nat.mul offZ (Nat.add (Nat.add p q) offA)) fun t =>
      force (Nat.div (Nat.sub (Nat.add (Nat.add (Nat.mul p zr) (Nat.mul q zn)) u) t) unitN) fun p' =>
      force (Nat.div (Nat.sub (Nat.add (Nat.add (Nat.mul p zi) (Nat.mul q zr)) v) t) unitN) fun q' => ih r' i' p' q') l

/-- Horner's rule from the last row on. -/
noncomputable def outer (zr zi zn u v : Nat) (fin : Nat → Nat → Bool) (n : Nat) : Nat → Nat → Nat → Nat → Nat → Bool :=
  Nat.rec (motive := fun _ => Nat → Nat → Nat → Nat → Nat → Bool) (fun _ _ _ a b => fin a b)
    (fun _ ih r i s a b =>
      force (Nat.add (Nat.mul offZ (Nat.add (Nat.add a b) offA)) (Nat.mul offA (Nat.mod s radix))) fun t =>
      force (Nat.div (Nat.sub (Nat.add (Nat.add (Nat.add (Nat.mul a zr) (Nat.mul b zn)) u) (Nat.mod r radix)) t) unitN) fun a' =>
      force (Nat.div (Nat.sub (Nat.add (Nat.add (Nat.add (Nat.mul a zi) (Nat.mul b zr)) v) (Nat.mod i radix)) t) unitN) fun b' =>
      force (Nat.div r radix) fun r' => force (Nat.div i radix) fun i' => force (Nat.div s radix) fun s' => ih r' i' s' a' b') n

/-- The sum; `packs` are the packed coefficients, `sums` the packed sums of the rows, `n` their number; `fin` receives the square of the size. -/
noncomputable def sizeAt (z : Ball) (packs : List Nat) (sums n : Nat) (fin : Nat → Bool) : Bool :=
  decide (z.err ≤ errQ) && consts (z.re + offA).toNat (z.im + offA).toNat fun zr zi zn u v => inner zr zi zn u v (fun r i p q => consts p q fun zr zi zn u v => outer zr zi zn u v
    (fun a b => force (Nat.sub (Nat.add (Nat.add (Nat.mul a a) (Nat.mul b b)) (Nat.mul (Nat.mul 2 offA) offA)) (Nat.mul (Nat.mul 2 offA) (Nat.add a b))) fin)
    n r i sums offA offA) packs 0 0 (offA + unitN) offA

theorem inner_cons (zr zi zn u v : Nat) (fin : Nat → Nat → Nat → Nat → Bool) (c : Nat) (l : List Nat) (r i p q : Nat) :
    inner zr zi zn u v fin (c :: l) r i p q = inner zr zi zn u v fin l (r + c * p) (i + c * q)
      ((p * zr + q * zn + u - offZ * (p + q + offA)) / unitN) ((p * zi + q * zr + v - offZ * (p + q + offA)) / unitN) := by
  have h : inner zr zi zn u v fin (c :: l) r i p q = force (Nat.add r (Nat.mul c p)) fun r' => force (Nat.add i (Nat.mul c q)) fun i' =>
      force (Nat.mul offZ (Nat.add (Nat.add p q) offA)) fun t =>
      force (Nat.div (Nat.sub (Nat.add (Nat.add (Nat.mul p zr) (Nat.mul q zn)) u) t) unitN) fun p' =>
      force (Nat.div (Nat.sub (Nat.add (Nat.add (Nat.mul p zi) (Nat.mul q zr)) v) t) unitN) fun q' => inner zr zi zn u v fin l r' i' p' q' := rfl
  rw [h, force_eq, force_eq, force_eq, force_eq, force_eq]
  rfl

theorem outer_succ (zr zi zn u v : Nat) (fin : Nat → Nat → Bool) (n r i s a b : Nat) :
    outer zr zi zn u v fin (n + 1) r i s a b = outer zr zi zn u v fin n (r / radix) (i / radix) (s / radix)
      ((a * zr + b * zn + u + r % radix - (offZ * (a + b + offA) + offA * (s % radix))) / unitN)
      ((a * zi + b * zr + v + i % radix - (offZ * (a + b + offA) + offA * (s % radix))) / unitN) := by
  have h : outer zr zi zn u v fin (n + 1) r i s a b =
      force (Nat.add (Nat.mul offZ (Nat.add (Nat.add a b) offA)) (Nat.mul offA (Nat.mod s radix))) fun t =>
      force (Nat.div (Nat.sub (Nat.add (Nat.add (Nat.add (Nat.mul a zr) (Nat.mul b zn)) u) (Nat.mod r radix)) t) unitN) fun a' =>
      force (Nat.div (Nat.sub (Nat.add (Nat.add (Nat.add (Nat.mul a zi) (Nat.mul b zr)) v) (Nat.mod i radix)) t) unitN) fun b' =>
      force (Nat.div r radix) fun r' => force (Nat.div i radix) fun i' => force (Nat.div s radix) fun s' => outer zr zi zn u v fin n r' i' s' a' b' := rfl
  rw [h, force_eq, force_eq, force_eq, force_eq, force_eq, force_eq]
  rfl

/-- The parts of `Z` as `run` uses them. -/
structure Parts (Z : Ball) (zr zi zn u v : Nat) : Prop where
  r : (zr : Int) = Z.re + offZ
  i : (zi : Int) = Z.im + offZ
  n : (zn : Int) = offZ - Z.im
  u : (u : Int) = offA * (unitN + offZ - Z.re + Z.im)
  v : (v : Int) = offA * (unitN + offZ - Z.re - Z.im)

theorem consts_spec {Z : Ball} (h1 : |Z.re| ≤ 2 * unitN) (h2 : |Z.im| ≤ 2 * unitN) {p q : Nat} (hp : (p : Int) = Z.re + offA) (hq : (q : Int) = Z.im + offA)
    (k : Nat → Nat → Nat → Nat → Nat → Bool) : ∃ zr zi zn u v, Parts Z zr zi zn u v ∧ consts p q k = k zr zi zn u v := by
  rw [abs_le] at h1 h2
  have c0 : (unitN : Int) = 1000000000000 := rfl
  have c1 : (offA : Int) = 1125899906842624 := by decide
  have c2 : (offZ : Int) = 4398046511104 := by decide
  have d0 : unitN = 1000000000000 := rfl
  have d1 : offA = 1125899906842624 := by decide
  have d2 : offZ = 4398046511104 := by decide
  refine ⟨p - (offA - offZ), q - (offA - offZ), offA + offZ - q, offA * (unitN + offZ + q - p), offA * (unitN + offZ + 2 * offA - (p + q)), ⟨?_, ?_, ?_, ?_, ?_⟩, ?_⟩
  · omega
  · omega
  · omega
  · rw [Nat.cast_mul]; congr 1; omega
  · rw [Nat.cast_mul]; congr 1; omega
  · unfold consts
    rw [force_eq, force_eq, force_eq, force_eq, force_eq]
    rfl

/-! ## What it means -/

/-- `∑ cₙ zⁿ`, the coefficients being in units. -/
noncomputable def cval (z : ℂ) : List Nat → ℂ
  | [] => 0
  | c :: l => (c : ℂ) / (scale : ℝ) + z * cval z l

theorem cval_append (z : ℂ) (l k : List Nat) : cval z (l ++ k) = cval z l + z ^ l.length * cval z k := by
  induction l with
  | nil => simp [cval]
  | cons c l ih =>
    rw [List.cons_append, cval, cval, ih, List.length_cons]
    ring

theorem cval_sum (z : ℂ) (l : List Nat) : cval z l = ∑ n ∈ Finset.range l.length, (l.getD n 0 : ℂ) / (scale : ℝ) * z ^ n := by
  induction l with
  | nil => simp [cval]
  | cons c l ih =>
    rw [cval, ih, List.length_cons, Finset.sum_range_succ']
    simp only [List.getD_cons_zero, List.getD_cons_succ, pow_zero, mul_one]
    rw [add_comm, Finset.mul_sum]
    congr 1
    refine Finset.sum_congr rfl fun n _ => ?_
    ring

/-- The rows one after the other. -/
noncomputable def rowsVal (z w : ℂ) : List (List Nat) → ℂ
  | [] => 0
  | r :: rows => cval z r + w * rowsVal z w rows

theorem rowsVal_concat (z w : ℂ) (rows : List (List Nat)) (r : List Nat) : rowsVal z w (rows ++ [r]) = rowsVal z w rows + w ^ rows.length * cval z r := by
  induction rows with
  | nil => simp [rowsVal]
  | cons x rows ih =>
    rw [List.cons_append, rowsVal, rowsVal, ih, List.length_cons]
    ring

theorem rowsVal_flatten {z : ℂ} {m : Nat} (rows : List (List Nat)) (h : ∀ r ∈ rows, r.length = m) : rowsVal z (z ^ m) rows = cval z rows.flatten := by
  induction rows with
  | nil => rfl
  | cons r rows ih =>
    rw [rowsVal, List.flatten_cons, cval_append, ih fun r' h' => h r' (by simp [h']), h r (by simp)]

/-- The disks enclose the powers of `z` from `k` on. -/
def Powers (z : ℂ) : Nat → List Ball → Prop
  | _, [] => True
  | k, P :: Ps => P.Has (z ^ k) ∧ P.err ≤ errP ∧ Powers z (k + 1) Ps

theorem ball_small {z : ℂ} (hz : ‖z‖ = 1) {P : Ball} (h : P.Has z) (he : P.err ≤ errP) : |P.re| ≤ 2 * unitN ∧ |P.im| ≤ 2 * unitN := by
  have hs := scale_pos
  have h1 : ‖(⟨P.re, P.im⟩ : ℂ)‖ ≤ 2 * scale := by
    have e : (⟨P.re, P.im⟩ : ℂ) = z * (scale : ℝ) - (z * (scale : ℝ) - P.mid) := by rw [mid]; ring
    rw [e]
    refine (norm_sub_le _ _).trans ?_
    rw [norm_mul, hz, one_mul, Complex.norm_real, Real.norm_eq_abs, abs_of_pos hs]
    have : (P.err : ℝ) ≤ scale := by
      have : P.err ≤ scale := he.trans (by decide)
      exact_mod_cast this
    have := h
    unfold Has at this
    linarith
  obtain ⟨a, b⟩ := abs_parts h1
  rw [scale_eq] at a b
  exact ⟨by exact_mod_cast a, by exact_mod_cast b⟩

/-- The error of one step. -/
theorem step_near {z h d : ℂ} (hz : ‖z‖ = 1) {Z : Ball} (hZ : Z.Has z) {E err e M : ℝ} (heZ : (Z.err : ℝ) ≤ E) (hM : 0 ≤ M) {A B C D : Int}
    (hh : ‖h * (scale : ℝ) - ⟨A, B⟩‖ ≤ err) (hst : ‖(⟨A, B⟩ : ℂ)‖ ≤ M * scale) (hd : ‖d * (scale : ℝ) * (scale : ℝ) - ⟨C, D⟩‖ ≤ e * scale) :
    ‖(h * z + d) * (scale : ℝ) - ⟨((A * Z.re - B * Z.im + C) / scale : Int), ((A * Z.im + B * Z.re + D) / scale : Int)⟩‖ ≤ err + M * E + e + 2 := by
  have hs := scale_pos
  have hsC : ((scale : ℝ) : ℂ) ≠ 0 := by exact_mod_cast hs.ne'
  have d1 := div_near (A * Z.re - B * Z.im + C)
  have d2 := div_near (A * Z.im + B * Z.re + D)
  have e0 : (h * z + d) * (scale : ℝ) - ⟨((A * Z.re - B * Z.im + C) / scale : Int), ((A * Z.im + B * Z.re + D) / scale : Int)⟩
      = (h * (scale : ℝ) - ⟨A, B⟩) * z + (⟨A, B⟩ : ℂ) * (z * (scale : ℝ) - Z.mid) / (scale : ℝ) + (d * (scale : ℝ) * (scale : ℝ) - ⟨C, D⟩) / (scale : ℝ)
        + ⟨((A * Z.re - B * Z.im + C : Int) : ℝ) / scale - ((A * Z.re - B * Z.im + C) / scale : Int),
            ((A * Z.im + B * Z.re + D : Int) : ℝ) / scale - ((A * Z.im + B * Z.re + D) / scale : Int)⟩ := by
    have e1 : (⟨((A * Z.re - B * Z.im + C : Int) : ℝ) / scale - ((A * Z.re - B * Z.im + C) / scale : Int),
            ((A * Z.im + B * Z.re + D : Int) : ℝ) / scale - ((A * Z.im + B * Z.re + D) / scale : Int)⟩ : ℂ)
        = ((⟨A, B⟩ : ℂ) * Z.mid + ⟨C, D⟩) / ((scale : ℝ) : ℂ)
          - ⟨((A * Z.re - B * Z.im + C) / scale : Int), ((A * Z.im + B * Z.re + D) / scale : Int)⟩ := by
      rw [eq_sub_iff_add_eq, eq_div_iff hsC]
      have hs' : (scale : ℝ) ≠ 0 := hs.ne'
      apply Complex.ext
      · simp only [Complex.add_re, Complex.mul_re, mid, Complex.ofReal_re, Complex.ofReal_im, mul_zero, sub_zero, sub_add_cancel]
        push_cast
        field_simp
      · simp only [Complex.add_im, Complex.mul_im, mid, Complex.ofReal_re, Complex.ofReal_im, mul_zero, zero_add, sub_add_cancel]
        push_cast
        field_simp
    rw [e1]
    field_simp
    ring
  rw [e0]
  have t1 : ‖(h * (scale : ℝ) - ⟨A, B⟩) * z‖ ≤ err := by rw [norm_mul, hz, mul_one]; exact hh
  have t2 : ‖(⟨A, B⟩ : ℂ) * (z * (scale : ℝ) - Z.mid) / ((scale : ℝ) : ℂ)‖ ≤ M * E := by
    rw [norm_div, Complex.norm_real, Real.norm_eq_abs, abs_of_pos hs, norm_mul, div_le_iff₀ hs]
    calc _ ≤ M * (scale : ℝ) * E := mul_le_mul hst (le_trans hZ heZ) (norm_nonneg _) (by positivity)
      _ = _ := by ring
  have t3 : ‖(d * (scale : ℝ) * (scale : ℝ) - ⟨C, D⟩) / ((scale : ℝ) : ℂ)‖ ≤ e := by
    rw [norm_div, Complex.norm_real, Real.norm_eq_abs, abs_of_pos hs, div_le_iff₀ hs]
    exact hd
  have t4 : ‖(⟨((A * Z.re - B * Z.im + C : Int) : ℝ) / scale - ((A * Z.re - B * Z.im + C) / scale : Int),
            ((A * Z.im + B * Z.re + D : Int) : ℝ) / scale - ((A * Z.im + B * Z.re + D) / scale : Int)⟩ : ℂ)‖ ≤ 2 := by
    refine (Complex.norm_le_abs_re_add_abs_im _).trans ?_
    simp only
    rw [abs_le] at d1 d2
    have a1 : |((A * Z.re - B * Z.im + C : Int) : ℝ) / scale - ((A * Z.re - B * Z.im + C) / scale : Int)| ≤ 1 := by rw [abs_le]; constructor <;> linarith
    have a2 : |((A * Z.im + B * Z.re + D : Int) : ℝ) / scale - ((A * Z.im + B * Z.re + D) / scale : Int)| ≤ 1 := by rw [abs_le]; constructor <;> linarith
    linarith
  have n1 := norm_add_le ((h * (scale : ℝ) - ⟨A, B⟩) * z) ((⟨A, B⟩ : ℂ) * (z * (scale : ℝ) - Z.mid) / (scale : ℝ))
  have n2 := norm_add_le ((h * (scale : ℝ) - ⟨A, B⟩) * z + (⟨A, B⟩ : ℂ) * (z * (scale : ℝ) - Z.mid) / (scale : ℝ))
    ((d * (scale : ℝ) * (scale : ℝ) - ⟨C, D⟩) / (scale : ℝ))
  refine (norm_add_le _ _).trans ?_
  linarith

/-- One step with natural numbers. -/
theorem nat_step {A B zr zi C : Int} {a b r n u L s : Nat} (ha : (a : Int) = A + offA) (hb : (b : Int) = B + offA) (hr : (r : Int) = zr + offZ)
    (hn : (n : Int) = offZ - zi) (hu : (u : Int) = offA * (unitN + offZ - zr + zi)) (hC : (L : Int) - offA * s = C)
    (h0 : 0 ≤ A * zr - B * zi + C + offA * unitN) :
    (((a * r + b * n + u + L - (offZ * (a + b + offA) + offA * s)) / unitN : Nat) : Int) = (A * zr - B * zi + C) / scale + offA := by
  have e := stepA_eq A B zr zi
  rw [← ha, ← hb, ← hr, ← hn, ← hu] at e
  have e2 : ((a * r + b * n + u + L - (offZ * (a + b + offA) + offA * s) : Nat) : Int) = A * zr - B * zi + C + offA * unitN := by
    have e3 : ((a * r + b * n + u + L : Nat) : Int) - (offZ * (a + b + offA) + offA * s : Nat) = A * zr - B * zi + C + offA * unitN := by
      push_cast
      linarith
    rw [Int.ofNat_sub]
    · exact e3
    · omega
  rw [Int.natCast_ediv, e2, scale_eq, Int.add_mul_ediv_right _ _ (by decide)]

theorem nat_stepB {A B zr zi C : Int} {a b r i u L s : Nat} (ha : (a : Int) = A + offA) (hb : (b : Int) = B + offA) (hr : (r : Int) = zr + offZ)
    (hi : (i : Int) = zi + offZ) (hu : (u : Int) = offA * (unitN + offZ - zr - zi)) (hC : (L : Int) - offA * s = C)
    (h0 : 0 ≤ A * zi + B * zr + C + offA * unitN) :
    (((a * i + b * r + u + L - (offZ * (a + b + offA) + offA * s)) / unitN : Nat) : Int) = (A * zi + B * zr + C) / scale + offA := by
  have e := stepB_eq A B zr zi
  rw [← ha, ← hb, ← hr, ← hi, ← hu] at e
  have e2 : ((a * i + b * r + u + L - (offZ * (a + b + offA) + offA * s) : Nat) : Int) = A * zi + B * zr + C + offA * unitN := by
    have e3 : ((a * i + b * r + u + L : Nat) : Int) - (offZ * (a + b + offA) + offA * s : Nat) = A * zi + B * zr + C + offA * unitN := by
      push_cast
      linarith
    rw [Int.ofNat_sub]
    · exact e3
    · omega
  rw [Int.natCast_ediv, e2, scale_eq, Int.add_mul_ediv_right _ _ (by decide)]

/-- The offset is large enough. -/
theorem step_pos {x y p q c : Int} (hx : |(x : ℝ)| ≤ 200 * (scale : ℝ)) (hy : |(y : ℝ)| ≤ 200 * (scale : ℝ)) (hp : |p| ≤ 2 * unitN) (hq : |q| ≤ 2 * unitN)
    (hc : |(c : ℝ)| ≤ 128 * (scale : ℝ) * scale) : 0 ≤ x * p + y * q + c + offA * unitN := by
  have hs := scale_pos
  have hp' : |(p : ℝ)| ≤ 2 * (scale : ℝ) := by rw [scale_eq]; exact_mod_cast hp
  have hq' : |(q : ℝ)| ≤ 2 * (scale : ℝ) := by rw [scale_eq]; exact_mod_cast hq
  have a1 : |(x : ℝ) * p| ≤ 200 * (scale : ℝ) * (2 * scale) := by rw [abs_mul]; exact mul_le_mul hx hp' (abs_nonneg _) (by positivity)
  have a2 : |(y : ℝ) * q| ≤ 200 * (scale : ℝ) * (2 * scale) := by rw [abs_mul]; exact mul_le_mul hy hq' (abs_nonneg _) (by positivity)
  rw [abs_le] at a1 a2 hc
  have h3 : (928 : ℝ) * scale * scale ≤ offA * unitN := by norm_num [scale, offA, unitN]
  have h2 : (0 : ℝ) ≤ ((x * p + y * q + c + offA * unitN : Int) : ℝ) := by push_cast; linarith [a1.1, a2.1, hc.1]
  exact_mod_cast h2

theorem inner_spec {z : ℂ} (hz : ‖z‖ = 1) {Z : Ball} (hZ : Z.Has z) (he : Z.err ≤ errQ) {zr zi zn u v : Nat} (hp : Parts Z zr zi zn u v)
    (fin : Nat → Nat → Nat → Nat → Bool) (l : List Nat) :
    ∀ (k r i : Nat) (A B : Int) (p q : Nat) (err : ℝ), (p : Int) = A + offA → (q : Int) = B + offA → ‖z ^ k * (scale : ℝ) - ⟨A, B⟩‖ ≤ err →
      err + l.length * (2 * errQ + 2) ≤ errP → inner zr zi zn u v fin l r i p q = true →
      ∃ (Ps : List Ball) (W : Ball) (p' q' : Nat), Ps.length = l.length ∧ Powers z k Ps ∧ (p' : Int) = W.re + offA ∧ (q' : Int) = W.im + offA ∧
        W.Has (z ^ (k + l.length)) ∧ W.err = errP ∧ fin (r + dot l (Ps.map reN)) (i + dot l (Ps.map imN)) p' q' = true := by
  have hs := scale_pos
  have heR : (Z.err : ℝ) ≤ errQ := by exact_mod_cast he
  have hzz := ball_small hz hZ (he.trans (by decide))
  induction l with
  | nil =>
    intro k r i A B p q err h1 h2 h3 h4 h
    refine ⟨[], ⟨A, B, errP⟩, p, q, rfl, trivial, h1, h2, ?_, rfl, h⟩
    unfold Has
    refine le_trans h3 ?_
    simpa using h4
  | cons c l ih =>
    intro k r i A B p q err h1 h2 h3 h4 h
    rw [inner_cons] at h
    rw [List.length_cons, Nat.cast_succ] at h4
    have hl0 : (0 : ℝ) ≤ l.length * (2 * (errQ : ℝ) + 2) := by positivity
    have hq0 : (0 : ℝ) ≤ 2 * (errQ : ℝ) + 2 := by positivity
    have herr : err ≤ errP := by linarith
    have hPs : (errP : ℝ) ≤ scale := by norm_num [errP, scale]
    have hst : ‖(⟨A, B⟩ : ℂ)‖ ≤ 2 * scale := by
      have e : (⟨A, B⟩ : ℂ) = z ^ k * (scale : ℝ) - (z ^ k * (scale : ℝ) - ⟨A, B⟩) := by ring
      rw [e]
      refine (norm_sub_le _ _).trans ?_
      rw [norm_mul, norm_pow, hz, one_pow, one_mul, Complex.norm_real, Real.norm_eq_abs, abs_of_pos hs]
      linarith
    obtain ⟨hA, hB⟩ := abs_parts hst
    have hP : (⟨A, B, errP⟩ : Ball).Has (z ^ k) := by
      unfold Has
      exact le_trans h3 (by simpa using herr)
    have hA2 : |(A : ℝ)| ≤ 200 * (scale : ℝ) := by linarith
    have hB2 : |(B : ℝ)| ≤ 200 * (scale : ℝ) := by linarith
    have hc0 : |((0 : Int) : ℝ)| ≤ 128 * (scale : ℝ) * scale := by simp; positivity
    have p1 : 0 ≤ A * Z.re - B * Z.im + 0 + offA * unitN := by
      have := step_pos (p := Z.re) (q := -Z.im) hA2 hB2 hzz.1 (by rw [abs_neg]; exact hzz.2) hc0
      linarith
    have p2 : 0 ≤ A * Z.im + B * Z.re + 0 + offA * unitN := step_pos (p := Z.im) (q := Z.re) hA2 hB2 hzz.2 hzz.1 hc0
    have q1 := nat_step (L := 0) (s := 0) h1 h2 hp.r hp.n hp.u (by simp) p1
    have q2 := nat_stepB (L := 0) (s := 0) h1 h2 hp.r hp.i hp.v (by simp) p2
    rw [Nat.add_zero, Nat.mul_zero, Nat.add_zero] at q1 q2
    have hn := step_near (h := z ^ k) (d := 0) (e := 0) hz hZ heR (by norm_num : (0 : ℝ) ≤ 2) (C := 0) (D := 0) h3 hst (by
      have : (⟨((0 : Int) : ℝ), ((0 : Int) : ℝ)⟩ : ℂ) = 0 := by apply Complex.ext <;> simp
      rw [this]; simp)
    rw [add_zero, ← pow_succ] at hn
    obtain ⟨Ps, W, p', q', r1, r2, r3, r4, r5, r6, r7⟩ := ih (k + 1) _ _ _ _ _ _ _ q1 q2 hn (by linarith) h
    refine ⟨⟨A, B, errP⟩ :: Ps, W, p', q', by simp [r1], ⟨hP, le_refl _, r2⟩, r3, r4, ?_, r6, ?_⟩
    · rw [List.length_cons]
      rwa [show k + 1 + l.length = k + (l.length + 1) by omega] at r5
    · have e1 : reN ⟨A, B, errP⟩ = p := by unfold reN; simp only; omega
      have e2 : imN ⟨A, B, errP⟩ = q := by unfold imN; simp only; omega
      rw [List.map_cons, List.map_cons, dot, dot, ← Nat.add_assoc, ← Nat.add_assoc, e1, e2]
      exact r7

/-- The sum of products with the parts. -/
def idot (f : Ball → Int) : List Nat → List Ball → Int
  | c :: l, P :: Ps => c * f P + idot f l Ps
  | _, _ => 0

theorem dot_idot {f : Ball → Int} {g : Ball → Nat} (l : List Nat) : ∀ (Ps : List Ball), Ps.length = l.length → (∀ P ∈ Ps, (g P : Int) = f P + offA) →
    (dot l (Ps.map g) : Int) - offA * (l.sum : Nat) = idot f l Ps := by
  induction l with
  | nil => intro Ps _ _; cases Ps <;> simp [dot, idot]
  | cons c l ih =>
    intro Ps hl h
    cases Ps with
    | nil => simp at hl
    | cons P Ps =>
      have := ih Ps (by simpa using hl) fun P' h' => h P' (by simp [h'])
      rw [List.map_cons, dot, idot, ← this, List.sum_cons]
      push_cast
      rw [h P (by simp)]
      ring

theorem dot_lt {g : Ball → Nat} (l : List Nat) : ∀ (Ps : List Ball), (∀ c ∈ l, c ≤ unitN) → (∀ P ∈ Ps, g P ≤ 2 * offA) →
    dot l (Ps.map g) ≤ l.length * (unitN * (2 * offA)) := by
  induction l with
  | nil => intro Ps _ _; simp [dot]
  | cons c l ih =>
    intro Ps h1 h2
    cases Ps with
    | nil => simp [dot]
    | cons P Ps =>
      have := ih Ps (fun c' h' => h1 c' (by simp [h'])) fun P' h' => h2 P' (by simp [h'])
      have h3 := Nat.mul_le_mul (h1 c (by simp)) (h2 P (by simp))
      rw [List.map_cons, dot, List.length_cons, Nat.succ_mul]
      omega

theorem sum_le_units (l : List Nat) (h : ∀ c ∈ l, c ≤ unitN) : l.sum ≤ l.length * unitN := by
  induction l with
  | nil => simp
  | cons c l ih =>
    have := ih fun c' h' => h c' (by simp [h'])
    have h2 := h c (by simp)
    rw [List.sum_cons, List.length_cons, Nat.succ_mul]
    omega

/-- The exact sums of products are near the sum. -/
theorem idot_near {z : ℂ} (l : List Nat) : ∀ (k : Nat) (Ps : List Ball), Ps.length = l.length → Powers z k Ps →
    ‖z ^ k * cval z l * (scale : ℝ) * (scale : ℝ) - ⟨idot Ball.re l Ps, idot Ball.im l Ps⟩‖ ≤ (l.sum : Nat) * (errP : ℝ) := by
  have hs : ((scale : ℝ) : ℂ) ≠ 0 := by exact_mod_cast scale_pos.ne'
  induction l with
  | nil =>
    intro k Ps _ _
    have : (⟨((idot Ball.re [] Ps : Int) : ℝ), ((idot Ball.im [] Ps : Int) : ℝ)⟩ : ℂ) = 0 := by
      have h1 : ∀ f, idot f [] Ps = 0 := fun f => by cases Ps <;> rfl
      rw [h1, h1]
      apply Complex.ext <;> simp
    rw [this]
    simp [cval]
  | cons c l ih =>
    intro k Ps hl hP
    cases Ps with
    | nil => simp at hl
    | cons P Ps =>
      obtain ⟨p1, p2, p3⟩ := hP
      have := ih (k + 1) Ps (by simpa using hl) p3
      rw [cval, idot, idot, List.sum_cons]
      have e : z ^ k * ((c : ℂ) / (scale : ℝ) + z * cval z l) * (scale : ℝ) * (scale : ℝ) - ⟨((c * P.re + idot Ball.re l Ps : Int) : ℝ), ((c * P.im + idot Ball.im l Ps : Int) : ℝ)⟩
          = (c : ℂ) * (z ^ k * (scale : ℝ) - P.mid) + (z ^ (k + 1) * cval z l * (scale : ℝ) * (scale : ℝ) - ⟨(idot Ball.re l Ps : Int), (idot Ball.im l Ps : Int)⟩) := by
        have e1 : (⟨((c * P.re + idot Ball.re l Ps : Int) : ℝ), ((c * P.im + idot Ball.im l Ps : Int) : ℝ)⟩ : ℂ)
            = (c : ℂ) * P.mid + ⟨(idot Ball.re l Ps : Int), (idot Ball.im l Ps : Int)⟩ := by
          apply Complex.ext <;> simp [mid]
        rw [e1]
        field_simp
        ring
      rw [e]
      refine (norm_add_le _ _).trans ?_
      have h1 : ‖(c : ℂ) * (z ^ k * (scale : ℝ) - P.mid)‖ ≤ c * (errP : ℝ) := by
        rw [norm_mul, Complex.norm_natCast]
        have : (P.err : ℝ) ≤ errP := by exact_mod_cast p2
        exact mul_le_mul_of_nonneg_left (le_trans p1 this) (Nat.cast_nonneg _)
      rw [Nat.cast_add]
      linarith

theorem powers_mem {z : ℂ} (hz : ‖z‖ = 1) (Ps : List Ball) : ∀ k, Powers z k Ps → ∀ P ∈ Ps, |P.re| ≤ 2 * unitN ∧ |P.im| ≤ 2 * unitN := by
  induction Ps with
  | nil => intro k _ P hP; simp at hP
  | cons Q Ps ih =>
    intro k h P hP
    obtain ⟨h1, h2, h3⟩ := h
    rcases List.mem_cons.1 hP with rfl | hP
    · exact ball_small (by rw [norm_pow, hz, one_pow]) h1 h2
    · exact ih _ h3 P hP

theorem cval_norm {z : ℂ} (hz : ‖z‖ = 1) (l : List Nat) : ‖cval z l‖ * scale ≤ (l.sum : Nat) := by
  have hs := scale_pos
  induction l with
  | nil => simp [cval]
  | cons c l ih =>
    have h : ‖cval z (c :: l)‖ ≤ c / scale + ‖cval z l‖ := by
      rw [cval]
      refine (norm_add_le _ _).trans ?_
      rw [norm_mul, hz, one_mul, norm_div, Complex.norm_real, Real.norm_eq_abs, abs_of_pos hs, Complex.norm_natCast]
    have h2 := mul_le_mul_of_nonneg_right h hs.le
    have h3 : (c / scale + ‖cval z l‖) * (scale : ℝ) = c + ‖cval z l‖ * scale := by field_simp
    rw [List.sum_cons, Nat.cast_add]
    linarith

/-- The error of one step of `outer`. -/
def errO : Nat := 264 * errP + 2

theorem outer_spec {z w : ℂ} (hz : ‖z‖ = 1) (hw : ‖w‖ = 1) {W : Ball} (hW : W.Has w) (he : W.err ≤ errP) {zr zi zn u v : Nat} (hp : Parts W zr zi zn u v)
    (fin : Nat → Nat → Bool) {m : Nat} (hm : m ≤ 64) {Ps : List Ball} (hl : Ps.length = m) (hP : Powers z 0 Ps) (rows : List (List Nat)) :
    (∀ r ∈ rows, r.length = m ∧ ∀ c ∈ r, c ≤ unitN) → ∀ (A B : Int) (a b : Nat) (h : ℂ) (err : ℝ), (a : Int) = A + offA → (b : Int) = B + offA →
      ‖h * (scale : ℝ) - ⟨A, B⟩‖ ≤ err → ‖h‖ * scale + (rows.flatten.sum : Nat) ≤ 199 * scale → err + rows.length * errO ≤ scale →
      outer zr zi zn u v fin rows.length (packVals (fun r => dot r (Ps.map reN)) rows) (packVals (fun r => dot r (Ps.map imN)) rows) (packVals List.sum rows) a b = true →
      ∃ (A' B' : Int) (a' b' : Nat), fin a' b' = true ∧ (a' : Int) = A' + offA ∧ (b' : Int) = B' + offA ∧
        ‖(rowsVal z w rows + w ^ rows.length * h) * (scale : ℝ) - ⟨A', B'⟩‖ ≤ err + rows.length * errO := by
  have hs := scale_pos
  have heR : (W.err : ℝ) ≤ errP := by exact_mod_cast he
  have hzz := ball_small hw hW he
  have d0 : (unitN : Int) = 1000000000000 := rfl
  have d1 : (offA : Int) = 1125899906842624 := by decide
  have d2 : offA = 1125899906842624 := by decide
  have d3 : unitN = 1000000000000 := rfl
  induction rows using List.reverseRecOn with
  | nil =>
    intro _ A B a b h err h1 h2 h3 _ _ hr
    exact ⟨A, B, a, b, hr, h1, h2, by simpa [rowsVal] using h3⟩
  | append_singleton rows r ih =>
    intro hrows A B a b h err h1 h2 h3 h4 h5 hr
    obtain ⟨r1, r2⟩ := hrows r (by simp)
    have hsm := powers_mem hz Ps 0 hP
    have bd : ∀ a b : Nat, b ≤ 64 * (unitN * (2 * offA)) → (a * radix + b) / radix = a ∧ (a * radix + b) % radix = b := by
      intro a b hb
      have hlt : b < radix := lt_of_le_of_lt hb (by decide)
      constructor
      · rw [Nat.mul_comm, Nat.mul_add_div (by decide), Nat.div_eq_of_lt hlt, Nat.add_zero]
      · rw [Nat.mul_comm, Nat.mul_add_mod, Nat.mod_eq_of_lt hlt]
    have hle : r.length * (unitN * (2 * offA)) ≤ 64 * (unitN * (2 * offA)) := Nat.mul_le_mul_right _ (by omega)
    have b1 := dot_lt (g := reN) r Ps r2 fun P hP => by
      have := (hsm P hP).1
      rw [abs_le] at this
      have e : reN P = (P.re + offA).toNat := rfl
      omega
    have b2 := dot_lt (g := imN) r Ps r2 fun P hP => by
      have := (hsm P hP).2
      rw [abs_le] at this
      have e : imN P = (P.im + offA).toNat := rfl
      omega
    have b4 : r.sum ≤ 64 * unitN := by
      refine (sum_le_units r r2).trans ?_
      exact Nat.mul_le_mul_right _ (by omega)
    have b3 : r.sum ≤ 64 * (unitN * (2 * offA)) := b4.trans (Nat.mul_le_mul_left _ (Nat.le_mul_of_pos_right _ (by omega)))
    rw [List.length_append, List.length_singleton, packVals_concat, packVals_concat, packVals_concat, outer_succ] at hr
    obtain ⟨x1, x2⟩ := bd (packVals (fun r => dot r (Ps.map reN)) rows) _ (b1.trans hle)
    obtain ⟨y1, y2⟩ := bd (packVals (fun r => dot r (Ps.map imN)) rows) _ (b2.trans hle)
    obtain ⟨z1, z2⟩ := bd (packVals List.sum rows) _ b3
    rw [x1, x2, y1, y2, z1, z2] at hr
    have i1 := dot_idot (f := Ball.re) (g := reN) r Ps (by omega) fun P hP => by
      have := (abs_le.1 (hsm P hP).1).1
      have e : reN P = (P.re + offA).toNat := rfl
      omega
    have i2 := dot_idot (f := Ball.im) (g := imN) r Ps (by omega) fun P hP => by
      have := (abs_le.1 (hsm P hP).2).1
      have e : imN P = (P.im + offA).toNat := rfl
      omega
    have i3 := idot_near r 0 Ps (by omega) hP
    rw [pow_zero, one_mul] at i3
    rw [List.flatten_append, List.sum_append, Nat.cast_add, List.flatten_singleton] at h4
    rw [List.length_append, List.length_singleton, Nat.cast_add, Nat.cast_one] at h5
    have hls : (0 : ℝ) ≤ ((rows.flatten.sum : Nat) : ℝ) := Nat.cast_nonneg _
    have hlr : (0 : ℝ) ≤ ((r.sum : Nat) : ℝ) := Nat.cast_nonneg _
    have hlO : (0 : ℝ) ≤ rows.length * (errO : ℝ) := mul_nonneg (Nat.cast_nonneg _) (Nat.cast_nonneg _)
    have hO : (errO : ℝ) = 264 * errP + 2 := by norm_num [errO]
    have hP0 : (0 : ℝ) ≤ errP := Nat.cast_nonneg _
    have hst : ‖(⟨A, B⟩ : ℂ)‖ ≤ 200 * scale := by
      have e : (⟨A, B⟩ : ℂ) = h * (scale : ℝ) - (h * (scale : ℝ) - ⟨A, B⟩) := by ring
      rw [e]
      refine (norm_sub_le _ _).trans ?_
      rw [norm_mul, Complex.norm_real, Real.norm_eq_abs, abs_of_pos hs]
      linarith
    have b5 : ((r.sum : Nat) : ℝ) ≤ 64 * scale := by
      have : ((r.sum : Nat) : ℝ) ≤ ((64 * unitN : Nat) : ℝ) := Nat.cast_le.2 b4
      rw [Nat.cast_mul] at this
      rw [scale_eq, Int.cast_natCast]
      exact this
    have i4 : (r.sum : Nat) * (errP : ℝ) ≤ 64 * errP * scale := by
      have := mul_le_mul_of_nonneg_right b5 hP0
      linarith
    have hC : ‖(⟨idot Ball.re r Ps, idot Ball.im r Ps⟩ : ℂ)‖ ≤ 128 * (scale : ℝ) * scale := by
      have e : (⟨idot Ball.re r Ps, idot Ball.im r Ps⟩ : ℂ)
          = cval z r * (scale : ℝ) * (scale : ℝ) - (cval z r * (scale : ℝ) * (scale : ℝ) - ⟨idot Ball.re r Ps, idot Ball.im r Ps⟩) := by ring
      rw [e]
      refine (norm_sub_le _ _).trans ?_
      rw [norm_mul, norm_mul, Complex.norm_real, Real.norm_eq_abs, abs_of_pos hs]
      have c1 := mul_le_mul_of_nonneg_right ((cval_norm hz r).trans b5) hs.le
      have c2 : (errP : ℝ) * scale ≤ scale * scale := mul_le_mul_of_nonneg_right (by norm_num [errP, scale]) hs.le
      linarith
    obtain ⟨hA, hB⟩ := abs_parts hst
    obtain ⟨hC1, hC2⟩ := abs_parts hC
    have p1 : 0 ≤ A * W.re - B * W.im + idot Ball.re r Ps + offA * unitN := by
      have := step_pos (p := W.re) (q := -W.im) hA hB hzz.1 (by rw [abs_neg]; exact hzz.2) hC1
      linarith
    have p2 : 0 ≤ A * W.im + B * W.re + idot Ball.im r Ps + offA * unitN := step_pos (p := W.im) (q := W.re) hA hB hzz.2 hzz.1 hC2
    have q1 := nat_step h1 h2 hp.r hp.n hp.u i1 p1
    have q2 := nat_stepB h1 h2 hp.r hp.i hp.v i2 p2
    have hn := step_near (h := h) (d := cval z r) (e := 64 * errP) hw hW heR (by norm_num : (0 : ℝ) ≤ 200) h3 hst (i3.trans i4)
    obtain ⟨A', B', a', b', f1, f2, f3, f4⟩ := ih (fun r' h' => hrows r' (by simp [h'])) _ _ _ _ (h * w + cval z r) _ q1 q2 hn (by
      have n1 : ‖h * w + cval z r‖ ≤ ‖h‖ + ‖cval z r‖ := by
        refine (norm_add_le _ _).trans ?_
        rw [norm_mul, hw, mul_one]
      have n2 := mul_le_mul_of_nonneg_right n1 hs.le
      have n3 := cval_norm hz r
      linarith) (by linarith) hr
    refine ⟨A', B', a', b', f1, f2, f3, ?_⟩
    rw [rowsVal_concat, List.length_append, List.length_singleton, Nat.cast_add, Nat.cast_one]
    have e : rowsVal z w rows + w ^ rows.length * (h * w + cval z r) = rowsVal z w rows + w ^ rows.length * cval z r + w ^ (rows.length + 1) * h := by ring
    rw [e] at f4
    refine le_trans f4 ?_
    linarith

/-- What `sizeAt` has computed. -/
theorem sizeAt_spec {z : ℂ} (hz : ‖z‖ = 1) {Z : Ball} (hZ : Z.Has z) {m : Nat} (hm : m ≤ 34) {rows : List (List Nat)}
    (hrows : ∀ r ∈ rows, r.length = m ∧ ∀ c ∈ r, c ≤ unitN) (hsum : rows.flatten.sum ≤ 199 * unitN) {packs : List Nat} (hp : packs = pack m rows) {sums : Nat}
    (hs : sums = packVals List.sum rows) {n : Nat} (hn : n = rows.length) (hn2 : n ≤ 34) {fin : Nat → Bool} (h : sizeAt Z packs sums n fin = true) :
    ∃ s : Nat, fin s = true ∧ |‖cval z rows.flatten‖ * scale - Real.sqrt s| ≤ n * errO := by
  have hsc := scale_pos
  have hr1 : ∀ r ∈ rows, r.length = m := fun r hr => (hrows r hr).1
  subst hn
  unfold sizeAt at h
  rw [Bool.and_eq_true] at h
  obtain ⟨he, h⟩ := h
  have he : Z.err ≤ errQ := of_decide_eq_true he
  have hzz := ball_small hz hZ (he.trans (by decide))
  have z1 := abs_le.1 hzz.1
  have z2 := abs_le.1 hzz.2
  have d0 : (unitN : Int) = 1000000000000 := rfl
  have d1 : (offA : Int) = 1125899906842624 := by decide
  obtain ⟨zr, zi, zn, u, v, c1, c2⟩ := consts_spec hzz.1 hzz.2 (p := (Z.re + offA).toNat) (q := (Z.im + offA).toNat) (by omega) (by omega) (fun zr zi zn u v =>
    inner zr zi zn u v (fun r i p q => consts p q fun zr zi zn u v => outer zr zi zn u v
    (fun a b => force (Nat.sub (Nat.add (Nat.add (Nat.mul a a) (Nat.mul b b)) (Nat.mul (Nat.mul 2 offA) offA)) (Nat.mul (Nat.mul 2 offA) (Nat.add a b))) fin)
    rows.length r i sums offA offA) packs 0 0 (offA + unitN) offA)
  rw [c2] at h
  have hlen : packs.length = m := by rw [hp, pack_length rows hr1]
  obtain ⟨Ps, W, p', q', r1, r2, r3, r4, r5, r6, r7⟩ := inner_spec hz hZ he c1 _ packs 0 0 0 unitN 0 (offA + unitN) offA 0 (by push_cast; ring) (by simp) (by
      have : (⟨((unitN : Int) : ℝ), ((0 : Int) : ℝ)⟩ : ℂ) = ((scale : ℝ) : ℂ) := by apply Complex.ext <;> simp [scale_eq]
      rw [this]; simp) (by
      rw [zero_add, hlen]
      have : (m : ℝ) ≤ 34 := by exact_mod_cast hm
      norm_num [errQ, errP]
      linarith) h
  subst hp hs
  rw [hlen] at r1 r5
  rw [Nat.zero_add, Nat.zero_add, dot_pack _ _ hr1, dot_pack _ _ hr1] at r7
  rw [Nat.zero_add] at r5
  have hw : ‖z ^ m‖ = 1 := by rw [norm_pow, hz, one_pow]
  have hww := ball_small hw r5 r6.le
  obtain ⟨zr', zi', zn', u', v', k1, k2⟩ := consts_spec hww.1 hww.2 r3 r4 (fun zr zi zn u v => outer zr zi zn u v
    (fun a b => force (Nat.sub (Nat.add (Nat.add (Nat.mul a a) (Nat.mul b b)) (Nat.mul (Nat.mul 2 offA) offA)) (Nat.mul (Nat.mul 2 offA) (Nat.add a b))) fin)
    rows.length (packVals (fun r => dot r (Ps.map reN)) rows) (packVals (fun r => dot r (Ps.map imN)) rows) (packVals List.sum rows) offA offA)
  rw [k2] at r7
  obtain ⟨A, B, a, b, f1, f2, f3, f4⟩ := outer_spec hz hw r5 r6.le k1 _ (by omega : m ≤ 64) r1 r2 rows hrows 0 0 offA offA 0 0 (by simp) (by simp) (by
      have : (⟨((0 : Int) : ℝ), ((0 : Int) : ℝ)⟩ : ℂ) = 0 := by apply Complex.ext <;> simp
      rw [this]; simp) (by
      rw [norm_zero, zero_mul, zero_add, scale_eq, Int.cast_natCast]
      have : ((rows.flatten.sum : Nat) : ℝ) ≤ ((199 * unitN : Nat) : ℝ) := Nat.cast_le.2 hsum
      rw [Nat.cast_mul] at this
      exact this) (by
      rw [zero_add]
      have : (rows.length : ℝ) ≤ 34 := by exact_mod_cast hn2
      norm_num [errO, errP, scale]
      linarith) r7
  rw [force_eq] at f1
  rw [mul_zero, add_zero, zero_add, rowsVal_flatten rows hr1] at f4
  refine ⟨_, f1, ?_⟩
  have e2 : ((a * a + b * b + 2 * offA * offA - 2 * offA * (a + b) : Nat) : Int) = A * A + B * B := by
    have e3 : ((a : Int) * a + b * b + 2 * offA * offA) - 2 * offA * (a + b) = A * A + B * B := by rw [f2, f3]; ring
    rw [Int.ofNat_sub]
    · push_cast; exact e3
    · have : (0 : Int) ≤ (a * a + b * b + 2 * offA * offA : Nat) - (2 * offA * (a + b) : Nat) := by
        push_cast; rw [e3]; exact add_nonneg (mul_self_nonneg _) (mul_self_nonneg _)
      omega
  have e4 : Real.sqrt ((a * a + b * b + 2 * offA * offA - 2 * offA * (a + b) : Nat) : ℝ) = ‖(⟨A, B⟩ : ℂ)‖ := by
    have : ((a * a + b * b + 2 * offA * offA - 2 * offA * (a + b) : Nat) : ℝ) = (A : ℝ) * A + B * B := by exact_mod_cast congrArg (Int.cast : Int → ℝ) e2
    rw [this, Complex.norm_def, Complex.normSq_mk]
  have e5 : ‖cval z rows.flatten‖ * scale = ‖cval z rows.flatten * (scale : ℝ)‖ := by
    rw [norm_mul, Complex.norm_real, Real.norm_eq_abs, abs_of_pos hsc]
  show |_ - Real.sqrt ((a * a + b * b + 2 * offA * offA - 2 * offA * (a + b) : Nat) : ℝ)| ≤ _
  rw [e4, e5]
  exact (abs_norm_sub_norm_le _ _).trans f4

/-! ## Rows -/

/-- `n` rows of `m`. -/
def chunks (m : Nat) : Nat → List Nat → List (List Nat)
  | 0, _ => []
  | n + 1, l => l.take m :: chunks m n (l.drop m)

theorem chunks_length (m n : Nat) : ∀ l, (chunks m n l).length = n := by
  induction n with
  | zero => intro l; rfl
  | succ n ih => intro l; rw [chunks, List.length_cons, ih]

theorem chunks_flatten (m n : Nat) : ∀ l : List Nat, l.length = n * m → (chunks m n l).flatten = l := by
  induction n with
  | zero => intro l h; rw [Nat.zero_mul] at h; rw [List.length_eq_zero_iff.1 h]; rfl
  | succ n ih =>
    intro l h
    rw [Nat.succ_mul] at h
    rw [chunks, List.flatten_cons, ih _ (by rw [List.length_drop]; omega), List.take_append_drop]

theorem chunks_rows (m n : Nat) : ∀ l : List Nat, l.length = n * m → (∀ c ∈ l, c ≤ unitN) → ∀ r ∈ chunks m n l, r.length = m ∧ ∀ c ∈ r, c ≤ unitN := by
  induction n with
  | zero => intro l _ _ r hr; simp [chunks] at hr
  | succ n ih =>
    intro l h hc r hr
    rw [Nat.succ_mul] at h
    rw [chunks, List.mem_cons] at hr
    rcases hr with rfl | hr
    · exact ⟨by rw [List.length_take]; omega, fun c h' => hc c (List.mem_of_mem_take h')⟩
    · exact ih _ (by rw [List.length_drop]; omega) (fun c h' => hc c (List.mem_of_mem_drop h')) r hr

theorem cval_zeros (z : ℂ) (n : Nat) : cval z (List.replicate n 0) = 0 := by
  induction n with
  | zero => rfl
  | succ n ih => rw [List.replicate_succ, cval, ih]; simp

theorem chunks_cval (z : ℂ) {m n k : Nat} {l : List Nat} (h : l.length + k = n * m) : cval z (chunks m n (l ++ List.replicate k 0)).flatten = cval z l := by
  rw [chunks_flatten m n _ (by rw [List.length_append, List.length_replicate, h]), cval_append, cval_zeros, mul_zero, add_zero]

end Verif.Dtmf.Dial
