import Verif.Down.DownProps
import Verif.Dft.BucketFp
import Verif.Conv.IeeeProps

/-!
# Property C109: the decimating filters with rounding
-/

namespace Verif.Down
open Verif.Conv Verif.Fp

variable {φ : Format}

/-! ### Sums -/

/-- The exact sum of the values. -/
noncomputable def total (xs : List (FVal φ)) : ℝ := (@List.map (FVal φ) ℝ (fun x => val x) xs).sum

theorem total_nil : total ([] : List (FVal φ)) = 0 := rfl

theorem total_append (xs : List (FVal φ)) (x : FVal φ) : total (xs ++ [x]) = total xs + val x := by
  unfold total
  rw [List.map_append, List.sum_append]
  congr 1
  exact add_zero _

/-- The sum in order, every addition rounded. -/
def fsum (xs : List (FVal φ)) : FVal φ := @List.foldl (FVal φ) (FVal φ) (fun a b => a + b) 0 xs

theorem fsum_append (xs : List (FVal φ)) (x : FVal φ) : fsum (xs ++ [x]) = fsum xs + x := by
  unfold fsum
  rw [List.foldl_append]
  rfl

/-- The rounding error of a sum in order. -/
theorem sum_err (h : φ.Ok) {M : ℝ} (hM : 0 ≤ M) (xs : List (FVal φ)) (hx : ∀ x ∈ xs, Finite x ∧ |val x| ≤ M)
    (hu : 2 * (uR φ * xs.length) ≤ 1) (ht : 2 * (xs.length * M) + xs.length ≤ 2 ^ φ.emax) :
    Finite (fsum xs) ∧ |total xs| ≤ xs.length * M ∧
      |val (fsum xs) - total xs| ≤ uR φ * (xs.length : ℝ) ^ 2 * M + 2 * xs.length * wR φ := by
  have hu0 := uR_pos φ
  have hw0 := wR_pos φ
  have hw1 := wR_le h
  induction xs using List.reverseRecOn with
  | nil =>
    have h0 : val (0 : FVal φ) = 0 := by
      change val (Val.fin false 0) = 0
      rw [val_fin]
      simp
    refine ⟨⟨false, 0, rfl, le_refl _⟩, ?_, ?_⟩
    · rw [total_nil]
      simp
    · rw [total_nil, sub_zero, show fsum ([] : List (FVal φ)) = 0 from rfl, h0, abs_zero]
      simp
  | append_singleton xs x ih =>
    simp only [List.length_append, List.length_cons, List.length_nil, zero_add, Nat.cast_add, Nat.cast_one] at hu ht ⊢
    set n : ℝ := (xs.length : ℝ) with hn
    have hn0 : 0 ≤ n := Nat.cast_nonneg _
    have hnM : 0 ≤ n * M := by positivity
    obtain ⟨i1, i2, i3⟩ := ih (fun y hy => hx y (List.mem_append_left _ hy)) (by linarith) (by linarith)
    obtain ⟨x1, x2⟩ := hx x (by simp)
    rw [total_append, fsum_append]
    set s := fsum xs with hs
    have hun : uR φ * n ≤ 1 / 2 := by linarith
    have hE : uR φ * n ^ 2 * M + 2 * n * wR φ ≤ n * M / 2 + n / 2 := by
      have h1 : uR φ * n * (n * M) ≤ 1 / 2 * (n * M) := mul_le_mul_of_nonneg_right hun hnM
      have h2 : n * wR φ ≤ n * (1 / 4) := mul_le_mul_of_nonneg_left hw1 hn0
      nlinarith
    have hb : |val s + val x| ≤ (n + 1) * M + (uR φ * n ^ 2 * M + 2 * n * wR φ) := by
      rw [show val s + val x = (val s - total xs) + (total xs + val x) by ring]
      refine (abs_add_le _ _).trans ?_
      have := abs_add_le (total xs) (val x)
      linarith
    obtain ⟨a1, a2⟩ := add_val h i1 x1 (hb.trans (by linarith))
    refine ⟨a1, ?_, ?_⟩
    · have := abs_add_le (total xs) (val x)
      linarith
    · rw [show val (s + x : FVal φ) - (total xs + val x) = (val (s + x : FVal φ) - (val s + val x)) + (val s - total xs) by
        ring]
      refine (abs_add_le _ _).trans ((add_le_add a2 i3).trans ?_)
      have h3 := mul_le_mul_of_nonneg_left hb hu0.le
      have h4 : uR φ * (uR φ * n ^ 2 * M) ≤ uR φ * (n * M) := by
        have : uR φ * n * (n * M) ≤ 1 * (n * M) := mul_le_mul_of_nonneg_right (by linarith) hnM
        refine mul_le_mul_of_nonneg_left ?_ hu0.le
        linarith
      have h5 : uR φ * (2 * n * wR φ) ≤ wR φ := by
        have : (2 * (uR φ * n)) * wR φ ≤ 1 * wR φ := mul_le_mul_of_nonneg_right (by linarith) hw0.le
        linarith
      have h6 : uR φ * (n + 1) ^ 2 * M = uR φ * n ^ 2 * M + uR φ * (n * M) + uR φ * ((n + 1) * M) := by ring
      rw [h6]
      have h7 : uR φ * ((n + 1) * M + (uR φ * n ^ 2 * M + 2 * n * wR φ))
          = uR φ * ((n + 1) * M) + uR φ * (uR φ * n ^ 2 * M) + uR φ * (2 * n * wR φ) := by ring
      rw [h7] at h3
      linarith

/-- Samples that are multiples of a power of two add up exactly as long as the sum fits the significand. -/
theorem sum_exact (hp : 1 ≤ φ.p) (e : ℤ) (he : φ.emin - φ.p + 1 ≤ e) (he2 : e + φ.p ≤ φ.emax + 1) (ns : List ℤ) (xs : List (FVal φ))
    (hx : List.Forall₂ (fun (n : ℤ) (x : FVal φ) => Is x (n * 2 ^ e)) ns xs) (hs : (ns.map Int.natAbs).sum < 2 ^ φ.p) :
    Is (fsum xs) (ns.sum * 2 ^ e) := by
  have h2 : (2 : ℚ) ≠ 0 := by norm_num
  have key : ∀ (ns : List ℤ) (xs : List (FVal φ)) (s : ℤ) (v : FVal φ), Is v (s * 2 ^ e) →
      List.Forall₂ (fun (n : ℤ) (x : FVal φ) => Is x (n * 2 ^ e)) ns xs → s.natAbs + (ns.map Int.natAbs).sum < 2 ^ φ.p →
      Is (@List.foldl (FVal φ) (FVal φ) (fun a b => a + b) v xs) (((s + ns.sum : ℤ) : ℚ) * 2 ^ e) := by
    intro ns
    induction ns with
    | nil =>
      intro xs s v hv hx _
      cases hx
      rw [List.sum_nil, add_zero]
      exact hv
    | cons n ns ih =>
      intro xs s v hv hx hb
      cases hx with
      | @cons _ x _ xs hx1 hx2 =>
      simp only [List.map_cons, List.sum_cons] at hb
      have hsn : (s + n).natAbs ≤ s.natAbs + n.natAbs := Int.natAbs_add_le s n
      have eq : ((s : ℚ) * 2 ^ e + n * 2 ^ e) = ((s + n : ℤ) : ℚ) * 2 ^ e := by push_cast; ring
      have hg : Grid φ (((s + n : ℤ) : ℚ) * 2 ^ e) := by
        refine ⟨(s + n).natAbs, e, by omega, by omega, ?_⟩
        rw [abs_mul, abs_of_pos (show (0 : ℚ) < 2 ^ e by positivity), Nat.cast_natAbs, Int.cast_abs]
      have hlt : |((s + n : ℤ) : ℚ) * 2 ^ e| < 2 ^ (φ.emax + 1) := by
        rw [abs_mul, abs_of_pos (show (0 : ℚ) < 2 ^ e by positivity), ← Int.cast_abs, ← Nat.cast_natAbs]
        have h3 : (((s + n).natAbs : ℕ) : ℚ) < 2 ^ φ.p := by
          have : (s + n).natAbs < 2 ^ φ.p := by omega
          exact_mod_cast this
        calc (((s + n).natAbs : ℕ) : ℚ) * 2 ^ e < 2 ^ φ.p * 2 ^ e := mul_lt_mul_of_pos_right h3 (by positivity)
          _ = 2 ^ (e + φ.p) := by rw [zpow_add₀ h2, zpow_natCast]; ring
          _ ≤ _ := zpow_le_zpow_right₀ (by norm_num) he2
      have hadd := add_rd φ hv hx1 (by rw [eq, rd_grid φ hp hg]; exact hlt)
      rw [eq, rd_grid φ hp hg] at hadd
      have := ih xs (s + n) (v + x) hadd hx2 (by omega)
      rw [List.sum_cons, ← add_assoc]
      exact this
  have := key ns xs 0 0 ⟨⟨false, 0, rfl, le_refl _⟩, by simp [Val.toRat]⟩ hx (by simpa using hs)
  rwa [zero_add] at this

/-! ### The complex decimator -/

/-- Samples `a … b-1`. -/
def window {C : Type} (xs : List C) (a b : ℕ) : List C := (xs.take b).drop a

theorem mem_window {C : Type} {xs : List C} {a b : ℕ} {x : C} (h : x ∈ window xs a b) : x ∈ xs :=
  List.mem_of_mem_take (List.mem_of_mem_drop h)

theorem window_length {C : Type} (xs : List C) (a b : ℕ) : (window xs a b).length = min b xs.length - a := by
  simp [window]

/-- The parts of a list of complex samples. -/
def reals (xs : List (CVal φ)) : List (FVal φ) := @List.map (CVal φ) (FVal φ) (fun x => x.re) xs
/-- The imaginary parts. -/
def imags (xs : List (CVal φ)) : List (FVal φ) := @List.map (CVal φ) (FVal φ) (fun x => x.im) xs

theorem fold_parts (xs : List (CVal φ)) (v : CVal φ) : xs.foldl (· + ·) v
    = ⟨@List.foldl (FVal φ) (FVal φ) (fun a b => a + b) v.re (reals xs),
       @List.foldl (FVal φ) (FVal φ) (fun a b => a + b) v.im (imags xs)⟩ := by
  induction xs generalizing v with
  | nil => rfl
  | cons x xs ih =>
    rw [List.foldl_cons, ih]
    rfl

theorem seg_parts (xs : List (CVal φ)) (a b : ℕ) : seg xs a b = ⟨fsum (reals (window xs a b)), fsum (imags (window xs a b))⟩ :=
  fold_parts _ _

/-- C109, complex decimator: every output is finite and near the exact sum of its samples, with the error of adding them one
after the other. -/
theorem C109_complex_rounded (h : φ.Ok) {M : ℝ} (hM : 0 ≤ M) (D : ℕ) (hD : 0 < D) (cs : List ((ℕ → CVal φ) × Slice))
    (hx : ∀ x ∈ stream cs, x.Fin ∧ |val x.re| ≤ M ∧ |val x.im| ≤ M) (hu : 2 * (uR φ * D) ≤ 1)
    (ht : 2 * (D * M) + D ≤ 2 ^ φ.emax) :
    ∃ outs fi', (LPD.mk D 0 0).calls cs = some (fi', outs) ∧ outs.length = (stream cs).length / D ∧
      ∀ k < outs.length, ∃ o : CVal φ, outs[k]? = some o ∧ o.Fin ∧
        |val o.re - total (reals (window (stream cs) (k * D) ((k + 1) * D)))| ≤ uR φ * D ^ 2 * M + 2 * D * wR φ ∧
        |val o.im - total (imags (window (stream cs) (k * D) ((k + 1) * D)))| ≤ uR φ * D ^ 2 * M + 2 * D * wR φ := by
  obtain ⟨outs, fi', h1, h2, h3, -⟩ := C49_calls (D : ℤ) cs
  have hmax : (max (D : ℤ) 1).toNat = D := by omega
  rw [hmax] at h2 h3
  refine ⟨outs, fi', h1, h2, fun k hk => ⟨_, h3 k hk, ?_⟩⟩
  rw [seg_parts]
  have hlen : (window (stream cs) (k * D) ((k + 1) * D)).length = D := by
    rw [window_length]
    have : (k + 1) * D ≤ (stream cs).length := by
      rw [h2] at hk
      exact (Nat.mul_le_mul_right D hk).trans (Nat.div_mul_le_self _ _)
    rw [min_eq_left this, Nat.succ_mul]
    omega
  have hr : (reals (window (stream cs) (k * D) ((k + 1) * D))).length = D := by
    unfold reals
    rw [List.length_map, hlen]
  have hi : (imags (window (stream cs) (k * D) ((k + 1) * D))).length = D := by
    unfold imags
    rw [List.length_map, hlen]
  obtain ⟨r1, -, r3⟩ := sum_err h hM (reals (window (stream cs) (k * D) ((k + 1) * D))) (by
    intro x hx'
    obtain ⟨y, y1, rfl⟩ := List.mem_map.1 hx'
    have := hx y (mem_window y1)
    exact ⟨this.1.1, this.2.1⟩) (by rw [hr]; exact hu) (by rw [hr]; exact ht)
  obtain ⟨i1, -, i3⟩ := sum_err h hM (imags (window (stream cs) (k * D) ((k + 1) * D))) (by
    intro x hx'
    obtain ⟨y, y1, rfl⟩ := List.mem_map.1 hx'
    have := hx y (mem_window y1)
    exact ⟨this.1.2, this.2.2⟩) (by rw [hi]; exact hu) (by rw [hi]; exact ht)
  rw [hr] at r3
  rw [hi] at i3
  exact ⟨⟨r1, i1⟩, r3, i3⟩

/-- C109, complex decimator: samples that are multiples `n·2^e` of one power of two, such as converted integers, are added
without any error as long as `D` of them fit the significand. -/
theorem C109_complex_exact (hp : 1 ≤ φ.p) (e : ℤ) (he : φ.emin - φ.p + 1 ≤ e) (he2 : e + φ.p ≤ φ.emax + 1) (D N : ℕ)
    (hD : 0 < D) (hN : D * N < 2 ^ φ.p) (cs : List ((ℕ → CVal φ) × Slice)) (ns : List (ℤ × ℤ))
    (hx : List.Forall₂ (fun (n : ℤ × ℤ) (x : CVal φ) => Is x.re (n.1 * 2 ^ e) ∧ Is x.im (n.2 * 2 ^ e)) ns (stream cs))
    (hn : ∀ n ∈ ns, n.1.natAbs ≤ N ∧ n.2.natAbs ≤ N) :
    ∃ outs fi', (LPD.mk D 0 0).calls cs = some (fi', outs) ∧ outs.length = (stream cs).length / D ∧
      ∀ k < outs.length, ∃ o : CVal φ, outs[k]? = some o ∧
        Is o.re (((window ns (k * D) ((k + 1) * D)).map Prod.fst).sum * 2 ^ e) ∧
        Is o.im (((window ns (k * D) ((k + 1) * D)).map Prod.snd).sum * 2 ^ e) := by
  obtain ⟨outs, fi', h1, h2, h3, -⟩ := C49_calls (D : ℤ) cs
  have hmax : (max (D : ℤ) 1).toNat = D := by omega
  rw [hmax] at h2 h3
  refine ⟨outs, fi', h1, h2, fun k hk => ⟨_, h3 k hk, ?_⟩⟩
  rw [seg_parts]
  have hw : List.Forall₂ (fun (n : ℤ × ℤ) (x : CVal φ) => Is x.re (n.1 * 2 ^ e) ∧ Is x.im (n.2 * 2 ^ e))
      (window ns (k * D) ((k + 1) * D)) (window (stream cs) (k * D) ((k + 1) * D)) :=
    List.forall₂_drop _ (List.forall₂_take _ hx)
  have bound : ∀ (g : ℤ × ℤ → ℤ), (∀ n ∈ ns, (g n).natAbs ≤ N) →
      (((window ns (k * D) ((k + 1) * D)).map g).map Int.natAbs).sum < 2 ^ φ.p := by
    intro g hg
    refine lt_of_le_of_lt ?_ hN
    have hl : (window ns (k * D) ((k + 1) * D)).length ≤ D := by
      rw [window_length, Nat.succ_mul]
      omega
    have := List.sum_le_card_nsmul (((window ns (k * D) ((k + 1) * D)).map g).map Int.natAbs) N (by
      intro z hz
      rw [List.map_map] at hz
      obtain ⟨n, n1, rfl⟩ := List.mem_map.1 hz
      exact hg n (mem_window n1))
    refine this.trans ?_
    rw [smul_eq_mul, List.length_map, List.length_map]
    exact Nat.mul_le_mul_right N hl
  constructor
  · refine sum_exact hp e he he2 _ _ ?_ (bound Prod.fst fun n hn' => (hn n hn').1)
    unfold reals
    rw [List.forall₂_map_left_iff]
    rw [@List.forall₂_map_right_iff]
    exact hw.imp fun _ _ h => h.1
  · refine sum_exact hp e he he2 _ _ ?_ (bound Prod.snd fun n hn' => (hn n hn').2)
    unfold imags
    rw [List.forall₂_map_left_iff]
    rw [@List.forall₂_map_right_iff]
    exact hw.imp fun _ _ h => h.2

/-! ### The rational decimator -/

theorem edge_step (fast slow k : ℕ) (h0 : 0 < slow) : edge fast slow (k + 1) ≤ edge fast slow k + (fast / slow + 1) := by
  rw [edge_le _ _ _ _ h0]
  have h1 : k * fast ≤ edge fast slow k * slow := (edge_le fast slow k _ h0).1 (le_refl _)
  have h2 : fast ≤ (fast / slow + 1) * slow := by
    have := Nat.lt_div_mul_add h0 (a := fast)
    rw [Nat.succ_mul]
    omega
  rw [Nat.succ_mul, Nat.add_mul]
  omega

/-- `float32(n)` for an integer `n` (dsp/downsample.go:48). -/
def conv32 (n : ℤ) : FVal binary32 := ofInt binary32 n

theorem val_ofInt32 {n : ℕ} (h : n < 2 ^ 24) : Finite (conv32 n) ∧ val (conv32 n) = n := by
  unfold conv32
  rw [ofInt_exact n (by simpa using h)]
  refine ⟨⟨_, _, rfl, by positivity⟩, ?_⟩
  rw [val_fin]
  simp

theorem big32 : (2 : ℝ) ^ 100 ≤ 2 ^ binary32.emax := by
  rw [← zpow_natCast]
  exact zpow_le_zpow_right₀ (by norm_num) (by decide)

theorem uR32 : uR binary32 = 1 / 2 ^ 24 := by unfold uR; norm_num [binary32]

theorem wR32 : wR binary32 ≤ 1 / 2 ^ 100 := by
  unfold wR
  have : (2 : ℝ) ^ (binary32.emin - binary32.p) ≤ 2 ^ (-100 : ℤ) := zpow_le_zpow_right₀ (by norm_num) (by decide)
  refine this.trans (le_of_eq ?_)
  norm_num

/-- The ratio of the rates as the code computes it. -/
theorem ratio_val {fast slow : ℕ} (h0 : 0 < slow) (h1 : slow ≤ fast) (h2 : fast < 2 ^ 24) :
    let r : FVal binary32 := conv32 slow / conv32 fast
    Finite r ∧ |val r - (slow : ℝ) / fast| ≤ 2 * uR binary32 * ((slow : ℝ) / fast) := by
  intro r
  obtain ⟨a1, a2⟩ := val_ofInt32 (n := slow) (by omega)
  obtain ⟨b1, b2⟩ := val_ofInt32 (n := fast) h2
  have hf : (0 : ℝ) < fast := by exact_mod_cast (show 0 < fast by omega)
  have hs : (1 : ℝ) ≤ slow := by exact_mod_cast h0
  have hr0 : (0 : ℝ) < (slow : ℝ) / fast := by positivity
  have hr1 : (slow : ℝ) / fast ≤ 1 := by
    rw [div_le_one hf]
    exact_mod_cast h1
  have hr2 : 1 / 2 ^ 24 ≤ (slow : ℝ) / fast := by
    rw [div_le_div_iff₀ (by positivity) hf]
    have : (fast : ℝ) ≤ 2 ^ 24 := by exact_mod_cast h2.le
    nlinarith
  obtain ⟨d1, d2⟩ := Dft.div_val binary32_ok a1 b1 (by rw [b2]; exact hf.ne') (by
    rw [a2, b2, abs_of_pos hr0]
    exact hr1.trans (le_trans (by norm_num) big32))
  refine ⟨d1, ?_⟩
  rw [a2, b2, abs_of_pos hr0] at d2
  refine d2.trans ?_
  have hw := wR32
  rw [uR32]
  norm_num at hw hr2 ⊢
  linarith

/-- C109, rational decimator (`float32`): every output is finite and near the exact sum of its samples scaled by the ratio of the
rates. -/
theorem C109_rational_rounded {M : ℝ} (hM : 0 ≤ M) (fast slow : ℕ) (h0 : 0 < slow) (h1 : slow ≤ fast) (h2 : fast < 2 ^ 22)
    (cs : List ((ℕ → FVal binary32) × Slice)) (hx : ∀ x ∈ stream cs, Finite x ∧ |val x| ≤ M) (hM2 : M ≤ 2 ^ 64) :
    ∃ outs fi', (LPR.mk fast slow 0 0).calls conv32 cs = some (fi', outs) ∧
      outs.length = (stream cs).length * slow / fast ∧
      ∀ k < outs.length, ∃ o : FVal binary32, outs[k]? = some o ∧ Finite o ∧
        |val o - total (window (stream cs) (edge fast slow k) (edge fast slow (k + 1))) * ((slow : ℝ) / fast)|
          ≤ (2 * uR binary32 * ((fast / slow + 1 : ℕ) : ℝ) * (((fast / slow + 1 : ℕ) : ℝ) + 2) * M
              + 4 * ((fast / slow + 1 : ℕ) : ℝ) * wR binary32) * ((slow : ℝ) / fast) + wR binary32 := by
  obtain ⟨outs, fi', c1, c2, c3, -⟩ := C50_calls conv32 fast slow h0 h1 cs
  refine ⟨outs, fi', c1, c2, fun k hk => ⟨_, c3 k hk, ?_⟩⟩
  obtain ⟨r1, r2⟩ := ratio_val h0 h1 (by omega)
  set ρ : FVal binary32 := conv32 slow / conv32 fast with hρ
  set W := window (stream cs) (edge fast slow k) (edge fast slow (k + 1)) with hW
  have es : seg (stream cs) (edge fast slow k) (edge fast slow (k + 1)) = fsum W := rfl
  rw [es]
  set N : ℕ := fast / slow + 1 with hN
  have hNf : N ≤ 2 ^ 22 := by
    have : fast / slow ≤ fast := Nat.div_le_self _ _
    omega
  have hlen : W.length ≤ N := by
    rw [hW, window_length]
    have h3 := edge_step fast slow k h0
    rw [← hN] at h3
    clear_value N
    omega
  have hlenR : (W.length : ℝ) ≤ N := by exact_mod_cast hlen
  have hNR : (N : ℝ) ≤ 4194304 := by exact_mod_cast hNf
  have hN1 : (1 : ℝ) ≤ N := by exact_mod_cast Nat.succ_pos (fast / slow)
  have hlM : (W.length : ℝ) * M ≤ N * M := mul_le_mul_of_nonneg_right hlenR hM
  have hNM : (N : ℝ) * M ≤ 4194304 * 2 ^ 64 := mul_le_mul hNR hM2 hM (by norm_num)
  have hu0 := uR_pos binary32
  have hw0 := wR_pos binary32
  obtain ⟨s1, s2, s3⟩ := sum_err binary32_ok hM W (fun x hx' => hx x (mem_window hx'))
    (by rw [uR32]; norm_num; linarith)
    (le_trans (by norm_num at hNM ⊢; linarith) big32)
  set E : ℝ := uR binary32 * (N : ℝ) ^ 2 * M + 2 * N * wR binary32 with hE
  have hE0 : 0 ≤ E := by positivity
  have s4 : |val (fsum W) - total W| ≤ E := by
    refine s3.trans (add_le_add ?_ ?_)
    · refine mul_le_mul_of_nonneg_right (mul_le_mul_of_nonneg_left ?_ hu0.le) hM
      exact pow_le_pow_left₀ (Nat.cast_nonneg _) hlenR 2
    · refine mul_le_mul_of_nonneg_right ?_ hw0.le
      linarith
  have s5 : |total W| ≤ N * M := s2.trans hlM
  have hf : (0 : ℝ) < fast := by exact_mod_cast (show 0 < fast by omega)
  have hs : (0 : ℝ) < slow := by exact_mod_cast h0
  set R : ℝ := (slow : ℝ) / fast with hR
  have hR0 : 0 < R := by positivity
  have hR1 : R ≤ 1 := by
    rw [hR, div_le_one hf]
    exact_mod_cast h1
  have hu1 : uR binary32 ≤ 1 / 4 := uR_le binary32_ok
  have r3 : |val ρ| ≤ (1 + 2 * uR binary32) * R := by
    rw [show val ρ = (val ρ - R) + R by ring]
    refine (abs_add_le _ _).trans ?_
    rw [abs_of_pos hR0]
    linarith
  have s6 : |val (fsum W)| ≤ N * M + E := by
    rw [show val (fsum W) = (val (fsum W) - total W) + total W by ring]
    refine (abs_add_le _ _).trans ?_
    linarith
  have hNM0 : 0 ≤ (N : ℝ) * M := by positivity
  have p1 : |val (fsum W) * val ρ| ≤ (N * M + E) * ((1 + 2 * uR binary32) * R) := by
    rw [abs_mul]
    exact mul_le_mul s6 r3 (abs_nonneg _) (by linarith)
  have hE1 : E ≤ 2 ^ 90 := by
    have h5 : uR binary32 * (N : ℝ) ^ 2 * M = uR binary32 * N * (N * M) := by ring
    have h6 : uR binary32 * N ≤ 1 := by
      rw [uR32]
      norm_num
      linarith
    have h7 : uR binary32 * N * (N * M) ≤ 1 * (N * M) := mul_le_mul_of_nonneg_right h6 hNM0
    have h8 : 2 * (N : ℝ) * wR binary32 ≤ 2 * N * (1 / 4) := mul_le_mul_of_nonneg_left (wR_le binary32_ok) (by positivity)
    rw [hE, h5]
    norm_num at hNM ⊢
    linarith
  have p2 : |val (fsum W) * val ρ| ≤ 2 ^ binary32.emax := by
    refine p1.trans ((mul_le_mul (b := (2 : ℝ) ^ 92) (d := 2) ?_ ?_ (by positivity) (by norm_num)).trans
      (le_trans (by norm_num) big32))
    · norm_num at hNM hE1 ⊢
      linarith
    · have := mul_le_mul (show 1 + 2 * uR binary32 ≤ 2 by linarith) hR1 hR0.le (by norm_num)
      linarith
  obtain ⟨m1, m2⟩ := mul_val binary32_ok s1 r1 p2
  refine ⟨m1, ?_⟩
  have e1 : val (fsum W * ρ) - total W * R = (val (fsum W * ρ) - val (fsum W) * val ρ)
      + ((val (fsum W) - total W) * val ρ + total W * (val ρ - R)) := by ring
  have q1 : |(val (fsum W) - total W) * val ρ| ≤ E * ((1 + 2 * uR binary32) * R) := by
    rw [abs_mul]
    exact mul_le_mul s4 r3 (abs_nonneg _) hE0
  have q2 : |total W * (val ρ - R)| ≤ N * M * (2 * uR binary32 * R) := by
    rw [abs_mul]
    exact mul_le_mul s5 r2 (abs_nonneg _) hNM0
  have q3 := mul_le_mul_of_nonneg_left p1 hu0.le
  rw [e1]
  refine (abs_add_le _ _).trans ((add_le_add m2 ((abs_add_le _ _).trans (add_le_add q1 q2))).trans ?_)
  -- collect
  set u := uR binary32 with hu
  have hER : 0 ≤ E * R := by positivity
  have hNR' : 0 ≤ u * (N * M * R) := by positivity
  have k1 : u * ((N * M + E) * ((1 + 2 * u) * R)) + E * ((1 + 2 * u) * R) + N * M * (2 * u * R)
      = (1 + 2 * u) * (1 + u) * (E * R) + (3 + 2 * u) * (u * (N * M * R)) := by ring
  have k2 : (1 + 2 * u) * (1 + u) * (E * R) ≤ 2 * (E * R) := mul_le_mul_of_nonneg_right (by nlinarith) hER
  have k3 : (3 + 2 * u) * (u * (N * M * R)) ≤ 4 * (u * (N * M * R)) := mul_le_mul_of_nonneg_right (by linarith) hNR'
  have k4 : (2 * u * (N : ℝ) * (N + 2) * M + 4 * N * wR binary32) * R = 2 * (E * R) + 4 * (u * (N * M * R)) := by
    rw [hE]
    ring
  rw [k4]
  linarith

theorem edge_pow (slow j k : ℕ) (h0 : 0 < slow) : edge (slow * 2 ^ j) slow k = k * 2 ^ j := by
  unfold edge
  rw [show k * (slow * 2 ^ j) = slow * (k * 2 ^ j) by ring, Nat.add_sub_assoc h0, Nat.mul_add_div h0,
    Nat.div_eq_of_lt (by omega), add_zero]

theorem is_conv32 {n : ℕ} (h : n < 2 ^ 24) : Is (conv32 n) (n : ℚ) := by
  unfold conv32
  rw [ofInt_exact n (by simpa using h)]
  refine ⟨⟨_, _, rfl, by positivity⟩, ?_⟩
  simp [Val.toRat]

/-- C109, rational decimator: when the fast rate is the slow one times a power of two and the samples are multiples of one power
of two, every output is exactly the mean of its samples. -/
theorem C109_rational_exact (e : ℤ) (he2 : e + 24 ≤ 128) (slow j N : ℕ) (he : -149 ≤ e - j)
    (h0 : 0 < slow) (h2 : slow * 2 ^ j < 2 ^ 24) (hN : 2 ^ j * N < 2 ^ 24)
    (cs : List ((ℕ → FVal binary32) × Slice)) (ns : List ℤ)
    (hx : List.Forall₂ (fun (n : ℤ) (x : FVal binary32) => Is x (n * 2 ^ e)) ns (stream cs))
    (hn : ∀ n ∈ ns, n.natAbs ≤ N) :
    ∃ outs fi', (LPR.mk (slow * 2 ^ j : ℕ) slow 0 0).calls conv32 cs = some (fi', outs) ∧
      outs.length = (stream cs).length / 2 ^ j ∧
      ∀ k < outs.length, ∃ o : FVal binary32, outs[k]? = some o ∧
        Is o (((window ns (k * 2 ^ j) ((k + 1) * 2 ^ j)).sum * 2 ^ e : ℚ) / 2 ^ j) := by
  have hj : 1 ≤ 2 ^ j := Nat.one_le_two_pow
  have h1 : slow ≤ slow * 2 ^ j := Nat.le_mul_of_pos_right _ hj
  obtain ⟨outs, fi', c1, c2, c3, -⟩ := C50_calls conv32 (slow * 2 ^ j) slow h0 h1 cs
  refine ⟨outs, fi', c1, ?_, fun k hk => ⟨_, c3 k hk, ?_⟩⟩
  · rw [c2, Nat.mul_comm, Nat.mul_div_mul_left _ _ h0]
  rw [edge_pow _ _ _ h0, edge_pow _ _ _ h0]
  set W := window (stream cs) (k * 2 ^ j) ((k + 1) * 2 ^ j) with hW
  change Is (fsum W * (conv32 slow / conv32 (slow * 2 ^ j : ℕ))) _
  set ms := window ns (k * 2 ^ j) ((k + 1) * 2 ^ j) with hms
  have hw : List.Forall₂ (fun (n : ℤ) (x : FVal binary32) => Is x (n * 2 ^ e)) ms W :=
    List.forall₂_drop _ (List.forall₂_take _ hx)
  have hb : (ms.map Int.natAbs).sum < 2 ^ 24 := by
    refine lt_of_le_of_lt ?_ hN
    have hl : ms.length ≤ 2 ^ j := by
      rw [hms, window_length, Nat.succ_mul]
      omega
    have := List.sum_le_card_nsmul (ms.map Int.natAbs) N (by
      intro z hz
      obtain ⟨n, n1, rfl⟩ := List.mem_map.1 hz
      exact hn n (mem_window n1))
    refine this.trans ?_
    rw [smul_eq_mul, List.length_map]
    exact Nat.mul_le_mul_right N hl
  have f1 := sum_exact (φ := binary32) (by decide) e (by simp only [binary32]; push_cast; omega)
    (by simp only [binary32]; push_cast; omega) ms W hw hb
  have hb2 : ms.sum.natAbs < 2 ^ 24 := by
    refine lt_of_le_of_lt ?_ hb
    clear hb hw f1
    induction ms with
    | nil => simp
    | cons a l ih =>
      simp only [List.sum_cons, List.map_cons]
      exact (Int.natAbs_add_le _ _).trans (by omega)
  have hs : (slow : ℚ) ≠ 0 := by exact_mod_cast h0.ne'
  have hjl : j < 24 := by
    by_contra hc
    have : 2 ^ 24 ≤ 2 ^ j := Nat.pow_le_pow_right (by norm_num) (by omega)
    have := Nat.le_mul_of_pos_left (2 ^ j) h0
    omega
  have er : (slow : ℚ) / ((slow * 2 ^ j : ℕ) : ℚ) = 2 ^ (-(j : ℤ)) := by
    push_cast
    rw [zpow_neg, zpow_natCast]
    field_simp
  have gr := grid_pow binary32 (by decide) (-(j : ℤ)) (by simp only [binary32]; push_cast; omega)
  have r1 : Is (conv32 slow / conv32 (slow * 2 ^ j : ℕ) : FVal binary32) (2 ^ (-(j : ℤ))) := by
    have := div_rd binary32 (is_conv32 (n := slow) (by omega)) (is_conv32 (n := slow * 2 ^ j) h2)
      (by exact_mod_cast (Nat.mul_pos h0 hj).ne') (by
        rw [er, rd_grid binary32 (by decide) gr, abs_of_pos (by positivity)]
        exact zpow_lt_zpow_right₀ (by norm_num) (by simp only [binary32]; push_cast; omega))
    rwa [er, rd_grid binary32 (by decide) gr] at this
  have ep : (ms.sum : ℚ) * 2 ^ e * 2 ^ (-(j : ℤ)) = ms.sum * 2 ^ (e - j) := by
    rw [mul_assoc, ← zpow_add₀ (by norm_num), sub_eq_add_neg]
  have gp : Grid binary32 ((ms.sum : ℚ) * 2 ^ (e - j)) := by
    refine ⟨ms.sum.natAbs, e - j, hb2, by simp only [binary32]; push_cast; omega, ?_⟩
    rw [abs_mul, abs_of_pos (show (0 : ℚ) < 2 ^ (e - j) by positivity), Nat.cast_natAbs, Int.cast_abs]
  have lt : |(ms.sum : ℚ) * 2 ^ (e - j)| < 2 ^ (binary32.emax + 1) := by
    rw [abs_mul, abs_of_pos (show (0 : ℚ) < 2 ^ (e - j) by positivity), ← Int.cast_abs, ← Nat.cast_natAbs]
    have h3 : ((ms.sum.natAbs : ℕ) : ℚ) < 2 ^ 24 := by exact_mod_cast hb2
    calc ((ms.sum.natAbs : ℕ) : ℚ) * 2 ^ (e - j) < 2 ^ 24 * 2 ^ (e - j) := mul_lt_mul_of_pos_right h3 (by positivity)
      _ = 2 ^ (24 + (e - j)) := by rw [zpow_add₀ (by norm_num)]; norm_num
      _ ≤ _ := zpow_le_zpow_right₀ (by norm_num) (by simp only [binary32]; push_cast; omega)
  have m1 := mul_rd binary32 f1 r1 (by rw [ep, rd_grid binary32 (by decide) gp]; exact lt)
  rw [ep, rd_grid binary32 (by decide) gp] at m1
  have ee : (ms.sum : ℚ) * 2 ^ e / 2 ^ j = ms.sum * 2 ^ (e - j) := by
    rw [← ep, zpow_neg, zpow_natCast, div_eq_mul_inv]
  rw [ee]
  exact m1

/-! ### Long sums -/

/-- The complex sample 1. -/
def cOne : CVal binary32 := ⟨.fin false 1, .fin false 0⟩

/-- A finite `float32`. -/
def fin32 (s : Bool) (q : ℚ) : FVal binary32 := Val.fin s q

theorem stuck : fin32 false (2 ^ 24) + fin32 false 1 = fin32 false (2 ^ 24) := by
  decide +kernel

theorem ones_stuck (n : ℕ) (z : FVal binary32) : (List.replicate n cOne).foldl (· + ·) (⟨.fin false (2 ^ 24), z⟩ : CVal binary32)
    = ⟨.fin false (2 ^ 24), ((List.replicate n cOne).foldl (· + ·) (⟨.fin false (2 ^ 24), z⟩ : CVal binary32)).im⟩ := by
  induction n generalizing z with
  | zero => rfl
  | succ n ih =>
    rw [List.replicate_succ, List.foldl_cons]
    have : (⟨.fin false (2 ^ 24), z⟩ : CVal binary32) + cOne = ⟨.fin false (2 ^ 24), z + cOne.im⟩ := by
      change (⟨_, _⟩ : CVal binary32) = _
      congr 1
      exact stuck
    rw [this]
    exact ih _

theorem fin_of_is {v : Val} {q : ℚ} (h : Is v q) (h0 : 0 < q) : v = .fin false q := by
  obtain ⟨⟨s, r, rfl, hr⟩, e⟩ := h
  cases s
  · simp only [Val.toRat] at e
    simp at e
    rw [e]
  · simp [Val.toRat] at e
    linarith

theorem ones_exact (n : ℕ) (h : n < 2 ^ 24) : Is (fsum (List.replicate n (cOne.re : FVal binary32))) (n : ℚ) := by
  have := sum_exact (φ := binary32) (by decide) 0 (by decide) (by decide) (List.replicate n 1) (List.replicate n (cOne.re : FVal binary32))
    (by
      rw [List.forall₂_iff_get]
      refine ⟨by simp, fun i h1 h2 => ?_⟩
      simp only [List.get_eq_getElem, List.getElem_replicate]
      exact ⟨⟨false, 1, rfl, by norm_num⟩, by simp [cOne, Val.toRat]⟩) (by simpa [binary32] using h)
  simpa using this

theorem last_one : fin32 false (2 ^ 24 - 1) + fin32 false 1 = fin32 false (2 ^ 24) := by
  decide +kernel

theorem ones_full : ∃ w, (List.replicate (2 ^ 24) cOne).foldl (· + ·) (0 : CVal binary32) = ⟨.fin false (2 ^ 24), w⟩ := by
  have e : (2 : ℕ) ^ 24 = (2 ^ 24 - 1) + 1 := by norm_num
  rw [e, List.replicate_succ', List.foldl_append, List.foldl_cons, List.foldl_nil, fold_parts]
  have h1 := fin_of_is (ones_exact (2 ^ 24 - 1) (by norm_num)) (by norm_num)
  have h2 : reals (List.replicate (2 ^ 24 - 1) cOne) = List.replicate (2 ^ 24 - 1) (cOne.re : FVal binary32) := List.map_replicate
  have h3 : @List.foldl (FVal binary32) (FVal binary32) (fun a b => a + b) (0 : CVal binary32).re (reals (List.replicate (2 ^ 24 - 1) cOne))
      = fin32 false (2 ^ 24 - 1) := by
    rw [h2]
    refine h1.trans ?_
    norm_num [fin32]
  rw [h3]
  generalize @List.foldl (FVal binary32) (FVal binary32) (fun a b => a + b) (0 : CVal binary32).im
    (imags (List.replicate (2 ^ 24 - 1) cOne)) = w
  refine ⟨w + cOne.im, ?_⟩
  change (⟨fin32 false (2 ^ 24 - 1) + fin32 false 1, _⟩ : CVal binary32) = _
  rw [last_one]
  rfl

/-- C109, where accuracy ends: a sum of more than 2^24 ones stops at 2^24, so that a factor of 2^25 loses half of the signal. -/
theorem C109_violated_long (D : ℕ) (hD : 2 ^ 24 ≤ D) (cs : List ((ℕ → CVal binary32) × Slice)) (hx : ∀ x ∈ stream cs, x = cOne) :
    ∃ outs fi', (LPD.mk D 0 0).calls cs = some (fi', outs) ∧ outs.length = (stream cs).length / D ∧
      ∀ k < outs.length, ∃ o : CVal binary32, outs[k]? = some o ∧ val o.re = 2 ^ 24 ∧
        total (reals (window (stream cs) (k * D) ((k + 1) * D))) = D := by
  obtain ⟨outs, fi', h1, h2, h3, -⟩ := C49_calls (D : ℤ) cs
  have hmax : (max (D : ℤ) 1).toNat = D := by omega
  rw [hmax] at h2 h3
  refine ⟨outs, fi', h1, h2, fun k hk => ⟨_, h3 k hk, ?_⟩⟩
  have hlen : (window (stream cs) (k * D) ((k + 1) * D)).length = D := by
    rw [window_length]
    have : (k + 1) * D ≤ (stream cs).length := by
      rw [h2] at hk
      exact (Nat.le_div_iff_mul_le (by omega)).1 hk
    rw [min_eq_left this, Nat.succ_mul]
    omega
  have hw : window (stream cs) (k * D) ((k + 1) * D) = List.replicate D cOne :=
    List.eq_replicate_iff.2 ⟨hlen, fun x hx' => hx x (mem_window hx')⟩
  constructor
  · have e : seg (stream cs) (k * D) ((k + 1) * D) = (List.replicate D cOne).foldl (· + ·) 0 := by rw [← hw]; rfl
    rw [e, show D = 2 ^ 24 + (D - 2 ^ 24) by omega, List.replicate_add, List.foldl_append]
    obtain ⟨w, hw'⟩ := ones_full
    rw [hw', ones_stuck]
    simp [val_fin]
  · rw [hw]
    unfold total reals
    rw [List.map_map, List.map_replicate, List.sum_replicate, nsmul_eq_mul]
    change (D : ℝ) * val (.fin false 1) = D
    rw [val_fin]
    simp

/-! ### Examples -/

/-- Twelve samples in two calls, as a byte converter would give them. -/
def demo : List ((ℕ → CVal binary32) × Slice) :=
  [((fun i => ⟨.fin false i, .fin true 127⟩), ⟨0, 5⟩), ((fun _ => ⟨.fin true 128, .fin false 64⟩), ⟨3, 7⟩)]

theorem demo_mem {x : CVal binary32} (h : x ∈ stream demo) :
    (∃ i : ℕ, i < 5 ∧ x = ⟨.fin false i, .fin true 127⟩) ∨ x = ⟨.fin true 128, .fin false 64⟩ := by
  simp only [stream, demo, List.map_cons, List.map_nil, List.flatten_cons, List.flatten_nil, List.append_nil, List.mem_append,
    contents, List.mem_map, List.mem_range] at h
  rcases h with ⟨i, h1, rfl⟩ | ⟨i, h1, rfl⟩
  · exact Or.inl ⟨i, h1, by simp⟩
  · exact Or.inr rfl

/-- The hypotheses of `C109_complex_rounded` hold for these samples with factor 4, which gives three outputs. -/
example : (∀ x ∈ stream demo, x.Fin ∧ |val x.re| ≤ 128 ∧ |val x.im| ≤ 128) ∧ 2 * (uR binary32 * (4 : ℕ)) ≤ 1 ∧
    2 * ((4 : ℕ) * (128 : ℝ)) + (4 : ℕ) ≤ 2 ^ binary32.emax ∧ (stream demo).length / 4 = 3 := by
  refine ⟨fun x hx => ?_, by rw [uR32]; norm_num, le_trans (by norm_num) big32, by decide⟩
  rcases demo_mem hx with ⟨i, hi, rfl⟩ | rfl
  · refine ⟨⟨⟨_, _, rfl, by positivity⟩, ⟨_, _, rfl, by norm_num⟩⟩, ?_, ?_⟩
    · have : (i : ℝ) ≤ 5 := by exact_mod_cast hi.le
      simp only [val_fin]
      rw [if_neg (by simp), abs_of_nonneg (by positivity)]
      push_cast
      linarith
    · simp only [val_fin]
      norm_num
  · refine ⟨⟨⟨_, _, rfl, by norm_num⟩, ⟨_, _, rfl, by norm_num⟩⟩, ?_, ?_⟩
    · simp only [val_fin]
      norm_num
    · simp only [val_fin]
      norm_num

/-- The hypotheses of `C109_complex_exact` hold for these samples with factor 4. -/
example : ∃ ns : List (ℤ × ℤ), List.Forall₂ (fun (n : ℤ × ℤ) (x : CVal binary32) => Is x.re (n.1 * 2 ^ (0 : ℤ)) ∧ Is x.im (n.2 * 2 ^ (0 : ℤ)))
      ns (stream demo) ∧ (∀ n ∈ ns, n.1.natAbs ≤ 128 ∧ n.2.natAbs ≤ 128) ∧ 4 * 128 < 2 ^ binary32.p := by
  refine ⟨[(0, -127), (1, -127), (2, -127), (3, -127), (4, -127), (-128, 64), (-128, 64), (-128, 64), (-128, 64), (-128, 64),
    (-128, 64), (-128, 64)], ?_, by decide, by decide⟩
  have pos : ∀ n : ℕ, Is (.fin false n) ((n : ℤ) * 2 ^ (0 : ℤ) : ℚ) := fun n => ⟨⟨_, _, rfl, by positivity⟩, by simp [Val.toRat]⟩
  have neg : ∀ n : ℕ, Is (.fin true n) ((-n : ℤ) * 2 ^ (0 : ℤ) : ℚ) := fun n => ⟨⟨_, _, rfl, by positivity⟩, by simp [Val.toRat]⟩
  have a := neg 127
  have b := neg 128
  have c := pos 64
  refine .cons ⟨by simpa using pos 0, by simpa using a⟩ (.cons ⟨by simpa using pos 1, by simpa using a⟩ (.cons ⟨by simpa using pos 2, by simpa using a⟩
    (.cons ⟨by simpa using pos 3, by simpa using a⟩ (.cons ⟨by simpa using pos 4, by simpa using a⟩ ?_))))
  have d : Is ((.fin true 128 : Val)) (((-128 : ℤ) : ℚ) * 2 ^ (0 : ℤ)) ∧ Is ((.fin false 64 : Val)) (((64 : ℤ) : ℚ) * 2 ^ (0 : ℤ)) :=
    ⟨by simpa using b, by simpa using c⟩
  exact .cons d (.cons d (.cons d (.cons d (.cons d (.cons d (.cons d .nil))))))

/-- Audio at 24000 Hz. -/
def demoR : List ((ℕ → FVal binary32) × Slice) := [((fun i => fin32 (decide (i % 2 = 1)) i), ⟨0, 30⟩)]

theorem demoR_stream : stream demoR = (List.range 30).map fun i : ℕ => fin32 (decide (i % 2 = 1)) i := by
  simp only [stream, demoR, List.map_cons, List.map_nil, List.flatten_cons, List.flatten_nil, List.append_nil, contents, zero_add]

/-- The hypotheses of `C109_rational_rounded` hold for 24000 Hz down to 11025 Hz, which gives 13 outputs. -/
example : (∀ x ∈ stream demoR, Finite x ∧ |val x| ≤ 30) ∧ 0 < 11025 ∧ 11025 ≤ 24000 ∧ 24000 < 2 ^ 22 ∧ (30 : ℝ) ≤ 2 ^ 64 ∧
    (stream demoR).length * 11025 / 24000 = 13 := by
  refine ⟨fun x hx => ?_, by norm_num, by norm_num, by norm_num, by norm_num, by decide⟩
  rw [demoR_stream] at hx
  obtain ⟨i, hi, rfl⟩ := List.mem_map.1 hx
  rw [List.mem_range] at hi
  refine ⟨⟨_, _, rfl, by positivity⟩, ?_⟩
  unfold fin32
  rw [val_fin]
  split <;> simp <;> omega

/-- The hypotheses of `C109_rational_exact` hold for 48000 Hz down to 12000 Hz. -/
example : List.Forall₂ (fun (n : ℤ) (x : FVal binary32) => Is x (n * 2 ^ (0 : ℤ)))
      ((List.range 30).map fun i : ℕ => if i % 2 = 1 then -(i : ℤ) else i) (stream demoR) ∧
    (∀ n ∈ (List.range 30).map fun i : ℕ => if i % 2 = 1 then -(i : ℤ) else i, n.natAbs ≤ 30) ∧
    12000 * 2 ^ 2 < 2 ^ 24 ∧ 2 ^ 2 * 30 < 2 ^ 24 := by
  refine ⟨?_, by decide, by norm_num, by norm_num⟩
  rw [demoR_stream, List.forall₂_map_left_iff, List.forall₂_map_right_iff, List.forall₂_same]
  intro i _
  refine ⟨⟨_, _, rfl, by positivity⟩, ?_⟩
  by_cases h : i % 2 = 1 <;> simp [h, fin32, Val.toRat]

/-- The hypotheses of `C109_violated_long` hold for 2^26 ones and the factor 2^25. -/
example : 2 ^ 24 ≤ 2 ^ 25 ∧ (∀ x ∈ stream [((fun _ => cOne), (⟨0, 2 ^ 26⟩ : Slice))], x = cOne) ∧
    (stream [((fun _ => cOne), (⟨0, 2 ^ 26⟩ : Slice))]).length / 2 ^ 25 = 2 := by
  refine ⟨by norm_num, fun x hx => ?_, ?_⟩
  · simp only [stream, List.map_cons, List.map_nil, List.flatten_cons, List.flatten_nil, List.append_nil,
      contents, List.mem_map, List.mem_range] at hx
    obtain ⟨i, _, rfl⟩ := hx
    rfl
  · simp only [stream, List.map_cons, List.map_nil, List.flatten_cons, List.flatten_nil, List.append_nil, contents,
      List.length_map, List.length_range]
    norm_num

end Verif.Down
