import Verif.Filt.IirFp
import Verif.Fp.FpProduct

/-!
# Property C92: filters of complex samples with rounding

`CVal φ` is the arithmetic of `complex128` (`φ = binary64`) or `complex64` (`φ = binary32`), the products in any of the
ways of `CMul`: fused, or for `complex64` computed in `float64`.  A complex filter whose
coefficients are real does on the two parts what the real filter does, apart from the sign of zeros.
-/

namespace Verif.Filt
open Verif.Conv Verif.Fp Finset

/-- Two finite data of a format with the same value (they may differ in the sign of zero). -/
def Eqv (φ : Format) (v w : Val) : Prop := ∃ q, Is v q ∧ Is w q ∧ Grid φ q

theorem Eqv.left {φ : Format} {v w : Val} (h : Eqv φ v w) : Finite v := h.choose_spec.1.1
theorem Eqv.right {φ : Format} {v w : Val} (h : Eqv φ v w) : Finite w := h.choose_spec.2.1.1
theorem eqv_self {φ : Format} {v : Val} (h : Finite v) (hg : Grid φ v.toRat) : Eqv φ v v := ⟨_, ⟨h, rfl⟩, ⟨h, rfl⟩, hg⟩

theorem round_fin {φ : Format} {s : Bool} {q : ℚ} (hq : 0 ≤ q) (h : Finite (round φ s q)) :
    rd φ q < 2 ^ (φ.emax + 1) := by
  unfold Fp.round at h
  rcases hq.eq_or_lt with h0 | h0
  · rw [← h0, rd_zero]; positivity
  · rw [if_neg h0.ne'] at h
    simp only [← rd_pos φ h0] at h
    by_contra hc
    rw [if_pos (not_lt.1 hc)] at h
    obtain ⟨_, _, h, _⟩ := h
    exact absurd h (by simp)

theorem add_fin {φ : Format} {v w : Val} {x y : ℚ} (hv : Is v x) (hw : Is w y) (h : Finite (add φ v w)) :
    |rd φ (x + y)| < 2 ^ (φ.emax + 1) := by
  obtain ⟨⟨s, q, rfl, hq⟩, hx⟩ := hv
  obtain ⟨⟨t, r, rfl, hr⟩, hy⟩ := hw
  change Finite (if (Val.fin s q).toRat + (Val.fin t r).toRat = 0 then Val.fin (s && t) 0
    else roundRat φ ((Val.fin s q).toRat + (Val.fin t r).toRat)) at h
  rw [hx, hy] at h
  by_cases h0 : x + y = 0
  · rw [h0, rd_zero, abs_zero]; positivity
  · rw [if_neg h0] at h
    rw [abs_rd]
    exact round_fin (abs_nonneg _) h

theorem sub_fin {φ : Format} {v w : Val} {x y : ℚ} (hv : Is v x) (hw : Is w y) (h : Finite (sub φ v w)) :
    |rd φ (x - y)| < 2 ^ (φ.emax + 1) := by
  rw [sub_eq_add_neg]
  exact add_fin hv (is_neg hw) h

theorem mul_fin {φ : Format} {v w : Val} {x y : ℚ} (hv : Is v x) (hw : Is w y) (h : Finite (mul φ v w)) :
    |rd φ (x * y)| < 2 ^ (φ.emax + 1) := by
  obtain ⟨⟨s, q, rfl, hq⟩, hx⟩ := hv
  obtain ⟨⟨t, r, rfl, hr⟩, hy⟩ := hw
  change Finite (round φ (s != t) (q * r)) at h
  have habs : |x * y| = q * r := by
    rw [← hx, ← hy, abs_mul]
    simp only [Val.toRat]
    congr 1
    · cases s <;> simp [abs_of_nonneg hq]
    · cases t <;> simp [abs_of_nonneg hr]
  rw [abs_rd, habs]
  exact round_fin (mul_nonneg hq hr) h

/-- A datum that is finite, infinite or no number, and whose magnitude is not negative. -/
def Sound (v : Val) : Prop := ∀ s q, v = .fin s q → 0 ≤ q

theorem sound_of {v : Val} (h : Finite v) : Sound v := by
  obtain ⟨s, q, rfl, hq⟩ := h
  intro s' q' e
  cases e
  exact hq

theorem sound_round (φ : Format) (s : Bool) {q : ℚ} (hq : 0 ≤ q) : Sound (round φ s q) := by
  by_cases h : rd φ q < 2 ^ (φ.emax + 1)
  · rw [round_rd φ s hq h]
    exact sound_of ⟨_, _, rfl, rd_nonneg φ hq⟩
  · unfold Fp.round
    rcases hq.eq_or_lt with h0 | h0
    · rw [← h0, if_pos rfl]; exact sound_of ⟨_, _, rfl, le_rfl⟩
    · rw [if_neg h0.ne']
      simp only [← rd_pos φ h0]
      rw [if_pos (not_lt.1 h)]
      intro s q e
      cases e

theorem sound_add (φ : Format) (v w : Val) : Sound (add φ v w) := by
  have h0 : Sound .nan := fun s q e => nomatch e
  have h1 : ∀ s, Sound (.inf s) := fun s s' q e => nomatch e
  rcases v with _ | s | ⟨s, q⟩ <;> rcases w with _ | t | ⟨t, r⟩ <;> simp only [add]
  any_goals first | exact h0 | exact h1 _
  · split
    · exact h1 _
    · exact h0
  · split
    · exact sound_of ⟨_, _, rfl, le_rfl⟩
    · exact sound_round φ _ (abs_nonneg _)

theorem sound_mul (φ : Format) {v w : Val} (hv : Finite v) (hw : Finite w) : Sound (mul φ v w) := by
  obtain ⟨s, q, rfl, hq⟩ := hv
  obtain ⟨t, r, rfl, hr⟩ := hw
  exact sound_round φ _ (mul_nonneg hq hr)

/-- The operands of a finite sum are finite. -/
theorem of_add_fin {φ : Format} {v w : Val} (hv : Sound v) (hw : Sound w) (h : Finite (add φ v w)) :
    Finite v ∧ Finite w := by
  obtain ⟨s, q, h, -⟩ := h
  rcases v with _ | s | ⟨s, q⟩ <;> rcases w with _ | t | ⟨t, r⟩ <;> simp only [add] at h
  any_goals (first | cases h | (split at h <;> cases h))
  · exact ⟨⟨_, _, rfl, hv _ _ rfl⟩, ⟨_, _, rfl, hw _ _ rfl⟩⟩

theorem sound_neg {v : Val} (hv : Sound v) : Sound (neg v) := by
  cases v <;> intro s q e <;> simp only [neg] at e <;> cases e
  exact hv _ _ rfl

theorem of_neg_fin {v : Val} (h : Finite (neg v)) : Finite v := by
  obtain ⟨s, q, h, hq⟩ := h
  cases v <;> simp only [neg] at h <;> cases h
  exact ⟨_, _, rfl, hq⟩

theorem of_sub_fin {φ : Format} {v w : Val} (hv : Sound v) (hw : Sound w) (h : Finite (sub φ v w)) :
    Finite v ∧ Finite w := by
  obtain ⟨h1, h2⟩ := of_add_fin hv (sound_neg hw) h
  exact ⟨h1, of_neg_fin h2⟩

theorem eqv_add {φ : Format} (hp : 1 ≤ φ.p) {v w v' w' : Val} (hv : Eqv φ v v') (hw : Eqv φ w w') (h : Finite (add φ v w)) :
    Eqv φ (add φ v' w') (add φ v w) := by
  obtain ⟨x, h1, h2, -⟩ := hv
  obtain ⟨y, h3, h4, -⟩ := hw
  have hb := add_fin h1 h3 h
  exact ⟨_, add_rd φ h2 h4 hb, add_rd φ h1 h3 hb, grid_rd φ hp _⟩

theorem eqv_sub {φ : Format} (hp : 1 ≤ φ.p) {v w v' w' : Val} (hv : Eqv φ v v') (hw : Eqv φ w w') (h : Finite (sub φ v w)) :
    Eqv φ (sub φ v' w') (sub φ v w) := by
  obtain ⟨x, h1, h2, -⟩ := hv
  obtain ⟨y, h3, h4, -⟩ := hw
  have hb := sub_fin h1 h3 h
  exact ⟨_, sub_rd φ h2 h4 hb, sub_rd φ h1 h3 hb, grid_rd φ hp _⟩

theorem Eqv.symm {φ : Format} {v w : Val} (h : Eqv φ v w) : Eqv φ w v := by
  obtain ⟨q, h1, h2, h3⟩ := h
  exact ⟨q, h2, h1, h3⟩

/-- A finite quotient is a number of the format. -/
theorem grid_div {φ : Format} (hp : 1 ≤ φ.p) {v w : Val} {x y : ℚ} (hv : Is v x) (hw : Is w y) (h0 : y ≠ 0)
    (h : Finite (div φ v w)) : Grid φ (div φ v w).toRat := by
  obtain ⟨⟨s, q, rfl, hq⟩, hx⟩ := hv
  obtain ⟨⟨t, r, rfl, hr⟩, hy⟩ := hw
  have hr0 : r ≠ 0 := by
    rintro rfl
    apply h0
    rw [← hy]
    cases t <;> simp [Val.toRat]
  have e : div φ (.fin s q) (.fin t r) = Fp.round φ (s != t) (q / r) := if_neg hr0
  rw [e] at h ⊢
  rw [round_rd φ _ (div_nonneg hq hr) (round_fin (div_nonneg hq hr) h)]
  have g := grid_rd φ hp (q / r)
  show Grid φ (if (s != t) = true then -rd φ (q / r) else rd φ (q / r))
  split
  · exact grid_neg g
  · exact g

/-- Both parts of the complex datum have the values of the two real ones. -/
def Parts {φ : Format} (c : CVal φ) (r i : FVal φ) : Prop := Eqv φ c.re r ∧ Eqv φ c.im i

/-- The product with a coefficient whose imaginary part is zero, however compiled. -/
theorem parts_mul {φ : Format} [CMul φ] (hp : 1 ≤ φ.p) {c s : CVal φ} {b r i : FVal φ} (hc : Eqv φ c.re b) (h0 : Is c.im 0)
    (hs : Parts s r i) (hr : Finite (b * r : FVal φ)) (hi : Finite (b * i : FVal φ)) : Parts (c * s) (b * r) (b * i) := by
  obtain ⟨β, c1, c2, gβ⟩ := hc
  obtain ⟨⟨ρ, r1, r2, gρ⟩, ⟨ι, i1, i2, gι⟩⟩ := hs
  have br := mul_fin c2 r2 hr
  have bi := mul_fin c2 i2 hi
  have wide : ∀ {q : ℚ}, Grid φ q → φ = binary32 → rd binary64 (β * q) = β * q := by
    rintro q hq rfl
    exact rd_grid binary64 (by decide) (grid_wide gβ hq)
  constructor
  · exact ⟨rd φ (β * ρ), (may_two hp c1 r1 h0 i1).1 (zero_mul ι) br (wide gρ) (CMul.re c s), mul_rd φ c2 r2 br, grid_rd φ hp _⟩
  · exact ⟨rd φ (β * ι), (may_two hp c1 i1 h0 r1).2.1 (zero_mul ρ) bi (wide gι) (CMul.im c s), mul_rd φ c2 i2 bi, grid_rd φ hp _⟩

/-- The sum of a complex filter, part by part. -/
theorem sumOf_parts {φ : Format} [CMul φ] (hp : 1 ≤ φ.p) (bc ac pc qc : ℕ → CVal φ) (b a pr pi qr qi : ℕ → FVal φ) (sc : CVal φ)
    (sr si : FVal φ) (d : ℕ) (hb : ∀ k ≤ d, Eqv φ (bc k).re (b k) ∧ Is (bc k).im 0)
    (ha : ∀ k < d, Eqv φ (ac (k + 1)).re (a (k + 1)) ∧ Is (ac (k + 1)).im 0) (hs : Parts sc sr si)
    (hpp : ∀ k < d, Parts (pc k) (pr k) (pi k)) (hq : ∀ k < d, Parts (qc k) (qr k) (qi k))
    (hr : Finite (sumOf (F := FVal φ) b a pr qr sr d)) (hi : Finite (sumOf (F := FVal φ) b a pi qi si d)) :
    Parts (sumOf bc ac pc qc sc d) (sumOf b a pr qr sr d) (sumOf b a pi qi si d) := by
  induction d with
  | zero => exact parts_mul hp (hb 0 le_rfl).1 (hb 0 le_rfl).2 hs hr hi
  | succ d ih =>
    have snd : ∀ (p q : ℕ → FVal φ) (s : FVal φ), Finite s → Finite (b 0) → Sound (sumOf (F := FVal φ) b a p q s d) := by
      intro p q s h1 h2
      cases d with
      | zero => exact sound_mul φ h2 h1
      | succ d => exact sound_add φ _ _
    have split : ∀ (p q : ℕ → FVal φ) (s : FVal φ), Finite s → Finite (p d) → Finite (q d) →
        Finite (sumOf (F := FVal φ) b a p q s (d + 1)) → Finite (sumOf (F := FVal φ) b a p q s d) ∧
          Finite (b (d + 1) * p d - a (d + 1) * q d : FVal φ) ∧ Finite (b (d + 1) * p d : FVal φ) ∧
          Finite (a (d + 1) * q d : FVal φ) := by
      intro p q s h1 h2 h3 h
      obtain ⟨e1, e2⟩ := of_add_fin (snd p q s h1 (hb 0 (by omega)).1.right) (sound_add φ _ _) h
      obtain ⟨e3, e4⟩ := of_sub_fin (sound_mul φ (hb (d + 1) le_rfl).1.right h2)
        (sound_mul φ (ha d (by omega)).1.right h3) e2
      exact ⟨e1, e2, e3, e4⟩
    have hp' := hpp d (by omega)
    have hq' := hq d (by omega)
    obtain ⟨r1, r2, r3, r4⟩ := split pr qr sr hs.1.right hp'.1.right hq'.1.right hr
    obtain ⟨i1, i2, i3, i4⟩ := split pi qi si hs.2.right hp'.2.right hq'.2.right hi
    have ih' := ih (fun k hk => hb k (by omega)) (fun k hk => ha k (by omega)) (fun k hk => hpp k (by omega))
      (fun k hk => hq k (by omega)) r1 i1
    have m1 := parts_mul hp (hb (d + 1) le_rfl).1 (hb (d + 1) le_rfl).2 hp' r3 i3
    have m2 := parts_mul hp (ha d (by omega)).1 (ha d (by omega)).2 hq' r4 i4
    exact ⟨eqv_add hp ih'.1.symm (eqv_sub hp m1.1.symm m2.1.symm r2).symm hr,
      eqv_add hp ih'.2.symm (eqv_sub hp m1.2.symm m2.2.symm i2).symm hi⟩

theorem parts_delayed {φ : Format} {c : ℕ → CVal φ} {r i : ℕ → FVal φ} {n k : ℕ}
    (h : k ≤ n → Parts (c (n - k)) (r (n - k)) (i (n - k))) :
    Parts (delayed c n k) (delayed (K := FVal φ) r n k) (delayed (K := FVal φ) i n k) := by
  unfold delayed
  by_cases hk : k ≤ n
  · rw [if_pos hk, if_pos hk, if_pos hk]; exact h hk
  · rw [if_neg hk, if_neg hk, if_neg hk]
    have : Finite (Val.fin false 0) := ⟨false, 0, rfl, le_rfl⟩
    have e : Grid φ (Val.fin false 0).toRat := grid_zero φ
    exact ⟨eqv_self this e, eqv_self this e⟩

/-- A complex filter at rest does on the parts what the real filters do, as long as those stay finite. -/
theorem outAt_parts {φ : Format} [CMul φ] (hp : 1 ≤ φ.p) (bc ac xc : ℕ → CVal φ) (b a xr xi : ℕ → FVal φ) (d N : ℕ)
    (hb : ∀ k ≤ d, Eqv φ (bc k).re (b k) ∧ Is (bc k).im 0)
    (ha : ∀ k < d, Eqv φ (ac (k + 1)).re (a (k + 1)) ∧ Is (ac (k + 1)).im 0)
    (hx : ∀ i < N, Parts (xc i) (xr i) (xi i))
    (hr : ∀ n < N, Finite (outAt (F := FVal φ) b a d (fun _ => 0) (fun _ => 0) xr n))
    (hi : ∀ n < N, Finite (outAt (F := FVal φ) b a d (fun _ => 0) (fun _ => 0) xi n)) (n : ℕ) (hn : n < N) :
    Parts (outAt bc ac d (fun _ => 0) (fun _ => 0) xc n) (outAt b a d (fun _ => 0) (fun _ => 0) xr n)
      (outAt b a d (fun _ => 0) (fun _ => 0) xi n) := by
  induction n using Nat.strong_induction_on with
  | _ n ih =>
    have l1 := fun k hk => lines_rest bc ac d xc n k hk
    have l2 := fun k hk => lines_rest b a d xr n k hk
    have l3 := fun k hk => lines_rest b a d xi n k hk
    refine sumOf_parts hp _ _ _ _ _ _ _ _ _ _ _ _ _ d hb ha (hx n hn) (fun k hk => ?_) (fun k hk => ?_) (hr n hn) (hi n hn)
    · rw [(l1 k hk).1, (l2 k hk).1, (l3 k hk).1]
      exact parts_delayed fun h => hx _ (by omega)
    · rw [(l1 k hk).2, (l2 k hk).2, (l3 k hk).2]
      exact parts_delayed fun h => ih _ (by omega) (by omega)

theorem recurrence_parts {L N : ℕ} {B A xr xi yr yi : ℕ → ℚ}
    (h : Recurrence L N (fun k => ((B k : ℚ) : ℂ)) (fun k => ((A k : ℚ) : ℂ)) (fun i => (⟨xr i, xi i⟩ : ℂ))
      (fun i => (⟨yr i, yi i⟩ : ℂ))) : Recurrence L N B A xr yr ∧ Recurrence L N B A xi yi := by
  have hre : ∀ (u v : ℕ → ℚ) (n k : ℕ), (delayed (fun i => (⟨u i, v i⟩ : ℂ)) n k).re = delayed u n k := by
    intro u v n k; unfold delayed; split <;> simp
  have him : ∀ (u v : ℕ → ℚ) (n k : ℕ), (delayed (fun i => (⟨u i, v i⟩ : ℂ)) n k).im = delayed v n k := by
    intro u v n k; unfold delayed; split <;> simp
  have cr : ∀ q : ℚ, ((q : ℂ)).re = q := fun q => by rw [← Complex.ofReal_ratCast, Complex.ofReal_re]
  have ci : ∀ q : ℚ, ((q : ℂ)).im = 0 := fun q => by rw [← Complex.ofReal_ratCast, Complex.ofReal_im]
  constructor
  · intro n hn
    have := congrArg Complex.re (h n hn)
    simp only [Complex.re_sum, Complex.mul_re, cr, ci, zero_mul, sub_zero, hre] at this
    exact_mod_cast this
  · intro n hn
    have := congrArg Complex.im (h n hn)
    simp only [Complex.im_sum, Complex.mul_im, cr, ci, zero_mul, add_zero, him] at this
    exact_mod_cast this

/-- C92 for `ComplexIIRFilter` and `ComplexIIRFilter32`, whose coefficients are real: on complex samples with parts of
magnitude at most `X`, however the complex products are compiled, the filter gives finite outputs whose parts differ from
the parts of the solution of the difference equation by at most the bound of `C92_iir_partial`.  Missing for the full
statement: what is missing there. -/
theorem C92_complex_partial {φ : Format} [CMul φ] (hp : 1 ≤ φ.p) (d : ℕ) (hd : 0 < d) (bc ac input output : Slice)
    (hbl : bc.len = d + 1) (hal : ac.len = d + 1) (hdisj : Disj bc ac) (fb fa : ℕ)
    (hf : Disj ⟨fb, bc.len⟩ ⟨fa, ac.len⟩) (hio : OutputOk input output)
    (hib : Disj input ⟨fb, bc.len⟩) (hia : Disj input ⟨fa, ac.len⟩)
    (hob : Disj ⟨output.base, input.len⟩ ⟨fb, bc.len⟩) (hoa : Disj ⟨output.base, input.len⟩ ⟨fa, ac.len⟩)
    (rm : ℕ → FVal φ) (cm : ℕ → CVal φ) (B A xr xi yr yi : ℕ → ℚ) (hB : ∀ k ≤ d, Is (rm (bc.base + k)) (B k))
    (hA : ∀ k ≤ d, Is (rm (ac.base + k)) (A k)) (hA0 : A 0 ≠ 0) (X SB SA H : ℚ) (hX : 0 ≤ X)
    (hx : ∀ i < input.len, Is (cm (input.base + i)).re (xr i) ∧ Is (cm (input.base + i)).im (xi i) ∧ |xr i| ≤ X ∧ |xi i| ≤ X)
    (hgx : ∀ i < input.len, Grid φ (xr i) ∧ Grid φ (xi i))
    (hSB : ∑ k ∈ range (d + 1), |B k / A 0| ≤ SB) (hSA : ∑ k ∈ range d, |A (k + 1) / A 0| ≤ SA)
    (hG : Gain (d + 1) A H) (hu : 8 * (d + 3) * 2 ^ (-(φ.p : ℤ)) * (1 + SA * H) ≤ 1)
    (hsmall : 200 * (d + 1) * 2 ^ φ.emin * (X + H * SB * X + 1) ≤ SB * X)
    (hbig : 4 * (SB + SA + SB * X * (1 + SA * H)) ≤ 2 ^ φ.emax)
    (hy : Recurrence (d + 1) input.len (fun k => ((B k : ℚ) : ℂ)) (fun k => ((A k : ℚ) : ℂ))
      (fun i => (⟨xr i, xi i⟩ : ℂ)) (fun i => (⟨yr i, yi i⟩ : ℂ))) :
    ∃ rm1 cm1 f cm2 g, newComplexIIR (fun v => (⟨v, 0⟩ : CVal φ)) bc ac rm fb fa cm = some (rm1, cm1, f) ∧
      f.filter cm1 input output = some (cm2, g) ∧
      ∀ i < input.len, ∃ zr zi, Is (cm2 (output.base + i)).re zr ∧ Is (cm2 (output.base + i)).im zi ∧
        |zr - yr i| ≤ 4 * (d + 3) * 2 ^ (-(φ.p : ℤ)) * H * (1 + SA * H) * (SB * X) ∧
        |zi - yi i| ≤ 4 * (d + 3) * 2 ^ (-(φ.p : ℤ)) * H * (1 + SA * H) * (SB * X) := by
  obtain ⟨hyr, hyi⟩ := recurrence_parts hy
  have hω := tiny_pos φ
  have hSB0 : 0 ≤ SB := (sum_nonneg fun _ _ => abs_nonneg _).trans hSB
  have hSA0 : 0 ≤ SA := (sum_nonneg fun _ _ => abs_nonneg _).trans hSA
  have hH := gain_one (by omega) hG
  have eu : (2 : ℚ) ^ (-(φ.p : ℤ)) = unit φ := rfl
  have eω : (2 : ℚ) ^ φ.emin = tiny φ := rfl
  rw [eu] at hu ⊢
  rw [eω] at hsmall
  obtain ⟨z1, z2, z3, z4, z5, z6⟩ := sizes (K := d + 3) (d := d) hX hSB0 hSA0 hH (by push_cast; exact hu) hsmall hbig
  have hle : ∀ k ≤ d, |B k / A 0| ≤ SB := fun k hk =>
    (single_le_sum (f := fun k => |B k / A 0|) (fun _ _ => abs_nonneg _) (mem_range.2 (by omega))).trans hSB
  have hle' : ∀ k < d, |A (k + 1) / A 0| ≤ SA := fun k hk =>
    (single_le_sum (f := fun k => |A (k + 1) / A 0|) (fun _ _ => abs_nonneg _) (mem_range.2 hk)).trans hSA
  have h12 : 1 + unit φ ≤ 2 := by
    have := pow_unit_mono φ (show 1 ≤ d + 3 by omega)
    rw [pow_one] at this
    linarith
  have hn := normalise_eq bc ac rm (by omega) (by omega) hdisj
  generalize hM : fill (fill rm bc.base bc.len fun i => rm (bc.base + i) / rm ac.base)
      (ac.base + 1) (ac.len - 1) (fun i => rm (ac.base + 1 + i) / rm ac.base) = rm1 at hn
  unfold Disj at hdisj hf hib hia hob hoa
  simp only at hf hib hia hob hoa
  have hb1 : ∀ k ≤ d, Near φ (rm1 (bc.base + k)) (B k / A 0) (|B k / A 0| + tiny φ) 1 := by
    intro k hk
    rw [← hM, fill_out (by omega), fill_in (by omega)]
    exact near_div (hB k hk) (hA 0 (by omega)) hA0 h12 (by have := hle k hk; linarith)
  have ha1 : ∀ k < d, Near φ (rm1 (ac.base + (k + 1))) (A (k + 1) / A 0) (|A (k + 1) / A 0| + tiny φ) 1 := by
    intro k hk
    rw [← hM, show ac.base + (k + 1) = ac.base + 1 + k by omega, fill_in (by omega)]
    refine near_div ?_ (hA 0 (by omega)) hA0 h12 (by have := hle' k hk; linarith)
    rw [show ac.base + 1 + k = ac.base + (k + 1) by omega]
    exact hA (k + 1) (by omega)
  have hbg : ∀ k ≤ d, Grid φ (rm1 (bc.base + k)).toRat := by
    intro k hk
    have hf := (hb1 k hk).1
    rw [← hM, fill_out (by omega), fill_in (by omega)] at hf ⊢
    exact grid_div hp (hB k hk) (hA 0 (by omega)) hA0 hf
  have hag : ∀ k < d, Grid φ (rm1 (ac.base + (k + 1))).toRat := by
    intro k hk
    have hf := (ha1 k hk).1
    rw [← hM, show ac.base + (k + 1) = ac.base + 1 + k by omega, fill_in (by omega)] at hf ⊢
    refine grid_div (x := A (k + 1)) hp ?_ (hA 0 (by omega)) hA0 hf
    rw [show ac.base + 1 + k = ac.base + (k + 1) by omega]
    exact hA (k + 1) (by omega)
  generalize hC : fill (fill cm fb bc.len fun i => (⟨rm1 (bc.base + i), 0⟩ : CVal φ)) fa ac.len
    (fun i => (⟨rm1 (ac.base + i), 0⟩ : CVal φ)) = cm1
  have z0 : Is (0 : FVal φ) 0 := ⟨⟨false, 0, rfl, le_rfl⟩, rfl⟩
  have hcb : ∀ k ≤ d, Eqv φ (cm1 (fb + k)).re (rm1 (bc.base + k)) ∧ Is (cm1 (fb + k)).im 0 := by
    intro k hk
    rw [← hC, fill_out (by omega), fill_in (by omega)]
    exact ⟨eqv_self (hb1 k hk).1 (hbg k hk), z0⟩
  have hca : ∀ k < d, Eqv φ (cm1 (fa + (k + 1))).re (rm1 (ac.base + (k + 1))) ∧ Is (cm1 (fa + (k + 1))).im 0 := by
    intro k hk
    rw [← hC, fill_in (by omega)]
    exact ⟨eqv_self (ha1 k hk).1 (hag k hk), z0⟩
  have hcx : ∀ i < input.len, cm1 (input.base + i) = cm (input.base + i) := by
    intro i hi
    rw [← hC, fill_out (by omega), fill_out (by omega)]
  have hfe := IIR.filter_eq (⟨⟨fb, bc.len⟩, ⟨fa, ac.len⟩, d, fun _ => 0, fun _ => 0⟩ : IIR (CVal φ)) cm1 input output
    (by simp only; omega) (by simp only; omega) (by simp only; omega) hio.1 (by simp only; omega) (by simp only; omega) hio.2
  have core := fun (p : CVal φ → FVal φ) (x y : ℕ → ℚ) h1 h2 h3 i hi =>
    iir_core d input.len (fun k => rm1 (bc.base + k)) (fun k => rm1 (ac.base + k)) (fun i => p (cm (input.base + i)))
      B A x y hA0 hb1 ha1 X SB SA H hX h1 h2 hSB hSA hG hu hsmall hbig h3 i hi
  have hr := core CVal.re xr yr (fun i hi => (hx i hi).1) (fun i hi => (hx i hi).2.2.1) hyr
  have hi' := core CVal.im xi yi (fun i hi => (hx i hi).2.1) (fun i hi => (hx i hi).2.2.2) hyi
  refine ⟨rm1, cm1, ⟨⟨fb, bc.len⟩, ⟨fa, ac.len⟩, d, fun _ => 0, fun _ => 0⟩, _, _, ?_, hfe, fun i hi => ?_⟩
  · unfold newComplexIIR
    rw [hn]
    simp only [Option.bind_eq_bind, Option.bind_some, rtoc_eq, hC]
    rw [show bc.len - 1 = d by omega]
  rw [fill_in hi]
  have key := outAt_parts hp (fun k => cm1 (fb + k)) (fun k => cm1 (fa + k)) (fun i => cm1 (input.base + i))
    (fun k => rm1 (bc.base + k)) (fun k => rm1 (ac.base + k)) (fun i => (cm (input.base + i)).re)
    (fun i => (cm (input.base + i)).im) d input.len hcb hca
    (fun i hi => by rw [hcx i hi]; exact
      ⟨eqv_self (hx i hi).1.1 (by rw [(hx i hi).1.2]; exact (hgx i hi).1),
        eqv_self (hx i hi).2.1.1 (by rw [(hx i hi).2.1.2]; exact (hgx i hi).2)⟩)
    (fun n hn => (hr n hn).choose_spec.1.1) (fun n hn => (hi' n hn).choose_spec.1.1) i hi
  obtain ⟨zr, r1, r2⟩ := hr i hi
  obtain ⟨zi, i1, i2⟩ := hi' i hi
  obtain ⟨⟨qr, k1, k2, -⟩, ⟨qi, k3, k4, -⟩⟩ := key
  have er : qr = zr := k2.2.symm.trans r1.2
  have ei : qi = zi := k4.2.symm.trans i1.2
  exact ⟨zr, zi, er ▸ k1, ei ▸ k3, r2, i2⟩

/-! ### Samples near underflow -/

/-- Enlarging the bound of the samples covers samples near underflow. -/
theorem enlarge {φ : Format} {d : ℕ} {X SB SA H : ℚ} (hX : 0 ≤ X) (hSB : 0 < SB) (hc : 400 * (d + 1) * tiny φ * (1 + H * SB) ≤ SB)
    (hbig : 4 * (SB + SA + (SB * X + 400 * (d + 1) * tiny φ) * (1 + SA * H)) ≤ 2 ^ φ.emax) :
    0 ≤ X + 400 * (d + 1) * tiny φ / SB ∧ X ≤ X + 400 * (d + 1) * tiny φ / SB ∧
    SB * (X + 400 * (d + 1) * tiny φ / SB) = SB * X + 400 * (d + 1) * tiny φ ∧
    200 * (d + 1) * tiny φ * ((X + 400 * (d + 1) * tiny φ / SB) + H * SB * (X + 400 * (d + 1) * tiny φ / SB) + 1) ≤
      SB * (X + 400 * (d + 1) * tiny φ / SB) ∧
    4 * (SB + SA + SB * (X + 400 * (d + 1) * tiny φ / SB) * (1 + SA * H)) ≤ 2 ^ φ.emax := by
  have hω := tiny_pos φ
  have hd0 : (0 : ℚ) ≤ d := Nat.cast_nonneg d
  have hD : 0 ≤ 400 * (d + 1) * tiny φ / SB := by positivity
  have e : SB * (X + 400 * (d + 1) * tiny φ / SB) = SB * X + 400 * (d + 1) * tiny φ := by
    field_simp
  have hX' : 0 ≤ X + 400 * (d + 1) * tiny φ / SB := by linarith
  refine ⟨hX', by linarith, e, ?_, by rw [e]; exact hbig⟩
  have h1 := mul_le_mul_of_nonneg_right hc hX'
  have h2 : 0 ≤ SB * X := by positivity
  linarith

/-- C92 for `IIRFilter` with samples however small: the bound grows by a multiple of the least normal number. -/
theorem C92_iir_small_partial {φ : Format} (d : ℕ) (hd : 0 < d) (bc ac input output : Slice) (hbl : bc.len = d + 1)
    (hal : ac.len = d + 1) (hdisj : Disj bc ac) (hib : Disj input bc) (hia : Disj input ac)
    (hio : OutputOk input output) (hob : Disj ⟨output.base, input.len⟩ bc) (hoa : Disj ⟨output.base, input.len⟩ ac)
    (m : ℕ → FVal φ) (B A x y : ℕ → ℚ) (hB : ∀ k ≤ d, Is (m (bc.base + k)) (B k))
    (hA : ∀ k ≤ d, Is (m (ac.base + k)) (A k)) (hA0 : A 0 ≠ 0) (X SB SA H : ℚ) (hX : 0 ≤ X) (hSB0 : 0 < SB)
    (hx : ∀ i < input.len, Is (m (input.base + i)) (x i) ∧ |x i| ≤ X)
    (hSB : ∑ k ∈ range (d + 1), |B k / A 0| ≤ SB) (hSA : ∑ k ∈ range d, |A (k + 1) / A 0| ≤ SA)
    (hG : Gain (d + 1) A H) (hu : 8 * (d + 3) * 2 ^ (-(φ.p : ℤ)) * (1 + SA * H) ≤ 1)
    (hc : 400 * (d + 1) * 2 ^ φ.emin * (1 + H * SB) ≤ SB)
    (hbig : 4 * (SB + SA + (SB * X + 400 * (d + 1) * 2 ^ φ.emin) * (1 + SA * H)) ≤ 2 ^ φ.emax)
    (hy : Recurrence (d + 1) input.len B A x y) :
    ∃ m1 f m2 g, newIIR bc ac m = some (m1, f) ∧ f.filter m1 input output = some (m2, g) ∧
      ∀ i < input.len, ∃ z, Is (m2 (output.base + i)) z ∧
        |z - y i| ≤ 4 * (d + 3) * 2 ^ (-(φ.p : ℤ)) * H * (1 + SA * H) * (SB * X + 400 * (d + 1) * 2 ^ φ.emin) := by
  obtain ⟨h1, h2, h3, h4, h5⟩ := enlarge (φ := φ) hX hSB0 hc hbig
  have h := C92_iir_partial d hd bc ac input output hbl hal hdisj hib hia hio hob hoa m B A x y hB hA hA0 _ SB SA H h1
    (fun i hi => ⟨(hx i hi).1, (hx i hi).2.trans h2⟩) hSB hSA hG hu h4 h5 hy
  rw [h3] at h
  exact h

/-- C92 for the complex filters with samples however small. -/
theorem C92_complex_small_partial {φ : Format} [CMul φ] (hp : 1 ≤ φ.p) (d : ℕ) (hd : 0 < d) (bc ac input output : Slice)
    (hbl : bc.len = d + 1) (hal : ac.len = d + 1) (hdisj : Disj bc ac) (fb fa : ℕ)
    (hf : Disj ⟨fb, bc.len⟩ ⟨fa, ac.len⟩) (hio : OutputOk input output)
    (hib : Disj input ⟨fb, bc.len⟩) (hia : Disj input ⟨fa, ac.len⟩)
    (hob : Disj ⟨output.base, input.len⟩ ⟨fb, bc.len⟩) (hoa : Disj ⟨output.base, input.len⟩ ⟨fa, ac.len⟩)
    (rm : ℕ → FVal φ) (cm : ℕ → CVal φ) (B A xr xi yr yi : ℕ → ℚ) (hB : ∀ k ≤ d, Is (rm (bc.base + k)) (B k))
    (hA : ∀ k ≤ d, Is (rm (ac.base + k)) (A k)) (hA0 : A 0 ≠ 0) (X SB SA H : ℚ) (hX : 0 ≤ X) (hSB0 : 0 < SB)
    (hx : ∀ i < input.len, Is (cm (input.base + i)).re (xr i) ∧ Is (cm (input.base + i)).im (xi i) ∧ |xr i| ≤ X ∧ |xi i| ≤ X)
    (hgx : ∀ i < input.len, Grid φ (xr i) ∧ Grid φ (xi i))
    (hSB : ∑ k ∈ range (d + 1), |B k / A 0| ≤ SB) (hSA : ∑ k ∈ range d, |A (k + 1) / A 0| ≤ SA)
    (hG : Gain (d + 1) A H) (hu : 8 * (d + 3) * 2 ^ (-(φ.p : ℤ)) * (1 + SA * H) ≤ 1)
    (hc : 400 * (d + 1) * 2 ^ φ.emin * (1 + H * SB) ≤ SB)
    (hbig : 4 * (SB + SA + (SB * X + 400 * (d + 1) * 2 ^ φ.emin) * (1 + SA * H)) ≤ 2 ^ φ.emax)
    (hy : Recurrence (d + 1) input.len (fun k => ((B k : ℚ) : ℂ)) (fun k => ((A k : ℚ) : ℂ))
      (fun i => (⟨xr i, xi i⟩ : ℂ)) (fun i => (⟨yr i, yi i⟩ : ℂ))) :
    ∃ rm1 cm1 f cm2 g, newComplexIIR (fun v => (⟨v, 0⟩ : CVal φ)) bc ac rm fb fa cm = some (rm1, cm1, f) ∧
      f.filter cm1 input output = some (cm2, g) ∧
      ∀ i < input.len, ∃ zr zi, Is (cm2 (output.base + i)).re zr ∧ Is (cm2 (output.base + i)).im zi ∧
        |zr - yr i| ≤ 4 * (d + 3) * 2 ^ (-(φ.p : ℤ)) * H * (1 + SA * H) * (SB * X + 400 * (d + 1) * 2 ^ φ.emin) ∧
        |zi - yi i| ≤ 4 * (d + 3) * 2 ^ (-(φ.p : ℤ)) * H * (1 + SA * H) * (SB * X + 400 * (d + 1) * 2 ^ φ.emin) := by
  obtain ⟨h1, h2, h3, h4, h5⟩ := enlarge (φ := φ) hX hSB0 hc hbig
  have h := C92_complex_partial hp d hd bc ac input output hbl hal hdisj fb fa hf hio hib hia hob hoa rm cm B A xr xi yr yi
    hB hA hA0 _ SB SA H h1
    (fun i hi => ⟨(hx i hi).1, (hx i hi).2.1, (hx i hi).2.2.1.trans h2, (hx i hi).2.2.2.trans h2⟩) hgx hSB hSA hG hu h4 h5 hy
  rw [h3] at h
  exact h

/-- C92 for `BiQuadFilter.Filter` with samples however small. -/
theorem C92_biquad_small_partial {φ : Format} (f : BQ (FVal φ)) (g : BQ ℚ) (hf : f.HasValues g) (hA0 : g.A0 ≠ 0)
    (m : ℕ → FVal φ) (input output : Slice) (hio : OutputOk input output) (x y : ℕ → ℚ) (X SB SA H : ℚ) (hX : 0 ≤ X)
    (hSB0 : 0 < SB) (hx : ∀ i < input.len, Is (m (input.base + i)) (x i) ∧ |x i| ≤ X)
    (hSB : |g.B0 / g.A0| + |g.B1 / g.A0| + |g.B2 / g.A0| ≤ SB) (hSA : |g.A1 / g.A0| + |g.A2 / g.A0| ≤ SA)
    (hG : Gain 3 g.aSeq H) (hu : 48 * 2 ^ (-(φ.p : ℤ)) * (1 + SA * H) ≤ 1)
    (hc : 1200 * 2 ^ φ.emin * (1 + H * SB) ≤ SB)
    (hbig : 4 * (SB + SA + (SB * X + 1200 * 2 ^ φ.emin) * (1 + SA * H)) ≤ 2 ^ φ.emax)
    (hy : Recurrence 3 input.len g.bSeq g.aSeq x y) :
    ∃ m' h, f.filter m input output = some (m', h) ∧ ∀ i < input.len, ∃ z, Is (m' (output.base + i)) z ∧
      |z - y i| ≤ 24 * 2 ^ (-(φ.p : ℤ)) * H * (1 + SA * H) * (SB * X + 1200 * 2 ^ φ.emin) := by
  have e : (400 : ℚ) * ((2 : ℕ) + 1) = 1200 := by norm_num
  have e' : (200 : ℚ) * ((2 : ℕ) + 1) = 600 := by norm_num
  have h := enlarge (φ := φ) (d := 2) (SA := SA) (H := H) hX hSB0 (by rw [e]; exact hc) (by rw [e]; exact hbig)
  rw [e, e'] at h
  obtain ⟨h1, h2, h3, h4, h5⟩ := h
  have h := C92_biquad_partial f g hf hA0 m input output hio x y _ SB SA H h1
    (fun i hi => ⟨(hx i hi).1, (hx i hi).2.trans h2⟩) hSB hSA hG hu h4 h5 hy
  rw [h3] at h
  exact h

/-- One sample, `1 + i`, and one more, `1 - i`, in `complex64` as amd64
compiles it: `y[n] = x[n] + y[n-1] / 2`. -/
example : letI := CMul.wide
    ∃ rm1 cm1 f cm2 g, newComplexIIR (fun v => (⟨v, 0⟩ : CVal binary32)) ⟨0, 2⟩ ⟨2, 2⟩
      (fun i => if i = 0 ∨ i = 2 then Val.fin false 1 else if i = 3 then Val.fin true (1 / 2) else Val.fin false 0) 10 12
      (fun i => if i = 4 then ⟨Val.fin false 1, Val.fin false 1⟩ else ⟨Val.fin false 1, Val.fin true 1⟩) = some (rm1, cm1, f) ∧
      f.filter cm1 ⟨4, 2⟩ ⟨4, 2⟩ = some (cm2, g) ∧
      ∀ i < 2, ∃ zr zi, Is (cm2 (4 + i)).re zr ∧ Is (cm2 (4 + i)).im zi ∧
        |zr - (if i = 0 then 1 else 3 / 2)| ≤ 4 * ((1 : ℕ) + 3) * 2 ^ (-(binary32.p : ℤ)) * 2 * (1 + 1 / 2 * 2) *
          (1 * 1 + 400 * ((1 : ℕ) + 1) * 2 ^ binary32.emin) ∧
        |zi - (if i = 0 then 1 else -(1 / 2))| ≤ 4 * ((1 : ℕ) + 3) * 2 ^ (-(binary32.p : ℤ)) * 2 * (1 + 1 / 2 * 2) *
          (1 * 1 + 400 * ((1 : ℕ) + 1) * 2 ^ binary32.emin) := by
  letI := CMul.wide
  have hG := gain_of_small (d := 1) (a := fun k => if k = 0 then (1 : ℚ) else -(1 / 2)) (by norm_num) (S := 1 / 2)
      (by norm_num [sum_range_succ, abs_of_pos]) (by norm_num)
  have he : (2 : ℚ) ^ binary32.emin ≤ 2 ^ (-20 : ℤ) := zpow_le_zpow_right₀ (by norm_num) (by decide)
  have he20 : (2 : ℚ) ^ (-20 : ℤ) = 1 / 1048576 := by norm_num
  refine C92_complex_small_partial (φ := binary32) (by decide) 1 (by omega) ⟨0, 2⟩ ⟨2, 2⟩ ⟨4, 2⟩ ⟨4, 2⟩ rfl rfl
    (by simp [Disj]) 10 12 (by simp [Disj]) ⟨by simp, by simp⟩ (by simp [Disj]) (by simp [Disj]) (by simp [Disj])
    (by simp [Disj]) _ _ (fun k => if k = 0 then 1 else 0) (fun k => if k = 0 then (1 : ℚ) else -(1 / 2))
    (fun _ => 1) (fun i => if i = 0 then 1 else -1) (fun i => if i = 0 then 1 else 3 / 2)
    (fun i => if i = 0 then 1 else -(1 / 2)) ?_ ?_ (by norm_num) 1 1 (1 / 2) 2 (by norm_num) (by norm_num) ?_ ?_ ?_
    ?_ ?_ ?_ ?_ ?_ ?_
  · intro k hk
    interval_cases k
    · exact ⟨⟨_, _, rfl, by norm_num⟩, rfl⟩
    · exact ⟨⟨_, _, rfl, by norm_num⟩, rfl⟩
  · intro k hk
    interval_cases k
    · exact ⟨⟨_, _, rfl, by norm_num⟩, rfl⟩
    · exact ⟨⟨_, _, rfl, by norm_num⟩, rfl⟩
  · intro i hi
    simp only at hi
    interval_cases i
    · exact ⟨⟨⟨_, _, rfl, by norm_num⟩, rfl⟩, ⟨⟨_, _, rfl, by norm_num⟩, rfl⟩, by norm_num, by norm_num⟩
    · exact ⟨⟨⟨_, _, rfl, by norm_num⟩, rfl⟩, ⟨⟨_, _, rfl, by norm_num⟩, rfl⟩, by norm_num, by norm_num⟩
  · intro i hi
    simp only at hi
    have g1 : Grid binary32 1 := ⟨1, 0, by decide, by decide, by norm_num⟩
    interval_cases i
    · exact ⟨g1, g1⟩
    · exact ⟨g1, grid_neg g1⟩
  · norm_num [sum_range_succ]
  · norm_num [sum_range_succ, abs_of_pos]
  · norm_num at hG
    exact hG
  · norm_num [binary32]
  · rw [he20] at he
    norm_num
    linarith
  · have : (2 : ℚ) ^ (10 : ℤ) ≤ 2 ^ binary32.emax := zpow_le_zpow_right₀ (by norm_num) (by decide)
    rw [he20] at he
    norm_num at this ⊢
    linarith
  · intro n hn
    simp only at hn
    interval_cases n
    · simp [delayed]
    · simp [sum_range_succ, delayed, Complex.ext_iff]
      norm_num

/-! ### Overflow -/

theorem of_add_left {φ : Format} {v w : Val} (hv : Sound v) (h : Finite (add φ v w)) : Finite v := by
  obtain ⟨s, q, h, -⟩ := h
  rcases v with _ | s | ⟨s, q⟩ <;> rcases w with _ | t | ⟨t, r⟩ <;> simp only [add] at h
  any_goals (first | cases h | (split at h <;> cases h))
  exact ⟨_, _, rfl, hv _ _ rfl⟩

theorem big_product : ¬ Finite (mul binary64 (Val.fin false 2) (Val.fin false (2 ^ 1023))) := by
  intro h
  have h5 := mul_fin (is_fin (s := false) (show (0 : ℚ) ≤ 2 by norm_num)) (is_fin (s := false)
      (show (0 : ℚ) ≤ 2 ^ 1023 by positivity)) h
  have e3 : (2 : ℚ) * 2 ^ 1023 = 2 ^ (1024 : ℤ) := by
    rw [← pow_succ']; exact (zpow_natCast (2 : ℚ) 1024).symm
  simp only [Bool.false_eq_true, if_false] at h5
  have hg : Grid binary64 ((2 : ℚ) ^ (1024 : ℤ)) := grid_pow binary64 (by decide) 1024 (by decide)
  rw [e3, rd_grid _ (by decide) hg, abs_of_pos (by positivity), show binary64.emax + 1 = 1024 from rfl] at h5
  exact lt_irrefl _ h5

/-- C92 without the bound on the samples fails: `y[n] = 2 x[n] - 2 x[n-1]`, whose poles are both at zero, on the samples
`2 ^ 1022` and `2 ^ 1023`.  Both exact outputs are `2 ^ 1023`, a `float64`; the second one computed is not finite,
because `2 x[1]` overflows before `2 x[0]` is subtracted. -/
theorem C92_violated_overflow : ∃ (f : BQ (FVal binary64)) (g : BQ ℚ), f.HasValues g ∧ PolesInside g.real ∧
    ∃ (m : ℕ → FVal binary64) (x y : ℕ → ℚ), (∀ i < 2, Is (m i) (x i) ∧ Grid binary64 (x i) ∧ |x i| ≤ 2 ^ 1023) ∧
      Recurrence 3 2 g.bSeq g.aSeq x y ∧ (∀ i < 2, y i = 2 ^ 1023) ∧
      ∃ m' h, f.filter m ⟨0, 2⟩ ⟨2, 2⟩ = some (m', h) ∧ ¬ Finite (m' 3) := by
  have e2 : Grid binary64 2 := ⟨1, 1, by decide, by decide, by norm_num⟩
  refine ⟨⟨Val.fin false 2, Val.fin true 2, 0, Val.fin false 1, 0, 0, 0, 0, 0, 0⟩, ⟨2, -2, 0, 1, 0, 0, 0, 0, 0, 0⟩,
    ⟨⟨⟨_, _, rfl, by norm_num⟩, rfl⟩, ⟨⟨_, _, rfl, by norm_num⟩, rfl⟩, ⟨⟨_, _, rfl, by norm_num⟩, rfl⟩,
      ⟨⟨_, _, rfl, by norm_num⟩, rfl⟩, ⟨⟨_, _, rfl, by norm_num⟩, rfl⟩, ⟨⟨_, _, rfl, by norm_num⟩, rfl⟩, rfl, rfl, rfl, rfl⟩,
    polesInside_of_jury (by simp [BQ.real]) (by simp [BQ.real]),
    fun i => if i = 0 then Val.fin false (2 ^ 1022) else Val.fin false (2 ^ 1023),
    fun i => if i = 0 then 2 ^ 1022 else 2 ^ 1023, fun _ => 2 ^ 1023, ?_, ?_, fun _ _ => rfl, ?_⟩
  · intro i hi
    interval_cases i
    · refine ⟨⟨⟨_, _, rfl, by positivity⟩, rfl⟩, ⟨1, 1022, by decide, by decide, ?_⟩, ?_⟩
      · show |(2 : ℚ) ^ 1022| = _
        rw [abs_of_pos (by positivity), Nat.cast_one, one_mul]; exact (zpow_natCast (2 : ℚ) 1022).symm
      · show |(2 : ℚ) ^ 1022| ≤ _
        rw [abs_of_pos (by positivity)]; exact pow_le_pow_right₀ (by norm_num) (by omega)
    · refine ⟨⟨⟨_, _, rfl, by positivity⟩, rfl⟩, ⟨1, 1023, by decide, by decide, ?_⟩, ?_⟩
      · show |(2 : ℚ) ^ 1023| = _
        rw [abs_of_pos (by positivity), Nat.cast_one, one_mul]; exact (zpow_natCast (2 : ℚ) 1023).symm
      · show |(2 : ℚ) ^ 1023| ≤ _
        rw [abs_of_pos (by positivity)]
  · have e : (2 : ℚ) ^ 1023 = 2 * 2 ^ 1022 := by rw [← pow_succ']
    intro n hn
    interval_cases n
    · simp only [sum_range_succ, sum_range_zero, BQ.aSeq, BQ.bSeq, delayed]
      simp
      rw [e]
    · simp only [sum_range_succ, sum_range_zero, BQ.aSeq, BQ.bSeq, delayed]
      simp
      rw [e]
      ring
  · refine ⟨_, _, BQ.filter_eq _ _ ⟨0, 2⟩ ⟨2, 2⟩ ⟨by simp, by simp⟩, ?_⟩
    rw [show (3 : ℕ) = (⟨2, 2⟩ : Slice).base + 1 from rfl, fill_in (by simp)]
    intro h
    change Finite (sub binary64 (sub binary64 (add binary64 (add binary64 (mul binary64 (div binary64 (Val.fin false 2)
      (Val.fin false 1)) (Val.fin false (2 ^ 1023))) _) _) _) _) at h
    have h1 := of_add_left (sound_add _ _ _) h
    have h2 := of_add_left (sound_add _ _ _) h1
    have h3 := of_add_left (sound_add _ _ _) h2
    have ed : div binary64 (Val.fin false 2) (Val.fin false 1) = Val.fin false 2 := by
      show (if (1 : ℚ) = 0 then (if (2 : ℚ) = 0 then Val.nan else Val.inf (false != false))
        else Fp.round binary64 (false != false) (2 / 1)) = _
      rw [if_neg one_ne_zero, div_one, round_rd _ _ (by norm_num), rd_grid _ (by decide) e2]
      · rfl
      · rw [rd_grid _ (by decide) e2]
        calc (2 : ℚ) = 2 ^ (1 : ℤ) := by norm_num
          _ < _ := zpow_lt_zpow_right₀ (by norm_num) (by decide)
    rw [ed] at h3
    have hs : Sound (mul binary64 (Val.fin false 2) (Val.fin false (2 ^ 1023))) :=
      sound_mul _ ⟨_, _, rfl, by norm_num⟩ ⟨_, _, rfl, by positivity⟩
    have h4 := of_add_left hs h3
    exact big_product h4

end Verif.Filt
