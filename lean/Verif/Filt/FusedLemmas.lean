import Verif.Filt.FusedModel
import Verif.Filt.GainLemmas
import Verif.Filt.BiquadProps
import Verif.Filt.DcProps

/-! # What the loops of `FusedModel` store -/

namespace Verif.Filt
open Verif.Conv Verif.Fp

variable {φ : Format} {S : Type}

/-- The sum over data. -/
def sumLeaf (b a p q : ℕ → FVal φ) (s : FVal φ) (d : ℕ) : Expr φ :=
  sumOf (F := Expr φ) (fun k => .leaf (b k)) (fun k => .leaf (a k)) (fun k => .leaf (p k)) (fun k => .leaf (q k)) (.leaf s) d

theorem sumLeaf_congr {b b' a a' p p' q q' : ℕ → FVal φ} (s : FVal φ) (d : ℕ) (hb : ∀ k ≤ d, b k = b' k)
    (ha : ∀ k < d, a (k + 1) = a' (k + 1)) (hp : ∀ k < d, p k = p' k) (hq : ∀ k < d, q k = q' k) :
    sumLeaf b a p q s d = sumLeaf b' a' p' q' s d := by
  induction d with
  | zero => simp only [sumLeaf, sumOf]; rw [hb 0 le_rfl]
  | succ d ih =>
    have e := ih (fun k hk => hb k (by omega)) (fun k hk => ha k (by omega)) (fun k hk => hp k (by omega))
      (fun k hk => hq k (by omega))
    simp only [sumLeaf, sumOf] at e ⊢
    rw [e, hb _ le_rfl, ha d (by omega), hp d (by omega), hq d (by omega)]

theorem sumExpr_eq (f : IIR (FVal φ)) (m : ℕ → FVal φ) (s : FVal φ) (hb : f.bCoef.len = f.d + 1)
    (ha : f.aCoef.len = f.d + 1) :
    f.sumExpr m s = some (sumLeaf (fun k => m (f.bCoef.base + k)) (fun k => m (f.aCoef.base + k)) f.pIn f.pOut s f.d) := by
  unfold IIR.sumExpr
  rw [read_ok (by omega)]
  refine forRange_states (S := sumLeaf (fun k => m (f.bCoef.base + k)) (fun k => m (f.aCoef.base + k)) f.pIn f.pOut s)
    rfl ?_
  intro j hj
  dsimp only [IIR.win]
  rw [read_ok (by omega), read_ok (by omega), read_ok (by omega), read_ok (by omega)]
  simp [sumLeaf, sumOf]

/-- Delay lines after `n` samples of `x`. -/
def linesBy (ev : ℕ → Expr φ → FVal φ) (b a : ℕ → FVal φ) (d : ℕ) (p0 q0 x : ℕ → FVal φ) :
    ℕ → (ℕ → FVal φ) × (ℕ → FVal φ)
  | 0 => (p0, q0)
  | n + 1 =>
    let l := linesBy ev b a d p0 q0 x n
    (shiftOf d l.1 (x n), shiftOf d l.2 (ev n (sumLeaf b a l.1 l.2 (x n) d)))

/-- Output `n`. -/
def outBy (ev : ℕ → Expr φ → FVal φ) (b a : ℕ → FVal φ) (d : ℕ) (p0 q0 x : ℕ → FVal φ) (n : ℕ) : FVal φ :=
  let l := linesBy ev b a d p0 q0 x n
  ev n (sumLeaf b a l.1 l.2 (x n) d)

theorem IIR.filterBy_eq (ev : ℕ → Expr φ → FVal φ) (f : IIR (FVal φ)) (m : ℕ → FVal φ) (input output : Slice) (hd : 0 < f.d)
    (hb : f.bCoef.len = f.d + 1) (ha : f.aCoef.len = f.d + 1) (hlen : input.len ≤ output.len)
    (hob : output.base + input.len ≤ f.bCoef.base ∨ f.bCoef.base + (f.d + 1) ≤ output.base)
    (hoa : output.base + input.len ≤ f.aCoef.base ∨ f.aCoef.base + (f.d + 1) ≤ output.base)
    (hio : output.base ≤ input.base ∨ input.base + input.len ≤ output.base) :
    let b := fun k => m (f.bCoef.base + k)
    let a := fun k => m (f.aCoef.base + k)
    let x := fun i => m (input.base + i)
    f.filterBy ev m input output = some (fill m output.base input.len (outBy ev b a f.d f.pIn f.pOut x),
      { f with pIn := (linesBy ev b a f.d f.pIn f.pOut x input.len).1,
               pOut := (linesBy ev b a f.d f.pIn f.pOut x input.len).2 }) := by
  intro b a x
  unfold IIR.filterBy
  refine forRange_states (S := fun n => (fill m output.base n (outBy ev b a f.d f.pIn f.pOut x),
      { f with pIn := (linesBy ev b a f.d f.pIn f.pOut x n).1,
               pOut := (linesBy ev b a f.d f.pIn f.pOut x n).2 })) ?_ ?_
  · simp only [fill_zero]; rfl
  · intro i hi
    dsimp only
    rw [read_ok (by omega), fill_out (by omega)]
    simp only [Option.bind_eq_bind, Option.bind_some]
    rw [sumExpr_eq _ _ _ (by exact hb) (by exact ha), Option.bind_some, IIR.push_eq _ _ _ (by exact hd), Option.bind_some,
      write_ok (by omega), Option.bind_some]
    dsimp only
    have key : ∀ g (p q : ℕ → FVal φ) s, sumLeaf (fun k => fill m output.base i g (f.bCoef.base + k))
        (fun k => fill m output.base i g (f.aCoef.base + k)) p q s f.d = sumLeaf b a p q s f.d := fun g p q s =>
      sumLeaf_congr s f.d (fun k hk => fill_out (by omega)) (fun k hk => fill_out (by omega)) (fun _ _ => rfl)
        fun _ _ => rfl
    rw [key]
    have e := update_fill m output.base i (outBy ev b a f.d f.pIn f.pOut x) _ rfl
    rw [← e]
    rfl

/-- From rest the delay lines hold the previous samples. -/
theorem linesBy_rest (ev : ℕ → Expr φ → FVal φ) (b a : ℕ → FVal φ) (d : ℕ) (x : ℕ → FVal φ) (n k : ℕ) (hk : k < d) :
    (linesBy ev b a d (fun _ => 0) (fun _ => 0) x n).1 k = delayed x n (k + 1) ∧
    (linesBy ev b a d (fun _ => 0) (fun _ => 0) x n).2 k = delayed (outBy ev b a d (fun _ => 0) (fun _ => 0) x) n (k + 1) := by
  induction n generalizing k with
  | zero => simp [linesBy, delayed]
  | succ n ih =>
    by_cases h0 : k = 0
    · subst h0
      simp only [linesBy, shiftOf, delayed, if_true]
      rw [if_pos (by omega), if_pos (by omega)]
      exact ⟨rfl, rfl⟩
    · have ih' := ih (k - 1) (by omega)
      simp only [linesBy, shiftOf, if_neg h0, if_pos hk]
      rw [ih'.1, ih'.2]
      simp only [delayed]
      rw [show k - 1 + 1 = k by omega]
      constructor <;> by_cases hkn : k ≤ n <;> simp [hkn]

/-- From rest each output is a value of the sum over the previous samples. -/
theorem outBy_eval {ev : ℕ → Expr φ → FVal φ} (hev : ∀ i e, Expr.Eval e (ev i e)) (b a : ℕ → FVal φ) (d : ℕ)
    (x : ℕ → FVal φ) (n : ℕ) :
    Expr.Eval (sumLeaf b a (fun k => delayed x n (k + 1))
      (fun k => delayed (outBy ev b a d (fun _ => 0) (fun _ => 0) x) n (k + 1)) (x n) d)
      (outBy ev b a d (fun _ => 0) (fun _ => 0) x n) := by
  have hl := fun k hk => linesBy_rest ev b a d x n k hk
  rw [← sumLeaf_congr (x n) d (fun _ _ => rfl) (fun _ _ => rfl) (fun k hk => (hl k hk).1) (fun k hk => (hl k hk).2)]
  exact hev n _

/-! ### Nothing fused -/

theorem sumExpr_unfused (f : IIR (FVal φ)) (m : ℕ → FVal φ) (s : FVal φ) : (f.sumExpr m s).map Expr.unfused = f.sum m s := by
  unfold IIR.sumExpr IIR.sum
  simp only [Option.bind_eq_bind]
  cases f.bCoef.read m 0 with
  | none => rfl
  | some b0 =>
    simp only [Option.bind_some]
    generalize f.d = n
    induction n with
    | zero => rfl
    | succ n ih =>
      rw [forRange, forRange, ← ih]
      generalize (forRange n _ _ : Option (Expr φ)) = r
      cases r with
      | none => rfl
      | some e =>
        simp only [Option.bind_some, Option.map_some]
        cases f.win.read f.pIn n <;> cases f.bCoef.read m (n + 1) <;> cases f.aCoef.read m (n + 1) <;>
          cases f.win.read f.pOut n <;> rfl

/-- `IIR.filter` is the case where nothing is fused. -/
theorem IIR.filterBy_unfused (f : IIR (FVal φ)) (m : ℕ → FVal φ) (input output : Slice) :
    f.filterBy (fun _ => Expr.unfused) m input output = f.filter m input output := by
  unfold IIR.filterBy IIR.filter
  refine forRange_congr fun i t _ => ?_
  obtain ⟨m, f⟩ := t
  simp only [Option.bind_eq_bind]
  cases input.read m i with
  | none => rfl
  | some s =>
    simp only [Option.bind_some]
    rw [← sumExpr_unfused]
    cases f.sumExpr m s <;> rfl

theorem BQ.filterF32By_unfused (wide : S → FVal φ) (narrow : FVal φ → S) (f : BQ (FVal φ)) (m : ℕ → S)
    (input output : Slice) :
    f.filterF32By wide narrow (fun _ => Expr.unfused) m input output = f.filterF32 wide narrow m input output := rfl

theorem BQ.filterBy_unfused (f : BQ (FVal φ)) (m : ℕ → FVal φ) (input output : Slice) :
    f.filterBy (fun _ => Expr.unfused) m input output = f.filter m input output := rfl

theorem DC.filterBy_unfused (f : DC (FVal φ)) (m : ℕ → FVal φ) (input output : Slice) :
    f.filterBy (fun _ => false) m input output = f.filter m input output := rfl

theorem DC.filterOneBy_unfused (f : DC (FVal φ)) (x : FVal φ) : f.filterOneBy false x = f.filterOne x := rfl

/-! ### The biquad -/

/-- One sample. -/
def BQ.stepBy (ev : Expr φ → FVal φ) (f : BQ (FVal φ)) (s : FVal φ) : BQ (FVal φ) :=
  { f with
    prevIn0 := s
    prevIn1 := f.prevIn0
    prevOut0 := ev (bqExpr (f.B0 / f.A0) (f.B1 / f.A0) (f.B2 / f.A0) (f.A1 / f.A0) (f.A2 / f.A0) s f.prevIn0 f.prevIn1
      f.prevOut0 f.prevOut1)
    prevOut1 := f.prevOut0 }

/-- The filter after `n` samples. -/
def BQ.afterBy (ev : ℕ → Expr φ → FVal φ) (f : BQ (FVal φ)) (x : ℕ → FVal φ) : ℕ → BQ (FVal φ)
  | 0 => f
  | n + 1 => (f.afterBy ev x n).stepBy (ev n) (x n)

theorem BQ.afterBy_coef (ev : ℕ → Expr φ → FVal φ) (f : BQ (FVal φ)) (x : ℕ → FVal φ) (n : ℕ) :
    (f.afterBy ev x n).B0 = f.B0 ∧ (f.afterBy ev x n).B1 = f.B1 ∧ (f.afterBy ev x n).B2 = f.B2 ∧
    (f.afterBy ev x n).A0 = f.A0 ∧ (f.afterBy ev x n).A1 = f.A1 ∧ (f.afterBy ev x n).A2 = f.A2 := by
  induction n with
  | zero => exact ⟨rfl, rfl, rfl, rfl, rfl, rfl⟩
  | succ n ih => exact ih

theorem BQ.filterF32By_eq (wide : S → FVal φ) (narrow : FVal φ → S) (ev : ℕ → Expr φ → FVal φ) (f : BQ (FVal φ))
    (m : ℕ → S) (input output : Slice) (hio : OutputOk input output) :
    f.filterF32By wide narrow ev m input output = some (fill m output.base input.len
        fun n => narrow (f.afterBy ev (fun i => wide (m (input.base + i))) (n + 1)).prevOut0,
      f.afterBy ev (fun i => wide (m (input.base + i))) input.len) := by
  obtain ⟨h1, h2⟩ := hio
  unfold BQ.filterF32By
  refine forRange_states (S := fun k => (fill m output.base k
        fun n => narrow (f.afterBy ev (fun i => wide (m (input.base + i))) (n + 1)).prevOut0,
      f.afterBy ev (fun i => wide (m (input.base + i))) k)) ?_ ?_
  · simp only [fill_zero]; rfl
  · intro i hi
    obtain ⟨e0, e1, e2, e3, e4, e5⟩ := f.afterBy_coef ev (fun i => wide (m (input.base + i))) i
    simp only [Option.bind_eq_bind]
    rw [read_ok hi, Option.bind_some, fill_out (by omega), write_ok (by omega), Option.bind_some,
      ← update_fill _ _ _ _ _ rfl]
    simp only [BQ.afterBy, BQ.stepBy, e0, e1, e2, e3, e4, e5]

/-! ### The DC filter -/

/-- The state after `n` samples. -/
def dcBy (fused : ℕ → Bool) (a w0 : FVal φ) (x : ℕ → FVal φ) : ℕ → FVal φ
  | 0 => w0
  | n + 1 => dcNext (fused n) a (x n) (dcBy fused a w0 x n)

theorem DC.filterBy_eq (fused : ℕ → Bool) (f : DC (FVal φ)) (m : ℕ → FVal φ) (input output : Slice)
    (hio : OutputOk input output) :
    f.filterBy fused m input output = some (fill m output.base input.len
        fun n => dcBy fused f.a f.w (fun i => m (input.base + i)) (n + 1) - dcBy fused f.a f.w (fun i => m (input.base + i)) n,
      ⟨f.a, dcBy fused f.a f.w (fun i => m (input.base + i)) input.len⟩) := by
  obtain ⟨h1, h2⟩ := hio
  unfold DC.filterBy
  have h : forRange input.len (m, f.w) (fun i (m, lw) => do
      let x ← input.read m i
      let w := dcNext (fused i) f.a x lw
      let m ← output.write m i (w - lw)
      some (m, w)) = some (fill m output.base input.len
        fun n => dcBy fused f.a f.w (fun i => m (input.base + i)) (n + 1) - dcBy fused f.a f.w (fun i => m (input.base + i)) n,
      dcBy fused f.a f.w (fun i => m (input.base + i)) input.len) := by
    refine forRange_states (S := fun k => (fill m output.base k
        fun n => dcBy fused f.a f.w (fun i => m (input.base + i)) (n + 1) - dcBy fused f.a f.w (fun i => m (input.base + i)) n,
      dcBy fused f.a f.w (fun i => m (input.base + i)) k)) ?_ ?_
    · simp only [fill_zero]; rfl
    · intro i hi
      simp only [Option.bind_eq_bind]
      rw [read_ok hi, Option.bind_some, fill_out (by omega), write_ok (by omega), Option.bind_some,
        ← update_fill _ _ _ _ _ rfl]
      rfl
  rw [h]
  rfl

/-- The two ways are all the values an implementation may compute for `x + a*lw`. -/
theorem dcNext_eval (a x lw v : FVal φ) :
    Expr.Eval (.add (.leaf x) (.mul (.leaf a) (.leaf lw)) : Expr φ) v ↔ ∃ fused, v = dcNext fused a x lw := by
  constructor
  · intro h
    cases h with
    | add h1 h2 =>
      cases h1
      cases h2 with
      | mul h3 h4 => cases h3; cases h4; exact ⟨false, rfl⟩
    | fmadd' h1 h2 h3 => cases h1; cases h2; cases h3; exact ⟨true, rfl⟩
  · rintro ⟨fused, rfl⟩
    cases fused
    · exact .add (.leaf _) (.mul (.leaf _) (.leaf _))
    · exact .fmadd' (.leaf _) (.leaf _) (.leaf _)

end Verif.Filt
