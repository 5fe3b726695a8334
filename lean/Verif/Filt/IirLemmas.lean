import Verif.Filt.IirModel
import Verif.Conv.SliceLemmas

namespace Verif.Filt
open Verif.Conv

variable {F R σ : Type}

/-! ## Loops -/

theorem forRange_add (n k : Nat) (s : σ) (body : Nat → σ → Option σ) :
    forRange (n + k) s body = (forRange n s body).bind fun s => forRange k s fun i => body (n + i) := by
  induction k with
  | zero => simp [forRange]
  | succ k ih =>
    rw [← Nat.add_assoc, forRange, ih, Option.bind_assoc]
    rfl

theorem forRange_prefix {n : Nat} {s t : σ} {body : Nat → σ → Option σ} (h : forRange n s body = some t)
    {k : Nat} (hk : k < n) : ∃ u v, forRange k s body = some u ∧ body k u = some v := by
  obtain ⟨j, rfl⟩ := Nat.exists_eq_add_of_lt hk
  rw [Nat.add_assoc, Nat.add_comm j 1, ← Nat.add_assoc, forRange_add] at h
  cases h1 : forRange (k + 1) s body with
  | none => rw [h1] at h; cases h
  | some v =>
    rw [forRange] at h1
    cases h2 : forRange k s body with
    | none => rw [h2] at h1; cases h1
    | some u => rw [h2, Option.bind_some] at h1; exact ⟨u, v, rfl, h1⟩

theorem forRange_congr {n : Nat} {s : σ} {b b' : Nat → σ → Option σ} (h : ∀ i t, i < n → b i t = b' i t) :
    forRange n s b = forRange n s b' := by
  induction n with
  | zero => rfl
  | succ n ih =>
    rw [forRange, forRange, ih fun i t hi => h i t (by omega)]
    congr 1
    funext t
    exact h n t (by omega)

theorem forDown_states {n : Nat} {s : σ} {body : Nat → σ → Option σ} (S : Nat → σ) (h0 : S n = s)
    (h : ∀ i, i < n → body (i + 1) (S (i + 1)) = some (S i)) : forDown n s body = some (S 0) := by
  induction n generalizing s with
  | zero => rw [forDown, h0]
  | succ n ih =>
    rw [forDown, ← h0, h n (by omega), Option.bind_some]
    exact ih rfl fun i hi => h i (by omega)

/-! ## One sample -/

section
variable [Add F] [Sub F] [Mul F]

/-- The sum as a function of the coefficients and the delay lines. -/
def sumOf (b a pin pout : Nat → F) (s : F) : Nat → F
  | 0 => b 0 * s
  | d + 1 => sumOf b a pin pout s d + (b (d + 1) * pin d - a (d + 1) * pout d)

/-- A delay line of length `d` after `s` entered. -/
def shiftOf (d : Nat) (p : Nat → F) (s : F) : Nat → F := fun k =>
  if k = 0 then s else if k < d then p (k - 1) else p k

theorem IIR.sum_eq (f : IIR F) (m : Nat → F) (s : F) (hb : f.bCoef.len = f.d + 1)
    (ha : f.aCoef.len = f.d + 1) :
    f.sum m s = some (sumOf (fun k => m (f.bCoef.base + k)) (fun k => m (f.aCoef.base + k)) f.pIn f.pOut s f.d) := by
  unfold IIR.sum
  rw [read_ok (by omega)]
  refine forRange_states (S := sumOf (fun k => m (f.bCoef.base + k)) (fun k => m (f.aCoef.base + k)) f.pIn f.pOut s)
    rfl ?_
  intro j hj
  dsimp only [IIR.win]
  rw [read_ok (by omega), read_ok (by omega), read_ok (by omega), read_ok (by omega)]
  simp [sumOf]

omit [Add F] [Sub F] [Mul F] in
theorem IIR.push_eq (f : IIR F) (s t : F) (hd : 0 < f.d) :
    f.push s t = some { f with pIn := shiftOf f.d f.pIn s, pOut := shiftOf f.d f.pOut t } := by
  -- after the loop variable went down to `i`, cells above `i` are shifted
  let sh : (Nat → F) → Nat → Nat → F := fun p i k => if i < k ∧ k < f.d then p (k - 1) else p k
  have hloop : forDown (f.d - 1) (f.pIn, f.pOut) (fun i (pi, po) => do
      let p ← f.win.read pi (i - 1)
      let pi ← f.win.write pi i p
      let q ← f.win.read po (i - 1)
      let po ← f.win.write po i q
      some (pi, po)) = some (sh f.pIn 0, sh f.pOut 0) := by
    refine forDown_states (S := fun i => (sh f.pIn i, sh f.pOut i)) ?_ ?_
    · have : ∀ p, sh p (f.d - 1) = p := by
        intro p; funext k; simp only [sh]; rw [if_neg (by omega)]
      simp only [this]
    · intro i hi
      dsimp only [IIR.win]
      have key : ∀ p : Nat → F, Function.update (sh p (i + 1)) (0 + (i + 1)) (sh p (i + 1) (0 + (i + 1 - 1))) = sh p i := by
        intro p
        funext k
        by_cases hk : k = 0 + (i + 1)
        · subst hk
          rw [Function.update_self]
          simp only [sh]
          rw [if_neg (by omega), if_pos (by omega)]
          congr 1
        · rw [Function.update_of_ne hk]
          simp only [sh]
          by_cases h2 : i + 1 < k ∧ k < f.d
          · rw [if_pos h2, if_pos (by omega)]
          · rw [if_neg h2, if_neg (by omega)]
      simp only [Option.bind_eq_bind]
      rw [read_ok (by simp only; omega), Option.bind_some, write_ok (by simp only; omega), Option.bind_some,
        read_ok (by simp only; omega), Option.bind_some, write_ok (by simp only; omega), Option.bind_some]
      rw [key, key]
  unfold IIR.push
  rw [hloop]
  simp only [Option.bind_eq_bind, Option.bind_some, IIR.win]
  rw [write_ok (by simp only; omega), Option.bind_some, write_ok (by simp only; omega), Option.bind_some]
  have key : ∀ (p : Nat → F) s, Function.update (sh p 0) (0 + 0) s = shiftOf f.d p s := by
    intro p s
    funext k
    simp only [shiftOf]
    by_cases hk : k = 0 + 0
    · subst hk; rw [Function.update_self, if_pos rfl]
    · rw [Function.update_of_ne hk, if_neg hk]
      simp only [sh]
      by_cases h2 : k < f.d
      · rw [if_pos (by omega), if_pos h2]
      · rw [if_neg (by omega), if_neg h2]
  rw [key, key]

omit [Add F] [Sub F] [Mul F] in
/-- With an empty delay line `f.pIn[0] = s` panics. -/
theorem IIR.push_none (f : IIR F) (s t : F) (hd : f.d = 0) : f.push s t = none := by
  unfold IIR.push
  simp [hd, forDown, IIR.win, Slice.write]

/-! ## A whole call -/

/-- Delay lines after `n` samples of `x`. -/
def lines (b a : Nat → F) (d : Nat) (p0 q0 : Nat → F) (x : Nat → F) : Nat → (Nat → F) × (Nat → F)
  | 0 => (p0, q0)
  | n + 1 =>
    let l := lines b a d p0 q0 x n
    (shiftOf d l.1 (x n), shiftOf d l.2 (sumOf b a l.1 l.2 (x n) d))

/-- Output `n`. -/
def outAt (b a : Nat → F) (d : Nat) (p0 q0 : Nat → F) (x : Nat → F) (n : Nat) : F :=
  let l := lines b a d p0 q0 x n
  sumOf b a l.1 l.2 (x n) d

theorem IIR.filter_eq (f : IIR F) (m : Nat → F) (input output : Slice) (hd : 0 < f.d)
    (hb : f.bCoef.len = f.d + 1) (ha : f.aCoef.len = f.d + 1) (hlen : input.len ≤ output.len)
    (hob : output.base + input.len ≤ f.bCoef.base ∨ f.bCoef.base + (f.d + 1) ≤ output.base)
    (hoa : output.base + input.len ≤ f.aCoef.base ∨ f.aCoef.base + (f.d + 1) ≤ output.base)
    (hio : output.base ≤ input.base ∨ input.base + input.len ≤ output.base) :
    let b := fun k => m (f.bCoef.base + k)
    let a := fun k => m (f.aCoef.base + k)
    let x := fun i => m (input.base + i)
    f.filter m input output = some (fill m output.base input.len (outAt b a f.d f.pIn f.pOut x),
      { f with pIn := (lines b a f.d f.pIn f.pOut x input.len).1,
               pOut := (lines b a f.d f.pIn f.pOut x input.len).2 }) := by
  intro b a x
  unfold IIR.filter
  refine forRange_states (S := fun n => (fill m output.base n (outAt b a f.d f.pIn f.pOut x),
      { f with pIn := (lines b a f.d f.pIn f.pOut x n).1,
               pOut := (lines b a f.d f.pIn f.pOut x n).2 })) ?_ ?_
  · simp only [fill_zero]; rfl
  · intro i hi
    dsimp only
    rw [read_ok (by omega), fill_out (by omega)]
    simp only [Option.bind_eq_bind, Option.bind_some]
    rw [IIR.sum_eq _ _ _ (by exact hb) (by exact ha), Option.bind_some, IIR.push_eq _ _ _ (by exact hd), Option.bind_some,
      write_ok (by omega), Option.bind_some]
    dsimp only
    have key : ∀ g (p q : Nat → F) s, sumOf (fun k => fill m output.base i g (f.bCoef.base + k))
        (fun k => fill m output.base i g (f.aCoef.base + k)) p q s f.d = sumOf b a p q s f.d := by
      intro g p q s
      have : ∀ d ≤ f.d, sumOf (fun k => fill m output.base i g (f.bCoef.base + k))
        (fun k => fill m output.base i g (f.aCoef.base + k)) p q s d = sumOf b a p q s d := by
        intro d
        induction d with
        | zero => intro _; simp only [sumOf]; rw [fill_out (by omega)]
        | succ d ih =>
          intro hd
          simp only [sumOf]
          rw [ih (by omega), fill_out (by omega), fill_out (by omega)]
      exact this f.d (Nat.le_refl _)
    rw [key]
    have e := update_fill m output.base i (outAt b a f.d f.pIn f.pOut x) _ rfl
    rw [← e]
    rfl

/-- What a call keeps: everything but the delay lines. -/
theorem IIR.filter_frame {f g : IIR F} {m m' : Nat → F} {input output : Slice}
    (h : f.filter m input output = some (m', g)) : g.bCoef = f.bCoef ∧ g.aCoef = f.aCoef ∧ g.d = f.d := by
  unfold IIR.filter at h
  generalize input.len = n at h
  induction n generalizing m' g with
  | zero =>
    simp only [forRange, Option.some.injEq, Prod.mk.injEq] at h
    rw [← h.2]; exact ⟨rfl, rfl, rfl⟩
  | succ n ih =>
    rw [forRange] at h
    obtain ⟨⟨m1, g1⟩, h1, h2⟩ := Option.bind_eq_some_iff.1 h
    obtain ⟨e1, e2, e3⟩ := ih h1
    dsimp only at h2
    simp only [Option.bind_eq_bind] at h2
    obtain ⟨s, _, h2⟩ := Option.bind_eq_some_iff.1 h2
    obtain ⟨t, _, h2⟩ := Option.bind_eq_some_iff.1 h2
    obtain ⟨g2, hg2, h2⟩ := Option.bind_eq_some_iff.1 h2
    obtain ⟨m2, _, h2⟩ := Option.bind_eq_some_iff.1 h2
    simp only [Option.some.injEq, Prod.mk.injEq] at h2
    by_cases hd : g1.d = 0
    · rw [IIR.push_none _ _ _ hd] at hg2; cases hg2
    · rw [IIR.push_eq _ _ _ (by omega)] at hg2
      cases hg2
      rw [← h2.2]
      exact ⟨e1, e2, e3⟩

end

end Verif.Filt
