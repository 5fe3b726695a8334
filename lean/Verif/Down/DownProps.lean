import Verif.Down.DownModel
import Verif.Conv.SliceLemmas
import Mathlib.Data.List.Induction
import Mathlib.Tactic.Ring
import Mathlib.Tactic.Linarith
import Mathlib.Tactic.NormNum

/-!
# Properties C49 and C50 of the decimating filters
-/

namespace Verif.Down
open Verif.Conv

variable {C : Type}

/-! ## Specification -/

/-- Sum in order of samples `a … b-1`. -/
def seg [Add C] [Zero C] (xs : List C) (a b : Nat) : C := ((xs.take b).drop a).foldl (· + ·) 0

/-- Number of input samples needed for `k` outputs at rates `slow/fast`: `k fast / slow` rounded up. -/
def edge (fast slow k : Nat) : Nat := (k * fast + slow - 1) / slow

/-! ## The step machine on lists -/

/-- One sample: accumulator, phase, outputs so far (in order); `next` is the phase after an output. -/
def push [Add C] [Zero C] (fast slow : Int) (next : Int → Int) (emit : C → C) (st : C × Int × List C) (x : C) :
    C × Int × List C :=
  if st.2.1 + slow < fast then (st.1 + x, st.2.1 + slow, st.2.2)
  else (0, next (st.2.1 + slow), st.2.2 ++ [emit (st.1 + x)])

/-- State of the step machine after some samples. -/
def after [Add C] [Zero C] (fast slow : Int) (next : Int → Int) (emit : C → C) (a : C) (p : Int) (xs : List C) : C × Int × List C :=
  xs.foldl (push fast slow next emit) (a, p, [])

theorem push_len [Add C] [Zero C] (fast slow : Int) (next : Int → Int) (emit : C → C) (xs : List C) (st : C × Int × List C) :
    (xs.foldl (push fast slow next emit) st).2.2.length ≤ st.2.2.length + xs.length := by
  induction xs generalizing st with
  | nil => simp
  | cons x xs ih =>
    rw [List.foldl_cons]
    refine (ih _).trans ?_
    unfold push
    split
    · simp
    · simp; omega

theorem push_outs [Add C] [Zero C] (fast slow : Int) (next : Int → Int) (emit : C → C) (xs : List C) (a : C) (p : Int) (o : List C) :
    xs.foldl (push fast slow next emit) (a, p, o) =
      ((after fast slow next emit a p xs).1, (after fast slow next emit a p xs).2.1,
        o ++ (after fast slow next emit a p xs).2.2) := by
  unfold after
  induction xs generalizing a p o with
  | nil => simp
  | cons x xs ih =>
    simp only [List.foldl_cons]
    by_cases h : p + slow < fast
    · have e : ∀ o, push fast slow next emit (a, p, o) x = (a + x, p + slow, o) := fun o => if_pos h
      rw [e, e]
      exact ih _ _ _
    · have e : ∀ o, push fast slow next emit (a, p, o) x = (0, next (p + slow), o ++ [emit (a + x)]) := fun o => if_neg h
      rw [e, e, ih, ih 0 (next (p + slow)) ([] ++ [emit (a + x)])]
      simp

/-- Chunks: the machine on a concatenation. -/
theorem after_append [Add C] [Zero C] (fast slow : Int) (next : Int → Int) (emit : C → C) (a : C) (p : Int) (xs ys : List C) :
    after fast slow next emit a p (xs ++ ys) =
      (let st := after fast slow next emit a p xs
       let st' := after fast slow next emit st.1 st.2.1 ys
       (st'.1, st'.2.1, st.2.2 ++ st'.2.2)) := by
  simp only
  conv => lhs; rw [after, List.foldl_append]
  exact push_outs fast slow next emit ys _ _ _

/-! ## The loops run the step machine -/

/-- Memory with a list written at `base`. -/
def overwrite (m : Nat → C) (base : Nat) (l : List C) : Nat → C :=
  fun a => if base ≤ a then (l[a - base]?).getD (m a) else m a

theorem overwrite_beyond (m : Nat → C) (base i : Nat) (l : List C) (h : l.length ≤ i) :
    overwrite m base l (base + i) = m (base + i) := by
  simp only [overwrite]
  rw [if_pos (by omega), List.getElem?_eq_none (by omega)]
  rfl

theorem overwrite_snoc (m : Nat → C) (base : Nat) (l : List C) (v : C) :
    Function.update (overwrite m base l) (base + l.length) v = overwrite m base (l ++ [v]) := by
  funext a
  by_cases h : a = base + l.length
  · subst h
    rw [Function.update_self]
    simp [overwrite]
  · rw [Function.update_of_ne h]
    simp only [overwrite]
    split
    · by_cases h2 : a - base < l.length
      · rw [List.getElem?_append_left h2]
      · rw [List.getElem?_eq_none (by omega), List.getElem?_eq_none]
        simp only [List.length_append, List.length_singleton]
        omega
    · rfl

theorem contents_overwrite (m : Nat → C) (base : Nat) (l : List C) :
    contents (overwrite m base l) ⟨base, l.length⟩ = l := by
  unfold contents
  apply List.ext_getElem?
  intro i
  by_cases h : i < l.length
  · rw [List.getElem?_map, List.getElem?_range h]
    simp only [Option.map_some, overwrite, Nat.le_add_right, if_true, Nat.add_sub_cancel_left]
    rw [List.getElem?_eq_getElem h]
    rfl
  · rw [List.getElem?_eq_none (by simpa using h), List.getElem?_eq_none (by omega)]

theorem contents_take_succ (m : Nat → C) (s : Slice) (i : Nat) (h : i < s.len) :
    (contents m s).take (i + 1) = (contents m s).take i ++ [m (s.base + i)] := by
  have hl : i < (contents m s).length := by simpa [contents] using h
  rw [List.take_succ_eq_append_getElem hl]
  simp [contents]

theorem contents_length (m : Nat → C) (s : Slice) : (contents m s).length = s.len := by simp [contents]

theorem LPR.filter_eq [Add C] [Mul C] [Div C] [Zero C] (conv : Int → C) (fi : LPR C) (m : Nat → C) (s : Slice) :
    fi.filter conv m s =
      (let st := after fi.fast fi.slow (· - fi.fast) (· * (conv fi.slow / conv fi.fast)) fi.sum fi.prevIndex (contents m s)
       some (overwrite m s.base st.2.2, { fi with sum := st.1, prevIndex := st.2.1 }, ⟨s.base, st.2.2.length⟩)) := by
  let stt := fun i => after fi.fast fi.slow (· - fi.fast) (· * (conv fi.slow / conv fi.fast)) fi.sum fi.prevIndex ((contents m s).take i)
  have hlen : ∀ i, (stt i).2.2.length ≤ i := by
    intro i
    refine (push_len _ _ _ _ _ _).trans ?_
    simp
  unfold LPR.filter
  simp only [Option.bind_eq_bind]
  rw [forRange_states (fun i => (overwrite m s.base (stt i).2.2, ({ fi with sum := (stt i).1, prevIndex := (stt i).2.1 } : LPR C), (stt i).2.2.length))]
  · have e : stt s.len = after fi.fast fi.slow (· - fi.fast) (· * (conv fi.slow / conv fi.fast)) fi.sum fi.prevIndex (contents m s) := by
      simp only [stt]
      rw [List.take_of_length_le (by rw [contents_length])]
    rw [Option.bind_some]
    simp only
    rw [take_ok (hlen _), Option.bind_some, e]
  · simp only [stt, List.take_zero, after, List.foldl_nil]
    refine Prod.ext ?_ rfl
    funext a
    simp [overwrite]
  · intro i hi
    have hs : stt (i + 1) = push fi.fast fi.slow (· - fi.fast) (· * (conv fi.slow / conv fi.fast)) (stt i) (m (s.base + i)) := by
      simp only [stt, after]
      rw [contents_take_succ m s i hi, List.foldl_append]
      rfl
    simp only
    rw [read_ok hi, Option.bind_some, overwrite_beyond _ _ _ _ (hlen i), hs]
    generalize hq : stt i = q at *
    have hli := hlen i
    rw [hq] at hli
    by_cases h : q.2.1 + fi.slow < fi.fast
    · rw [if_pos h, push, if_pos h]
    · rw [if_neg h, push, if_neg h, write_ok (by omega), Option.bind_some, overwrite_snoc]
      simp

theorem LPD.filter_eq [Add C] [Zero C] (fi : LPD C) (m : Nat → C) (s : Slice) :
    fi.filter m s =
      (let st := after fi.downsample 1 (fun _ => 0) id fi.now fi.prevIndex (contents m s)
       some (overwrite m s.base st.2.2, { fi with now := st.1, prevIndex := st.2.1 }, ⟨s.base, st.2.2.length⟩)) := by
  let stt := fun i => after fi.downsample 1 (fun _ => 0) id fi.now fi.prevIndex ((contents m s).take i)
  have hlen : ∀ i, (stt i).2.2.length ≤ i := by
    intro i
    refine (push_len _ _ _ _ _ _).trans ?_
    simp
  unfold LPD.filter
  simp only [Option.bind_eq_bind]
  rw [forRange_states (fun i => (overwrite m s.base (stt i).2.2, ({ fi with now := (stt i).1, prevIndex := (stt i).2.1 } : LPD C), (stt i).2.2.length))]
  · have e : stt s.len = after fi.downsample 1 (fun _ => 0) id fi.now fi.prevIndex (contents m s) := by
      simp only [stt]
      rw [List.take_of_length_le (by rw [contents_length])]
    rw [Option.bind_some]
    simp only
    rw [take_ok (hlen _), Option.bind_some, e]
  · simp only [stt, List.take_zero, after, List.foldl_nil]
    refine Prod.ext ?_ rfl
    funext a
    simp [overwrite]
  · intro i hi
    have hs : stt (i + 1) = push fi.downsample 1 (fun _ => 0) id (stt i) (m (s.base + i)) := by
      simp only [stt, after]
      rw [contents_take_succ m s i hi, List.foldl_append]
      rfl
    simp only
    rw [read_ok hi, Option.bind_some, overwrite_beyond _ _ _ _ (hlen i), hs]
    generalize hq : stt i = q at *
    have hli := hlen i
    rw [hq] at hli
    by_cases h : q.2.1 + 1 < fi.downsample
    · rw [if_pos h, push, if_pos h]
    · rw [if_neg h, push, if_neg h, write_ok (by omega), Option.bind_some, overwrite_snoc]
      simp

/-! ## What the step machine computes -/

theorem edge_le (F S k t : Nat) (hS : 0 < S) : edge F S k ≤ t ↔ k * F ≤ t * S := by
  unfold edge
  rw [Nat.div_le_iff_le_mul_add_pred hS]
  constructor
  · intro h
    rw [Nat.mul_comm S t] at h
    omega
  · intro h
    rw [Nat.mul_comm S t]
    omega

theorem seg_snoc_lt [Add C] [Zero C] (xs : List C) (x : C) (a b : Nat) (h : b ≤ xs.length) : seg (xs ++ [x]) a b = seg xs a b := by
  unfold seg
  rw [List.take_append_of_le_length h]

theorem seg_snoc [Add C] [Zero C] (xs : List C) (x : C) (a : Nat) (h : a ≤ xs.length) :
    seg (xs ++ [x]) a (xs.length + 1) = seg xs a xs.length + x := by
  unfold seg
  rw [List.take_of_length_le (by simp), List.take_length, List.drop_append_of_le_length h, List.foldl_append]
  rfl

theorem seg_empty [Add C] [Zero C] (xs : List C) (a : Nat) : seg xs a a = 0 := by
  unfold seg
  rw [List.drop_eq_nil_of_le (by rw [List.length_take]; omega)]
  rfl

theorem after_spec [Add C] [Zero C] (F S : Nat) (hS : 0 < S) (hSF : S ≤ F) (emit : C → C) (xs : List C) :
    after (F : Int) S (· - F) emit 0 0 xs =
      (seg xs (edge F S (xs.length * S / F)) xs.length, ((xs.length * S % F : Nat) : Int),
        (List.range (xs.length * S / F)).map fun k => emit (seg xs (edge F S k) (edge F S (k + 1)))) := by
  have hF : 0 < F := by omega
  induction xs using List.reverseRecOn with
  | nil =>
    simp [after, seg]
  | append_singleton xs x ih =>
    have hstep : after (F : Int) S (· - F) emit 0 0 (xs ++ [x]) = push (F : Int) S (· - F) emit (after (F : Int) S (· - F) emit 0 0 xs) x := by
      simp only [after, List.foldl_append]
      rfl
    rw [hstep, ih, List.length_append, List.length_singleton]
    have hdm := Nat.div_add_mod (xs.length * S) F
    have hml := Nat.mod_lt (xs.length * S) hF
    generalize hk : xs.length * S / F = k at *
    generalize hr : xs.length * S % F = r at *
    have hmul : (xs.length + 1) * S = F * k + r + S := by rw [Nat.succ_mul]; omega
    have hek : edge F S k ≤ xs.length := by
      rw [edge_le _ _ _ _ hS, Nat.mul_comm k F]; omega
    have hmap : ∀ j ∈ List.range k, emit (seg (xs ++ [x]) (edge F S j) (edge F S (j + 1))) = emit (seg xs (edge F S j) (edge F S (j + 1))) := by
      intro j hj
      rw [seg_snoc_lt]
      rw [edge_le _ _ _ _ hS]
      have : j + 1 ≤ k := List.mem_range.1 hj
      have h2 := Nat.mul_le_mul_right F this
      rw [Nat.mul_comm k F] at h2
      omega
    by_cases h : r + S < F
    · have e1 : (xs.length + 1) * S / F = k := by
        rw [hmul, Nat.add_assoc, Nat.mul_add_div hF, Nat.div_eq_of_lt h, Nat.add_zero]
      have e2 : (xs.length + 1) * S % F = r + S := by
        rw [hmul, Nat.add_assoc, Nat.mul_add_mod, Nat.mod_eq_of_lt h]
      rw [e1, e2, push, if_pos (by simp only; omega), List.map_congr_left hmap, seg_snoc _ _ _ hek]
      push_cast
      rfl
    · have hrs : (r + S) - F < F := by omega
      have hmul2 : (xs.length + 1) * S = F * (k + 1) + (r + S - F) := by rw [Nat.mul_succ]; omega
      have e1 : (xs.length + 1) * S / F = k + 1 := by
        rw [hmul2, Nat.mul_add_div hF, Nat.div_eq_of_lt hrs, Nat.add_zero]
      have e2 : (xs.length + 1) * S % F = r + S - F := by
        rw [hmul2, Nat.mul_add_mod, Nat.mod_eq_of_lt hrs]
      have hedge : edge F S (k + 1) = xs.length + 1 := by
        apply Nat.le_antisymm
        · rw [edge_le _ _ _ _ hS, hmul2, Nat.mul_comm]; omega
        · have : ¬ edge F S (k + 1) ≤ xs.length := by
            rw [edge_le _ _ _ _ hS, Nat.succ_mul, Nat.mul_comm k F]
            omega
          omega
      rw [e1, e2, push, if_neg (by simp only; omega), hedge, seg_empty, List.range_succ, List.map_append,
        List.map_congr_left hmap]
      simp only [List.map_cons, List.map_nil, hedge]
      rw [seg_snoc _ _ _ hek]
      refine Prod.ext rfl (Prod.ext ?_ rfl)
      simp only
      omega

/-- Resetting the phase to zero is subtracting the factor, as long as the phase is in range. -/
theorem after_reset [Add C] [Zero C] (D : Int) (emit : C → C) (xs : List C) (a : C) (p : Int) (o : List C)
    (h0 : 0 ≤ p) (h1 : p < max D 1) :
    xs.foldl (push D 1 (fun _ => 0) emit) (a, p, o) = xs.foldl (push (max D 1) 1 (· - max D 1) emit) (a, p, o) := by
  induction xs generalizing a p o with
  | nil => rfl
  | cons x xs ih =>
    simp only [List.foldl_cons]
    by_cases h : p + 1 < D
    · have e1 : push D 1 (fun _ => 0) emit (a, p, o) x = (a + x, p + 1, o) := if_pos h
      have e2 : push (max D 1) 1 (· - max D 1) emit (a, p, o) x = (a + x, p + 1, o) := if_pos (by simp only; omega)
      rw [e1, e2]
      exact ih _ _ _ (by omega) (by omega)
    · have e1 : push D 1 (fun _ => 0) emit (a, p, o) x = (0, 0, o ++ [emit (a + x)]) := if_neg h
      have e2 : push (max D 1) 1 (· - max D 1) emit (a, p, o) x = (0, p + 1 - max D 1, o ++ [emit (a + x)]) := if_neg (by simp only; omega)
      have e3 : p + 1 - max D 1 = 0 := by omega
      rw [e1, e2, e3]
      exact ih _ _ _ (by omega) (by omega)

/-! ## C49 -/

/-- A sequence of calls: each call gets a slice of some memory; the outputs are read from the returned
slice after the call. -/
def LPD.calls [Add C] [Zero C] (fi : LPD C) : List ((Nat → C) × Slice) → Option (LPD C × List C)
  | [] => some (fi, [])
  | (m, s) :: cs => do
    let (m, fi, r) ← fi.filter m s
    let (fi, outs) ← LPD.calls fi cs
    some (fi, contents m r ++ outs)

/-- All samples given to a sequence of calls. -/
def stream (cs : List ((Nat → C) × Slice)) : List C := (cs.map fun c => contents c.1 c.2).flatten

theorem LPD.calls_eq [Add C] [Zero C] (cs : List ((Nat → C) × Slice)) (fi : LPD C) :
    fi.calls cs = (let st := after fi.downsample 1 (fun _ => 0) id fi.now fi.prevIndex (stream cs)
      some ({ fi with now := st.1, prevIndex := st.2.1 }, st.2.2)) := by
  induction cs generalizing fi with
  | nil => rfl
  | cons c cs ih =>
    obtain ⟨m, s⟩ := c
    simp only [LPD.calls, LPD.filter_eq, Option.bind_eq_bind, Option.bind_some, ih]
    have : stream ((m, s) :: cs) = contents m s ++ stream cs := rfl
    rw [this, after_append, contents_overwrite]

/-- C49: for every factor (factors below 1 act as 1), after any sequence of calls on a new filter the
outputs number the input samples divided by the factor, rounded down; output `k` is the sum in order
of samples `kD … kD+D-1`; the phase is the number of samples left over. -/
theorem C49_calls [Add C] [Zero C] (D : Int) (cs : List ((Nat → C) × Slice)) :
    ∃ outs fi', (LPD.mk D 0 0).calls cs = some (fi', outs) ∧
      outs.length = (stream cs).length / (max D 1).toNat ∧
      (∀ k < outs.length, outs[k]? = some (seg (stream cs) (k * (max D 1).toNat) ((k + 1) * (max D 1).toNat))) ∧
      fi'.prevIndex = ((stream cs).length % (max D 1).toNat : Nat) ∧ fi'.downsample = D := by
  have hD : 0 < (max D 1).toNat := by omega
  have hDi : (((max D 1).toNat : Nat) : Int) = max D 1 := Int.toNat_of_nonneg (by omega)
  rw [LPD.calls_eq]
  simp only
  have e : after D 1 (fun _ => 0) id 0 0 (stream cs) = after (((max D 1).toNat : Nat) : Int) (1 : Nat) (· - (((max D 1).toNat : Nat) : Int)) (id : C → C) 0 0 (stream cs) := by
    rw [hDi]
    exact after_reset D id (stream cs) 0 0 [] (by omega) (by omega)
  have hed : ∀ k, edge (max D 1).toNat 1 k = k * (max D 1).toNat := by intro k; simp [edge]
  rw [e, after_spec _ 1 (by omega) (by omega)]
  simp only [Nat.mul_one, hed]
  refine ⟨_, _, rfl, by simp, ?_, rfl, rfl⟩
  intro k hk
  rw [List.length_map, List.length_range] at hk
  rw [List.getElem?_map, List.getElem?_range hk]
  rfl

/-- C49: the filter never panics and touches only the first samples of the slice: those of the returned
slice, which starts where the given one does and is not longer. -/
theorem C49_frame [Add C] [Zero C] (fi : LPD C) (m : Nat → C) (s : Slice) :
    ∃ m' fi' r, fi.filter m s = some (m', fi', r) ∧ r.base = s.base ∧ r.len ≤ s.len ∧
      ∀ a, ¬(r.base ≤ a ∧ a < r.base + r.len) → m' a = m a := by
  refine ⟨_, _, _, LPD.filter_eq fi m s, rfl, ?_, ?_⟩
  · refine (push_len _ _ _ _ _ _).trans ?_
    simp [contents_length]
  · intro a ha
    simp only at ha ⊢
    simp only [overwrite]
    split
    · rw [List.getElem?_eq_none (by omega)]
      rfl
    · rfl

/-- C49: cutting the stream differently gives the same outputs, bit for bit. -/
theorem C49_cut [Add C] [Zero C] (D : Int) (cs ds : List ((Nat → C) × Slice)) (h : stream cs = stream ds) :
    (LPD.mk D 0 0).calls cs = (LPD.mk (C := C) D 0 0).calls ds := by
  rw [LPD.calls_eq, LPD.calls_eq, h]

example : stream [((fun i => (i : Int)), ⟨3, 4⟩), ((fun i => 10 * (i : Int)), ⟨0, 3⟩)] = [3, 4, 5, 6, 0, 10, 20] ∧
    seg [3, 4, 5, 6, 0, 10, (20 : Int)] 3 6 = 16 := by decide

/-! ## C50 -/

/-- A sequence of calls on the rational filter. -/
def LPR.calls [Add C] [Mul C] [Div C] [Zero C] (conv : Int → C) (fi : LPR C) : List ((Nat → C) × Slice) → Option (LPR C × List C)
  | [] => some (fi, [])
  | (m, s) :: cs => do
    let (m, fi, r) ← fi.filter conv m s
    let (fi, outs) ← LPR.calls conv fi cs
    some (fi, contents m r ++ outs)

theorem LPR.calls_eq [Add C] [Mul C] [Div C] [Zero C] (conv : Int → C) (cs : List ((Nat → C) × Slice)) (fi : LPR C) :
    fi.calls conv cs = (let st := after fi.fast fi.slow (· - fi.fast) (· * (conv fi.slow / conv fi.fast)) fi.sum fi.prevIndex (stream cs)
      some ({ fi with sum := st.1, prevIndex := st.2.1 }, st.2.2)) := by
  induction cs generalizing fi with
  | nil => rfl
  | cons c cs ih =>
    obtain ⟨m, s⟩ := c
    simp only [LPR.calls, LPR.filter_eq, Option.bind_eq_bind, Option.bind_some, ih]
    have : stream ((m, s) :: cs) = contents m s ++ stream cs := rfl
    rw [this, after_append, contents_overwrite]

/-- C50: for rates `0 < slow ≤ fast`, after any sequence of calls on a new filter the outputs number
`total * slow / fast` rounded down; output `k` is the sum in order of the samples since the previous
output, times the ratio; it is given out with the first sample for which `(k+1) fast ≤ samples * slow`;
the phase is `total * slow mod fast`. -/
theorem C50_calls [Add C] [Mul C] [Div C] [Zero C] (conv : Int → C) (fast slow : Nat) (h0 : 0 < slow) (h1 : slow ≤ fast)
    (cs : List ((Nat → C) × Slice)) :
    ∃ outs fi', (LPR.mk fast slow 0 0).calls conv cs = some (fi', outs) ∧
      outs.length = (stream cs).length * slow / fast ∧
      (∀ k < outs.length, outs[k]? = some (seg (stream cs) (edge fast slow k) (edge fast slow (k + 1)) * (conv slow / conv fast))) ∧
      fi'.prevIndex = ((stream cs).length * slow % fast : Nat) := by
  rw [LPR.calls_eq]
  simp only
  rw [after_spec fast slow h0 h1]
  refine ⟨_, _, rfl, by simp, ?_, rfl⟩
  intro k hk
  rw [List.length_map, List.length_range] at hk
  rw [List.getElem?_map, List.getElem?_range hk]
  rfl

/-- C50: `edge` is the least number of samples for which `k` outputs are due. -/
theorem C50_edge (fast slow k t : Nat) (h0 : 0 < slow) : edge fast slow k ≤ t ↔ k * fast ≤ t * slow := edge_le fast slow k t h0

/-- C50: cutting the stream differently gives the same outputs, bit for bit, for every pair of rates. -/
theorem C50_cut [Add C] [Mul C] [Div C] [Zero C] (conv : Int → C) (fi : LPR C) (cs ds : List ((Nat → C) × Slice))
    (h : stream cs = stream ds) : fi.calls conv cs = fi.calls conv ds := by
  rw [LPR.calls_eq, LPR.calls_eq, h]

/-- C50: the rational filter never panics and touches only the returned part of the slice. -/
theorem C50_frame [Add C] [Mul C] [Div C] [Zero C] (conv : Int → C) (fi : LPR C) (m : Nat → C) (s : Slice) :
    ∃ m' fi' r, fi.filter conv m s = some (m', fi', r) ∧ r.base = s.base ∧ r.len ≤ s.len ∧
      ∀ a, ¬(r.base ≤ a ∧ a < r.base + r.len) → m' a = m a := by
  refine ⟨_, _, _, LPR.filter_eq conv fi m s, rfl, ?_, ?_⟩
  · refine (push_len _ _ _ _ _ _).trans ?_
    simp [contents_length]
  · intro a ha
    simp only at ha ⊢
    simp only [overwrite]
    split
    · rw [List.getElem?_eq_none (by omega)]
      rfl
    · rfl

/-- C50, beyond the range: with `slow > fast > 0` every sample is output and the phase grows without
bound. -/
theorem C50_upsampling [Add C] [Mul C] [Div C] [Zero C] (conv : Int → C) (fast slow : Nat) (h : fast < slow)
    (cs : List ((Nat → C) × Slice)) :
    ∃ outs fi', (LPR.mk fast slow 0 0).calls conv cs = some (fi', outs) ∧ outs.length = (stream cs).length ∧
      fi'.prevIndex = (stream cs).length * ((slow : Int) - fast) := by
  rw [LPR.calls_eq]
  simp only
  refine ⟨_, _, rfl, ?_⟩
  generalize stream cs = xs
  induction xs using List.reverseRecOn with
  | nil => simp [after]
  | append_singleton xs x ih =>
    obtain ⟨i1, i2⟩ := ih
    dsimp only at i2
    have hstep : after (fast : Int) slow (· - fast) (· * (conv slow / conv fast)) 0 0 (xs ++ [x]) = push (fast : Int) slow (· - fast) (· * (conv slow / conv fast)) (after (fast : Int) slow (· - fast) (· * (conv slow / conv fast)) 0 0 xs) x := by
      simp only [after, List.foldl_append]
      rfl
    rw [hstep, push, if_neg]
    · simp only [List.length_append, List.length_singleton, i1, i2]
      refine ⟨trivial, ?_⟩
      push_cast
      ring
    · rw [i2]
      have : (0 : Int) ≤ xs.length * ((slow : Int) - fast) := by
        apply Int.mul_nonneg <;> omega
      omega

example : (0 : Nat) < 3 ∧ 3 ≤ 7 ∧ edge 7 3 0 = 0 ∧ edge 7 3 1 = 3 ∧ edge 7 3 2 = 5 ∧ edge 7 3 3 = 7 := by decide

end Verif.Down
