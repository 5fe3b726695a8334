import Verif.Borip.TableModel
import Mathlib.Data.List.Basic
import Mathlib.Data.List.Perm.Basic
import Mathlib.Data.List.Nodup
import Mathlib.Data.List.Induction

/-!
# C106: which devices the server knows
-/

namespace Verif.Borip

/-- `i` is the last index at which the driver reports `name`. -/
def LastIndex (names : List String) (name : String) (i : Nat) : Prop := names[i]? = some name ∧ ∀ j, names[j]? = some name → j ≤ i

theorem initTable_snoc (names : List String) (name : String) : initTable (names ++ [name]) = register (initTable names) name names.length := by
  unfold initTable
  rw [List.zipIdx_append, List.foldl_append]
  simp

/-- C106: the table has one entry for each name that is not blank, with the last index of that name; nothing is in use. -/
theorem C106_table (names : List String) :
    ((initTable names).devices.map (·.1)).Nodup ∧
    ∀ name e, (name, e) ∈ (initTable names).devices ↔ name ≠ "" ∧ LastIndex names name e.rtlIndex ∧ e.inUse = false := by
  induction names using List.reverseRecOn with
  | nil => exact ⟨by simp [initTable], by simp [initTable, LastIndex]⟩
  | append_singleton xs x ih =>
    rw [initTable_snoc]
    unfold register
    have last : ∀ name i, LastIndex (xs ++ [x]) name i ↔ if name = x then i = xs.length else LastIndex xs name i := by
      intro name i
      unfold LastIndex
      split
      · rename_i h
        subst h
        constructor
        · rintro ⟨h1, h2⟩
          have := h2 xs.length (by simp)
          have := (List.getElem?_eq_some_iff.1 h1).1
          simp at this
          omega
        · rintro rfl
          refine ⟨by simp, fun j hj => ?_⟩
          have := (List.getElem?_eq_some_iff.1 hj).1
          simp at this
          omega
      · rename_i h
        have e : ∀ j : Nat, (xs ++ [x])[j]? = some name ↔ xs[j]? = some name := by
          intro j
          rcases Nat.lt_trichotomy j xs.length with hj | hj | hj
          · rw [List.getElem?_append_left hj]
          · subst hj
            simp [Ne.symm h]
          · rw [List.getElem?_eq_none (by simp; omega), List.getElem?_eq_none (by omega)]
        simp only [e]
    by_cases hx : x = ""
    · rw [if_pos hx]
      refine ⟨ih.1, fun name e => ?_⟩
      rw [ih.2, last]
      constructor
      · rintro ⟨h1, h2, h3⟩
        exact ⟨h1, by rw [if_neg (by rw [hx]; exact h1)]; exact h2, h3⟩
      · rintro ⟨h1, h2, h3⟩
        rw [if_neg (by rw [hx]; exact h1)] at h2
        exact ⟨h1, h2, h3⟩
    · rw [if_neg hx]
      simp only [mapSet]
      constructor
      · rw [List.map_append, List.nodup_append]
        refine ⟨(List.Sublist.map _ List.filter_sublist).nodup ih.1, by simp, ?_⟩
        intro a ha b hb
        simp only [List.map_cons, List.map_nil, List.mem_singleton] at hb
        obtain ⟨p, hp, rfl⟩ := List.mem_map.1 ha
        rw [hb]
        simpa using (List.mem_filter.1 hp).2
      · intro name e
        rw [List.mem_append, List.mem_filter, ih.2, last]
        simp only [List.mem_singleton, Prod.mk.injEq, decide_eq_true_eq]
        by_cases h : name = x
        · subst h
          simp only [ne_eq, not_true_eq_false, and_false, false_or, true_and, if_true, hx, not_false_eq_true]
          constructor
          · rintro rfl; exact ⟨rfl, rfl⟩
          · rintro ⟨h1, h2⟩
            cases e
            simp_all
        · simp only [h, ne_eq, not_false_eq_true, and_true, false_and, or_false, if_false]

example : (initTable ["a", "", "b", "a"]).devices.map (fun p => (p.1, p.2.rtlIndex)) = [("b", 2), ("a", 3)] := by decide

/-- C106: the default device is the first name that is not blank. -/
theorem C106_default (names : List String) : (initTable names).defaultDevice = (names.find? (· ≠ "")).getD "" := by
  induction names using List.reverseRecOn with
  | nil => simp [initTable]
  | append_singleton xs x ih =>
    rw [initTable_snoc, List.find?_append]
    unfold register
    by_cases hx : x = ""
    · rw [if_pos hx, ih]
      simp [hx]
    · rw [if_neg hx]
      simp only [ih]
      rcases h : xs.find? (· ≠ "") with _ | y
      · simp [hx]
      · have := List.find?_some h
        simp at this
        simp [this]

/-- C106: `deviceList` returns every device that is not in use, once, and no other. -/
theorem C106_list (t : Table) (l : List (String × Entry)) (h : IsDeviceList t l) (hn : (t.devices.map (·.1)).Nodup) :
    (l.map (·.1)).Nodup ∧ ∀ p, p ∈ l ↔ p ∈ t.devices ∧ p.2.inUse = false := by
  obtain ⟨order, hp, rfl⟩ := h
  constructor
  · have : (order.map (·.1)).Nodup := (hp.map _).nodup_iff.2 hn
    exact (List.Sublist.map _ List.filter_sublist).nodup this
  · intro p
    rw [List.mem_filter, hp.mem_iff]
    simp

/-- C106: at the start every name can be selected, under its last index. -/
theorem C106_selectable (names : List String) (l : List (String × Entry)) (h : IsDeviceList (initTable names) l) (i : Nat) :
    (∃ p ∈ l, p.2.rtlIndex = i) ↔ ∃ name, names[i]? = some name ∧ name ≠ "" ∧ ∀ j, names[j]? = some name → j ≤ i := by
  have h1 := (C106_list _ l h (C106_table names).1).2
  constructor
  · rintro ⟨⟨name, e⟩, hp, rfl⟩
    obtain ⟨a, b, -⟩ := ((C106_table names).2 name e).1 ((h1 _).1 hp).1
    exact ⟨name, b.1, a, b.2⟩
  · rintro ⟨name, a, b, c⟩
    exact ⟨(name, ⟨i, false⟩), (h1 _).2 ⟨((C106_table names).2 name ⟨i, false⟩).2 ⟨b, ⟨a, c⟩, rfl⟩, rfl⟩, rfl⟩

example : IsDeviceList (initTable ["a", "b"]) [("b", ⟨1, false⟩), ("a", ⟨0, false⟩)] :=
  ⟨[("b", ⟨1, false⟩), ("a", ⟨0, false⟩)], by decide, by decide⟩

/-- C106 does not hold for devices of equal names: of two receivers that the driver names alike, only the second is ever
offered, however often `deviceList` is called. -/
theorem C106_violated_duplicate (name : String) (l : List (String × Entry)) (h : IsDeviceList (initTable [name, name]) l) :
    ¬ ∃ p ∈ l, p.2.rtlIndex = 0 := by
  rw [C106_selectable _ l h]
  rintro ⟨n, h1, -, h3⟩
  have := h3 1 h1
  omega

/-- Nor is the default device the first in the table: its name may stand for a later receiver. -/
theorem C106_violated_default : ∃ names : List String, names[0]? = some (initTable names).defaultDevice ∧
    ∀ e, ((initTable names).defaultDevice, e) ∈ (initTable names).devices → e.rtlIndex ≠ 0 := by
  refine ⟨["a", "b", "a"], by decide, ?_⟩
  intro e he h0
  obtain ⟨-, h, -⟩ := ((C106_table _).2 _ _).1 he
  have := h.2 2 (by decide)
  omega

end Verif.Borip
