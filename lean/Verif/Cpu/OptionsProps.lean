import Verif.Cpu.OptionsModel
import Mathlib.Data.List.Nodup
import Mathlib.Data.List.Induction
import Mathlib.Tactic.Common

/-!
# Property C69: what a GODEBUG string does to the features
-/

namespace Verif.Cpu

/-! ## Specification -/

/-- The value as written. -/
def word (b : Bool) : Str := if b then ['o', 'n'] else ['o', 'f', 'f']

/-- The fields of a list are the parts between commas. -/
def FieldsOf (env : Str) (fields : List Str) : Prop :=
  fields ≠ [] ∧ (∀ f ∈ fields, ',' ∉ f) ∧ env = List.intercalate [','] fields

/-- The field asks for the feature `key`, or for all of them. -/
def Asks (field key : Str) (b : Bool) : Prop := field = ['c', 'p', 'u', '.'] ++ key ++ '=' :: word b ∧ '=' ∉ key

/-- The field concerns the feature of the given name. -/
def Concerns (field name : Str) (b : Bool) : Prop := Asks field name b ∨ Asks field ['a', 'l', 'l'] b

/-- The last field that concerns the feature asks for `b`. -/
def LastAsks (fields : List Str) (name : Str) (b : Bool) : Prop :=
  ∃ pre f post, fields = pre ++ f :: post ∧ Concerns f name b ∧ ∀ g ∈ post, ∀ c, ¬ Concerns g name c

/-! ## Fields -/

theorem indexByte_none {s : Str} {c : Char} (h : indexByte s c = none) : c ∉ s := by
  induction s with
  | nil => simp
  | cons x xs ih =>
    rw [indexByte] at h
    split at h
    · cases h
    · rename_i hx
      rw [Option.map_eq_none_iff] at h
      rw [List.mem_cons, not_or]
      exact ⟨Ne.symm hx, ih h⟩

theorem indexByte_some {s : Str} {c : Char} {i : Nat} (h : indexByte s c = some i) : ∃ a b, s = a ++ c :: b ∧ c ∉ a ∧ a.length = i := by
  induction s generalizing i with
  | nil => cases h
  | cons x xs ih =>
    rw [indexByte] at h
    split at h
    · rename_i hx
      rw [Option.some.injEq] at h
      exact ⟨[], xs, by rw [hx]; rfl, by simp, h⟩
    · rename_i hx
      rw [Option.map_eq_some_iff] at h
      obtain ⟨j, hj, rfl⟩ := h
      obtain ⟨a, b, rfl, h2, h3⟩ := ih hj
      exact ⟨x :: a, b, rfl, by rw [List.mem_cons, not_or]; exact ⟨Ne.symm hx, h2⟩, by simp [h3]⟩

theorem slice_prefix (a b : Str) (lo : Nat) (h : lo ≤ a.length) : slice (a ++ b) lo a.length = some (a.drop lo) := by
  unfold slice
  rw [if_pos ⟨h, by simp⟩, List.take_left]

theorem sliceFrom_suffix (a b : Str) (c : Char) : sliceFrom (a ++ c :: b) (a.length + 1) = some b := by
  unfold sliceFrom
  rw [if_pos (by simp), show a ++ c :: b = (a ++ [c]) ++ b by simp, show a.length + 1 = (a ++ [c]).length by simp, List.drop_left]

theorem onOff_some {v : Str} {b : Bool} : onOff v = some b ↔ v = word b := by
  unfold onOff
  split
  · rename_i h
    subst h
    cases b <;> simp [word]
  · rename_i h1
    split
    · rename_i h
      subst h
      cases b <;> simp [word]
    · rename_i h2
      cases b <;> simp [word, h1, h2]

/-- The equals sign and the key are determined. -/
theorem asks_unique {f k k' : Str} {b b' : Bool} (h : Asks f k b) (h' : Asks f k' b') : k = k' ∧ b = b' := by
  obtain ⟨rfl, hk⟩ := h
  obtain ⟨he, hk'⟩ := h'
  rw [List.append_assoc, List.append_assoc] at he
  have he := List.append_cancel_left he
  have key : ∀ (k k' : Str), '=' ∉ k → '=' ∉ k' → ∀ u v, k ++ '=' :: u = k' ++ '=' :: v → k = k' ∧ u = v := by
    intro k
    induction k with
    | nil =>
      intro k' _ hk' u v h
      cases k' with
      | nil => exact ⟨rfl, by simpa using h⟩
      | cons x xs =>
        simp only [List.nil_append, List.cons_append, List.cons.injEq] at h
        exact absurd (h.1 ▸ List.mem_cons_self) hk'
    | cons y ys ih =>
      intro k' hk hk' u v h
      cases k' with
      | nil =>
        simp only [List.nil_append, List.cons_append, List.cons.injEq] at h
        exact absurd (h.1 ▸ List.mem_cons_self) hk
      | cons x xs =>
        simp only [List.cons_append, List.cons.injEq] at h
        rw [List.mem_cons, not_or] at hk hk'
        obtain ⟨h1, h2⟩ := ih xs hk.2 hk'.2 u v h.2
        exact ⟨by rw [h.1, h1], h2⟩
  obtain ⟨h1, h2⟩ := key k k' hk hk' _ _ he
  refine ⟨h1, ?_⟩
  cases b <;> cases b' <;> simp_all [word]

/-- One field either asks for something, which is done, or does nothing; nothing panics. -/
theorem processField_eq (opts : List Opt) (f : Str) :
    (∃ k b, Asks f k b ∧ processField opts f = some (setOptions opts k b)) ∨ ((∀ k b, ¬ Asks f k b) ∧ processField opts f = some opts) := by
  by_cases hp : f.length < 4 ∨ f.take 4 ≠ ['c', 'p', 'u', '.']
  · right
    refine ⟨?_, by unfold processField; rw [if_pos hp]⟩
    rintro k b ⟨rfl, -⟩
    simp at hp
    omega
  · have hf1 : indexByte f '=' = none → processField opts f = some opts := by
      intro h
      unfold processField
      rw [if_neg hp, h]
    have hf2 : ∀ i, indexByte f '=' = some i → processField opts f = onField opts f i := by
      intro i h
      unfold processField
      rw [if_neg hp, h]
    rw [not_or, not_not] at hp
    obtain ⟨t, rfl⟩ : ∃ t, f = ['c', 'p', 'u', '.'] ++ t := ⟨f.drop 4, by conv_lhs => rw [← List.take_append_drop 4 f, hp.2]⟩
    cases hi : indexByte (['c', 'p', 'u', '.'] ++ t) '=' with
    | none =>
      right
      refine ⟨?_, hf1 hi⟩
      rintro k b ⟨h1, -⟩
      apply indexByte_none hi
      rw [h1]
      simp
    | some i =>
      rw [hf2 i hi]
      obtain ⟨a, v, h1, h2, rfl⟩ := indexByte_some hi
      obtain ⟨k, rfl⟩ : ∃ k, a = ['c', 'p', 'u', '.'] ++ k := by
        match a, h1 with
        | [], h1 => simp at h1
        | [x], h1 => simp at h1
        | [x, y], h1 => simp at h1
        | [x, y, z], h1 => simp at h1
        | x :: y :: z :: w :: k, h1 =>
          simp only [List.cons_append, List.nil_append, List.cons.injEq] at h1
          obtain ⟨rfl, rfl, rfl, rfl, -⟩ := h1
          exact ⟨k, rfl⟩
      have hk : '=' ∉ k := fun h => h2 (List.mem_append_right _ h)
      unfold onField
      rw [h1, slice_prefix _ _ _ (by simp), sliceFrom_suffix, Option.bind_some, Option.bind_some,
        show (['c', 'p', 'u', '.'] ++ k).drop 4 = k from rfl]
      cases hv : onOff v with
      | none =>
        right
        refine ⟨?_, rfl⟩
        rintro k' b' ⟨g1, g2⟩
        have : ∀ (k k' : Str), '=' ∉ k → '=' ∉ k' → ∀ u v, k ++ '=' :: u = k' ++ '=' :: v → u = v := by
          intro k
          induction k with
          | nil =>
            intro k' _ hk' u v h
            cases k' with
            | nil => simpa using h
            | cons x xs =>
              simp only [List.nil_append, List.cons_append, List.cons.injEq] at h
              exact absurd (h.1 ▸ List.mem_cons_self) hk'
          | cons y ys ih =>
            intro k' hk hk' u v h
            cases k' with
            | nil =>
              simp only [List.nil_append, List.cons_append, List.cons.injEq] at h
              exact absurd (h.1 ▸ List.mem_cons_self) hk
            | cons x xs =>
              simp only [List.cons_append, List.cons.injEq] at h
              rw [List.mem_cons, not_or] at hk hk'
              exact ih xs hk.2 hk'.2 u v h.2
        have hvw := this k k' hk g2 v (word b') (by
          rw [List.append_assoc, List.append_assoc] at g1
          exact List.append_cancel_left g1)
        rw [hvw, onOff_some.mpr rfl] at hv
        cases hv
      | some b =>
        left
        refine ⟨k, b, ⟨?_, hk⟩, rfl⟩
        rw [onOff_some.mp hv]

/-! ## The first loop -/

theorem fieldsOf_one {s : Str} (h : ',' ∉ s) {fields : List Str} (hf : FieldsOf s fields) : fields = [s] := by
  obtain ⟨h1, h2, h3⟩ := hf
  match fields, h1 with
  | [f], _ =>
    have : s = f := by simpa [List.intercalate] using h3
    rw [this]
  | f :: g :: fs, _ =>
    exfalso
    apply h
    rw [h3]
    simp [List.intercalate]

theorem fieldsOf_cons {a b : Str} (h : ',' ∉ a) {fields : List Str} (hf : FieldsOf (a ++ ',' :: b) fields) : ∃ fs, fields = a :: fs ∧ FieldsOf b fs := by
  obtain ⟨h1, h2, h3⟩ := hf
  have key : ∀ (k k' : Str), ',' ∉ k → ',' ∉ k' → ∀ u v, k ++ ',' :: u = k' ++ ',' :: v → k = k' ∧ u = v := by
    intro k
    induction k with
    | nil =>
      intro k' _ hk' u v h
      cases k' with
      | nil => exact ⟨rfl, by simpa using h⟩
      | cons x xs =>
        simp only [List.nil_append, List.cons_append, List.cons.injEq] at h
        exact absurd (h.1 ▸ List.mem_cons_self) hk'
    | cons y ys ih =>
      intro k' hk hk' u v h
      cases k' with
      | nil =>
        simp only [List.nil_append, List.cons_append, List.cons.injEq] at h
        exact absurd (h.1 ▸ List.mem_cons_self) hk
      | cons x xs =>
        simp only [List.cons_append, List.cons.injEq] at h
        rw [List.mem_cons, not_or] at hk hk'
        obtain ⟨h1, h2⟩ := ih xs hk.2 hk'.2 u v h.2
        exact ⟨by rw [h.1, h1], h2⟩
  match fields, h1 with
  | [f], _ =>
    exfalso
    have : a ++ ',' :: b = f := by simpa [List.intercalate] using h3
    apply h2 f (by simp)
    rw [← this]
    simp
  | f :: g :: fs, _ =>
    have h4 : List.intercalate [','] (f :: g :: fs) = f ++ ',' :: List.intercalate [','] (g :: fs) := by simp [List.intercalate]
    rw [h4] at h3
    obtain ⟨rfl, rfl⟩ := key a f h (h2 f (by simp)) _ _ h3
    exact ⟨g :: fs, rfl, by simp, fun x hx => h2 x (List.mem_cons_of_mem _ hx), rfl⟩

/-- What one field does to the options. -/
noncomputable def effect (opts : List Opt) (f : Str) : List Opt := (processField opts f).getD opts

theorem loop_eq (fuel : Nat) (opts : List Opt) (env : Str) (hfuel : env.length ≤ fuel) (fields : List Str) (hf : FieldsOf env fields) :
    loop fuel opts env = some (fields.foldl effect opts) := by
  have heff : ∀ opts f, processField opts f = some (effect opts f) := by
    intro opts f
    unfold effect
    rcases processField_eq opts f with ⟨k, b, -, h⟩ | ⟨-, h⟩ <;> rw [h] <;> rfl
  have hnil : ∀ opts, effect opts [] = opts := by
    intro opts
    unfold effect processField
    rw [if_pos (by simp)]
    rfl
  induction fuel generalizing opts env fields with
  | zero =>
    have : env = [] := List.length_eq_zero_iff.mp (by omega)
    subst this
    rw [fieldsOf_one (by simp) hf]
    simp only [List.foldl_cons, List.foldl_nil, hnil]
    rfl
  | succ fuel ih =>
    rw [loop]
    split
    · rename_i h
      subst h
      rw [fieldsOf_one (by simp) hf]
      simp only [List.foldl_cons, List.foldl_nil, hnil]
    · split
      · rename_i h
        rw [fieldsOf_one (indexByte_none h) hf]
        exact heff opts env
      · rename_i i h
        obtain ⟨a, b, rfl, h2, rfl⟩ := indexByte_some h
        obtain ⟨fs, rfl, h4⟩ := fieldsOf_cons h2 hf
        rw [slice_prefix _ _ _ (by simp), sliceFrom_suffix, Option.bind_some, Option.bind_some, List.drop_zero, heff, Option.bind_some,
          ih _ b (by simp only [List.length_append, List.length_cons] at hfuel; omega) fs h4]
        rfl

/-! ## The options after the first loop -/

/-- What the fields read so far say about an option. -/
def Says (fields : List Str) (o : Opt) (o' : Opt) : Prop :=
  o'.name = o.name ∧ o'.feature = o.feature ∧ o'.required = o.required ∧
    ((o'.specified = false ∧ ∀ f ∈ fields, ∀ b, ¬ Concerns f o.name b) ∨
      (o'.specified = true ∧ ∃ b, LastAsks fields o.name b ∧ (o.required = false → o'.enable = b)))

theorem setFirst_forall (key : Str) (b : Bool) (opts opts' : List Opt) (R R' : Opt → Opt → Prop) (h : List.Forall₂ R opts opts')
    (hn : (opts.map Opt.name).Nodup) (hname : ∀ o o', R o o' → o'.name = o.name)
    (h1 : ∀ o o', R o o' → o.name = key → R' o { o' with specified := true, enable := b })
    (h2 : ∀ o o', R o o' → o.name ≠ key → R' o o') : List.Forall₂ R' opts (setFirst key b opts') := by
  induction h with
  | nil => exact .nil
  | @cons o o' os os' ho hos ih =>
    rw [List.map_cons, List.nodup_cons] at hn
    rw [setFirst]
    split
    · rename_i hk
      rw [hname _ _ ho] at hk
      refine .cons (h1 _ _ ho hk) ?_
      have hne : ∀ x ∈ os, x.name ≠ key := by
        intro x hx he
        exact hn.1 (by rw [hk, ← he]; exact List.mem_map_of_mem hx)
      clear ih hn ho
      induction hos with
      | nil => exact .nil
      | cons hx _ ih => exact .cons (h2 _ _ hx (hne _ (by simp))) (ih fun y hy => hne y (List.mem_cons_of_mem _ hy))
    · rename_i hk
      rw [hname _ _ ho] at hk
      exact .cons (h2 _ _ ho hk) (ih hn.2)

theorem lastAsks_snoc {fields : List Str} {f name : Str} {b : Bool} (h : LastAsks fields name b) (hf : ∀ c, ¬ Concerns f name c) : LastAsks (fields ++ [f]) name b := by
  obtain ⟨pre, g, post, rfl, h1, h2⟩ := h
  refine ⟨pre, g, post ++ [f], by simp, h1, ?_⟩
  intro x hx c
  rw [List.mem_append, List.mem_singleton] at hx
  rcases hx with hx | rfl
  · exact h2 x hx c
  · exact hf c

theorem says_snoc {fields : List Str} {f : Str} {o o' : Opt} (h : Says fields o o') (hf : ∀ c, ¬ Concerns f o.name c) : Says (fields ++ [f]) o o' := by
  obtain ⟨h1, h2, h3, h4⟩ := h
  refine ⟨h1, h2, h3, ?_⟩
  rcases h4 with ⟨h4, h5⟩ | ⟨h4, b, h5, h6⟩
  · refine .inl ⟨h4, ?_⟩
    intro x hx c
    rw [List.mem_append, List.mem_singleton] at hx
    rcases hx with hx | rfl
    · exact h5 x hx c
    · exact hf c
  · exact .inr ⟨h4, b, lastAsks_snoc h5 hf, h6⟩

theorem options_say (opts : List Opt) (hn : (opts.map Opt.name).Nodup) (hs : ∀ o ∈ opts, o.specified = false) (fields : List Str) :
    List.Forall₂ (Says fields) opts (fields.foldl effect opts) := by
  induction fields using List.reverseRecOn with
  | nil =>
    rw [List.foldl_nil]
    rw [List.forall₂_same]
    intro o ho
    exact ⟨rfl, rfl, rfl, .inl ⟨hs o ho, by simp⟩⟩
  | append_singleton fields f ih =>
    rw [List.foldl_append, List.foldl_cons, List.foldl_nil]
    have hlast : ∀ (o o' : Opt) (b e : Bool), Says fields o o' → Concerns f o.name b → (o.required = false → e = b) →
        Says (fields ++ [f]) o { o' with specified := true, enable := e } := by
      intro o o' b e h hc he
      exact ⟨h.1, h.2.1, h.2.2.1, .inr ⟨rfl, b, ⟨fields, f, [], rfl, hc, by simp⟩, he⟩⟩
    rcases processField_eq (fields.foldl effect opts) f with ⟨k, b, hk, h⟩ | ⟨hno, h⟩
    · unfold effect at *
      rw [h, Option.getD_some]
      unfold setOptions
      split
      · rename_i hall
        subst hall
        rw [List.forall₂_map_right_iff]
        refine ih.imp fun o o' ho => hlast o o' b _ ho (.inr hk) fun hr => ?_
        simp only [ho.2.2.1, hr, Bool.or_false]
      · rename_i hall
        refine setFirst_forall k b opts _ _ _ ih hn (fun o o' h => h.1) (fun o o' ho he => ?_) fun o o' ho hne => ?_
        · exact hlast o o' b b ho (.inl (he ▸ hk)) fun _ => rfl
        · refine says_snoc ho ?_
          rintro c (hc | hc)
          · exact hne (asks_unique hc hk).1
          · exact hall (asks_unique hk hc).1
    · unfold effect at *
      rw [h, Option.getD_some]
      refine ih.imp fun o o' ho => says_snoc ho ?_
      rintro c (hc | hc)
      · exact hno _ _ hc
      · exact hno _ _ hc

/-! ## The second loop -/

theorem applyOption_other (mem : Nat → Bool) (o : Opt) (a : Nat) (h : a ≠ o.feature) : applyOption mem o a = mem a := by
  unfold applyOption
  split
  · rfl
  · split
    · rfl
    · split
      · rfl
      · exact Function.update_of_ne h _ _

theorem applyOption_self (mem : Nat → Bool) (o : Opt) :
    applyOption mem o o.feature = if o.specified = true ∧ ¬(o.enable = true ∧ mem o.feature = false) ∧ ¬(o.enable = false ∧ o.required = true)
      then o.enable else mem o.feature := by
  unfold applyOption
  cases o.specified <;> cases he : o.enable <;> cases hm : mem o.feature <;> cases hr : o.required <;> simp [hm]

theorem fold_other (opts : List Opt) (mem : Nat → Bool) (a : Nat) (h : ∀ o ∈ opts, a ≠ o.feature) : opts.foldl applyOption mem a = mem a := by
  induction opts generalizing mem with
  | nil => rfl
  | cons o os ih =>
    rw [List.foldl_cons, ih _ fun x hx => h x (List.mem_cons_of_mem _ hx), applyOption_other _ _ _ (h o (by simp))]

theorem fold_self (opts : List Opt) (mem : Nat → Bool) (hn : (opts.map Opt.feature).Nodup) (o : Opt) (ho : o ∈ opts) :
    opts.foldl applyOption mem o.feature = applyOption mem o o.feature := by
  induction opts generalizing mem with
  | nil => cases ho
  | cons x xs ih =>
    rw [List.map_cons, List.nodup_cons] at hn
    rw [List.foldl_cons]
    rw [List.mem_cons] at ho
    rcases ho with rfl | ho
    · exact fold_other xs _ _ fun y hy he => hn.1 (by rw [he]; exact List.mem_map_of_mem hy)
    · rw [ih _ hn.2 ho]
      have hne : o.feature ≠ x.feature := fun he => hn.1 (by rw [← he]; exact List.mem_map_of_mem ho)
      rw [applyOption_self, applyOption_self, applyOption_other _ _ _ hne]

/-! ## C69 -/

/-- A table as the initialisation functions make it: names and features are all different, nothing is
specified yet. -/
def Fresh (opts : List Opt) : Prop :=
  (opts.map Opt.name).Nodup ∧ (opts.map Opt.feature).Nodup ∧ ∀ o ∈ opts, o.specified = false

theorem fieldsOf_exists (env : Str) : ∃ fields, FieldsOf env fields := by
  induction env with
  | nil => exact ⟨[[]], by simp, by simp, rfl⟩
  | cons c cs ih =>
    obtain ⟨fs, h1, h2, h3⟩ := ih
    obtain ⟨f, fs', rfl⟩ := List.exists_cons_of_ne_nil h1
    by_cases hc : c = ','
    · refine ⟨[] :: f :: fs', by simp, ?_, ?_⟩
      · intro x hx
        rw [List.mem_cons] at hx
        rcases hx with rfl | hx
        · simp
        · exact h2 x hx
      · rw [h3, hc]
        simp [List.intercalate]
    · refine ⟨(c :: f) :: fs', by simp, ?_, ?_⟩
      · intro x hx
        rw [List.mem_cons] at hx
        rcases hx with rfl | hx
        · rw [List.mem_cons, not_or]
          exact ⟨fun h => hc h.symm, h2 f (by simp)⟩
        · exact h2 x (List.mem_cons_of_mem _ hx)
      · rw [h3]
        cases fs' <;> simp [List.intercalate]

theorem options_main (opts : List Opt) (hfr : Fresh opts) (mem : Nat → Bool) (env : Str) (fields : List Str) (hf : FieldsOf env fields) :
    ∃ mem', processOptions opts mem env = some mem' ∧ (∀ a, (∀ o ∈ opts, a ≠ o.feature) → mem' a = mem a) ∧
      ∀ o ∈ opts, ∃ o', Says fields o o' ∧ mem' o.feature = applyOption mem o' o'.feature := by
  obtain ⟨h1, h2, h3⟩ := hfr
  unfold processOptions
  rw [loop_eq _ opts env (Nat.le_refl _) fields hf, Option.bind_some]
  have hsay := options_say opts h1 h3 fields
  have hfeat : (fields.foldl effect opts).map Opt.feature = opts.map Opt.feature := by
    have : ∀ (l l' : List Opt), List.Forall₂ (Says fields) l l' → l'.map Opt.feature = l.map Opt.feature := by
      intro l l' h
      induction h with
      | nil => rfl
      | cons ho _ ih => rw [List.map_cons, List.map_cons, ih, ho.2.1]
    exact this _ _ hsay
  refine ⟨_, rfl, ?_, ?_⟩
  · intro a ha
    refine fold_other _ _ _ fun o ho he => ?_
    have : o.feature ∈ opts.map Opt.feature := by rw [← hfeat]; exact List.mem_map_of_mem ho
    rw [List.mem_map] at this
    obtain ⟨x, hx, hxe⟩ := this
    exact ha x hx (he.trans hxe.symm)
  · intro o ho
    have : ∀ (l l' : List Opt), List.Forall₂ (Says fields) l l' → o ∈ l → ∃ o' ∈ l', Says fields o o' := by
      intro l l' h
      induction h with
      | nil => intro h; cases h
      | @cons x y xs ys hx _ ih =>
        intro h
        rw [List.mem_cons] at h
        rcases h with rfl | h
        · exact ⟨y, by simp, hx⟩
        · obtain ⟨o', h4, h5⟩ := ih h
          exact ⟨o', List.mem_cons_of_mem _ h4, h5⟩
    obtain ⟨o', ho', hs⟩ := this _ _ hsay ho
    refine ⟨o', hs, ?_⟩
    rw [← hs.2.1]
    exact fold_self _ mem (by rw [hfeat]; exact h2) o' ho'

/-- C69: the string is always processed without a panic, and changes no variable but those of the table. -/
theorem C69_total (opts : List Opt) (hfr : Fresh opts) (mem : Nat → Bool) (env : Str) :
    ∃ mem', processOptions opts mem env = some mem' ∧ ∀ a, (∀ o ∈ opts, a ≠ o.feature) → mem' a = mem a := by
  obtain ⟨fields, hf⟩ := fieldsOf_exists env
  obtain ⟨mem', h1, h2, -⟩ := options_main opts hfr mem env fields hf
  exact ⟨mem', h1, h2⟩

/-- C69: a required feature is never changed. -/
theorem C69_required (opts : List Opt) (hfr : Fresh opts) (mem mem' : Nat → Bool) (env : Str) (h : processOptions opts mem env = some mem')
    (o : Opt) (ho : o ∈ opts) (hr : o.required = true) : mem' o.feature = mem o.feature := by
  obtain ⟨fields, hf⟩ := fieldsOf_exists env
  obtain ⟨m, h1, -, h2⟩ := options_main opts hfr mem env fields hf
  rw [h, Option.some.injEq] at h1
  subst h1
  obtain ⟨o', hs, he⟩ := h2 o ho
  rw [he, applyOption_self, hs.2.1, hs.2.2.1, hr]
  cases o'.specified <;> cases o'.enable <;> cases mem o.feature <;> simp

/-- C69: a feature the CPU lacks is never enabled. -/
theorem C69_absent (opts : List Opt) (hfr : Fresh opts) (mem mem' : Nat → Bool) (env : Str) (h : processOptions opts mem env = some mem')
    (a : Nat) (ha : mem a = false) : mem' a = false := by
  obtain ⟨fields, hf⟩ := fieldsOf_exists env
  obtain ⟨m, h1, h3, h2⟩ := options_main opts hfr mem env fields hf
  rw [h, Option.some.injEq] at h1
  subst h1
  by_cases hex : ∃ o ∈ opts, a = o.feature
  · obtain ⟨o, ho, rfl⟩ := hex
    obtain ⟨o', hs, he⟩ := h2 o ho
    rw [he, applyOption_self, hs.2.1, ha]
    cases o'.specified <;> cases o'.enable <;> cases o'.required <;> simp
  · rw [h3 a (fun o ho he => hex ⟨o, ho, he⟩), ha]

/-- C69: for any other feature the last field that concerns it, by name or as one of all, decides. -/
theorem C69_last (opts : List Opt) (hfr : Fresh opts) (mem mem' : Nat → Bool) (env : Str) (h : processOptions opts mem env = some mem')
    (fields : List Str) (hf : FieldsOf env fields) (o : Opt) (ho : o ∈ opts) (hr : o.required = false) (hm : mem o.feature = true)
    (b : Bool) (hb : LastAsks fields o.name b) : mem' o.feature = b := by
  obtain ⟨m, h1, -, h2⟩ := options_main opts hfr mem env fields hf
  rw [h, Option.some.injEq] at h1
  subst h1
  obtain ⟨o', hs, he⟩ := h2 o ho
  obtain ⟨pre, f, post, hfl, hc, hpost⟩ := hb
  rcases hs.2.2.2 with ⟨-, hno⟩ | ⟨hsp, c, ⟨pre', f', post', hfl', hc', hpost'⟩, hen⟩
  · exact absurd hc (hno f (by rw [hfl]; simp) b)
  · have hbc : c = b := by
      rw [hfl] at hfl'
      -- both splits are at the last field that concerns the feature
      rcases List.append_eq_append_iff.mp hfl' with ⟨u, hu1, hu2⟩ | ⟨u, hu1, hu2⟩
      · cases u with
        | nil =>
          simp only [List.nil_append, List.cons.injEq] at hu2
          have := hu2.1
          subst this
          rcases hc with hc | hc <;> rcases hc' with hc' | hc'
          · exact (asks_unique hc' hc).2
          · exact (asks_unique hc' hc).2
          · exact (asks_unique hc' hc).2
          · exact (asks_unique hc' hc).2
        | cons x u =>
          simp only [List.cons_append, List.cons.injEq] at hu2
          exact absurd hc' (hpost f' (by rw [hu2.2]; simp) c)
      · cases u with
        | nil =>
          simp only [List.nil_append, List.cons.injEq] at hu2
          have := hu2.1
          subst this
          rcases hc with hc | hc <;> rcases hc' with hc' | hc'
          · exact (asks_unique hc' hc).2
          · exact (asks_unique hc' hc).2
          · exact (asks_unique hc' hc).2
          · exact (asks_unique hc' hc).2
        | cons x u =>
          simp only [List.cons_append, List.cons.injEq] at hu2
          exact absurd hc (hpost' f (by rw [hu2.2]; simp) b)
    rw [he, applyOption_self, hs.2.1, hs.2.2.1, hr, hsp, hm, hen hr, hbc]
    simp

/-- C69: a feature that no field concerns keeps its value; unknown and malformed fields concern none. -/
theorem C69_untouched (opts : List Opt) (hfr : Fresh opts) (mem mem' : Nat → Bool) (env : Str) (h : processOptions opts mem env = some mem')
    (fields : List Str) (hf : FieldsOf env fields) (o : Opt) (ho : o ∈ opts) (hno : ∀ f ∈ fields, ∀ b, ¬ Concerns f o.name b) :
    mem' o.feature = mem o.feature := by
  obtain ⟨m, h1, -, h2⟩ := options_main opts hfr mem env fields hf
  rw [h, Option.some.injEq] at h1
  subst h1
  obtain ⟨o', hs, he⟩ := h2 o ho
  rcases hs.2.2.2 with ⟨hsp, -⟩ | ⟨-, c, ⟨pre, f, post, hfl, hc, -⟩, -⟩
  · rw [he, applyOption_self, hs.2.1, hsp]
    simp
  · exact absurd hc (hno f (by rw [hfl]; simp) c)

/-- A table of three features, the last one required. -/
def testTable : List Opt := [⟨['a', 'v', 'x'], 0, false, false, false⟩, ⟨['a', 'e', 's'], 1, false, false, false⟩, ⟨['s', 's', 'e', '2'], 2, false, false, true⟩]

theorem testTable_fresh : Fresh testTable := by
  refine ⟨by decide, by decide, ?_⟩
  intro o ho
  simp only [testTable, List.mem_cons, List.not_mem_nil, or_false] at ho
  rcases ho with rfl | rfl | rfl <;> rfl

example : ((processOptions testTable (fun _ => true) "cpu.all=off,cpu.avx=on,cpu.aes,x,cpu.foo=on".toList).map fun m => [m 0, m 1, m 2, m 3]) =
    some [true, false, true, true] := by
  decide

example : ((processOptions testTable (fun a => a = 1) "cpu.avx=on,cpu.aes=off,cpu.aes=on,cpu.sse2=on".toList).map fun m => [m 0, m 1, m 2]) =
    some [false, true, false] := by
  decide

example : FieldsOf "cpu.all=off,cpu.avx=on".toList ["cpu.all=off".toList, "cpu.avx=on".toList] := ⟨by simp, by decide, by decide⟩

example : LastAsks ["cpu.all=off".toList, "cpu.avx=on".toList] ['a', 'v', 'x'] true :=
  ⟨["cpu.all=off".toList], "cpu.avx=on".toList, [], rfl, .inl ⟨by decide, by decide⟩, by simp⟩

end Verif.Cpu
