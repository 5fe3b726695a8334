import Verif.Cpu.OptionsProps
import Verif.Cpu.PrintModel

/-!
# Property C145: what a GODEBUG string makes the program print
-/

namespace Verif.Cpu

/-! ## Specification -/

/-- A word between quotation marks. -/
def quoted (s : Str) : Str := '"' :: s ++ ['"']

/-- The line for one field, given the names of the table. -/
inductive FieldSays (names : List Str) (field : Str) : Str → Prop
  /-- fields of other packages are passed over -/
  | other : ¬ "cpu.".toList <+: field → FieldSays names field []
  | noValue : "cpu.".toList <+: field → '=' ∉ field → FieldSays names field ("GODEBUG: no value specified for ".toList ++ quoted field ++ ['\n'])
  | badValue (key value : Str) : field = "cpu.".toList ++ key ++ '=' :: value → '=' ∉ key → value ≠ "on".toList → value ≠ "off".toList →
      FieldSays names field ("GODEBUG: value ".toList ++ quoted value ++ " not supported for cpu option ".toList ++ quoted key ++ ['\n'])
  | unknown (key : Str) (b : Bool) : Asks field key b → key ≠ "all".toList → key ∉ names →
      FieldSays names field ("GODEBUG: unknown cpu feature ".toList ++ quoted key ++ ['\n'])
  | known (key : Str) (b : Bool) : Asks field key b → key = "all".toList ∨ key ∈ names → FieldSays names field []

/-- The field sets the option to `e`: by its own name to what it says, by `all` never off if required. -/
def Sets (field : Str) (o : Opt) (e : Bool) : Prop :=
  Asks field "all".toList e ∧ o.required = false ∨ (∃ b, Asks field "all".toList b) ∧ o.required = true ∧ e = true ∨
    o.name ≠ "all".toList ∧ Asks field o.name e

/-- The last field that concerns the option sets it to `e`. -/
def LastSets (fields : List Str) (o : Opt) (e : Bool) : Prop :=
  ∃ pre f post, fields = pre ++ f :: post ∧ Sets f o e ∧ ∀ g ∈ post, ∀ c, ¬ Concerns g o.name c

/-- The line for one option, given the fields and whether the processor has the feature. -/
inductive OptionSays (fields : List Str) (had : Bool) (o : Opt) : Str → Prop
  | untouched : (∀ f ∈ fields, ∀ b, ¬ Concerns f o.name b) → OptionSays fields had o []
  | missing : LastSets fields o true → had = false →
      OptionSays fields had o ("GODEBUG: can not enable ".toList ++ quoted o.name ++ ", missing CPU support\n".toList)
  | present : LastSets fields o true → had = true → OptionSays fields had o []
  | required : LastSets fields o false → o.required = true →
      OptionSays fields had o ("GODEBUG: can not disable ".toList ++ quoted o.name ++ ", required CPU feature\n".toList)
  | disabled : LastSets fields o false → o.required = false → OptionSays fields had o []

/-! ## The texts -/

theorem cpu_chars : "cpu.".toList = ['c', 'p', 'u', '.'] := by decide +kernel

theorem quote_between {a a' b b' : Str} (s : Str) (h : a' = a ++ ['"']) (h' : b' = '"' :: b) : a' ++ s ++ b' = a ++ quoted s ++ b := by
  subst h h'
  simp only [quoted, List.append_assoc, List.cons_append, List.nil_append]

theorem noValueText_eq (field : Str) : noValueText field = "GODEBUG: no value specified for ".toList ++ quoted field ++ ['\n'] :=
  quote_between field (by decide +kernel) (by decide +kernel)

theorem badValueText_eq (value key : Str) : badValueText value key =
    "GODEBUG: value ".toList ++ quoted value ++ " not supported for cpu option ".toList ++ quoted key ++ ['\n'] := by
  have h1 : "GODEBUG: value \"".toList ++ value ++ "\" not supported for cpu option \"".toList =
      "GODEBUG: value ".toList ++ quoted value ++ (" not supported for cpu option ".toList ++ ['"']) :=
    quote_between value (by decide +kernel) (by decide +kernel)
  exact quote_between key (h1.trans (List.append_assoc _ _ _).symm) (by decide +kernel)

theorem unknownText_eq (key : Str) : unknownText key = "GODEBUG: unknown cpu feature ".toList ++ quoted key ++ ['\n'] :=
  quote_between key (by decide +kernel) (by decide +kernel)

theorem missingText_eq (name : Str) : missingText name = "GODEBUG: can not enable ".toList ++ quoted name ++ ", missing CPU support\n".toList :=
  quote_between name (by decide +kernel) (by decide +kernel)

theorem requiredText_eq (name : Str) : requiredText name = "GODEBUG: can not disable ".toList ++ quoted name ++ ", required CPU feature\n".toList :=
  quote_between name (by decide +kernel) (by decide +kernel)

/-! ## The text beside the result -/

theorem setFirstP_fst (key : Str) (b : Bool) (opts : List Opt) : (setFirstP key b opts).1 = setFirst key b opts := by
  induction opts with
  | nil => rfl
  | cons o os ih =>
    rw [setFirstP, setFirst]
    split
    · rfl
    · exact congrArg _ ih

theorem setFirstP_snd (key : Str) (b : Bool) (opts : List Opt) :
    (setFirstP key b opts).2 = if key ∈ opts.map Opt.name then [] else unknownText key := by
  induction opts with
  | nil => rfl
  | cons o os ih =>
    rw [setFirstP]
    split
    · rename_i h
      rw [if_pos (by rw [List.map_cons, h]; exact List.mem_cons_self)]
    · rename_i h
      change (setFirstP key b os).2 = _
      rw [ih, List.map_cons]
      congr 1
      rw [List.mem_cons, eq_iff_iff]
      exact ⟨.inr, fun h' => h'.resolve_left fun e => h e.symm⟩

theorem setOptionsP_fst (opts : List Opt) (key : Str) (b : Bool) : (setOptionsP opts key b).1 = setOptions opts key b := by
  unfold setOptionsP setOptions
  split
  · rfl
  · exact setFirstP_fst key b opts

theorem processFieldP_fst (opts : List Opt) (f : Str) : (processFieldP opts f).map Prod.fst = processField opts f := by
  unfold processFieldP processField
  split
  · rfl
  · cases indexByte f '=' with
    | none => rfl
    | some i =>
      unfold onFieldP onField
      simp only
      cases slice f 4 i with
      | none => rfl
      | some key =>
        cases sliceFrom f (i + 1) with
        | none => rfl
        | some v =>
          simp only [Option.bind_some]
          cases onOff v with
          | none => rfl
          | some b => exact congrArg some (setOptionsP_fst opts key b)

theorem setFirst_names (key : Str) (b : Bool) (opts : List Opt) : (setFirst key b opts).map Opt.name = opts.map Opt.name := by
  induction opts with
  | nil => rfl
  | cons o os ih =>
    rw [setFirst]
    split
    · rfl
    · rw [List.map_cons, List.map_cons, ih]

theorem effect_names (opts : List Opt) (f : Str) : (effect opts f).map Opt.name = opts.map Opt.name := by
  unfold effect
  rcases processField_eq opts f with ⟨k, b, -, h⟩ | ⟨-, h⟩
  · rw [h, Option.getD_some]
    unfold setOptions
    split
    · rw [List.map_map]; rfl
    · exact setFirst_names k b opts
  · rw [h]; rfl

/-- One field prints its line. -/
theorem processFieldP_says (opts : List Opt) (f : Str) :
    ∃ m, processFieldP opts f = some (effect opts f, m) ∧ FieldSays (opts.map Opt.name) f m := by
  have hfst := processFieldP_fst opts f
  have hwrap : ∀ r, processFieldP opts f = some r → processFieldP opts f = some (effect opts f, r.2) := by
    intro r h
    rw [h] at hfst
    have : effect opts f = r.1 := by
      unfold effect
      rw [← hfst]
      rfl
    rw [this, h]
  by_cases hp : f.length < 4 ∨ f.take 4 ≠ ['c', 'p', 'u', '.']
  · refine ⟨[], hwrap (opts, []) (by unfold processFieldP; rw [if_pos hp]), .other ?_⟩
    rintro ⟨t, rfl⟩
    simp at hp
    omega
  · have hpre : "cpu.".toList <+: f := by
      rw [not_or, not_not] at hp
      exact ⟨f.drop 4, by rw [cpu_chars]; conv_rhs => rw [← List.take_append_drop 4 f, hp.2]⟩
    cases hi : indexByte f '=' with
    | none =>
      refine ⟨_, hwrap (opts, noValueText f) (by unfold processFieldP; rw [if_neg hp, hi]), ?_⟩
      have := FieldSays.noValue (names := opts.map Opt.name) hpre (indexByte_none hi)
      rw [← noValueText_eq] at this
      exact this
    | some i =>
      have hon : processFieldP opts f = onFieldP opts f i := by
        unfold processFieldP; rw [if_neg hp, hi]
      obtain ⟨a, v, h1, h2, rfl⟩ := indexByte_some hi
      obtain ⟨t, ht⟩ := hpre
      obtain ⟨k, rfl⟩ : ∃ k, a = ['c', 'p', 'u', '.'] ++ k := by
        rw [← ht, cpu_chars] at h1
        match a, h1 with
        | [], h1 => simp at h1
        | [x], h1 => simp at h1
        | [x, y], h1 => simp at h1
        | [x, y, z], h1 => simp at h1
        | x :: y :: z :: w :: k, h1 =>
          simp only [List.cons_append, List.nil_append, List.cons.injEq] at h1
          obtain ⟨rfl, rfl, rfl, rfl, -⟩ := h1
          exact ⟨k, rfl⟩
      have hk : '=' ∉ k := fun h => h2 (List.mem_append_right _ h)
      have hval : processFieldP opts f = match onOff v with
          | none => some (opts, badValueText v k)
          | some enable => some (setOptionsP opts k enable) := by
        rw [hon]
        unfold onFieldP
        rw [h1, slice_prefix _ _ _ (by simp), sliceFrom_suffix, Option.bind_some, Option.bind_some,
          show (['c', 'p', 'u', '.'] ++ k).drop 4 = k from rfl]
        cases onOff v <;> rfl
      cases hv : onOff v with
      | none =>
        rw [hv] at hval
        refine ⟨_, hwrap _ hval, ?_⟩
        change FieldSays _ _ (badValueText v k)
        rw [badValueText_eq]
        refine .badValue k v (by rw [cpu_chars]; exact h1) hk ?_ ?_
        · rintro rfl
          exact absurd hv (by decide +kernel)
        · rintro rfl
          exact absurd hv (by decide +kernel)
      | some b =>
        rw [hv] at hval
        refine ⟨_, hwrap _ hval, ?_⟩
        have ha : Asks f k b := ⟨by rw [h1, onOff_some.mp hv], hk⟩
        unfold setOptionsP
        split
        · rename_i hall
          exact .known k b ha (.inl hall)
        · rename_i hall
          rw [setFirstP_snd]
          split
          · rename_i hmem
            exact .known k b ha (.inr hmem)
          · rename_i hmem
            rw [unknownText_eq]
            exact .unknown k b ha hall hmem

/-- The first loop prints the lines of the fields in order. -/
theorem loopP_says (fuel : Nat) (opts : List Opt) (env : Str) (hfuel : env.length ≤ fuel) (fields : List Str) (hf : FieldsOf env fields) :
    ∃ ms, loopP fuel opts env = some (fields.foldl effect opts, ms.flatten) ∧ List.Forall₂ (FieldSays (opts.map Opt.name)) fields ms := by
  have hnil : ∀ opts, effect opts [] = opts := by
    intro opts
    unfold effect processField
    rw [if_pos (by simp)]
    rfl
  have hempty : ∀ names, FieldSays names [] [] := fun names => .other (by simp)
  induction fuel generalizing opts env fields with
  | zero =>
    have : env = [] := List.length_eq_zero_iff.mp (by omega)
    subst this
    rw [fieldsOf_one (by simp) hf]
    refine ⟨[[]], ?_, .cons (hempty _) .nil⟩
    simp only [List.foldl_cons, List.foldl_nil, hnil]
    rfl
  | succ fuel ih =>
    rw [loopP]
    split
    · rename_i h
      subst h
      rw [fieldsOf_one (by simp) hf]
      refine ⟨[[]], ?_, .cons (hempty _) .nil⟩
      simp only [List.foldl_cons, List.foldl_nil, hnil]
      rfl
    · split
      · rename_i h
        rw [fieldsOf_one (indexByte_none h) hf]
        obtain ⟨m, h1, h2⟩ := processFieldP_says opts env
        refine ⟨[m], ?_, .cons h2 .nil⟩
        rw [h1]
        simp
      · rename_i i h
        obtain ⟨a, b, rfl, h2, rfl⟩ := indexByte_some h
        obtain ⟨fs, rfl, h4⟩ := fieldsOf_cons h2 hf
        obtain ⟨m, h5, h6⟩ := processFieldP_says opts a
        obtain ⟨ms, h7, h8⟩ := ih (effect opts a) b (by simp only [List.length_append, List.length_cons] at hfuel; omega) fs h4
        rw [effect_names] at h8
        refine ⟨m :: ms, ?_, .cons h6 h8⟩
        rw [slice_prefix _ _ _ (by simp), sliceFrom_suffix, Option.bind_some, Option.bind_some, List.drop_zero, h5, Option.bind_some, h7]
        rfl

/-! ## The options after the first loop -/

/-- What the fields read so far make of an option. -/
def Made (fields : List Str) (o : Opt) (o' : Opt) : Prop :=
  o'.name = o.name ∧ o'.feature = o.feature ∧ o'.required = o.required ∧
    ((o'.specified = false ∧ ∀ f ∈ fields, ∀ b, ¬ Concerns f o.name b) ∨ (o'.specified = true ∧ LastSets fields o o'.enable))

theorem made_snoc {fields : List Str} {f : Str} {o o' : Opt} (h : Made fields o o') (hf : ∀ c, ¬ Concerns f o.name c) : Made (fields ++ [f]) o o' := by
  obtain ⟨h1, h2, h3, h4⟩ := h
  refine ⟨h1, h2, h3, ?_⟩
  rcases h4 with ⟨h4, h5⟩ | ⟨h4, pre, g, post, rfl, h5, h6⟩
  · refine .inl ⟨h4, ?_⟩
    intro x hx c
    rw [List.mem_append, List.mem_singleton] at hx
    rcases hx with hx | rfl
    · exact h5 x hx c
    · exact hf c
  · refine .inr ⟨h4, pre, g, post ++ [f], by simp, h5, ?_⟩
    intro x hx c
    rw [List.mem_append, List.mem_singleton] at hx
    rcases hx with hx | rfl
    · exact h6 x hx c
    · exact hf c

theorem options_made (opts : List Opt) (hn : (opts.map Opt.name).Nodup) (hs : ∀ o ∈ opts, o.specified = false) (fields : List Str) :
    List.Forall₂ (Made fields) opts (fields.foldl effect opts) := by
  induction fields using List.reverseRecOn with
  | nil =>
    rw [List.foldl_nil, List.forall₂_same]
    intro o ho
    exact ⟨rfl, rfl, rfl, .inl ⟨hs o ho, by simp⟩⟩
  | append_singleton fields f ih =>
    rw [List.foldl_append, List.foldl_cons, List.foldl_nil]
    have hlast : ∀ (o o' : Opt) (e : Bool), Made fields o o' → Sets f o e → Made (fields ++ [f]) o { o' with specified := true, enable := e } := by
      intro o o' e h hc
      exact ⟨h.1, h.2.1, h.2.2.1, .inr ⟨rfl, fields, f, [], rfl, hc, by simp⟩⟩
    rcases processField_eq (fields.foldl effect opts) f with ⟨k, b, hk, h⟩ | ⟨hno, h⟩
    · unfold effect at *
      rw [h, Option.getD_some]
      unfold setOptions
      split
      · rename_i hall
        subst hall
        rw [List.forall₂_map_right_iff]
        refine ih.imp fun o o' ho => hlast o o' _ ho ?_
        rw [ho.2.2.1]
        cases hr : o.required
        · exact .inl ⟨by rw [Bool.or_false]; exact hk, hr⟩
        · exact .inr (.inl ⟨⟨b, hk⟩, hr, by simp⟩)
      · rename_i hall
        refine setFirst_forall k b opts _ _ _ ih hn (fun o o' h => h.1) (fun o o' ho he => ?_) fun o o' ho hne => ?_
        · exact hlast o o' b ho (.inr (.inr ⟨by rw [he]; exact hall, he ▸ hk⟩))
        · refine made_snoc ho ?_
          rintro c (hc | hc)
          · exact hne (asks_unique hc hk).1
          · exact hall (asks_unique hk hc).1
    · unfold effect at *
      rw [h, Option.getD_some]
      refine ih.imp fun o o' ho => made_snoc ho ?_
      rintro c (hc | hc)
      · exact hno _ _ hc
      · exact hno _ _ hc

/-! ## The second loop -/

theorem applyOptionP_fst (r : (Nat → Bool) × Str) (o : Opt) : (applyOptionP r o).1 = applyOption r.1 o := by
  unfold applyOptionP applyOption
  split
  · rfl
  · split
    · rfl
    · split <;> rfl

theorem foldP_fst (opts : List Opt) (r : (Nat → Bool) × Str) : (opts.foldl applyOptionP r).1 = opts.foldl applyOption r.1 := by
  induction opts generalizing r with
  | nil => rfl
  | cons o os ih => rw [List.foldl_cons, List.foldl_cons, ih, applyOptionP_fst]

theorem applyOptionP_says (fields : List Str) (had : Bool) (r : (Nat → Bool) × Str) (o o' : Opt) (h : Made fields o o') (hm : r.1 o.feature = had) :
    ∃ m, (applyOptionP r o').2 = r.2 ++ m ∧ OptionSays fields had o m := by
  obtain ⟨h1, h2, h3, h4⟩ := h
  unfold applyOptionP
  rw [h2, hm, h1, h3]
  rcases h4 with ⟨h4, h5⟩ | ⟨h4, h5⟩
  · rw [h4]
    exact ⟨[], by simp, .untouched h5⟩
  · rw [h4]
    cases he : o'.enable
    · rw [he] at h5
      cases hr : o.required
      · exact ⟨[], by simp, .disabled h5 hr⟩
      · refine ⟨_, ?_, .required h5 hr⟩
        rw [← requiredText_eq]; rfl
    · rw [he] at h5
      cases had
      · refine ⟨_, ?_, .missing h5 rfl⟩
        rw [← missingText_eq]; rfl
      · exact ⟨[], by simp, .present h5 rfl⟩

theorem foldP_says (fields : List Str) (mem : Nat → Bool) (opts opts' : List Opt) (h : List.Forall₂ (Made fields) opts opts')
    (hn : (opts.map Opt.feature).Nodup) (r : (Nat → Bool) × Str) (hr : ∀ o ∈ opts, r.1 o.feature = mem o.feature) :
    ∃ ms, (opts'.foldl applyOptionP r).2 = r.2 ++ ms.flatten ∧ List.Forall₂ (fun o m => OptionSays fields (mem o.feature) o m) opts ms := by
  induction h generalizing r with
  | nil => exact ⟨[], by simp, .nil⟩
  | @cons o o' os os' ho hos ih =>
    rw [List.map_cons, List.nodup_cons] at hn
    obtain ⟨m, h1, h2⟩ := applyOptionP_says fields (mem o.feature) r o o' ho (hr o (by simp))
    obtain ⟨ms, h3, h4⟩ := ih hn.2 (applyOptionP r o') (by
      intro x hx
      rw [applyOptionP_fst, applyOption_other _ _ _ (by
        rw [ho.2.1]
        intro he
        exact hn.1 (by rw [← he]; exact List.mem_map_of_mem hx))]
      exact hr x (List.mem_cons_of_mem _ hx))
    refine ⟨m :: ms, ?_, .cons h2 h4⟩
    rw [List.foldl_cons, h3, h1, List.flatten_cons, List.append_assoc]

/-! ## C145 -/

theorem loopP_fst (fuel : Nat) (opts : List Opt) (env : Str) : (loopP fuel opts env).map Prod.fst = loop fuel opts env := by
  induction fuel generalizing opts env with
  | zero => rfl
  | succ fuel ih =>
    rw [loopP, loop]
    split
    · rfl
    · cases indexByte env ',' with
      | none => exact processFieldP_fst opts env
      | some i =>
        simp only
        cases slice env 0 i with
        | none => rfl
        | some field =>
          cases sliceFrom env (i + 1) with
          | none => rfl
          | some rest =>
            simp only [Option.bind_some]
            rw [← processFieldP_fst opts field]
            cases processFieldP opts field with
            | none => rfl
            | some r =>
              simp only [Option.bind_some, Option.map_some]
              rw [← ih r.1 rest]
              cases loopP fuel r.1 rest <;> rfl

/-- C145: printing changes nothing of what is done. -/
theorem C145_same (opts : List Opt) (mem : Nat → Bool) (env : Str) :
    (processOptionsP opts mem env).map Prod.fst = processOptions opts mem env := by
  unfold processOptionsP processOptions
  rw [← loopP_fst]
  cases loopP env.length opts env with
  | none => rfl
  | some r => exact congrArg some (foldP_fst r.1 (mem, r.2))

/-- C145: what is printed is the lines of the fields, in the order of the fields, then the lines of the
options, in the order of the table. -/
theorem C145_printed (opts : List Opt) (hfr : Fresh opts) (mem : Nat → Bool) (env : Str) (fields : List Str) (hf : FieldsOf env fields) :
    ∃ mem' perField perOption, processOptionsP opts mem env = some (mem', perField.flatten ++ perOption.flatten) ∧
      List.Forall₂ (FieldSays (opts.map Opt.name)) fields perField ∧
      List.Forall₂ (fun o m => OptionSays fields (mem o.feature) o m) opts perOption := by
  obtain ⟨ms, h1, h2⟩ := loopP_says env.length opts env (Nat.le_refl _) fields hf
  obtain ⟨ns, h3, h4⟩ := foldP_says fields mem opts _ (options_made opts hfr.1 hfr.2.2 fields) hfr.2.1 (mem, ms.flatten) fun _ _ => rfl
  refine ⟨((fields.foldl effect opts).foldl applyOptionP (mem, ms.flatten)).1, ms, ns, ?_, h2, h4⟩
  unfold processOptionsP
  rw [h1, Option.bind_some]
  exact congrArg some (Prod.ext rfl h3)

/-- The line of a field is determined, so that the lines of C145 are the only ones. -/
theorem C145_field_unique (names : List Str) (field m m' : Str) (h : FieldSays names field m) (h' : FieldSays names field m') : m = m' := by
  have hcpu : ∀ {k : Str} {b : Bool}, Asks field k b → "cpu.".toList <+: field := by
    rintro k b ⟨rfl, -⟩
    rw [List.append_assoc]
    exact List.prefix_append _ _
  have heq : ∀ {k : Str} {b : Bool}, Asks field k b → '=' ∈ field := by
    rintro k b ⟨rfl, -⟩
    simp
  have hsplit : ∀ {k k' v v' : Str}, field = "cpu.".toList ++ k ++ '=' :: v → '=' ∉ k → field = "cpu.".toList ++ k' ++ '=' :: v' → '=' ∉ k' → k = k' ∧ v = v' := by
    intro k k' v v' e hk e' hk'
    rw [e, List.append_assoc, List.append_assoc] at e'
    have e' := List.append_cancel_left e'
    have key : ∀ (k k' : Str), '=' ∉ k → '=' ∉ k' → k ++ '=' :: v = k' ++ '=' :: v' → k = k' ∧ v = v' := by
      intro k
      induction k with
      | nil =>
        intro k' _ hk' h
        cases k' with
        | nil => exact ⟨rfl, by simpa using h⟩
        | cons x xs =>
          simp only [List.nil_append, List.cons_append, List.cons.injEq] at h
          exact absurd (h.1 ▸ List.mem_cons_self) hk'
      | cons y ys ih =>
        intro k' hk hk' h
        cases k' with
        | nil =>
          simp only [List.nil_append, List.cons_append, List.cons.injEq] at h
          exact absurd (h.1 ▸ List.mem_cons_self) hk
        | cons x xs =>
          simp only [List.cons_append, List.cons.injEq] at h
          rw [List.mem_cons, not_or] at hk hk'
          obtain ⟨h1, h2⟩ := ih xs hk.2 hk'.2 h.2
          exact ⟨by rw [h.1, h1], h2⟩
    exact key k k' hk hk' e'
  have hword : ∀ (b : Bool), word b = "on".toList ∨ word b = "off".toList := by
    intro b; cases b
    · exact .inr rfl
    · exact .inl rfl
  have hbad : ∀ {key value k : Str} {b : Bool}, field = "cpu.".toList ++ key ++ '=' :: value → '=' ∉ key → value ≠ "on".toList → value ≠ "off".toList → ¬ Asks field k b := by
    intro key value k b e hk h1 h2 ha
    have := (hsplit e hk ha.1 ha.2).2
    rcases hword b with h | h
    · exact h1 (this.trans h)
    · exact h2 (this.trans h)
  have hbe : ∀ {key value : Str}, field = "cpu.".toList ++ key ++ '=' :: value → '=' ∈ field ∧ "cpu.".toList <+: field := by
    intro key value e
    refine ⟨by rw [e]; simp, ?_⟩
    rw [e, List.append_assoc]
    exact List.prefix_append _ _
  cases h with
  | other h1 =>
    cases h' with
    | other _ => rfl
    | noValue h2 _ => exact absurd h2 h1
    | badValue k v h2 _ _ _ => exact absurd (hbe h2).2 h1
    | unknown k b h2 _ _ => exact absurd (hcpu h2) h1
    | known k b h2 _ => rfl
  | noValue h1 h2 =>
    cases h' with
    | other h3 => exact absurd h1 h3
    | noValue _ _ => rfl
    | badValue k v h3 _ _ _ => exact absurd (hbe h3).1 h2
    | unknown k b h3 _ _ => exact absurd (heq h3) h2
    | known k b h3 _ => exact absurd (heq h3) h2
  | badValue k v h1 h2 h3 h4 =>
    cases h' with
    | other h5 => exact absurd (hbe h1).2 h5
    | noValue _ h5 => exact absurd (hbe h1).1 h5
    | badValue k' v' h5 h6 _ _ =>
      obtain ⟨rfl, rfl⟩ := hsplit h1 h2 h5 h6
      rfl
    | unknown k b h5 _ _ => exact absurd h5 (hbad h1 h2 h3 h4)
    | known k b h5 _ => exact absurd h5 (hbad h1 h2 h3 h4)
  | unknown k b h1 h2 h3 =>
    cases h' with
    | other h5 => exact absurd (hcpu h1) h5
    | noValue _ h5 => exact absurd (heq h1) h5
    | badValue k' v' h5 h6 h7 h8 => exact absurd h1 (hbad h5 h6 h7 h8)
    | unknown k' b' h5 _ _ =>
      obtain ⟨rfl, rfl⟩ := asks_unique h1 h5
      rfl
    | known k' b' h5 h6 =>
      obtain ⟨rfl, rfl⟩ := asks_unique h1 h5
      rcases h6 with h6 | h6
      · exact absurd h6 h2
      · exact absurd h6 h3
  | known k b h1 h2 =>
    cases h' with
    | other h5 => rfl
    | noValue _ h5 => exact absurd (heq h1) h5
    | badValue k' v' h5 h6 h7 h8 => exact absurd h1 (hbad h5 h6 h7 h8)
    | unknown k' b' h5 h6 h7 =>
      obtain ⟨rfl, rfl⟩ := asks_unique h1 h5
      rcases h2 with h2 | h2
      · exact absurd h2 h6
      · exact absurd h2 h7
    | known k' b' h5 h6 => rfl

theorem sets_concerns {f : Str} {o : Opt} {e : Bool} (h : Sets f o e) : ∃ b, Concerns f o.name b := by
  rcases h with ⟨h, -⟩ | ⟨⟨b, h⟩, -⟩ | ⟨-, h⟩
  · exact ⟨e, .inr h⟩
  · exact ⟨b, .inr h⟩
  · exact ⟨e, .inl h⟩

theorem sets_unique {f : Str} {o : Opt} {e e' : Bool} (h : Sets f o e) (h' : Sets f o e') : e = e' := by
  have hall : ∀ {b b'}, o.name ≠ "all".toList → Asks f "all".toList b → ¬ Asks f o.name b' := fun hne ha hb => hne (asks_unique hb ha).1
  rcases h with ⟨h1, h2⟩ | ⟨⟨b, h1⟩, h2, rfl⟩ | ⟨h1, h2⟩ <;> rcases h' with ⟨g1, g2⟩ | ⟨⟨c, g1⟩, g2, rfl⟩ | ⟨g1, g2⟩
  · exact (asks_unique h1 g1).2
  · rw [h2] at g2; cases g2
  · exact absurd g2 (hall g1 h1)
  · rw [h2] at g2; cases g2
  · rfl
  · exact absurd g2 (hall g1 h1)
  · exact absurd h2 (hall h1 g1)
  · exact absurd h2 (hall h1 g1)
  · exact (asks_unique h2 g2).2

theorem lastSets_unique {fields : List Str} {o : Opt} {e e' : Bool} (h : LastSets fields o e) (h' : LastSets fields o e') : e = e' := by
  obtain ⟨pre, f, post, rfl, h1, h2⟩ := h
  obtain ⟨pre', f', post', he, g1, g2⟩ := h'
  rcases List.append_eq_append_iff.mp he with ⟨as, rfl, h3⟩ | ⟨as, rfl, h3⟩
  · cases as with
    | nil =>
      rw [List.nil_append, List.cons.injEq] at h3
      exact sets_unique h1 (h3.1 ▸ g1)
    | cons a as =>
      rw [List.cons_append, List.cons.injEq] at h3
      obtain ⟨b, hb⟩ := sets_concerns g1
      exact absurd hb (h2 f' (by rw [h3.2]; simp) b)
  · cases as with
    | nil =>
      rw [List.nil_append, List.cons.injEq] at h3
      exact sets_unique h1 (h3.1 ▸ g1)
    | cons a as =>
      rw [List.cons_append, List.cons.injEq] at h3
      obtain ⟨b, hb⟩ := sets_concerns h1
      exact absurd hb (g2 f (by rw [h3.2]; simp) b)

/-- The line of an option is determined as well. -/
theorem C145_option_unique (fields : List Str) (had : Bool) (o : Opt) (m m' : Str) (h : OptionSays fields had o m) (h' : OptionSays fields had o m') : m = m' := by
  have hno : ∀ {e}, (∀ f ∈ fields, ∀ b, ¬ Concerns f o.name b) → ¬ LastSets fields o e := by
    rintro e hn ⟨pre, f, post, rfl, h1, -⟩
    obtain ⟨b, hb⟩ := sets_concerns h1
    exact hn f (by simp) b hb
  have htf : LastSets fields o true → ¬ LastSets fields o false := fun a b => by cases lastSets_unique a b
  cases h with
  | untouched h1 =>
    cases h' with
    | untouched _ => rfl
    | missing h2 _ => exact absurd h2 (hno h1)
    | present _ _ => rfl
    | required h2 _ => exact absurd h2 (hno h1)
    | disabled _ _ => rfl
  | missing h1 h2 =>
    cases h' with
    | untouched h3 => exact absurd h1 (hno h3)
    | missing _ _ => rfl
    | present _ h3 => rw [h2] at h3; cases h3
    | required h3 _ => exact absurd h3 (htf h1)
    | disabled h3 _ => exact absurd h3 (htf h1)
  | present h1 h2 =>
    cases h' with
    | untouched h3 => rfl
    | missing _ h3 => rw [h2] at h3; cases h3
    | present _ h3 => rfl
    | required h3 _ => exact absurd h3 (htf h1)
    | disabled h3 _ => rfl
  | required h1 h2 =>
    cases h' with
    | untouched h3 => exact absurd h1 (hno h3)
    | missing h3 _ => exact absurd h1 (htf h3)
    | present h3 _ => exact absurd h1 (htf h3)
    | required h3 _ => rfl
    | disabled _ h3 => rw [h2] at h3; cases h3
  | disabled h1 h2 =>
    cases h' with
    | untouched h3 => rfl
    | missing h3 _ => exact absurd h1 (htf h3)
    | present h3 _ => rfl
    | required _ h3 => rw [h2] at h3; cases h3
    | disabled h3 _ => rfl

/-- C145: a string without a field of the package prints nothing and changes nothing. -/
theorem C145_silent (opts : List Opt) (hfr : Fresh opts) (mem : Nat → Bool) (env : Str) (fields : List Str) (hf : FieldsOf env fields)
    (hno : ∀ f ∈ fields, ¬ "cpu.".toList <+: f) : processOptionsP opts mem env = some (mem, []) := by
  obtain ⟨mem', ms, ns, h1, h2, h3⟩ := C145_printed opts hfr mem env fields hf
  have hm : ms.flatten = [] := by
    rw [List.flatten_eq_nil_iff]
    clear hf h1 h3
    induction h2 with
    | nil => simp
    | @cons f m fs ms hfm _ ih =>
      intro l hl
      rw [List.mem_cons] at hl
      rcases hl with rfl | hl
      · exact C145_field_unique _ _ _ _ hfm (.other (hno f (by simp)))
      · exact ih (fun x hx => hno x (List.mem_cons_of_mem _ hx)) l hl
  have hcon : ∀ f ∈ fields, ∀ name b, ¬ Concerns f name b := by
    intro f hfm name b hc
    apply hno f hfm
    rcases hc with ⟨rfl, -⟩ | ⟨rfl, -⟩ <;> rw [List.append_assoc] <;> exact List.prefix_append _ _
  have hlast : ∀ (o : Opt) e, ¬ LastSets fields o e := by
    rintro o e ⟨pre, f, post, rfl, hs, -⟩
    have hfm : f ∈ pre ++ f :: post := by simp
    rcases hs with ⟨h, -⟩ | ⟨⟨b, h⟩, -⟩ | ⟨-, h⟩
    · exact hcon f hfm o.name e (.inr h)
    · exact hcon f hfm o.name b (.inr h)
    · exact hcon f hfm o.name e (.inl h)
  have hn : ns.flatten = [] := by
    rw [List.flatten_eq_nil_iff]
    clear h1 h2 hfr
    induction h3 with
    | nil => simp
    | @cons o m os ns ho _ ih =>
      intro l hl
      rw [List.mem_cons] at hl
      rcases hl with rfl | hl
      · cases ho with
        | untouched _ => rfl
        | missing h _ => exact absurd h (hlast _ _)
        | present h _ => rfl
        | required h _ => exact absurd h (hlast _ _)
        | disabled h _ => rfl
      · exact ih l hl
  have hsame := C145_same opts mem env
  rw [h1, Option.map_some] at hsame
  have hmem : mem' = mem := by
    funext a
    by_cases ha : ∃ o ∈ opts, a = o.feature
    · obtain ⟨o, ho, rfl⟩ := ha
      exact C69_untouched opts hfr mem mem' env hsame.symm fields hf o ho fun f hfm b => hcon f hfm o.name b
    · push Not at ha
      obtain ⟨mem'', e1, e2, -⟩ := options_main opts hfr mem env fields hf
      rw [← hsame] at e1
      cases e1
      exact e2 a ha
  rw [h1, hm, hn, hmem]
  rfl

example : (processOptionsP testTable (fun a => a ≠ 0) "cpu.all=off,cpu.avx=on,cpu.aes,x,cpu.foo=on,cpu.sse2=off,cpu.aes=1".toList).map (fun r => r.2) =
    some ("GODEBUG: no value specified for \"cpu.aes\"\nGODEBUG: unknown cpu feature \"foo\"\nGODEBUG: value \"1\" not supported for cpu option \"aes\"\nGODEBUG: can not enable \"avx\", missing CPU support\nGODEBUG: can not disable \"sse2\", required CPU feature\n").toList := by
  decide +kernel

/-- Without the processor's support, `all=off` makes the program report that a required feature can not be
enabled, which nobody asked for. -/
example : (processOptionsP testTable (fun a => a ≠ 2) "cpu.all=off".toList).map (fun r => r.2) =
    some "GODEBUG: can not enable \"sse2\", missing CPU support\n".toList := by
  decide +kernel

end Verif.Cpu
