import Verif.Link.BuildModel
import Verif.Link.LinkModel
import Mathlib.Data.List.Nodup

/-!
# Property C152: the files chosen for a target fit together
-/

namespace Verif.Link.Build

/-! ## Specification -/

/-- The files that are built. -/
def built (fs : List Source) (t : Target) : List Source := fs.filter fun f => f.selected t.holds

/-- No name is declared twice, and every name in use is declared. -/
def Named (fs : List Source) : Prop :=
  (fs.flatMap (·.decls)).Nodup ∧ ∀ f ∈ fs, ∀ n ∈ f.uses, n ∈ fs.flatMap (·.decls)

/-- Every function without a body is defined in assembly exactly once. -/
def Bodied (fs : List Source) : Prop :=
  ∀ f ∈ fs, ∀ n ∈ f.bodiless, (fs.flatMap (·.texts)).count n = 1

/-- Assembly defines only functions that are declared without a body. -/
def Wanted (fs : List Source) : Prop :=
  ∀ n ∈ fs.flatMap (·.texts), n ∈ fs.flatMap (·.bodiless)

instance (fs : List Source) : Decidable (Named fs) := by unfold Named; infer_instance
instance (fs : List Source) : Decidable (Bodied fs) := by unfold Bodied; infer_instance
instance (fs : List Source) : Decidable (Wanted fs) := by unfold Wanted; infer_instance

/-- The architectures of package internal/cpu. -/
def cpuArchs : List String :=
  ["386", "amd64", "arm", "arm64", "mips", "mipsle", "mips64", "mips64le", "ppc64", "ppc64le", "riscv64", "s390x", "wasm"]

/-- A target as the go command is given it: the architecture is not the name of an operating system nor the other way round, and no other tag is the name of
either, or `ignore`. -/
structure Target.Fair (t : Target) : Prop where
  os : t.os ∉ knownArch
  arch : t.arch ∉ knownOS
  tags : ∀ n ∈ t.tags, n ∉ knownOS ∧ n ∉ knownArch ∧ n ≠ "ignore"
  os' : t.os ≠ "ignore" ∧ t.os ≠ "gofuzz"
  arch' : t.arch ≠ "ignore" ∧ t.arch ≠ "gofuzz"

/-! ## From all targets to finitely many -/

/-- The names of operating systems that the files mention, or that stand for those. -/
def osNames : List String := ["linux", "android", "darwin", "ios", "freebsd", "aix", "windows"]

/-- The tags that the constraints mention. -/
def Cond.tags : Cond → List String
  | .tag n => [n]
  | .not c => c.tags
  | .and c d => c.tags ++ d.tags
  | .or c d => c.tags ++ d.tags

/-- The tags that the choice of a file may depend on. -/
def Source.tags (f : Source) : List String :=
  f.parts.tail.filter (fun n => knownArch.contains n || knownOS.contains n) ++ (match f.cond with | some c => c.tags | none => f.plus.flatten.flatten.map (·.2))

/-- All of them. -/
def mentioned : List String := osNames ++ cpuArchs ++ ["ignore", "gofuzz"]

theorem eval_congr {h h' : String → Bool} (c : Cond) (e : ∀ n ∈ c.tags, h n = h' n) : c.eval h = c.eval h' := by
  induction c with
  | tag n => exact e n (by simp [Cond.tags])
  | not c ih => rw [Cond.eval, Cond.eval, ih e]
  | and c d ih1 ih2 => rw [Cond.eval, Cond.eval, ih1 fun n hn => e n (by simp [Cond.tags, hn]), ih2 fun n hn => e n (by simp [Cond.tags, hn])]
  | or c d ih1 ih2 => rw [Cond.eval, Cond.eval, ih1 fun n hn => e n (by simp [Cond.tags, hn]), ih2 fun n hn => e n (by simp [Cond.tags, hn])]

theorem all_congr' {α : Type} {p q : α → Bool} {l : List α} (h : ∀ a ∈ l, p a = q a) : l.all p = l.all q := by
  induction l with
  | nil => rfl
  | cons a l ih => rw [List.all_cons, List.all_cons, h a (by simp), ih fun b hb => h b (by simp [hb])]

theorem any_congr' {α : Type} {p q : α → Bool} {l : List α} (h : ∀ a ∈ l, p a = q a) : l.any p = l.any q := by
  induction l with
  | nil => rfl
  | cons a l ih => rw [List.any_cons, List.any_cons, h a (by simp), ih fun b hb => h b (by simp [hb])]

theorem plus_congr {h h' : String → Bool} (p : Plus) (e : ∀ n ∈ p.flatten.flatten.map (·.2), h n = h' n) : p.eval h = p.eval h' := by
  unfold Plus.eval
  refine all_congr' fun line hl => any_congr' fun o ho => all_congr' fun t ht => ?_
  rw [e t.2 (List.mem_map.2 ⟨t, List.mem_flatten.2 ⟨o, List.mem_flatten.2 ⟨line, hl, ho⟩, ht⟩, rfl⟩)]

theorem end_congr {h h' : String → Bool} (l : List String) (e : ∀ n ∈ l, (knownArch.contains n || knownOS.contains n) = true → h n = h' n) :
    endOk h l = endOk h' l := by
  rcases l with _ | ⟨a, _ | ⟨o, l⟩⟩
  · rfl
  · simp only [endOk]
    split
    · rename_i hc
      exact e a (by simp) hc
    · rfl
  · simp only [endOk]
    split
    · rename_i hc
      rw [Bool.and_eq_true] at hc
      rw [e a (by simp) (by rw [hc.1]; rfl), e o (by simp) (by rw [hc.2, Bool.or_true])]
    · split
      · rename_i hc
        exact e a (by simp) hc
      · rfl

theorem selected_congr {h h' : String → Bool} (f : Source) (e : ∀ n ∈ f.tags, h n = h' n) : f.selected h = f.selected h' := by
  unfold Source.selected
  rw [end_congr (h' := h') _ fun n hn hk => e n (List.mem_append.2 (Or.inl (List.mem_filter.2 ⟨List.mem_reverse.1 hn, hk⟩)))]
  congr 1
  unfold Source.tags at e
  rcases f with ⟨_, _, c, p, _, _, _, _⟩
  cases c with
  | some c => exact eval_congr c fun n hn => e n (List.mem_append.2 (Or.inr hn))
  | none => exact plus_congr p fun n hn => e n (List.mem_append.2 (Or.inr hn))

/-- A name, or a question mark if it is not one of those of the list. -/
def norm (l : List String) (s : String) : String := if s ∈ l then s else "?"

theorem norm_mem (l : List String) (s : String) : norm l s ∈ "?" :: l := by
  unfold norm
  split
  · rename_i h
    exact List.mem_cons_of_mem _ h
  · exact List.mem_cons_self

theorem norm_eq {l : List String} {s n : String} (hn : n ∈ l) (hq : n ≠ "?") : norm l s = n ↔ s = n := by
  unfold norm
  split
  · rfl
  · rename_i h
    constructor
    · exact fun e => absurd e.symm hq
    · rintro rfl
      exact absurd hn h

theorem norm_ne {l : List String} {s n : String} (hn : n ∉ l) (hq : n ≠ "?") : norm l s ≠ n := by
  unfold norm
  split
  · rintro rfl
    exact hn (by assumption)
  · exact fun e => hq e.symm

theorem names_known : (∀ n ∈ osNames, n ∈ knownOS ∧ n ≠ "?" ∧ n ∉ cpuArchs) ∧ (∀ n ∈ cpuArchs, n ∈ knownArch ∧ n ≠ "?" ∧ n ∉ osNames) := by
  decide

theorem holds_norm (t : Target) (ht : t.Fair) : ∀ n ∈ mentioned,
    t.holds n = (⟨norm osNames t.os, norm cpuArchs t.arch, if "gofuzz" ∈ t.tags then ["gofuzz"] else []⟩ : Target).holds n := by
  have b : ∀ a c : String, ∀ a' c' : String, (a = c ↔ a' = c') → (a == c) = (a' == c') := by
    intro a c a' c' h
    rw [Bool.eq_iff_iff, beq_iff_eq, beq_iff_eq, h]
  have hsub : ∀ n ∈ osNames ++ cpuArchs ++ ["ignore"], (if "gofuzz" ∈ t.tags then ["gofuzz"] else []).contains n = false := by
    intro n hn
    have : n ≠ "gofuzz" := by
      rintro rfl
      revert hn
      decide
    split
    · simp [this]
    · rfl
  intro n hn
  unfold Target.holds
  unfold mentioned at hn
  have e1 : (n == "linux" && t.os == "android") = (n == "linux" && norm osNames t.os == "android") := by
    rw [b t.os "android" (norm osNames t.os) "android" (norm_eq (by decide) (by decide)).symm]
  have e2 : (n == "darwin" && t.os == "ios") = (n == "darwin" && norm osNames t.os == "ios") := by
    rw [b t.os "ios" (norm osNames t.os) "ios" (norm_eq (by decide) (by decide)).symm]
  have e3 : (n == "solaris") = false := by
    rw [beq_eq_false_iff_ne]
    rintro rfl
    revert hn
    decide
  have os : ∀ m, m ∉ osNames → m ≠ "?" → t.os ≠ m → (m == t.os) = (m == norm osNames t.os) := by
    intro m h1 h2 h3
    rw [beq_eq_false_iff_ne.2 (Ne.symm h3), beq_eq_false_iff_ne.2 (norm_ne h1 h2).symm]
  have ar : ∀ m, m ∉ cpuArchs → m ≠ "?" → t.arch ≠ m → (m == t.arch) = (m == norm cpuArchs t.arch) := by
    intro m h1 h2 h3
    rw [beq_eq_false_iff_ne.2 (Ne.symm h3), beq_eq_false_iff_ne.2 (norm_ne h1 h2).symm]
  have key : (n == t.os) = (n == norm osNames t.os) ∧ (n == t.arch) = (n == norm cpuArchs t.arch) ∧
      t.tags.contains n = (if "gofuzz" ∈ t.tags then ["gofuzz"] else []).contains n := by
    rcases List.mem_append.1 hn with hn' | hn'
    · have htag : n ∈ knownOS ∨ n ∈ knownArch := by
        rcases List.mem_append.1 hn' with h | h
        · exact Or.inl (names_known.1 n h).1
        · exact Or.inr (names_known.2 n h).1
      have h3 : t.tags.contains n = (if "gofuzz" ∈ t.tags then ["gofuzz"] else []).contains n := by
        rw [hsub n (List.mem_append_left _ hn'), List.contains_eq_mem, decide_eq_false_iff_not]
        intro hh
        rcases htag with h | h
        · exact (ht.tags n hh).1 h
        · exact (ht.tags n hh).2.1 h
      rcases List.mem_append.1 hn' with h | h
      · obtain ⟨k1, k2, k3⟩ := names_known.1 n h
        refine ⟨b _ _ _ _ ?_, ar n k3 k2 ?_, h3⟩
        · rw [eq_comm, ← norm_eq h k2, eq_comm]
        · rintro e
          exact ht.arch (e ▸ k1)
      · obtain ⟨k1, k2, k3⟩ := names_known.2 n h
        refine ⟨os n k3 k2 ?_, b _ _ _ _ ?_, h3⟩
        · rintro e
          exact ht.os (e ▸ k1)
        · rw [eq_comm, ← norm_eq h k2, eq_comm]
    · rw [List.mem_cons, List.mem_singleton] at hn'
      rcases hn' with rfl | rfl
      · refine ⟨os _ (by decide) (by decide) ht.os'.1, ar _ (by decide) (by decide) ht.arch'.1, ?_⟩
        rw [hsub _ (by decide), List.contains_eq_mem, decide_eq_false_iff_not]
        exact fun hh => (ht.tags _ hh).2.2 rfl
      · refine ⟨os _ (by decide) (by decide) ht.os'.2, ar _ (by decide) (by decide) ht.arch'.2, ?_⟩
        split
        · rename_i h
          rw [List.contains_eq_mem, decide_eq_true h]
          decide
        · rename_i h
          rw [List.contains_eq_mem, decide_eq_false h]
          rfl
  rw [key.1, key.2.1, key.2.2, e1, e2, e3, Bool.false_and]
  simp

theorem cpu_table1 : ∀ a ∈ "?" :: cpuArchs, ∀ os ∈ ["?", "linux", "android", "darwin"],
    (Named (built cpuFiles ⟨os, a, []⟩) ↔ a ∈ cpuArchs ∧ (a ∈ ["ppc64", "ppc64le"] → os ∈ ["linux", "android", "aix"])) ∧
    (Bodied (built cpuFiles ⟨os, a, []⟩) ↔ ¬ (a = "arm64" ∧ os = "darwin") ∧ ¬ (a ∈ ["ppc64", "ppc64le"] ∧ os = "aix")) ∧
    Wanted (built cpuFiles ⟨os, a, []⟩) := by decide +kernel

theorem cpu_table2 : ∀ a ∈ "?" :: cpuArchs, ∀ os ∈ ["ios", "freebsd", "aix", "windows"],
    (Named (built cpuFiles ⟨os, a, []⟩) ↔ a ∈ cpuArchs ∧ (a ∈ ["ppc64", "ppc64le"] → os ∈ ["linux", "android", "aix"])) ∧
    (Bodied (built cpuFiles ⟨os, a, []⟩) ↔ ¬ (a = "arm64" ∧ os = "darwin") ∧ ¬ (a ∈ ["ppc64", "ppc64le"] ∧ os = "aix")) ∧
    Wanted (built cpuFiles ⟨os, a, []⟩) := by decide +kernel

theorem cpu_table : ∀ os ∈ "?" :: osNames, ∀ a ∈ "?" :: cpuArchs,
    (Named (built cpuFiles ⟨os, a, []⟩) ↔ a ∈ cpuArchs ∧ (a ∈ ["ppc64", "ppc64le"] → os ∈ ["linux", "android", "aix"])) ∧
    (Bodied (built cpuFiles ⟨os, a, []⟩) ↔ ¬ (a = "arm64" ∧ os = "darwin") ∧ ¬ (a ∈ ["ppc64", "ppc64le"] ∧ os = "aix")) ∧
    Wanted (built cpuFiles ⟨os, a, []⟩) := by
  intro os hos a ha
  have : os ∈ ["?", "linux", "android", "darwin"] ++ ["ios", "freebsd", "aix", "windows"] := hos
  rcases List.mem_append.1 this with h | h
  · exact cpu_table1 a ha os h
  · exact cpu_table2 a ha os h

theorem dsp_table1a : ∀ a ∈ ["?", "386", "amd64", "arm", "arm64"],
    Named (built dspFiles ⟨"?", a, []⟩) ∧ (Bodied (built dspFiles ⟨"?", a, []⟩) ↔ a = "amd64") ∧ Wanted (built dspFiles ⟨"?", a, []⟩) := by
  decide +kernel

theorem dsp_table1b : ∀ a ∈ ["?", "386", "amd64", "arm", "arm64"],
    Named (built dspFiles ⟨"?", a, ["gofuzz"]⟩) ∧ (Bodied (built dspFiles ⟨"?", a, ["gofuzz"]⟩) ↔ a = "amd64") ∧ Wanted (built dspFiles ⟨"?", a, ["gofuzz"]⟩) := by
  decide +kernel

theorem dsp_table2a : ∀ a ∈ ["?", "386", "amd64", "arm", "arm64"],
    (¬ Named (built dspFiles ⟨"windows", a, []⟩)) ∧ (Bodied (built dspFiles ⟨"windows", a, []⟩) ↔ a = "amd64") ∧ Wanted (built dspFiles ⟨"windows", a, []⟩) := by
  decide +kernel

theorem dsp_table2b : ∀ a ∈ ["?", "386", "amd64", "arm", "arm64"],
    (¬ Named (built dspFiles ⟨"windows", a, ["gofuzz"]⟩)) ∧ (Bodied (built dspFiles ⟨"windows", a, ["gofuzz"]⟩) ↔ a = "amd64") ∧ Wanted (built dspFiles ⟨"windows", a, ["gofuzz"]⟩) := by
  decide +kernel

theorem dsp_table1 : ∀ a ∈ ["?", "386", "amd64", "arm", "arm64"], ∀ g ∈ [[], ["gofuzz"]],
    Named (built dspFiles ⟨"?", a, g⟩) ∧ (Bodied (built dspFiles ⟨"?", a, g⟩) ↔ a = "amd64") ∧ Wanted (built dspFiles ⟨"?", a, g⟩) := by
  intro a ha g hg
  rw [List.mem_cons, List.mem_singleton] at hg
  rcases hg with rfl | rfl
  · exact dsp_table1a a ha
  · exact dsp_table1b a ha

theorem dsp_table2 : ∀ a ∈ ["?", "386", "amd64", "arm", "arm64"], ∀ g ∈ [[], ["gofuzz"]],
    (¬ Named (built dspFiles ⟨"windows", a, g⟩)) ∧ (Bodied (built dspFiles ⟨"windows", a, g⟩) ↔ a = "amd64") ∧ Wanted (built dspFiles ⟨"windows", a, g⟩) := by
  intro a ha g hg
  rw [List.mem_cons, List.mem_singleton] at hg
  rcases hg with rfl | rfl
  · exact dsp_table2a a ha
  · exact dsp_table2b a ha

/-- The tags that choose the files of package dsp. -/
def dspTags : List String := ["windows", "386", "amd64", "arm", "arm64", "ignore", "gofuzz"]

theorem tags_mentioned : (∀ f ∈ cpuFiles, ∀ n ∈ f.tags, n ∈ osNames ++ cpuArchs) ∧ (∀ f ∈ dspFiles, ∀ n ∈ f.tags, n ∈ dspTags) := by decide +kernel

theorem dsp_norm : ∀ os ∈ "?" :: osNames, ∀ a ∈ "?" :: cpuArchs, ∀ g ∈ [[], ["gofuzz"]], ∀ n ∈ dspTags,
    (⟨os, a, g⟩ : Target).holds n = (⟨norm ["windows"] os, norm ["386", "amd64", "arm", "arm64"] a, g⟩ : Target).holds n := by decide +kernel

theorem filter_holds {fs : List Source} {T : List String} {t t' : Target} (hm : ∀ f ∈ fs, ∀ n ∈ f.tags, n ∈ T) (e : ∀ n ∈ T, t.holds n = t'.holds n) :
    built fs t = built fs t' :=
  List.filter_congr fun f hf => selected_congr f fun n hn => e n (hm f hf n hn)

theorem norm_iff {l l' : List String} (hl : ∀ n ∈ l', n ∈ l ∧ n ≠ "?") (s : String) : norm l s ∈ l' ↔ s ∈ l' := by
  constructor
  · intro h
    exact (norm_eq (hl _ h).1 (hl _ h).2).1 rfl ▸ h
  · intro h
    rwa [(norm_eq (hl _ h).1 (hl _ h).2).2 rfl]

theorem norm_norm {l l' : List String} (hl : ∀ n ∈ l', n ∈ l ∧ n ≠ "?") (s : String) : norm l' (norm l s) = norm l' s := by
  by_cases h : s ∈ l'
  · rw [(norm_eq (hl _ h).1 (hl _ h).2).2 rfl]
  · have h' := fun hh => h ((norm_iff hl s).1 hh)
    rw [norm, if_neg h', norm, if_neg h]

theorem cpu_built (t : Target) (ht : t.Fair) : built cpuFiles t = built cpuFiles ⟨norm osNames t.os, norm cpuArchs t.arch, []⟩ := by
  refine filter_holds tags_mentioned.1 fun n hn => ?_
  rw [holds_norm t ht n (List.mem_append_left _ hn)]
  have : n ≠ "gofuzz" := by
    rintro rfl
    revert hn
    decide
  unfold Target.holds
  congr 1
  simp only
  split
  · simp [this]
  · rfl

theorem dsp_built (t : Target) (ht : t.Fair) : ∃ g ∈ [[], ["gofuzz"]],
    built dspFiles t = built dspFiles ⟨norm ["windows"] t.os, norm ["386", "amd64", "arm", "arm64"] t.arch, g⟩ := by
  refine ⟨if "gofuzz" ∈ t.tags then ["gofuzz"] else [], by split <;> simp, filter_holds tags_mentioned.2 fun n hn => ?_⟩
  have hsub : ∀ n ∈ dspTags, n ∈ mentioned := by decide
  rw [holds_norm t ht n (hsub n hn), dsp_norm _ (norm_mem _ _) _ (norm_mem _ _) _ (by split <;> simp) n hn]
  rw [norm_norm (by decide), norm_norm (by decide)]

/-! ## The property -/

/-- C152: the names of package internal/cpu fit together on exactly these targets, whatever the operating system is called: the thirteen architectures, and of
ppc64 and ppc64le only with Linux, Android and AIX. -/
theorem C152_cpu_names_partial (t : Target) (ht : t.Fair) : Named (built cpuFiles t) ↔
    t.arch ∈ cpuArchs ∧ (t.arch = "ppc64" ∨ t.arch = "ppc64le" → t.os = "linux" ∨ t.os = "android" ∨ t.os = "aix") := by
  rw [cpu_built t ht, (cpu_table _ (norm_mem _ _) _ (norm_mem _ _)).1, norm_iff (by decide), norm_iff (by decide), norm_iff (by decide)]
  simp

/-- C152: of its functions without a body all are defined in assembly, except `getsysctlbyname` on macOS/arm64 and `getsystemcfg` on AIX; and assembly defines
nothing else. -/
theorem C152_cpu_bodies_partial (t : Target) (ht : t.Fair) : (Bodied (built cpuFiles t) ↔
    ¬ (t.arch = "arm64" ∧ t.os = "darwin") ∧ ¬ ((t.arch = "ppc64" ∨ t.arch = "ppc64le") ∧ t.os = "aix")) ∧ Wanted (built cpuFiles t) := by
  rw [cpu_built t ht]
  obtain ⟨-, h2, h3⟩ := cpu_table _ (norm_mem osNames t.os) _ (norm_mem cpuArchs t.arch)
  refine ⟨h2.trans ?_, h3⟩
  rw [norm_eq (by decide) (by decide), norm_eq (by decide) (by decide), norm_eq (by decide) (by decide), norm_iff (by decide)]
  simp

/-- C152: the names of package dsp fit together on every target but Windows; its functions without a body are all defined on amd64 only. -/
theorem C152_dsp_partial (t : Target) (ht : t.Fair) : (Named (built dspFiles t) ↔ t.os ≠ "windows") ∧ (Bodied (built dspFiles t) ↔ t.arch = "amd64") ∧
    Wanted (built dspFiles t) := by
  obtain ⟨g, hg, e⟩ := dsp_built t ht
  rw [e]
  have ha := norm_mem ["386", "amd64", "arm", "arm64"] t.arch
  have h2 : norm ["386", "amd64", "arm", "arm64"] t.arch = "amd64" ↔ t.arch = "amd64" := norm_eq (by decide) (by decide)
  by_cases hw : t.os = "windows"
  · have : norm ["windows"] t.os = "windows" := (norm_eq (by decide) (by decide)).2 hw
    rw [this]
    obtain ⟨k1, k2, k3⟩ := dsp_table2 _ ha g hg
    exact ⟨⟨fun h => absurd h k1, fun h => absurd hw h⟩, k2.trans h2, k3⟩
  · have : norm ["windows"] t.os = "?" := by rw [norm, if_neg (by simpa using hw)]
    rw [this]
    obtain ⟨k1, k2, k3⟩ := dsp_table1 _ ha g hg
    exact ⟨⟨fun _ => hw, fun _ => k1⟩, k2.trans h2, k3⟩

/-- **C152 does not hold**: with Go's own list of targets, package internal/cpu does not fit on linux/loong64 nor on openbsd/ppc64, and package dsp does not on
windows/amd64 nor, for want of bodies, on linux/arm64. -/
theorem C152_violated : (¬ Named (built cpuFiles ⟨"linux", "loong64", []⟩)) ∧ (¬ Named (built cpuFiles ⟨"openbsd", "ppc64", []⟩)) ∧
    (¬ Bodied (built cpuFiles ⟨"darwin", "arm64", []⟩)) ∧ (¬ Named (built dspFiles ⟨"windows", "amd64", []⟩)) ∧
    ¬ Bodied (built dspFiles ⟨"linux", "arm64", []⟩) := by
  have f : ∀ os a, os ∈ knownOS → a ∈ knownArch → (⟨os, a, []⟩ : Target).Fair := by
    intro os a h1 h2
    have d : (∀ n ∈ knownOS, n ∉ knownArch ∧ n ≠ "ignore" ∧ n ≠ "gofuzz") ∧ (∀ n ∈ knownArch, n ∉ knownOS ∧ n ≠ "ignore" ∧ n ≠ "gofuzz") := by decide +kernel
    exact ⟨(d.1 os h1).1, (d.2 a h2).1, by simp, (d.1 os h1).2, (d.2 a h2).2⟩
  refine ⟨?_, ?_, ?_, ?_, ?_⟩
  · rw [C152_cpu_names_partial _ (f _ _ (by decide) (by decide))]
    decide
  · rw [C152_cpu_names_partial _ (f _ _ (by decide) (by decide))]
    decide
  · rw [(C152_cpu_bodies_partial _ (f _ _ (by decide) (by decide))).1]
    decide
  · rw [(C152_dsp_partial _ (f _ _ (by decide) (by decide))).1]
    decide
  · rw [(C152_dsp_partial _ (f _ _ (by decide) (by decide))).2.1]
    decide

/-- C152: where a file has its constraint in both notations, the two say the same, whatever tags hold. -/
theorem C152_notations (h : String → Bool) : ∀ f ∈ cpuFiles ++ dspFiles, ∀ c, f.cond = some c → c.eval h = f.plus.eval h := by
  have hall : ∀ f ∈ (cpuFiles ++ dspFiles).filter (fun f => f.cond.isSome), ∀ c, f.cond = some c → c.eval h = f.plus.eval h := by
    simp only [cpuFiles, dspFiles, List.cons_append, List.nil_append, List.filter_cons, Option.isSome_some, Option.isSome_none, if_true, Bool.false_eq_true,
      if_false, List.filter_nil, List.forall_mem_cons, List.not_mem_nil, false_imp_iff, implies_true, and_true, Option.some.injEq, forall_eq']
    simp only [Cond.eval, Plus.eval, List.all_cons, List.all_nil, List.any_cons, List.any_nil, Bool.and_true, Bool.or_false, beq_true, beq_false]
    cases h "arm64" <;> cases h "linux" <;> cases h "freebsd" <;> cases h "android" <;> cases h "darwin" <;> cases h "ios" <;> simp
  intro f hf c hc
  exact hall f (List.mem_filter.2 ⟨hf, by rw [hc]; rfl⟩) c hc

/-- The name of an architecture of C94. -/
def archName : Arch → String
  | .amd64 => "amd64"
  | .i386 => "386"
  | .arm => "arm"
  | .arm64 => "arm64"

/-- C152: what C94 takes for granted: on its four architectures the files chosen define in assembly just the functions in its tables, and leave without a body
just those in its list. -/
theorem C152_tables (a : Arch) : ((built dspFiles ⟨"linux", archName a, []⟩).flatMap (·.texts)).Perm ((texts a).map (·.name)) ∧
    ((built dspFiles ⟨"linux", archName a, []⟩).flatMap (·.bodiless)).Perm (declared.map (·.1)) := by
  cases a <;> decide +kernel

/-- The hypotheses can be met: the usual targets, and one with tags. -/
example : (⟨"linux", "amd64", ["gc", "cgo", "go1.17", "gofuzz", "unix"]⟩ : Target).Fair ∧ (⟨"plan9", "arm", []⟩ : Target).Fair :=
  ⟨⟨by decide +kernel, by decide +kernel, by decide +kernel, by decide, by decide⟩, ⟨by decide +kernel, by decide +kernel, by decide +kernel, by decide, by decide⟩⟩

end Verif.Link.Build
