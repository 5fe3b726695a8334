import Verif.Cpu.NeonModel
import Mathlib.Data.List.Basic
import Mathlib.Tactic.Common

/-!
# Property C96: NEON is used exactly on the processors that have it
-/

namespace Verif.Cpu.Neon

/-! ## Regular expressions -/

/-- What the operators mean, for a piece `m` of a text with the byte `prev` before it and `post` after it. -/
def Means : Re → Option Char → List Char → List Char → Prop
  | .bol, prev, m, _ => m = [] ∧ (prev = none ∨ prev = some '\n')
  | .eol, _, m, post => m = [] ∧ (post = [] ∨ ∃ r, post = '\n' :: r)
  | .lit s, _, m, _ => m = s
  | .dotStar, _, m, _ => '\n' ∉ m
  | .alt a b, prev, m, post => Means a prev m post ∨ Means b prev m post
  | .cat a b, prev, m, post => ∃ m₁ m₂, m = m₁ ++ m₂ ∧ Means a prev m₁ (m₂ ++ post) ∧ Means b (lastOf prev m₁) m₂ post

theorem lastOf_nil (p : Option Char) : lastOf p [] = p := by simp [lastOf]

theorem lastOf_append (p : Option Char) (a b : List Char) : lastOf (lastOf p a) b = lastOf p (a ++ b) := by
  unfold lastOf
  rw [List.getLast?_append]
  cases b.getLast? <;> simp

theorem lastOf_cons (p : Option Char) (c : Char) (m : List Char) : lastOf p (c :: m) = lastOf (some c) m := by
  rw [show some c = lastOf p [c] from by simp [lastOf], lastOf_append]
  rfl

theorem matchStar_iff (k : Option Char → List Char → Bool) (rest : List Char) : ∀ prev,
    matchStar k prev rest = true ↔ ∃ m post, rest = m ++ post ∧ '\n' ∉ m ∧ k (lastOf prev m) post = true := by
  induction rest with
  | nil =>
    intro prev
    unfold matchStar
    constructor
    · intro h
      exact ⟨[], [], rfl, by simp, by rw [lastOf_nil]; exact h⟩
    · rintro ⟨m, post, h1, _, h3⟩
      obtain ⟨rfl, rfl⟩ := List.append_eq_nil_iff.1 h1.symm
      rwa [lastOf_nil] at h3
  | cons c cs ih =>
    intro prev
    unfold matchStar
    rw [Bool.or_eq_true, Bool.and_eq_true, ih, bne_iff_ne]
    constructor
    · rintro (h | ⟨hc, m, post, rfl, hm, hk⟩)
      · exact ⟨[], c :: cs, rfl, by simp, by rw [lastOf_nil]; exact h⟩
      · refine ⟨c :: m, post, rfl, ?_, by rw [lastOf_cons]; exact hk⟩
        rw [List.mem_cons, not_or]
        exact ⟨fun h => hc h.symm, hm⟩
    · rintro ⟨m, post, h1, h2, h3⟩
      cases m with
      | nil =>
        left
        rw [lastOf_nil] at h3
        rw [h1]
        exact h3
      | cons d m =>
        right
        rw [List.cons_append, List.cons.injEq] at h1
        obtain ⟨rfl, rfl⟩ := h1
        rw [List.mem_cons, not_or] at h2
        exact ⟨fun h => h2.1 h.symm, m, post, rfl, h2.2, by rw [lastOf_cons] at h3; exact h3⟩

theorem matchK_iff (re : Re) : ∀ (k : Option Char → List Char → Bool) (prev : Option Char) (rest : List Char),
    matchK re k prev rest = true ↔ ∃ m post, rest = m ++ post ∧ Means re prev m post ∧ k (lastOf prev m) post = true := by
  induction re with
  | bol =>
    intro k prev rest
    unfold matchK
    simp only [Means, Bool.and_eq_true, Bool.or_eq_true, beq_iff_eq]
    constructor
    · rintro ⟨h, hk⟩
      exact ⟨[], rest, rfl, ⟨rfl, h⟩, by rw [lastOf_nil]; exact hk⟩
    · rintro ⟨m, post, rfl, ⟨rfl, h⟩, hk⟩
      rw [lastOf_nil] at hk
      exact ⟨h, hk⟩
  | eol =>
    intro k prev rest
    unfold matchK
    simp only [Means, Bool.and_eq_true, Bool.or_eq_true, beq_iff_eq]
    have he : (rest.head? = none ∨ rest.head? = some '\n') ↔ (rest = [] ∨ ∃ r, rest = '\n' :: r) := by
      cases rest <;> simp
    rw [he]
    constructor
    · rintro ⟨h, hk⟩
      exact ⟨[], rest, rfl, ⟨rfl, h⟩, by rw [lastOf_nil]; exact hk⟩
    · rintro ⟨m, post, rfl, ⟨rfl, h⟩, hk⟩
      rw [lastOf_nil] at hk
      exact ⟨h, hk⟩
  | lit s =>
    intro k prev rest
    unfold matchK
    simp only [Means, Bool.and_eq_true, List.isPrefixOf_iff_prefix]
    constructor
    · rintro ⟨⟨post, rfl⟩, hk⟩
      rw [List.drop_left] at hk
      exact ⟨s, post, rfl, rfl, hk⟩
    · rintro ⟨m, post, rfl, rfl, hk⟩
      rw [List.drop_left]
      exact ⟨⟨post, rfl⟩, hk⟩
  | dotStar =>
    intro k prev rest
    unfold matchK
    exact matchStar_iff k rest prev
  | alt a b iha ihb =>
    intro k prev rest
    unfold matchK
    rw [Bool.or_eq_true, iha, ihb]
    simp only [Means]
    constructor
    · rintro (⟨m, post, h1, h2, h3⟩ | ⟨m, post, h1, h2, h3⟩)
      · exact ⟨m, post, h1, Or.inl h2, h3⟩
      · exact ⟨m, post, h1, Or.inr h2, h3⟩
    · rintro ⟨m, post, h1, h2 | h2, h3⟩
      · exact Or.inl ⟨m, post, h1, h2, h3⟩
      · exact Or.inr ⟨m, post, h1, h2, h3⟩
  | cat a b iha ihb =>
    intro k prev rest
    unfold matchK
    rw [iha]
    simp only [Means]
    constructor
    · rintro ⟨m, post, h1, h2, h3⟩
      rw [ihb] at h3
      obtain ⟨m', post', rfl, h4, h5⟩ := h3
      rw [lastOf_append] at h5
      exact ⟨m ++ m', post', by rw [h1, List.append_assoc], ⟨m, m', rfl, h2, h4⟩, h5⟩
    · rintro ⟨m, post, h1, ⟨m₁, m₂, rfl, h2, h3⟩, h4⟩
      refine ⟨m₁, m₂ ++ post, by rw [h1, List.append_assoc], h2, ?_⟩
      rw [ihb]
      exact ⟨m₂, post, rfl, h3, by rw [lastOf_append]; exact h4⟩

theorem search_iff (re : Re) (rest : List Char) : ∀ prev,
    search re prev rest = true ↔ ∃ pre m post, rest = pre ++ (m ++ post) ∧ Means re (lastOf prev pre) m post := by
  induction rest with
  | nil =>
    intro prev
    unfold search
    rw [matchK_iff]
    constructor
    · rintro ⟨m, post, h1, h2, _⟩
      exact ⟨[], m, post, h1, by rw [lastOf_nil]; exact h2⟩
    · rintro ⟨pre, m, post, h1, h2⟩
      obtain ⟨rfl, h3⟩ := List.append_eq_nil_iff.1 h1.symm
      rw [lastOf_nil] at h2
      exact ⟨m, post, h3.symm, h2, rfl⟩
  | cons c cs ih =>
    intro prev
    unfold search
    rw [Bool.or_eq_true, matchK_iff, ih]
    constructor
    · rintro (⟨m, post, h1, h2, _⟩ | ⟨pre, m, post, h1, h2⟩)
      · exact ⟨[], m, post, h1, by rw [lastOf_nil]; exact h2⟩
      · exact ⟨c :: pre, m, post, by rw [h1]; rfl, by rw [lastOf_cons]; exact h2⟩
    · rintro ⟨pre, m, post, h1, h2⟩
      cases pre with
      | nil => exact Or.inl ⟨m, post, h1, by rw [lastOf_nil] at h2; exact h2, rfl⟩
      | cons d pre =>
        right
        rw [List.cons_append, List.cons.injEq] at h1
        obtain ⟨rfl, h1⟩ := h1
        exact ⟨pre, m, post, h1, by rw [lastOf_cons] at h2; exact h2⟩

/-! ## Lines -/

/-- `l` is a line of the text: without newline, and with the ends of the text or newlines around it. -/
def Line (t l : List Char) : Prop :=
  '\n' ∉ l ∧ ∃ pre post, t = pre ++ (l ++ post) ∧ (pre = [] ∨ ∃ a, pre = a ++ ['\n']) ∧
    (post = [] ∨ ∃ b, post = '\n' :: b)

/-- The line begins with `key` and contains `word` after it. -/
def Says (key word l : List Char) : Prop := ∃ a b, l = key ++ (a ++ (word ++ b))

theorem lastOf_none (pre : List Char) :
    (lastOf none pre = none ∨ lastOf none pre = some '\n') ↔ (pre = [] ∨ ∃ a, pre = a ++ ['\n']) := by
  unfold lastOf
  rw [Option.or_none]
  constructor
  · rintro (h | h)
    · exact Or.inl (List.getLast?_eq_none_iff.1 h)
    · right
      obtain ⟨a, ha⟩ := List.getLast?_eq_some_iff.1 h
      exact ⟨a, ha⟩
  · rintro (rfl | ⟨a, rfl⟩)
    · left; rfl
    · right; simp

/-- `^key.*word.*$` matches exactly if some line begins with `key` and contains `word` after it. -/
theorem line_match (key word : List Char) (hk : '\n' ∉ key) (hw : '\n' ∉ word) (t pre m post : List Char) (w : Re)
    (hwm : ∀ p q r, Means w p q r → q = word) (ht : t = pre ++ (m ++ post))
    (hm : Means (.cat .bol (.cat (.lit key) (.cat .dotStar (.cat w (.cat .dotStar .eol))))) (lastOf none pre) m post) :
    ∃ l, Line t l ∧ Says key word l := by
  simp only [Means] at hm
  obtain ⟨_, _, rfl, ⟨rfl, h1⟩, _, _, rfl, rfl, a, _, rfl, ha, q, _, rfl, hq, b, _, rfl, hb, rfl, h2⟩ := hm
  obtain rfl := hwm _ _ _ hq
  refine ⟨_, ⟨?_, pre, post, ht, (lastOf_none pre).1 h1, h2⟩, ⟨a, b, by simp⟩⟩
  simp only [List.nil_append, List.append_nil, List.mem_append, not_or]
  exact ⟨hk, ha, hw, hb⟩

theorem match_line (key word : List Char) (t l : List Char) (w : Re) (hw : ∀ p r, Means w p word r)
    (hl : Line t l) (hs : Says key word l) :
    ∃ pre m post, t = pre ++ (m ++ post) ∧
      Means (.cat .bol (.cat (.lit key) (.cat .dotStar (.cat w (.cat .dotStar .eol))))) (lastOf none pre) m post := by
  obtain ⟨hn, pre, post, rfl, h1, h2⟩ := hl
  obtain ⟨a, b, rfl⟩ := hs
  simp only [List.mem_append, not_or] at hn
  refine ⟨pre, _, post, rfl, ?_⟩
  simp only [Means]
  exact ⟨[], _, rfl, ⟨rfl, (lastOf_none pre).2 h1⟩, key, _, rfl, rfl, a, _, rfl, hn.2.1, word, _, rfl,
    hw _ _, b, [], by simp, hn.2.2.2, rfl, h2⟩

theorem neon_iff (t : List Char) : neonRE.match t = true ↔
    ∃ l, Line t l ∧ (Says "Features".toList "neon".toList l ∨ Says "Features".toList "asimd".toList l) := by
  unfold Re.match
  rw [search_iff]
  constructor
  · rintro ⟨pre, m, post, ht, hm⟩
    unfold neonRE at hm
    have hor : Means (.cat .bol (.cat (.lit "Features".toList) (.cat .dotStar (.cat (.lit "neon".toList)
          (.cat .dotStar .eol))))) (lastOf none pre) m post ∨
        Means (.cat .bol (.cat (.lit "Features".toList) (.cat .dotStar (.cat (.lit "asimd".toList)
          (.cat .dotStar .eol))))) (lastOf none pre) m post := by
      simp only [Means] at hm ⊢
      obtain ⟨m1, m2, e1, g1, m3, m4, e2, g2, m5, m6, e3, g3, m7, m8, e4, g4 | g4, r⟩ := hm
      · exact Or.inl ⟨m1, m2, e1, g1, m3, m4, e2, g2, m5, m6, e3, g3, m7, m8, e4, g4, r⟩
      · exact Or.inr ⟨m1, m2, e1, g1, m3, m4, e2, g2, m5, m6, e3, g3, m7, m8, e4, g4, r⟩
    rcases hor with h | h
    · obtain ⟨l, h1, h2⟩ := line_match _ "neon".toList (by decide) (by decide) t pre m post (.lit "neon".toList)
        (fun _ _ _ h => h) ht h
      exact ⟨l, h1, Or.inl h2⟩
    · obtain ⟨l, h1, h2⟩ := line_match _ "asimd".toList (by decide) (by decide) t pre m post (.lit "asimd".toList)
        (fun _ _ _ h => h) ht h
      exact ⟨l, h1, Or.inr h2⟩
  · rintro ⟨l, hl, hs | hs⟩
    · exact match_line _ _ t l _ (fun p r => by simp [Means]) hl hs
    · exact match_line _ _ t l _ (fun p r => by simp [Means]) hl hs

theorem rpi1_iff (t : List Char) : rpi1RE.match t = true ↔
    ∃ l, Line t l ∧ Says "Hardware".toList "BCM2708".toList l := by
  unfold Re.match
  rw [search_iff]
  constructor
  · rintro ⟨pre, m, post, ht, hm⟩
    exact line_match _ "BCM2708".toList (by decide) (by decide) t pre m post
      (.lit "BCM2708".toList) (fun _ _ _ h => h) ht hm
  · rintro ⟨l, hl, hs⟩
    exact match_line _ _ t l _ (fun p r => rfl) hl hs

/-! ## C96 -/

/-- The words of a line are the pieces between blanks, tabs and the colon. -/
def HasWord (w l : List Char) : Prop :=
  ∃ a b, l = a ++ (w ++ b) ∧ (∀ c, a.getLast? = some c → c ∈ [' ', '\t', ':']) ∧
    (∀ c, b.head? = some c → c ∈ [' ', '\t'])

/-- What the kernel tells: a line of /proc/cpuinfo begins with `Features` and has one of the two words. -/
def KernelSaysNeon (c : List Char) : Prop :=
  ∃ l r, Line c l ∧ l = "Features".toList ++ r ∧ (HasWord "neon".toList r ∨ HasWord "asimd".toList r)

/-- The property in full: the flag is what the kernel tells. -/
def Exact : Prop := ∀ c env, (init (.content c) env).haveNEON = true ↔ KernelSaysNeon c

/-- The values of the environment variable that mean yes (the documentation of `strconv.ParseBool`). -/
def yes : List String := ["1", "t", "T", "true", "TRUE", "True"]

/-- The values of the environment variable that mean no. -/
def no : List String := ["0", "f", "F", "false", "FALSE", "False"]

/-- C96, what the two flags are, for every content of the file and every value of ARMVECTOR: within the
first 2048 bytes, a line that begins with `Features` and contains `neon` or `asimd`; a line that begins
with `Hardware` and contains `BCM2708`, unless there is NEON; and ARMVECTOR, if it is a Boolean, decides
the second flag. -/
theorem C96_flags (c env : List Char) :
    ((init (.content c) env).haveNEON = true ↔ ∃ l, Line (c.take 2048) l ∧
      (Says "Features".toList "neon".toList l ∨ Says "Features".toList "asimd".toList l)) ∧
    (env ∈ yes.map String.toList → (init (.content c) env).useVector = true) ∧
    (env ∈ no.map String.toList → (init (.content c) env).useVector = false) ∧
    (env ∉ (yes ++ no).map String.toList → ((init (.content c) env).useVector = true ↔
      (init (.content c) env).haveNEON = false ∧
      ∃ l, Line (c.take 2048) l ∧ Says "Hardware".toList "BCM2708".toList l)) := by
  have key : ∀ e : List Char, (e ∈ yes.map String.toList → parseBool e = some true) ∧ (e ∈ no.map String.toList → parseBool e = some false) ∧
      (e ∉ (yes ++ no).map String.toList → parseBool e = none) := by
    intro e
    have hy : ∀ e ∈ yes.map String.toList, parseBool e = some true := by decide
    have hn : ∀ e ∈ no.map String.toList, parseBool e = some false := by decide
    refine ⟨hy e, hn e, fun h => ?_⟩
    rw [List.map_append, List.mem_append, not_or] at h
    exact (if_neg h.1).trans (if_neg h.2)
  obtain ⟨k1, k2, k3⟩ := key env
  refine ⟨neon_iff _, fun h => ?_, fun h => ?_, ?_⟩
  · simp [init, k1 h]
  · simp [init, k2 h]
  · intro h
    replace h := k3 h
    simp only [init, h, Option.getD_none, Bool.and_eq_true, rpi1_iff, Bool.not_eq_true']

/-- A line of a prefix of a text is the beginning of a line of the text. -/
theorem line_take (c l : List Char) (n : Nat) (h : Line (c.take n) l) : ∃ r, Line c (l ++ r) := by
  obtain ⟨hn, pre, post, ht, h1, h2⟩ := h
  have hc : c = pre ++ (l ++ (post ++ c.drop n)) := by
    conv_lhs => rw [← List.take_append_drop n c, ht]
    simp
  rcases h2 with rfl | ⟨b, rfl⟩
  · rw [List.nil_append] at hc
    generalize c.drop n = d at hc
    have hd : ∃ r post', d = r ++ post' ∧ '\n' ∉ r ∧ (post' = [] ∨ ∃ b, post' = '\n' :: b) := by
      clear hc
      induction d with
      | nil => exact ⟨[], [], rfl, by simp, Or.inl rfl⟩
      | cons x d ih =>
        by_cases hx : x = '\n'
        · exact ⟨[], x :: d, rfl, by simp, Or.inr ⟨d, by rw [hx]⟩⟩
        · obtain ⟨r, p, rfl, h3, h4⟩ := ih
          refine ⟨x :: r, p, rfl, ?_, h4⟩
          rw [List.mem_cons, not_or]
          exact ⟨fun h => hx h.symm, h3⟩
    obtain ⟨r, p, rfl, h3, h4⟩ := hd
    refine ⟨r, ?_, pre, p, by rw [hc]; simp, h1, h4⟩
    rw [List.mem_append, not_or]
    exact ⟨hn, h3⟩
  · refine ⟨[], ?_, pre, '\n' :: (b ++ c.drop n), by simpa using hc, h1, Or.inr ⟨_, rfl⟩⟩
    simpa using hn

/-- C96, the part that holds, no false alarm but by a part of a word: if the flag is set then some line of
the whole file begins with `Features` and contains `neon` or `asimd`.  Missing: that it contains one of them
as a word. -/
theorem C96_sound_partial (c env : List Char) (h : (init (.content c) env).haveNEON = true) :
    ∃ l, Line c l ∧ (Says "Features".toList "neon".toList l ∨ Says "Features".toList "asimd".toList l) := by
  obtain ⟨l, hl, hs⟩ := (C96_flags c env).1.1 h
  obtain ⟨r, hr⟩ := line_take c l _ hl
  refine ⟨l ++ r, hr, ?_⟩
  rcases hs with ⟨a, b, rfl⟩ | ⟨a, b, rfl⟩
  · exact Or.inl ⟨a, b ++ r, by simp⟩
  · exact Or.inr ⟨a, b ++ r, by simp⟩

/-- C96, the part that holds, nothing missed within the limit: if the kernel tells of NEON and the file is not
longer than the 2048 bytes that are read, the flag is set. -/
theorem C96_complete_partial (c env : List Char) (hc : c.length ≤ 2048) (h : KernelSaysNeon c) :
    (init (.content c) env).haveNEON = true := by
  rw [(C96_flags c env).1, List.take_of_length_le hc]
  obtain ⟨l, r, hl, rfl, ⟨a, b, rfl, _⟩ | ⟨a, b, rfl, _⟩⟩ := h
  · exact ⟨_, hl, Or.inl ⟨a, b, rfl⟩⟩
  · exact ⟨_, hl, Or.inr ⟨a, b, rfl⟩⟩

/-- A file whose line about the features comes after the first 2048 bytes. -/
def longInfo : List Char := List.replicate 2048 'x' ++ "\nFeatures : neon".toList

theorem longInfo_says : KernelSaysNeon longInfo := by
  refine ⟨"Features : neon".toList, " : neon".toList, ⟨by decide, List.replicate 2048 'x' ++ ['\n'], [], ?_, ?_, ?_⟩,
    rfl, Or.inl ⟨" : ".toList, [], rfl, by decide, by simp⟩⟩
  · rw [longInfo, List.append_assoc]; rfl
  · exact Or.inr ⟨_, rfl⟩
  · exact Or.inl rfl

/-- C96, violated: NEON is missed when the line comes after the first 2048 bytes. -/
theorem C96_violated : ¬ Exact := by
  intro h
  have h1 := (h longInfo []).2 longInfo_says
  rw [(C96_flags longInfo []).1] at h1
  have ht : longInfo.take 2048 = List.replicate 2048 'x' := by
    have hl : (List.replicate 2048 'x').length = 2048 := List.length_replicate
    rw [longInfo, List.take_append_of_le_length (Nat.le_of_eq hl.symm), List.take_of_length_le (Nat.le_of_eq hl)]
  rw [ht] at h1
  obtain ⟨l, ⟨_, pre, post, hl, _⟩, hs⟩ := h1
  have hF : 'F' ∈ l := by
    rcases hs with ⟨a, b, rfl⟩ | ⟨a, b, rfl⟩ <;> simp
  have hm : 'F' ∈ List.replicate 2048 'x' := by
    rw [hl]; exact List.mem_append_right _ (List.mem_append_left _ hF)
  exact absurd (List.mem_replicate.1 hm).2 (by decide)

/-- C96, violated in the other direction: a part of a word is taken for the word. -/
theorem C96_word_violated : ∃ c, (init (.content c) []).haveNEON = true ∧ ¬ KernelSaysNeon c := by
  refine ⟨"Features : xneonx".toList, by decide, ?_⟩
  rintro ⟨l, r, ⟨hn, pre, post, hl, h1, h2⟩, rfl, hw⟩
  have hpre : pre = [] := by
    rcases h1 with h | ⟨a, rfl⟩
    · exact h
    · exfalso
      have : '\n' ∈ "Features : xneonx".toList := by rw [hl]; simp
      revert this; decide
  have hpost : post = [] := by
    rcases h2 with h | ⟨a, rfl⟩
    · exact h
    · exfalso
      have : '\n' ∈ "Features : xneonx".toList := by rw [hl]; simp
      revert this; decide
  subst hpre hpost
  rw [List.nil_append, List.append_nil] at hl
  have hr : r = " : xneonx".toList := (List.append_cancel_left (as := "Features".toList) hl).symm
  subst hr
  have key : ∀ w : List Char, w ∈ ["neon".toList, "asimd".toList] →
      ¬ ∃ n ≤ 9, ∃ k ≤ 9, (" : xneonx".toList.drop n).take k = w ∧
        (∀ c ∈ (" : xneonx".toList.take n).getLast?, c ∈ [' ', '\t', ':']) := by decide
  rcases hw with ⟨a, b, hab, ha, _⟩ | ⟨a, b, hab, ha, _⟩
  · refine key "neon".toList (by simp) ⟨a.length, ?_, 4, by omega, ?_, ?_⟩
    · have := congrArg List.length hab; simp at this; omega
    · rw [hab, List.drop_left]; rfl
    · rw [hab, List.take_left]; exact fun c hc => ha c hc
  · refine key "asimd".toList (by simp) ⟨a.length, ?_, 5, by omega, ?_, ?_⟩
    · have := congrArg List.length hab; simp at this; omega
    · rw [hab, List.drop_left]; rfl
    · rw [hab, List.take_left]; exact fun c hc => ha c hc

/-- C96: without the file, or when it cannot be read, neither flag is set, whatever ARMVECTOR says. -/
theorem C96_nofile (env : List Char) : init .noFile env = {} ∧ init .readError env = {} := ⟨rfl, rfl⟩

/-- The file of a Raspberry Pi 1 and of one with NEON, in short. -/
example : init (.content "Features\t: half thumb vfp\nHardware\t: BCM2708\n".toList) [] = ⟨false, true⟩ := by decide

example : init (.content "x\nFeatures\t: half neon vfpv4\nHardware\t: BCM2708\n".toList) [] = ⟨true, false⟩ := by decide

/-- With ARMVECTOR both flags may be set. -/
example : init (.content "Features\t: neon".toList) "true".toList = ⟨true, true⟩ := by decide

end Verif.Cpu.Neon
