import Verif.Borip.ClientProps
import Mathlib.Data.List.Induction
import Mathlib.Tactic.Common

/-!
# Property C84: the client's record of its device, and what `Close` gives back
-/

namespace Verif.Borip

variable {F : Type}

/-! ## Specification -/

/-- Words with a separator between them. -/
def glue (sep : Char) : List Str → Str
  | [] => []
  | [w] => w
  | w :: v :: ws => w ++ sep :: glue sep (v :: ws)

/-- The words are those between the separators of a text. -/
def Words (sep : Char) (ws : List Str) (s : Str) : Prop := ws ≠ [] ∧ s = glue sep ws ∧ ∀ w ∈ ws, sep ∉ w

/-- A text describes a device: eight or more fields between bars, of which the sixth lists the antennas between
commas. -/
def Describes (lib : Lib F) (s : Str) (d : Device F) : Prop :=
  ∃ name p1 p2 p3 p4 p5 p6 serial rest, Words '|' (name :: p1 :: p2 :: p3 :: p4 :: p5 :: p6 :: serial :: rest) s ∧ d.name = name ∧ d.serial = serial ∧
    lib.parseFloat p1 = some d.minGain ∧ lib.parseFloat p2 = some d.maxGain ∧ lib.parseFloat p3 = some d.gainStep ∧ lib.parseFloat p4 = some d.fpgaFreq ∧
    lib.parseInt p5 = some d.samplesPerPacket ∧ Words ',' d.validAntennas p6

/-- An exchange that settles which device the client has: the reply to a DEVICE request describes one, or says with
a dash alone that there is none. -/
def Settles (lib : Lib F) (e : Str × Reply) (o : Option (Device F)) : Prop :=
  (∃ h, e.1 = "DEVICE ".toList ++ h ++ ['\n']) ∧ ∃ raw, e.2 = .line raw ∧
    match o with
    | none => lib.trim raw = "DEVICE -".toList
    | some d => ∃ s, lib.trim raw = "DEVICE ".toList ++ s ∧ s.head? ≠ some '-' ∧ Describes lib s d

/-- What the last exchange that settled it said; nothing before the first. -/
def Has (lib : Lib F) (log : List (Str × Reply)) (o : Option (Device F)) : Prop :=
  (o = none ∧ ∀ e ∈ log, ∀ p, ¬ Settles lib e p) ∨
  ∃ pre e post, log = pre ++ e :: post ∧ Settles lib e o ∧ ∀ e' ∈ post, ∀ p, ¬ Settles lib e' p

/-! ## Words -/

theorem split_words (sep : Char) (s : Str) : Words sep (split sep s) s := by
  refine ⟨split_ne_nil sep s, ?_, ?_⟩
  · induction s with
    | nil => rfl
    | cons c cs ih =>
      rw [split]
      split
      · rename_i h
        obtain ⟨w, ws, hw⟩ := List.exists_cons_of_ne_nil (split_ne_nil sep cs)
        rw [hw] at ih ⊢
        rw [glue, ← ih, h]
        rfl
      · obtain ⟨w, ws, hw⟩ := List.exists_cons_of_ne_nil (split_ne_nil sep cs)
        rw [hw] at ih ⊢
        simp only
        cases ws with
        | nil => rw [glue] at ih ⊢; rw [← ih]
        | cons v vs => rw [glue] at ih ⊢; rw [List.cons_append, ← ih]
  · induction s with
    | nil => simp [split]
    | cons c cs ih =>
      rw [split]
      split
      · intro w hw
        rw [List.mem_cons] at hw
        rcases hw with rfl | hw
        · simp
        · exact ih w hw
      · rename_i h
        obtain ⟨w, ws, hw⟩ := List.exists_cons_of_ne_nil (split_ne_nil sep cs)
        rw [hw] at ih ⊢
        simp only
        intro v hv
        rw [List.mem_cons] at hv
        rcases hv with rfl | hv
        · rw [List.mem_cons, not_or]
          exact ⟨fun e => h e.symm, ih w (by simp)⟩
        · exact ih v (by simp [hv])

/-- A text has one list of words. -/
theorem words_iff (sep : Char) (ws : List Str) (s : Str) : Words sep ws s ↔ split sep s = ws := by
  constructor
  · rintro ⟨h1, rfl, h3⟩
    induction ws with
    | nil => exact absurd rfl h1
    | cons w ws ih =>
      cases ws with
      | nil => exact split_none _ _ (h3 w (by simp))
      | cons v vs => rw [glue, split_append _ _ _ (h3 w (by simp)), ih (by simp) fun x hx => h3 x (List.mem_cons_of_mem _ hx)]
  · rintro rfl
    exact split_words sep s

theorem orNumber_ok {α β : Type} (x : Option α) (k : α → Option (Except CErr β)) (b : β) :
    orNumber x k = some (.ok b) ↔ ∃ v, x = some v ∧ k v = some (.ok b) := by
  unfold orNumber
  cases x with
  | none => simp
  | some v => simp

/-- `parseDeviceString` returns exactly the device described. -/
theorem parseDeviceString_ok (lib : Lib F) (s : Str) (d : Device F) : parseDeviceString lib s = some (.ok d) ↔ Describes lib s d := by
  unfold parseDeviceString Describes
  simp only [words_iff]
  constructor
  · intro h
    split at h
    · simp at h
    · rename_i hl
      obtain ⟨a, b, c, e, f, g, i, j, rest, he⟩ : ∃ a b c e f g i j rest, split '|' s = a :: b :: c :: e :: f :: g :: i :: j :: rest := by
        generalize split '|' s = l at hl
        match l, hl with
        | a :: b :: c :: e :: f :: g :: i :: j :: rest, _ => exact ⟨a, b, c, e, f, g, i, j, rest, rfl⟩
        | [], h => simp at h
        | [_], h => simp at h
        | [_, _], h => simp at h
        | [_, _, _], h => simp at h
        | [_, _, _, _], h => simp at h
        | [_, _, _, _, _], h => simp at h
        | [_, _, _, _, _, _], h => simp at h
        | [_, _, _, _, _, _, _], h => simp at h
      rw [he] at h
      simp only [List.getElem?_cons_zero, List.getElem?_cons_succ, Option.bind_some, orNumber_ok, Option.some.injEq, Except.ok.injEq] at h
      obtain ⟨v1, h1, v2, h2, v3, h3, v4, h4, v5, h5, rfl⟩ := h
      exact ⟨a, b, c, e, f, g, i, j, rest, he, rfl, rfl, h1, h2, h3, h4, h5, rfl⟩
  · rintro ⟨a, b, c, e, f, g, i, j, rest, he, rfl, rfl, h1, h2, h3, h4, h5, h6⟩
    rw [he]
    rw [if_neg (by simp)]
    simp only [List.getElem?_cons_zero, List.getElem?_cons_succ, Option.bind_some, orNumber_ok, Option.some.injEq, Except.ok.injEq]
    refine ⟨_, h1, _, h2, _, h3, _, h4, _, h5, ?_⟩
    rw [h6]

theorem describes_cons {lib : Lib F} {s : Str} {d : Device F} (h : Describes lib s d) : s ≠ [] := by
  rintro rfl
  obtain ⟨a, b, c, e, f, g, i, j, rest, hw, -⟩ := h
  rw [words_iff] at hw
  simp [split] at hw

/-- What `SelectDevice` makes of a reply. -/
theorem parseSelect_ok (lib : Lib F) (res : Str) (o : Option (Device F)) :
    parseSelect lib res = some (.ok o) ↔
      match o with
      | none => res = "DEVICE -".toList
      | some d => ∃ s, res = "DEVICE ".toList ++ s ∧ s.head? ≠ some '-' ∧ Describes lib s d := by
  have key : ∀ t : Str, parseSelect lib ("DEVICE ".toList ++ t) = t[0]?.bind fun c =>
      if c = '-' then
        if t.length = 1 then some (.ok none) else (sliceFrom t 1).bind fun msg => some (.error (.text (lib.trim msg)))
      else (parseDeviceString lib t).bind fun dev => match dev with | .error e => some (.error e) | .ok d => some (.ok (some d)) := by
    intro t
    unfold parseSelect
    have e : "DEVICE ".toList ++ t = ['D', 'E', 'V', 'I', 'C', 'E'] ++ ' ' :: t := rfl
    rw [e, splitN2_append _ _ _ (by decide)]
    simp only [List.getElem?_cons_zero, List.getElem?_cons_succ, Option.bind_some]
    rw [if_neg (by simp)]
    rfl
  constructor
  · intro h
    have hd : ∃ t, res = "DEVICE ".toList ++ t := by
      unfold parseSelect at h
      by_cases hs : ' ' ∈ res
      · obtain ⟨w, t, rfl, hw⟩ := List.eq_append_cons_of_mem hs
        rw [splitN2_append _ _ _ hw] at h
        simp only [List.getElem?_cons_zero, Option.bind_some] at h
        split at h
        · simp at h
        · rename_i hn
          rw [not_or, not_not] at hn
          rw [hn.1]
          exact ⟨t, rfl⟩
      · rw [splitN2_none _ _ hs] at h
        simp at h
    obtain ⟨t, rfl⟩ := hd
    rw [key] at h
    cases t with
    | nil => simp at h
    | cons c t =>
      simp only [List.getElem?_cons_zero, Option.bind_some] at h
      split at h
      · rename_i hc
        split at h
        · rename_i hl
          simp only [Option.some.injEq, Except.ok.injEq] at h
          subst h
          have : t = [] := by
            rw [← List.length_eq_zero_iff]
            simpa using hl
          subst this hc
          rfl
        · simp [Option.bind_eq_some_iff] at h
      · rename_i hc
        rw [Option.bind_eq_some_iff] at h
        obtain ⟨r, h1, h2⟩ := h
        cases r with
        | error e => simp at h2
        | ok d =>
          simp only [Option.some.injEq, Except.ok.injEq] at h2
          subst h2
          exact ⟨_, rfl, by simpa using hc, (parseDeviceString_ok lib _ d).1 h1⟩
  · intro h
    cases o with
    | none =>
      simp only at h
      rw [h]
      exact key ['-']
    | some d =>
      obtain ⟨s, rfl, h2, h3⟩ := h
      rw [key]
      obtain ⟨c, t, rfl⟩ := List.exists_cons_of_ne_nil (describes_cons h3)
      simp only [List.getElem?_cons_zero, Option.bind_some]
      rw [if_neg (by simpa using h2), (parseDeviceString_ok lib _ d).2 h3]
      rfl

/-! ## The record -/

/-- An exchange settles one thing only. -/
theorem settles_unique {lib : Lib F} {e : Str × Reply} {o p : Option (Device F)} (h : Settles lib e o) (k : Settles lib e p) : o = p := by
  obtain ⟨-, raw, h1, h2⟩ := h
  obtain ⟨-, raw', k1, k2⟩ := k
  rw [h1, Reply.line.injEq] at k1
  subst k1
  have a := (parseSelect_ok lib (lib.trim raw) o).2 h2
  have b := (parseSelect_ok lib (lib.trim raw) p).2 k2
  rw [a, Option.some.injEq, Except.ok.injEq] at b
  exact b

theorem has_snoc_settled {lib : Lib F} (log : List (Str × Reply)) (e : Str × Reply) (o : Option (Device F)) (h : Settles lib e o) : Has lib (log ++ [e]) o :=
  .inr ⟨log, e, [], rfl, h, by simp⟩

theorem has_snoc_other {lib : Lib F} {log : List (Str × Reply)} {o : Option (Device F)} (h : Has lib log o) (e : Str × Reply) (he : ∀ p, ¬ Settles lib e p) :
    Has lib (log ++ [e]) o := by
  rcases h with ⟨h1, h2⟩ | ⟨pre, g, post, rfl, h2, h3⟩
  · refine .inl ⟨h1, fun e' he' => ?_⟩
    rw [List.mem_append, List.mem_singleton] at he'
    rcases he' with he' | rfl
    · exact h2 e' he'
    · exact he
  · refine .inr ⟨pre, g, post ++ [e], by simp, h2, fun e' he' => ?_⟩
    rw [List.mem_append, List.mem_singleton] at he'
    rcases he' with he' | rfl
    · exact h3 e' he'
    · exact he

/-- The log determines the device. -/
theorem has_unique {lib : Lib F} {log : List (Str × Reply)} {o p : Option (Device F)} (h : Has lib log o) (k : Has lib log p) : o = p := by
  induction log using List.reverseRecOn with
  | nil =>
    rcases h with ⟨h1, -⟩ | ⟨pre, e, post, h, -⟩
    · rcases k with ⟨k1, -⟩ | ⟨pre, e, post, k, -⟩
      · rw [h1, k1]
      · simp at k
    · simp at h
  | append_singleton log x ih =>
    have cut : ∀ q, Has lib (log ++ [x]) q → Settles lib x q ∨ ((∀ r, ¬ Settles lib x r) ∧ Has lib log q) := by
      rintro q (⟨h1, h2⟩ | ⟨pre, e, post, h1, h2, h3⟩)
      · exact .inr ⟨h2 x (by simp), .inl ⟨h1, fun e he => h2 e (by simp [he])⟩⟩
      · rcases List.eq_nil_or_concat post with rfl | ⟨post, y, rfl⟩
        · have := (List.append_inj' h1 rfl).2
          simp only [List.cons.injEq, and_true] at this
          rw [this]
          exact .inl h2
        · rw [List.concat_eq_append, ← List.cons_append, ← List.append_assoc] at h1
          obtain ⟨a, b⟩ := List.append_inj' h1 rfl
          simp only [List.cons.injEq, and_true] at b
          rw [List.concat_eq_append] at h3
          exact .inr ⟨by rw [b]; exact h3 y (by simp), .inr ⟨pre, e, post, a, h2, fun e' he' => h3 e' (by simp [he'])⟩⟩
    rcases cut o h with h | ⟨h1, h2⟩ <;> rcases cut p k with k | ⟨k1, k2⟩
    · exact settles_unique h k
    · exact absurd h (k1 o)
    · exact absurd k (h1 p)
    · exact ih h2 k2

/-- One exchange: the log grows by the request and one reply, the device stays. -/
theorem command_device (lib : Lib F) (bor : BorIP F) (cmd : Str) (args : List Str) :
    ∃ reply, (bor.command lib cmd args).2.log = bor.log ++ [(request cmd args, reply)] ∧ (bor.command lib cmd args).2.device = bor.device ∧
      (∀ res, (bor.command lib cmd args).1 = .ok res → ∃ raw, reply = .line raw ∧ res = lib.trim raw) ∧
      (∀ e, (bor.command lib cmd args).1 = .error e → reply = .fail) := by
  unfold BorIP.command
  simp only
  split
  · exact ⟨_, rfl, rfl, by simp, by simp⟩
  · exact ⟨_, rfl, rfl, by simp, by simp⟩
  · exact ⟨_, rfl, rfl, by simp, by simp⟩

theorem call_has (lib : Lib F) (bor : BorIP F) (cmd : Str) (args : List Str) (parse : Str → Option (Except CErr (Value F)))
    (v : Except CErr (Value F)) (bor' : BorIP F) (h : bor.call lib cmd args parse = some (v, bor')) (h0 : Has lib bor.log bor.device)
    (hd : ∀ t, request cmd args ≠ "DEVICE ".toList ++ t) : Has lib bor'.log bor'.device := by
  have : bor' = (bor.command lib cmd args).2 := by
    unfold BorIP.call at h
    rcases hc : bor.command lib cmd args with ⟨r, b⟩
    rw [hc] at h
    cases r with
    | error e => simp only [Option.some.injEq, Prod.mk.injEq] at h; exact h.2.symm
    | ok res =>
      simp only [Option.bind_eq_some_iff, Option.some.injEq, Prod.mk.injEq] at h
      obtain ⟨_, -, -, h⟩ := h
      exact h.symm
  subst this
  obtain ⟨reply, a1, a2, -, -⟩ := command_device lib bor cmd args
  rw [a1, a2]
  refine has_snoc_other h0 _ ?_
  rintro p ⟨⟨t, ht⟩, -⟩
  exact hd (t ++ ['\n']) (by rw [← List.append_assoc]; exact ht)

theorem setRunning_has (lib : Lib F) (bor : BorIP F) (cmd : Str) (b : Bool) (v : Except CErr (Value F)) (bor' : BorIP F)
    (h : bor.setRunning lib cmd b = some (v, bor')) (h0 : Has lib bor.log bor.device) (hd : ∀ t, request cmd [] ≠ "DEVICE ".toList ++ t) :
    Has lib bor'.log bor'.device := by
  have : bor'.log = (bor.command lib cmd []).2.log ∧ bor'.device = (bor.command lib cmd []).2.device := by
    unfold BorIP.setRunning at h
    rcases hc : bor.command lib cmd [] with ⟨r, b⟩
    rw [hc] at h
    cases r with
    | error e => simp only [Option.some.injEq, Prod.mk.injEq] at h; rw [← h.2]; exact ⟨rfl, rfl⟩
    | ok res =>
      simp only [Option.bind_eq_some_iff] at h
      obtain ⟨r, -, h⟩ := h
      cases r <;> simp only [Option.some.injEq, Prod.mk.injEq] at h <;> rw [← h.2] <;> exact ⟨rfl, rfl⟩
  obtain ⟨reply, a1, a2, -, -⟩ := command_device lib bor cmd []
  rw [this.1, this.2, a1, a2]
  refine has_snoc_other h0 _ ?_
  rintro p ⟨⟨t, ht⟩, -⟩
  exact hd (t ++ ['\n']) (by rw [← List.append_assoc]; exact ht)

theorem selectDevice_has (lib : Lib F) (bor : BorIP F) (hint : Str) (v : Except CErr (Value F)) (bor' : BorIP F)
    (h : bor.selectDevice lib hint = some (v, bor')) (h0 : Has lib bor.log bor.device) : Has lib bor'.log bor'.device := by
  obtain ⟨reply, a1, a2, a3, a4⟩ := command_device lib bor ['D', 'E', 'V', 'I', 'C', 'E'] [hint]
  unfold BorIP.selectDevice at h
  rcases hc : bor.command lib ['D', 'E', 'V', 'I', 'C', 'E'] [hint] with ⟨r, b⟩
  rw [hc] at h a1 a2 a3 a4
  simp only at a1 a2 a3 a4
  have hreq : ∃ t, request ['D', 'E', 'V', 'I', 'C', 'E'] [hint] = "DEVICE ".toList ++ t ++ ['\n'] := ⟨hint, rfl⟩
  cases r with
  | error e =>
    simp only [Option.some.injEq, Prod.mk.injEq] at h
    rw [← h.2, a1, a2]
    refine has_snoc_other h0 _ ?_
    rintro p ⟨-, raw, hr, -⟩
    rw [a4 e rfl] at hr
    cases hr
  | ok res =>
    obtain ⟨raw, rfl, rfl⟩ := a3 res rfl
    simp only [Option.bind_eq_some_iff] at h
    obtain ⟨r, hp, h⟩ := h
    cases r with
    | error e =>
      simp only [Option.some.injEq, Prod.mk.injEq] at h
      rw [← h.2, a1, a2]
      refine has_snoc_other h0 _ ?_
      rintro p ⟨-, raw', hr, hs⟩
      simp only [Reply.line.injEq] at hr
      subst hr
      have := (parseSelect_ok lib _ p).2 hs
      rw [hp] at this
      cases this
    | ok o =>
      simp only [Option.some.injEq, Prod.mk.injEq] at h
      rw [← h.2]
      simp only [a1]
      exact has_snoc_settled _ _ _ ⟨hreq, raw, rfl, (parseSelect_ok lib _ o).1 hp⟩

theorem perform_has (lib : Lib F) (bor : BorIP F) (op : Op F) (v : Except CErr (Value F)) (bor' : BorIP F)
    (h : bor.perform lib op = some (v, bor')) (h0 : Has lib bor.log bor.device) : Has lib bor'.log bor'.device := by
  cases op with
  | selectDevice hint => exact selectDevice_has lib bor hint v bor' h h0
  | setFrequency f => exact call_has lib bor _ _ _ v bor' h h0 (by simp [request])
  | frequency => exact call_has lib bor _ _ _ v bor' h h0 (by simp [request])
  | setAntenna a => exact call_has lib bor _ _ _ v bor' h h0 (by simp [request])
  | antenna => exact call_has lib bor _ _ _ v bor' h h0 (by simp [request])
  | setRate r => exact call_has lib bor _ _ _ v bor' h h0 (by simp [request])
  | rate => exact call_has lib bor _ _ _ v bor' h h0 (by simp [request])
  | setGain g => exact call_has lib bor _ _ _ v bor' h h0 (by simp [request])
  | gain => exact call_has lib bor _ _ _ v bor' h h0 (by simp [request])
  | setDestination d => exact call_has lib bor _ _ _ v bor' h h0 (by simp [request])
  | destination => exact call_has lib bor _ _ _ v bor' h h0 (by simp [request])
  | setHeaderEnabled e => exact call_has lib bor _ _ _ v bor' h h0 (by simp [request])
  | headerEnabled => exact call_has lib bor _ _ _ v bor' h h0 (by simp [request])
  | go => exact setRunning_has lib bor _ _ v bor' h h0 (by simp [request])
  | stop => exact setRunning_has lib bor _ _ v bor' h h0 (by simp [request])
  | close =>
    simp only [BorIP.perform, BorIP.close, Option.bind_eq_some_iff, Option.some.injEq, Prod.mk.injEq] at h
    obtain ⟨b1, h1, b2, h2, -, rfl⟩ := h
    have g1 : Has lib b1.log b1.device := by
      unfold BorIP.closeStop at h1
      split at h1
      · simp only [Option.bind_eq_some_iff, Option.some.injEq] at h1
        obtain ⟨⟨r, b⟩, h3, h4⟩ := h1
        subst h4
        exact setRunning_has lib bor _ _ r b h3 h0 (by simp [request])
      · simp only [Option.some.injEq] at h1
        subst h1
        exact h0
    unfold BorIP.closeDevice at h2
    split at h2
    · simp only [Option.bind_eq_some_iff, Option.some.injEq] at h2
      obtain ⟨⟨r, b⟩, h3, h4⟩ := h2
      subst h4
      exact selectDevice_has lib b1 _ r b h3 g1
    · simp only [Option.some.injEq] at h2
      subst h2
      exact g1

/-- C84: after any sequence of calls, whatever the server replied, the device the client has on record is the one
described by the last reply that described or took away a device; there is no other such device. -/
theorem C84_record (lib : Lib F) (ops : List (Op F)) (replies : List Reply) (bor bor' : BorIP F)
    (hd : dial replies = some bor) (h : bor.performAll lib ops = some bor') (o : Option (Device F)) :
    bor'.device = o ↔ Has lib bor'.log o := by
  have h0 : Has lib bor.log bor.device := by
    unfold dial at hd
    split at hd
    · simp only [Option.some.injEq] at hd
      subst hd
      exact .inl ⟨rfl, by simp⟩
    · cases hd
  suffices g : Has lib bor'.log bor'.device from ⟨fun e => e ▸ g, fun k => has_unique g k⟩
  clear hd
  induction ops generalizing bor with
  | nil =>
    simp only [BorIP.performAll, Option.some.injEq] at h
    subst h
    exact h0
  | cons op ops ih =>
    simp only [BorIP.performAll, Option.bind_eq_some_iff] at h
    obtain ⟨⟨v, b⟩, h1, h2⟩ := h
    exact ih b h2 (perform_has lib bor op v b h1 h0)

/-- C84: `Close` asks to stop exactly if the stream runs, then to release exactly if a device is on record, and
nothing else; afterwards no exchange is possible. -/
theorem C84_close (lib : Lib F) (bor : BorIP F) (v : Except CErr (Value F)) (bor' : BorIP F) (h : bor.perform lib .close = some (v, bor')) :
    ∃ r1 r2, bor'.log = bor.log ++ (if bor.running then [("STOP\n".toList, r1)] else []) ++
      (if bor.device.isSome then [("DEVICE !\n".toList, r2)] else []) ∧ bor'.replies = [] := by
  simp only [BorIP.perform, BorIP.close, Option.bind_eq_some_iff, Option.some.injEq, Prod.mk.injEq] at h
  obtain ⟨b1, h1, b2, h2, -, rfl⟩ := h
  have g1 : ∃ r1, b1.log = bor.log ++ (if bor.running then [("STOP\n".toList, r1)] else []) ∧ b1.device = bor.device := by
    unfold BorIP.closeStop at h1
    split at h1
    · rename_i hr
      simp only [Option.bind_eq_some_iff, Option.some.injEq] at h1
      obtain ⟨⟨r, b⟩, h3, h4⟩ := h1
      subst h4
      obtain ⟨reply, a1, a2, -, -⟩ := command_device lib bor ['S', 'T', 'O', 'P'] []
      have : b.log = (bor.command lib ['S', 'T', 'O', 'P'] []).2.log ∧ b.device = (bor.command lib ['S', 'T', 'O', 'P'] []).2.device := by
        unfold BorIP.stop BorIP.setRunning at h3
        rcases hc : bor.command lib ['S', 'T', 'O', 'P'] [] with ⟨r, b⟩
        rw [hc] at h3
        cases r with
        | error e => simp only [Option.some.injEq, Prod.mk.injEq] at h3; rw [← h3.2]; exact ⟨rfl, rfl⟩
        | ok res =>
          simp only [Option.bind_eq_some_iff] at h3
          obtain ⟨r, -, h3⟩ := h3
          cases r <;> simp only [Option.some.injEq, Prod.mk.injEq] at h3 <;> rw [← h3.2] <;> exact ⟨rfl, rfl⟩
      exact ⟨reply, by rw [if_pos hr, this.1, a1]; rfl, by rw [this.2, a2]⟩
    · rename_i hr
      simp only [Option.some.injEq] at h1
      subst h1
      exact ⟨.fail, by rw [if_neg hr, List.append_nil], rfl⟩
  obtain ⟨r1, g1, g2⟩ := g1
  refine ⟨r1, ?_⟩
  rw [← g1, ← g2]
  unfold BorIP.closeDevice at h2
  split at h2
  · rename_i hr
    simp only [Option.bind_eq_some_iff, Option.some.injEq] at h2
    obtain ⟨⟨r, b⟩, h3, h4⟩ := h2
    subst h4
    obtain ⟨reply, a1, -, -, -⟩ := command_device lib b1 ['D', 'E', 'V', 'I', 'C', 'E'] [['!']]
    have : b.log = (b1.command lib ['D', 'E', 'V', 'I', 'C', 'E'] [['!']]).2.log := by
      unfold BorIP.selectDevice at h3
      rcases hc : b1.command lib ['D', 'E', 'V', 'I', 'C', 'E'] [['!']] with ⟨r, b⟩
      rw [hc] at h3
      cases r with
      | error e => simp only [Option.some.injEq, Prod.mk.injEq] at h3; rw [← h3.2]
      | ok res =>
        simp only [Option.bind_eq_some_iff] at h3
        obtain ⟨r, -, h3⟩ := h3
        cases r <;> simp only [Option.some.injEq, Prod.mk.injEq] at h3 <;> rw [← h3.2]
    exact ⟨reply, by rw [if_pos hr, this, a1]; rfl, rfl⟩
  · rename_i hr
    simp only [Option.some.injEq] at h2
    subst h2
    exact ⟨.fail, by rw [if_neg hr, List.append_nil], rfl⟩

/-- A device is given, refused in place of another, and on closing asked back. -/
example : let lines := ["DEVICE -\n", "DEVICE A|1|2|3|4|5|x,y|s\n", "DEVICE - unknown hint\n", "DEVICE -\n"]
    ((dial (lines.map fun l => .line l.toList)).bind fun bor => bor.performAll testLib [.selectDevice "-".toList, .selectDevice "?".toList]).map
      (fun b => b.device.map (·.name)) = some (some ['A']) ∧
    ((dial (lines.map fun l => .line l.toList)).bind fun bor => bor.performAll testLib [.selectDevice "-".toList, .selectDevice "?".toList, .close]).map
      (fun b => (b.device.map (·.name), b.log.map fun e => e.1)) = some (none, ["DEVICE -\n".toList, "DEVICE ?\n".toList, "DEVICE !\n".toList]) := by
  decide +kernel

end Verif.Borip
