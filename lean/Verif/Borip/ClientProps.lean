import Verif.Borip.ClientModel
import Mathlib.Data.List.Basic
import Mathlib.Tactic.Push

/-!
# Properties C63 and C64 of the client
-/

namespace Verif.Borip

/-! ## Specification -/

/-- What is assumed of `strings.TrimSpace`: its result neither begins nor ends with a blank. -/
def Lib.Trims {F : Type} (lib : Lib F) : Prop := ∀ s, (lib.trim s).getLast? ≠ some ' ' ∧ (lib.trim s).head? ≠ some ' '

/-- The second word of a line is OK. -/
def Acknowledges (line : Str) : Prop :=
  ∃ w rest, line = w ++ ' ' :: 'O' :: 'K' :: rest ∧ ' ' ∉ w ∧ (rest = [] ∨ ∃ r, rest = ' ' :: r)

/-- An exchange in which the server acknowledges the command. -/
def Acked {F : Type} (lib : Lib F) (cmd : Str) (e : Str × Reply) : Prop :=
  e.1 = cmd ++ ['\n'] ∧ ∃ raw, e.2 = .line raw ∧ Acknowledges (lib.trim raw)

/-- The last acknowledged start has not been followed by an acknowledged stop. -/
def StreamOn {F : Type} (lib : Lib F) (log : List (Str × Reply)) : Prop :=
  ∃ pre e post, log = pre ++ e :: post ∧ Acked lib ['G', 'O'] e ∧ ∀ e' ∈ post, ¬ Acked lib ['S', 'T', 'O', 'P'] e'

/-! ## Splitting -/

theorem split_ne_nil (sep : Char) (s : Str) : split sep s ≠ [] := by
  cases s with
  | nil => simp [split]
  | cons c cs =>
    rw [split]
    split
    · simp
    · split <;> simp

theorem split_none (sep : Char) (s : Str) (h : sep ∉ s) : split sep s = [s] := by
  induction s with
  | nil => rfl
  | cons c cs ih =>
    rw [List.mem_cons, not_or] at h
    rw [split, if_neg (Ne.symm h.1), ih h.2]

theorem split_append (sep : Char) (w s : Str) (h : sep ∉ w) : split sep (w ++ sep :: s) = w :: split sep s := by
  induction w with
  | nil => rw [List.nil_append, split, if_pos rfl]
  | cons c cs ih =>
    rw [List.mem_cons, not_or] at h
    rw [List.cons_append, split, if_neg (Ne.symm h.1), ih h.2]

theorem split_cases (sep : Char) (s : Str) :
    (sep ∉ s ∧ split sep s = [s]) ∨ ∃ w t, s = w ++ sep :: t ∧ sep ∉ w ∧ split sep s = w :: split sep t := by
  by_cases h : sep ∈ s
  · right
    obtain ⟨w, t, rfl, hw⟩ := List.eq_append_cons_of_mem h
    exact ⟨w, t, rfl, hw, split_append sep w t hw⟩
  · exact .inl ⟨h, split_none sep s h⟩

theorem splitN2_none (sep : Char) (s : Str) (h : sep ∉ s) : splitN2 sep s = [s] := by
  induction s with
  | nil => rfl
  | cons c cs ih =>
    rw [List.mem_cons, not_or] at h
    rw [splitN2, if_neg (Ne.symm h.1), ih h.2]

theorem splitN2_append (sep : Char) (w s : Str) (h : sep ∉ w) : splitN2 sep (w ++ sep :: s) = [w, s] := by
  induction w with
  | nil => rw [List.nil_append, splitN2, if_pos rfl]
  | cons c cs ih =>
    rw [List.mem_cons, not_or] at h
    rw [List.cons_append, splitN2, if_neg (Ne.symm h.1), ih h.2]

/-! ## `parseAndCheck` -/

theorem makeErrorResponse_some (parts : List Str) (h : parts ≠ []) : ∃ e, makeErrorResponse parts = some e := by
  match parts, h with
  | [p], _ => exact ⟨_, rfl⟩
  | p :: q :: rest, _ => exact ⟨.response p (join (q :: rest)), by simp [makeErrorResponse, sliceFrom]⟩

theorem parseAndCheck_one (res : Str) (n : Nat) (h : ' ' ∉ res) : parseAndCheck res n = some (.error .unexpected) := by
  unfold parseAndCheck
  rw [split_none _ _ h]
  rfl

theorem parseAndCheck_ack (w rest : Str) (n : Nat) (hw : ' ' ∉ w) (hr : rest = [] ∨ ∃ r, rest = ' ' :: r) :
    split ' ' (w ++ ' ' :: 'O' :: 'K' :: rest) = w :: ['O', 'K'] :: (match rest with | [] => [] | _ :: r => split ' ' r) ∧
    parseAndCheck (w ++ ' ' :: 'O' :: 'K' :: rest) n =
      if (split ' ' (w ++ ' ' :: 'O' :: 'K' :: rest)).length < 1 + n then some (.error .unexpected)
      else some (.ok (split ' ' (w ++ ' ' :: 'O' :: 'K' :: rest))) := by
  have e : split ' ' (w ++ ' ' :: 'O' :: 'K' :: rest) = w :: ['O', 'K'] :: (match rest with | [] => [] | _ :: r => split ' ' r) := by
    rw [split_append _ _ _ hw]
    congr 1
    rcases hr with rfl | ⟨r, rfl⟩
    · rfl
    · exact split_append ' ' ['O', 'K'] r (by decide)
  refine ⟨e, ?_⟩
  unfold parseAndCheck
  rw [e]
  simp only [List.length_cons, List.getElem?_cons_succ, List.getElem?_cons_zero, Option.bind_some]
  rw [if_neg (by omega), if_neg (by simp)]

theorem parseAndCheck_nack (res : Str) (n : Nat) (h : ¬ Acknowledges res) : ∃ e, parseAndCheck res n = some (.error e) := by
  rcases split_cases ' ' res with ⟨h1, -⟩ | ⟨w, t, rfl, hw, hs⟩
  · exact ⟨_, parseAndCheck_one res n h1⟩
  · unfold parseAndCheck
    rw [hs]
    have hlen : 0 < (split ' ' t).length := List.length_pos_of_ne_nil (split_ne_nil _ _)
    have hne : (split ' ' t)[0]? ≠ some ['O', 'K'] := by
      intro hc
      apply h
      rcases split_cases ' ' t with ⟨h1, h2⟩ | ⟨w', t', rfl, hw', hs'⟩
      · rw [h2] at hc
        simp only [List.getElem?_cons_zero, Option.some.injEq] at hc
        subst hc
        exact ⟨w, [], rfl, hw, .inl rfl⟩
      · rw [hs'] at hc
        simp only [List.getElem?_cons_zero, Option.some.injEq] at hc
        subst hc
        exact ⟨w, ' ' :: t', rfl, hw, .inr ⟨t', rfl⟩⟩
    simp only [List.length_cons, List.getElem?_cons_succ]
    rw [if_neg (by omega)]
    rw [List.getElem?_eq_getElem hlen] at hne ⊢
    rw [Option.bind_some, if_pos (fun hc => hne (by rw [hc]))]
    have hsl : sliceFrom (w :: split ' ' t) 1 = some (split ' ' t) := by simp [sliceFrom]
    obtain ⟨e, he⟩ := makeErrorResponse_some (split ' ' t) (split_ne_nil _ _)
    rw [hsl, Option.bind_some, he, Option.bind_some]
    exact ⟨e, rfl⟩

/-- `parseAndCheck` never panics; it succeeds only on an acknowledgement with enough words and then
returns the words of the line. -/
theorem parseAndCheck_cases (res : Str) (n : Nat) :
    (∃ e, parseAndCheck res n = some (.error e) ∧ (¬ Acknowledges res ∨ (split ' ' res).length < 1 + n)) ∨
    (Acknowledges res ∧ parseAndCheck res n = some (.ok (split ' ' res)) ∧ 1 + n ≤ (split ' ' res).length ∧ 2 ≤ (split ' ' res).length) := by
  by_cases h : Acknowledges res
  · obtain ⟨w, rest, rfl, hw, hr⟩ := h
    obtain ⟨e1, e2⟩ := parseAndCheck_ack w rest n hw hr
    by_cases hl : (split ' ' (w ++ ' ' :: 'O' :: 'K' :: rest)).length < 1 + n
    · rw [if_pos hl] at e2
      exact .inl ⟨_, e2, .inr hl⟩
    · rw [if_neg hl] at e2
      refine .inr ⟨⟨w, rest, rfl, hw, hr⟩, e2, by omega, ?_⟩
      rw [e1]
      simp
  · obtain ⟨e, he⟩ := parseAndCheck_nack res n h
    exact .inl ⟨e, he, .inl h⟩

/-! ## No panics -/

variable {F : Type}

theorem orNumber_some {α β : Type} (x : Option α) (k : α → Option (Except CErr β)) (h : ∀ v, (k v).isSome) : (orNumber x k).isSome := by
  unfold orNumber
  split
  · rfl
  · exact h _

theorem parseDeviceString_some (lib : Lib F) (st : Str) : (parseDeviceString lib st).isSome := by
  unfold parseDeviceString
  simp only
  split
  · rfl
  · rename_i h
    have hb : ∀ (i : Nat) {β : Type} (k : Str → Option (Except CErr β)), i < 8 → (∀ p, (k p).isSome) → (((split '|' st)[i]?).bind k).isSome := by
      intro i β k hi hk
      rw [List.getElem?_eq_getElem (by omega), Option.bind_some]
      exact hk _
    refine hb 0 _ (by omega) fun _ => hb 7 _ (by omega) fun _ => hb 1 _ (by omega) fun _ => orNumber_some _ _ fun _ => ?_
    refine hb 2 _ (by omega) fun _ => orNumber_some _ _ fun _ => hb 3 _ (by omega) fun _ => orNumber_some _ _ fun _ => ?_
    refine hb 4 _ (by omega) fun _ => orNumber_some _ _ fun _ => hb 5 _ (by omega) fun _ => orNumber_some _ _ fun _ => ?_
    exact hb 6 _ (by omega) fun _ => rfl

theorem parseSelect_some (lib : Lib F) (res : Str) (h : res.getLast? ≠ some ' ') : (parseSelect lib res).isSome := by
  unfold parseSelect
  simp only
  by_cases hs : ' ' ∈ res
  · obtain ⟨w, t, rfl, hw⟩ := List.eq_append_cons_of_mem hs
    rw [splitN2_append _ _ _ hw]
    simp only [List.getElem?_cons_zero, List.getElem?_cons_succ, Option.bind_some]
    split
    · rfl
    · match t, h with
      | [], h => simp at h
      | c :: t, h =>
        simp only [List.getElem?_cons_zero, Option.bind_some]
        split
        · split
          · rfl
          · simp [sliceFrom]
        · have := parseDeviceString_some lib (c :: t)
          obtain ⟨r, hr⟩ := Option.isSome_iff_exists.mp this
          rw [hr, Option.bind_some]
          cases r <;> rfl
  · rw [splitN2_none _ _ hs]
    simp

theorem command_trim (lib : Lib F) (ht : lib.Trims) (bor : BorIP F) (cmd : Str) (args : List Str) (res : Str) (bor' : BorIP F)
    (h : bor.command lib cmd args = (.ok res, bor')) : res.getLast? ≠ some ' ' := by
  unfold BorIP.command at h
  simp only at h
  split at h
  · simp at h
  · simp at h
  · simp only [Prod.mk.injEq, Except.ok.injEq] at h
    rw [← h.1]
    exact (ht _).1

theorem selectDevice_some (lib : Lib F) (ht : lib.Trims) (bor : BorIP F) (hint : Str) : (bor.selectDevice lib hint).isSome := by
  unfold BorIP.selectDevice
  rcases hc : bor.command lib ['D', 'E', 'V', 'I', 'C', 'E'] [hint] with ⟨r, bor'⟩
  cases r with
  | error e => rfl
  | ok res =>
    simp only
    obtain ⟨r, hr⟩ := Option.isSome_iff_exists.mp (parseSelect_some lib res (command_trim lib ht _ _ _ _ _ hc))
    rw [hr, Option.bind_some]
    cases r <;> rfl

theorem call_some (lib : Lib F) (bor : BorIP F) (cmd : Str) (args : List Str) (parse : Str → Option (Except CErr (Value F)))
    (h : ∀ res, (parse res).isSome) : (bor.call lib cmd args parse).isSome := by
  unfold BorIP.call
  rcases bor.command lib cmd args with ⟨r, bor'⟩
  cases r with
  | error e => rfl
  | ok res =>
    obtain ⟨r, hr⟩ := Option.isSome_iff_exists.mp (h res)
    simp only [hr, Option.bind_some, Option.isSome_some]

theorem pac_bind_some {β : Type} (res : Str) (n : Nat) (k : Except CErr (List Str) → Option β) (he : ∀ e, (k (.error e)).isSome)
    (hk : 1 + n ≤ (split ' ' res).length → (k (.ok (split ' ' res))).isSome) : ((parseAndCheck res n).bind k).isSome := by
  rcases parseAndCheck_cases res n with ⟨e, h, -⟩ | ⟨-, h, hl, -⟩
  · rw [h, Option.bind_some]; exact he e
  · rw [h, Option.bind_some]; exact hk hl

theorem setRunning_some (lib : Lib F) (bor : BorIP F) (cmd : Str) (b : Bool) : (bor.setRunning lib cmd b).isSome := by
  unfold BorIP.setRunning
  rcases bor.command lib cmd [] with ⟨r, bor'⟩
  cases r with
  | error e => rfl
  | ok res => exact pac_bind_some _ _ _ (fun _ => rfl) fun _ => rfl

theorem parseQuery_some (lib : Lib F) (res : Str) : (parseQuery lib res).isSome := by
  unfold parseQuery sliceFrom
  split
  · rfl
  · rw [if_pos (by omega), Option.bind_some]
    exact orNumber_some _ _ fun _ => rfl

theorem optFloat_some (lib : Lib F) (parts : List Str) (i : Nat) : ∃ v, optFloat lib parts i = some v := by
  unfold optFloat
  split
  · rw [List.getElem?_eq_getElem (by omega)]
    exact ⟨_, rfl⟩
  · exact ⟨_, rfl⟩

/-- C63, the part that holds: whatever the server sends, no call other than `SetRate` panics. -/
theorem C63_others_partial (lib : Lib F) (ht : lib.Trims) (bor : BorIP F) (op : Op F) (h : ∀ r, op ≠ .setRate r) :
    (bor.perform lib op).isSome := by
  cases op with
  | selectDevice hint => exact selectDevice_some lib ht bor hint
  | setFrequency f =>
    refine call_some _ _ _ _ _ fun res => pac_bind_some _ _ _ (fun _ => rfl) fun _ => ?_
    obtain ⟨a, ha⟩ := optFloat_some lib (split ' ' res) 2
    obtain ⟨b, hb⟩ := optFloat_some lib (split ' ' res) 3
    obtain ⟨c, hc⟩ := optFloat_some lib (split ' ' res) 4
    obtain ⟨d, hd⟩ := optFloat_some lib (split ' ' res) 5
    simp only [ha, hb, hc, hd, Option.bind_some, Option.isSome_some]
  | frequency => exact call_some _ _ _ _ _ (parseQuery_some lib)
  | setAntenna a => exact call_some _ _ _ _ _ fun res => pac_bind_some _ _ _ (fun _ => rfl) fun _ => rfl
  | antenna =>
    refine call_some _ _ _ _ _ fun res => ?_
    split
    · rfl
    · rw [sliceFrom, if_pos (by omega)]; rfl
  | setRate r => exact absurd rfl (h r)
  | rate => exact call_some _ _ _ _ _ (parseQuery_some lib)
  | setGain g => exact call_some _ _ _ _ _ fun res => pac_bind_some _ _ _ (fun _ => rfl) fun _ => rfl
  | gain => exact call_some _ _ _ _ _ (parseQuery_some lib)
  | setDestination d =>
    refine call_some _ _ _ _ _ fun res => pac_bind_some _ _ _ (fun _ => rfl) fun hl => ?_
    simp only
    rw [List.getElem?_eq_getElem (by omega)]
    rfl
  | destination =>
    refine call_some _ _ _ _ _ fun res => ?_
    split
    · rfl
    · rw [sliceFrom, if_pos (by omega)]; rfl
  | setHeaderEnabled e => exact call_some _ _ _ _ _ fun res => pac_bind_some _ _ _ (fun _ => rfl) fun _ => rfl
  | headerEnabled =>
    refine call_some _ _ _ _ _ fun res => ?_
    split
    · rfl
    · rw [sliceFrom, if_pos (by omega), Option.bind_some]
      split
      · rfl
      · split <;> rfl
  | go => exact setRunning_some _ _ _ _
  | stop => exact setRunning_some _ _ _ _
  | close =>
    have h1 : ∃ b, bor.closeStop lib = some b := by
      unfold BorIP.closeStop
      split
      · obtain ⟨r, hr⟩ := Option.isSome_iff_exists.mp (setRunning_some lib bor ['S', 'T', 'O', 'P'] false)
        rw [BorIP.stop, hr]
        exact ⟨_, rfl⟩
      · exact ⟨_, rfl⟩
    obtain ⟨b, hb⟩ := h1
    have h2 : ∃ b', b.closeDevice lib = some b' := by
      unfold BorIP.closeDevice
      split
      · obtain ⟨r, hr⟩ := Option.isSome_iff_exists.mp (selectDevice_some lib ht b ['!'])
        rw [hr]
        exact ⟨_, rfl⟩
      · exact ⟨_, rfl⟩
    obtain ⟨b', hb'⟩ := h2
    simp only [BorIP.perform, BorIP.close, hb, hb', Option.bind_some, Option.isSome_some]

/-- C63 does not hold: `SetRate` panics exactly when the reply, trimmed, is one word and OK. -/
theorem C63_violated (lib : Lib F) (bor : BorIP F) (rate : F) (raw : Str) (rest : List Reply) (hr : bor.replies = .line raw :: rest) :
    bor.perform lib (.setRate rate) = none ↔ ∃ w, ' ' ∉ w ∧ lib.trim raw = w ++ [' ', 'O', 'K'] := by
  have hc : bor.perform lib (.setRate rate) = none ↔ parseRate lib (lib.trim raw) = none := by
    simp only [BorIP.perform, BorIP.setRate, BorIP.call, BorIP.command, hr]
    rw [Option.bind_eq_none_iff]
    constructor
    · intro h
      rw [Option.eq_none_iff_forall_not_mem]
      intro a ha
      exact absurd (h a ha) (by simp)
    · intro h a ha
      rw [h] at ha
      exact absurd ha (by simp)
  rw [hc, parseRate]
  constructor
  · intro h
    rcases parseAndCheck_cases (lib.trim raw) 1 with ⟨e, he, -⟩ | ⟨⟨w, t, ht, hw, hr'⟩, he, hl, -⟩
    · rw [he, Option.bind_some] at h
      exact absurd h (by simp)
    · refine ⟨w, hw, ?_⟩
      rw [he, Option.bind_some] at h
      obtain ⟨e1, -⟩ := parseAndCheck_ack w t 1 hw hr'
      rw [← ht] at e1
      simp only [e1] at h
      rcases hr' with rfl | ⟨r, rfl⟩
      · exact ht
      · exfalso
        simp only [List.getElem?_cons_succ] at h
        rw [List.getElem?_eq_getElem (List.length_pos_of_ne_nil (split_ne_nil ' ' r)), Option.bind_some] at h
        exact absurd (orNumber_some (β := Value F) (lib.parseFloat _) _ fun _ => rfl) (by rw [h]; simp)
  · rintro ⟨w, hw, ht⟩
    obtain ⟨e1, e2⟩ := parseAndCheck_ack w [] 1 hw (.inl rfl)
    rw [ht, e2, e1]
    rfl

/-! ## C64 -/

theorem streamOn_snoc_go (lib : Lib F) (log : List (Str × Reply)) (e : Str × Reply) (h : Acked lib ['G', 'O'] e) : StreamOn lib (log ++ [e]) :=
  ⟨log, e, [], rfl, h, by simp⟩

theorem streamOn_snoc_stop (lib : Lib F) (log : List (Str × Reply)) (e : Str × Reply) (h : Acked lib ['S', 'T', 'O', 'P'] e) : ¬ StreamOn lib (log ++ [e]) := by
  rintro ⟨pre, g, post, h1, h2, h3⟩
  rcases List.eq_nil_or_concat post with rfl | ⟨p, x, rfl⟩
  · have := (List.append_inj' h1 rfl).2
    simp only [List.cons.injEq, and_true] at this
    subst this
    exact absurd (h.1.symm.trans h2.1) (by simp)
  · rw [List.concat_eq_append, ← List.cons_append, ← List.append_assoc] at h1
    have := (List.append_inj' h1 rfl).2
    simp only [List.cons.injEq, and_true] at this
    subst this
    exact h3 e (by simp) h

theorem streamOn_snoc_other (lib : Lib F) (log : List (Str × Reply)) (e : Str × Reply) (h1 : ¬ Acked lib ['G', 'O'] e)
    (h2 : ¬ Acked lib ['S', 'T', 'O', 'P'] e) : StreamOn lib (log ++ [e]) ↔ StreamOn lib log := by
  constructor
  · rintro ⟨pre, g, post, a1, a2, a3⟩
    rcases List.eq_nil_or_concat post with rfl | ⟨p, x, rfl⟩
    · have := (List.append_inj' a1 rfl).2
      simp only [List.cons.injEq, and_true] at this
      subst this
      exact absurd a2 h1
    · rw [List.concat_eq_append, ← List.cons_append, ← List.append_assoc] at a1
      have := (List.append_inj' a1 rfl).1
      exact ⟨pre, g, p, this, a2, fun e' he' => a3 e' (by simp [he'])⟩
  · rintro ⟨pre, g, post, a1, a2, a3⟩
    refine ⟨pre, g, post ++ [e], by simp [a1], a2, ?_⟩
    intro e' he'
    rw [List.mem_append, List.mem_singleton] at he'
    rcases he' with he' | rfl
    · exact a3 e' he'
    · exact h2

/-- The request of `command`. -/
def request (cmd : Str) (args : List Str) : Str := cmd ++ (if args.length > 0 then ' ' :: join args else []) ++ ['\n']

theorem command_log (lib : Lib F) (bor : BorIP F) (cmd : Str) (args : List Str) :
    ∃ reply, (bor.command lib cmd args).2.log = bor.log ++ [(request cmd args, reply)] ∧
      (bor.command lib cmd args).2.running = bor.running ∧
      (∀ res, (bor.command lib cmd args).1 = .ok res → ∃ raw, reply = .line raw ∧ res = lib.trim raw) ∧
      (∀ e, (bor.command lib cmd args).1 = .error e → reply = .fail) := by
  unfold BorIP.command
  simp only
  split
  · exact ⟨_, rfl, rfl, by simp, by simp⟩
  · exact ⟨_, rfl, rfl, by simp, by simp⟩
  · exact ⟨_, rfl, rfl, by simp, by simp⟩

theorem not_acked {lib : Lib F} {cmd c : Str} {args : List Str} {reply : Reply} (h : request cmd args ≠ c ++ ['\n']) :
    ¬ Acked lib c (request cmd args, reply) := fun hc => h hc.1

/-- A call whose request is neither a start nor a stop keeps the agreement of flag and log. -/
theorem other_agrees (lib : Lib F) (bor bor' : BorIP F) (cmd : Str) (args : List Str) (h0 : (bor.running = true ↔ StreamOn lib bor.log))
    (hg : request cmd args ≠ ['G', 'O', '\n']) (hs : request cmd args ≠ ['S', 'T', 'O', 'P', '\n'])
    (h1 : bor'.log = (bor.command lib cmd args).2.log) (h2 : bor'.running = (bor.command lib cmd args).2.running) :
    bor'.running = true ↔ StreamOn lib bor'.log := by
  obtain ⟨reply, a1, a2, -, -⟩ := command_log lib bor cmd args
  rw [h1, h2, a1, a2, streamOn_snoc_other lib _ _ (not_acked hg) (not_acked hs)]
  exact h0

theorem call_agrees (lib : Lib F) (bor : BorIP F) (cmd : Str) (args : List Str) (parse : Str → Option (Except CErr (Value F)))
    (v : Except CErr (Value F)) (bor' : BorIP F) (h : bor.call lib cmd args parse = some (v, bor'))
    (h0 : (bor.running = true ↔ StreamOn lib bor.log)) (hg : request cmd args ≠ ['G', 'O', '\n']) (hs : request cmd args ≠ ['S', 'T', 'O', 'P', '\n']) :
    bor'.running = true ↔ StreamOn lib bor'.log := by
  have : bor' = (bor.command lib cmd args).2 := by
    unfold BorIP.call at h
    rcases hc : bor.command lib cmd args with ⟨r, b⟩
    rw [hc] at h
    cases r with
    | error e => simp only [Option.some.injEq, Prod.mk.injEq] at h; exact h.2.symm
    | ok res =>
      simp only [Option.bind_eq_some_iff, Option.some.injEq, Prod.mk.injEq] at h
      obtain ⟨_, -, -, h⟩ := h
      exact h.symm
  subst this
  exact other_agrees lib bor _ cmd args h0 hg hs rfl rfl

theorem selectDevice_agrees (lib : Lib F) (bor : BorIP F) (hint : Str) (v : Except CErr (Value F)) (bor' : BorIP F)
    (h : bor.selectDevice lib hint = some (v, bor')) (h0 : (bor.running = true ↔ StreamOn lib bor.log)) :
    bor'.running = true ↔ StreamOn lib bor'.log := by
  have : bor'.log = (bor.command lib ['D', 'E', 'V', 'I', 'C', 'E'] [hint]).2.log ∧
      bor'.running = (bor.command lib ['D', 'E', 'V', 'I', 'C', 'E'] [hint]).2.running := by
    unfold BorIP.selectDevice at h
    rcases hc : bor.command lib ['D', 'E', 'V', 'I', 'C', 'E'] [hint] with ⟨r, b⟩
    rw [hc] at h
    cases r with
    | error e => simp only [Option.some.injEq, Prod.mk.injEq] at h; rw [← h.2]; exact ⟨rfl, rfl⟩
    | ok res =>
      simp only [Option.bind_eq_some_iff] at h
      obtain ⟨r, -, h⟩ := h
      cases r with
      | error e => simp only [Option.some.injEq, Prod.mk.injEq] at h; rw [← h.2]; exact ⟨rfl, rfl⟩
      | ok d => simp only [Option.some.injEq, Prod.mk.injEq] at h; rw [← h.2]; exact ⟨rfl, rfl⟩
  exact other_agrees lib bor bor' _ [hint] h0 (by simp [request]) (by simp [request]) this.1 this.2

theorem setRunning_agrees (lib : Lib F) (bor : BorIP F) (cmd : Str) (b : Bool) (hcmd : (cmd = ['G', 'O'] ∧ b = true) ∨ (cmd = ['S', 'T', 'O', 'P'] ∧ b = false))
    (v : Except CErr (Value F)) (bor' : BorIP F) (h : bor.setRunning lib cmd b = some (v, bor')) (h0 : (bor.running = true ↔ StreamOn lib bor.log)) :
    bor'.running = true ↔ StreamOn lib bor'.log := by
  obtain ⟨reply, a1, a2, a3, a4⟩ := command_log lib bor cmd []
  have hreq : request cmd [] = cmd ++ ['\n'] := by simp [request]
  have keep : (∀ c, ¬ Acked lib c (request cmd [], reply)) → ((bor.command lib cmd []).2.running = true ↔ StreamOn lib (bor.command lib cmd []).2.log) := by
    intro hn
    rw [a1, a2, streamOn_snoc_other lib _ _ (hn _) (hn _)]
    exact h0
  unfold BorIP.setRunning at h
  rcases hc : bor.command lib cmd [] with ⟨r, b'⟩
  rw [hc] at h a1 a2 a3 a4 keep
  simp only at a1 a2 a3 a4 keep
  cases r with
  | error e =>
    simp only [Option.some.injEq, Prod.mk.injEq] at h
    rw [← h.2]
    apply keep
    rintro c ⟨-, raw, hr, -⟩
    simp only at hr
    rw [a4 e rfl] at hr
    cases hr
  | ok res =>
    obtain ⟨raw, hr, rfl⟩ := a3 res rfl
    simp only [Option.bind_eq_some_iff] at h
    obtain ⟨r, h1, h2⟩ := h
    rcases parseAndCheck_cases (lib.trim raw) 1 with ⟨e, he, hn⟩ | ⟨hack, he, -, -⟩
    · rw [he, Option.some.injEq] at h1
      subst h1
      simp only [Option.some.injEq, Prod.mk.injEq] at h2
      rw [← h2.2]
      apply keep
      rintro c ⟨-, raw', hr', hack⟩
      simp only at hr'
      rw [hr, Reply.line.injEq] at hr'
      subst hr'
      rcases hn with hn | hn
      · exact hn hack
      · obtain ⟨w, t, ht, hw, hr'⟩ := hack
        obtain ⟨e1, -⟩ := parseAndCheck_ack w t 1 hw hr'
        rw [ht, e1] at hn
        simp only [List.length_cons] at hn
        omega
    · rw [he, Option.some.injEq] at h1
      subst h1
      simp only [Option.some.injEq, Prod.mk.injEq] at h2
      rw [← h2.2]
      simp only [a1]
      have hA : Acked lib cmd (request cmd [], reply) := ⟨hreq, raw, hr, hack⟩
      rcases hcmd with ⟨rfl, rfl⟩ | ⟨rfl, rfl⟩
      · exact ⟨fun _ => streamOn_snoc_go lib _ _ hA, fun _ => rfl⟩
      · exact ⟨fun h => by simp at h, fun h => absurd h (streamOn_snoc_stop lib _ _ hA)⟩

theorem perform_agrees (lib : Lib F) (bor : BorIP F) (op : Op F) (v : Except CErr (Value F)) (bor' : BorIP F)
    (h : bor.perform lib op = some (v, bor')) (h0 : (bor.running = true ↔ StreamOn lib bor.log)) :
    bor'.running = true ↔ StreamOn lib bor'.log := by
  cases op with
  | selectDevice hint => exact selectDevice_agrees lib bor hint v bor' h h0
  | setFrequency f => exact call_agrees lib bor _ _ _ v bor' h h0 (by simp [request]) (by simp [request])
  | frequency => exact call_agrees lib bor _ _ _ v bor' h h0 (by simp [request]) (by simp [request])
  | setAntenna a => exact call_agrees lib bor _ _ _ v bor' h h0 (by simp [request]) (by simp [request])
  | antenna => exact call_agrees lib bor _ _ _ v bor' h h0 (by simp [request]) (by simp [request])
  | setRate r => exact call_agrees lib bor _ _ _ v bor' h h0 (by simp [request]) (by simp [request])
  | rate => exact call_agrees lib bor _ _ _ v bor' h h0 (by simp [request]) (by simp [request])
  | setGain g => exact call_agrees lib bor _ _ _ v bor' h h0 (by simp [request]) (by simp [request])
  | gain => exact call_agrees lib bor _ _ _ v bor' h h0 (by simp [request]) (by simp [request])
  | setDestination d => exact call_agrees lib bor _ _ _ v bor' h h0 (by simp [request]) (by simp [request])
  | destination => exact call_agrees lib bor _ _ _ v bor' h h0 (by simp [request]) (by simp [request])
  | setHeaderEnabled e => exact call_agrees lib bor _ _ _ v bor' h h0 (by simp [request]) (by simp [request])
  | headerEnabled => exact call_agrees lib bor _ _ _ v bor' h h0 (by simp [request]) (by simp [request])
  | go => exact setRunning_agrees lib bor _ _ (.inl ⟨rfl, rfl⟩) v bor' h h0
  | stop => exact setRunning_agrees lib bor _ _ (.inr ⟨rfl, rfl⟩) v bor' h h0
  | close =>
    simp only [BorIP.perform, BorIP.close, Option.bind_eq_some_iff, Option.some.injEq, Prod.mk.injEq] at h
    obtain ⟨b1, h1, b2, h2, -, rfl⟩ := h
    have g1 : b1.running = true ↔ StreamOn lib b1.log := by
      unfold BorIP.closeStop at h1
      split at h1
      · simp only [Option.bind_eq_some_iff, Option.some.injEq] at h1
        obtain ⟨⟨r, b⟩, h3, h4⟩ := h1
        subst h4
        exact setRunning_agrees lib bor _ _ (.inr ⟨rfl, rfl⟩) r b h3 h0
      · simp only [Option.some.injEq] at h1
        subst h1
        exact h0
    unfold BorIP.closeDevice at h2
    split at h2
    · simp only [Option.bind_eq_some_iff, Option.some.injEq] at h2
      obtain ⟨⟨r, b⟩, h3, h4⟩ := h2
      subst h4
      exact selectDevice_agrees lib b1 _ r b h3 g1
    · simp only [Option.some.injEq] at h2
      subst h2
      exact g1

/-- C64: after any sequence of calls, whatever the server replied, the flag says that the last
acknowledged start was not followed by an acknowledged stop. -/
theorem C64_running (lib : Lib F) (ops : List (Op F)) (replies : List Reply) (bor bor' : BorIP F)
    (hd : dial replies = some bor) (h : bor.performAll lib ops = some bor') :
    bor'.running = true ↔ StreamOn lib bor'.log := by
  have h0 : bor.running = true ↔ StreamOn lib bor.log := by
    unfold dial at hd
    split at hd
    · simp only [Option.some.injEq] at hd
      subst hd
      simp [StreamOn]
    · cases hd
  clear hd
  induction ops generalizing bor with
  | nil =>
    simp only [BorIP.performAll, Option.some.injEq] at h
    subst h
    exact h0
  | cons op ops ih =>
    simp only [BorIP.performAll, Option.bind_eq_some_iff] at h
    obtain ⟨⟨v, b⟩, h1, h2⟩ := h
    exact ih b h2 (perform_agrees lib bor op v b h1 h0)

/-! ## Examples -/

/-- A library with ASCII trimming and digits. -/
def testLib : Lib Nat where
  parseFloat s := if s ≠ [] ∧ s.all Char.isDigit then some (s.foldl (fun n c => 10 * n + (c.toNat - 48)) 0) else none
  parseInt s := if s ≠ [] ∧ s.all Char.isDigit then some (s.foldl (fun n c => 10 * n + (c.toNat - 48)) 0) else none
  formatFloat n := Nat.toDigits 10 n
  trim s := ((s.dropWhile Char.isWhitespace).reverse.dropWhile Char.isWhitespace).reverse

theorem head_dropWhile (p : Char → Bool) (s : Str) (c : Char) (h : (s.dropWhile p).head? = some c) : p c = false := by
  induction s with
  | nil => simp at h
  | cons x xs ih =>
    rw [List.dropWhile_cons] at h
    split at h
    · exact ih h
    · rename_i hx
      simp only [List.head?_cons, Option.some.injEq] at h
      subst h
      simpa using hx

theorem testLib_trims : testLib.Trims := by
  intro s
  constructor
  · intro h
    simp only [testLib, List.getLast?_reverse] at h
    exact absurd (head_dropWhile _ _ _ h) (by decide)
  · intro h
    simp only [testLib] at h
    have hsuf := (List.dropWhile_suffix Char.isWhitespace (l := (s.dropWhile Char.isWhitespace).reverse))
    have hpre := List.reverse_prefix.mpr hsuf
    rw [List.reverse_reverse] at hpre
    obtain ⟨t, ht⟩ := hpre
    have : (s.dropWhile Char.isWhitespace).head? = some ' ' := by
      rw [← ht, List.head?_append, h]
      rfl
    exact absurd (head_dropWhile _ _ _ this) (by decide)

/-- Start, then a refused stop, then an acknowledged one. -/
example : ((dial [.line ['D'], .line ['G', 'O', ' ', 'O', 'K', '\n'], .line ['S', ' ', 'N', 'O', '\n'], .line ['S', ' ', 'O', 'K', '\n']]).bind fun bor =>
      bor.performAll testLib [.go, .stop]).map (·.running) = some true ∧
    ((dial [.line ['D'], .line ['G', 'O', ' ', 'O', 'K', '\n'], .line ['S', ' ', 'N', 'O', '\n'], .line ['S', ' ', 'O', 'K', '\n']]).bind fun bor =>
      bor.performAll testLib [.go, .stop, .stop]).map (·.running) = some false := by
  decide

/-- A server that answers "RATE OK" makes the client panic. -/
example : (⟨false, none, [.line ['R', 'A', 'T', 'E', ' ', 'O', 'K', '\n']], []⟩ : BorIP Nat).perform testLib (.setRate 1) = none := by
  rw [C63_violated testLib _ 1 ['R', 'A', 'T', 'E', ' ', 'O', 'K', '\n'] [] rfl]
  exact ⟨['R', 'A', 'T', 'E'], by decide, by decide⟩

example : ((⟨false, none, [.line ['D', 'E', 'V', 'I', 'C', 'E', ' ', ' ', '\n']], []⟩ : BorIP Nat).perform testLib (.selectDevice ['-'])).isSome :=
  C63_others_partial testLib testLib_trims _ _ (by simp)

end Verif.Borip
