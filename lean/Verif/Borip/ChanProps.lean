import Verif.Borip.ChanModel
import Verif.Borip.WriteProps
import Verif.Borip.SessionProps

/-!
# C147 with the channel that ends a stream
-/

namespace Verif.Borip

variable {F : Type}

/-- A line that asks the server to end a stream: STOP, or DEVICE for another device or none. -/
def Stops (lib : SLib F) (l : Str) : Prop :=
  ∃ cmd args, split ' ' (lib.trim (l ++ ['\n'])) = cmd :: args ∧
    (cmd.map Char.toUpper = "STOP".toList ∨ cmd.map Char.toUpper = "DEVICE".toList ∧ (args = [] ∨ args.head? = some ['-'] ∨ args.head? = some ['!']))

theorem stoppingLine_iff (lib : SLib F) (l : Str) : stoppingLine lib (l ++ ['\n']) = true ↔ Stops lib l := by
  have hd : lit "DEVICE" ≠ lit "STOP" := by decide
  have key : ∀ cmd args, stopping cmd args = true ↔
      (cmd = "STOP".toList ∨ cmd = "DEVICE".toList ∧ (args = [] ∨ args.head? = some ['-'] ∨ args.head? = some ['!'])) := by
    intro cmd args
    unfold stopping
    by_cases h : cmd = lit "STOP"
    · rw [if_pos h]
      exact ⟨fun _ => .inl h, fun _ => rfl⟩
    · rw [if_neg h]
      by_cases h' : cmd = lit "DEVICE"
      · rw [if_pos h']
        cases args with
        | nil => exact ⟨fun _ => .inr ⟨h', .inl rfl⟩, fun _ => rfl⟩
        | cons a as =>
          simp only [Bool.or_eq_true, decide_eq_true_eq, List.head?_cons, Option.some.injEq, reduceCtorEq, false_or]
          exact ⟨fun g => .inr ⟨h', g⟩, fun g => g.elim (fun g => absurd g h) (·.2)⟩
      · rw [if_neg h']
        exact ⟨fun g => by simp at g, fun g => g.elim (fun g => absurd g h) (fun g => absurd g.1 h')⟩
  unfold stoppingLine Stops
  cases hs : split ' ' (lib.trim (l ++ ['\n'])) with
  | nil => simp
  | cons cmd args =>
    simp only [key]
    constructor
    · intro h; exact ⟨cmd, args, rfl, h⟩
    · rintro ⟨cmd', args', e, h⟩
      cases e
      exact h

/-- A stream does not end while a line is served. -/
theorem serveLine_streaming (lib : SLib F) (rtl : Rtl F) {s : Srv F} (hs : s.streaming = true) (raw : Str) : (serveLine lib rtl s raw).2.streaming = true := by
  have key : ∀ cmd args, (handleCommand lib rtl s cmd args).2.streaming = true := by
    intro cmd args
    unfold handleCommand
    repeat (split; exact hs)
    split
    · unfold onDest
      cases args with
      | nil =>
        simp only
        split <;> exact hs
      | cons a args =>
        simp only
        cases hr : lib.resolve a <;> exact hs
    split
    · unfold onGo
      repeat (split; exact hs)
      cases rtl.start <;> exact hs
    split
    · exact hs
    split
    · rw [onDevice_hint]
      split
      · cases rtl.openAny <;> exact hs
      split <;> exact hs
    · exact hs
  unfold serveLine
  simp only
  split
  · exact hs
  split
  · exact hs
  · exact key _ _

/-- The channel is nil when there is no stream. -/
def Tied (s : Srv F) (c : Chan) : Prop := s.streaming = true ↔ c ≠ .nil

theorem serveLineC_some {lib : SLib F} {rtl : Rtl F} {s : Srv F} {c : Chan} {raw : Str} {r : Option Str × Srv F × Chan} (ht : Tied s c)
    (h : serveLineC lib rtl s c raw = some r) : (r.1, r.2.1) = serveLine lib rtl (s.now rtl) raw ∧ Tied r.2.1 r.2.2 := by
  unfold serveLineC at h
  have ht' : Tied (s.now rtl) (if rtl.ended then .nil else c) := by
    unfold Tied Srv.now at *
    cases rtl.ended <;> simp [ht]
  simp only at h
  generalize (if rtl.ended then Chan.nil else c) = c' at h ht'
  split at h
  · cases h
  · cases h
    refine ⟨rfl, ?_⟩
    have hkeep := serveLine_streaming lib rtl (s := s.now rtl) (raw := raw)
    unfold Tied at *
    simp only
    cases c' with
    | nil => by_cases hstr : (serveLine lib rtl (s.now rtl) raw).2.streaming = true <;> simp [hstr]
    | opened =>
      have := hkeep (ht'.2 (by simp))
      cases stoppingLine lib raw <;> simp [this]
    | closed => simp [hkeep (ht'.2 (by simp))]

theorem loopC_prefix (lib : SLib F) (rtl : Nat → Rtl F) : ∀ (fuel n : Nat) (s : Srv F) (c : Chan) (rd : Rd), Tied s c →
    (serveLoopC lib rtl fuel n s c rd).1 <+: (serveLoop lib rtl fuel n s rd).1 ∧
    ∀ t, (serveLoopC lib rtl fuel n s c rd).2 = some t →
      serveLoop lib rtl fuel n s rd = ((serveLoopC lib rtl fuel n s c rd).1, t.1, t.2.2) ∧ Tied t.1 t.2.1 := by
  intro fuel
  induction fuel with
  | zero =>
    intro n s c rd ht
    refine ⟨List.prefix_refl _, ?_⟩
    intro t h
    cases h
    exact ⟨rfl, ht⟩
  | succ fuel ih =>
    intro n s c rd ht
    rw [serveLoopC, serveLoop]
    generalize rd.readSlice = p
    rcases p with ⟨e | raw, rd'⟩
    · refine ⟨List.prefix_refl _, ?_⟩
      intro t h
      cases h
      exact ⟨rfl, ht⟩
    · simp only
      cases hr : serveLineC lib (rtl n) s c raw with
      | none =>
        refine ⟨List.nil_prefix, ?_⟩
        intro t h
        cases h
      | some r =>
        obtain ⟨e, ht'⟩ := serveLineC_some ht hr
        rw [← e]
        simp only
        obtain ⟨g1, g2⟩ := ih (n + 1) r.2.1 r.2.2 rd' ht'
        refine ⟨(List.prefix_append_right_inj _).2 g1, ?_⟩
        intro t h
        obtain ⟨k1, k2⟩ := g2 t h
        rw [k1]
        exact ⟨rfl, k2⟩

/-- C147 with the channel: as far as the server does not panic it is the loop of the other theorems, and what it has sent when it panics is the first part
of what they say. -/
theorem C147_channel (lib : SLib F) (rtl : Nat → Rtl F) (s : Srv F) (c : Chan) (chunks : List Str) (ht : s.streaming = true ↔ c ≠ .nil) :
    (serveC lib rtl s c chunks).1 <+: (serve lib rtl s chunks).1 ∧
    ∀ s' c' e, (serveC lib rtl s c chunks).2 = some (s', c', e) →
      serve lib rtl s chunks = ((serveC lib rtl s c chunks).1, s', e) ∧ (s'.streaming = true ↔ c' ≠ .nil) := by
  obtain ⟨h1, h2⟩ := loopC_prefix lib rtl (chunks.flatten.length + 1) 0 s c ⟨[], chunks⟩ ht
  unfold serveC serve
  simp only
  refine ⟨List.cons_prefix_cons.2 ⟨rfl, h1⟩, ?_⟩
  intro s' c' e h
  obtain ⟨g1, g2⟩ := h2 _ h
  rw [g1]
  exact ⟨rfl, g2⟩

/-- Between two lines that stop a stream, and before the first if the channel is closed already, the stream ends. -/
theorem loopC_safe (lib : SLib F) (rtl : Nat → Rtl F) (ls : List Str) (hls : ∀ l ∈ ls, Fits l) :
    ∀ (fuel n : Nat) (s : Srv F) (c : Chan) (rd : Rd) (tail : Str), rd.buf.length ≤ rdSize → rd.all = onWire ls ++ tail → '\n' ∉ tail →
      (∀ i j l l', i < j → ls[i]? = some l → ls[j]? = some l' → Stops lib l → Stops lib l' → ∃ k, i < k ∧ k ≤ j ∧ (rtl (n + k)).ended = true) →
      (c = .closed → ∀ j l, ls[j]? = some l → Stops lib l → ∃ k, k ≤ j ∧ (rtl (n + k)).ended = true) →
      (serveLoopC lib rtl fuel n s c rd).2 ≠ none := by
  induction ls with
  | nil =>
    intro fuel n s c rd tail hb hall htail _ _
    cases fuel with
    | zero => simp [serveLoopC]
    | succ fuel =>
      rw [serveLoopC]
      obtain ⟨hs, -⟩ := readSlice_sliced rd hb
      have hall : rd.all = tail := hall
      rw [hall] at hs
      generalize rd.readSlice = p at hs
      obtain ⟨p1, p2⟩ := p
      simp only at hs
      cases hs with
      | line l rest h4 h5 h6 => exact absurd (by rw [h4]; simp) htail
      | full a b rest h4 h5 h6 => simp
      | ended rest _ _ => simp
  | cons l ls ih =>
    intro fuel n s c rd tail hb hall htail h1 h2
    cases fuel with
    | zero => simp [serveLoopC]
    | succ fuel =>
      have hall' : rd.all = l ++ '\n' :: (onWire ls ++ tail) := by
        rw [hall]
        simp [onWire]
      obtain ⟨rd', e1, e2, e3⟩ := readSlice_line hb (hls l (by simp)) hall'
      rw [serveLoopC, e1]
      simp only
      have hn : ∀ k, n + (k + 1) = n + 1 + k := by intro k; omega
      have hcl : (if (rtl n).ended then Chan.nil else c) = .closed → c = .closed ∧ (rtl n).ended = false := by
        cases (rtl n).ended <;> simp
      have hc : ∃ r, serveLineC lib (rtl n) s c (l ++ ['\n']) = some r ∧ (r.2.2 = .closed → Stops lib l ∨ c = .closed ∧ (rtl n).ended = false) := by
        unfold serveLineC
        simp only
        generalize (if (rtl n).ended then Chan.nil else c) = c' at hcl
        rw [if_neg]
        · refine ⟨_, rfl, ?_⟩
          intro hx
          simp only at hx
          by_cases hst : stoppingLine lib (l ++ ['\n']) = true
          · exact .inl ((stoppingLine_iff lib l).1 hst)
          · right
            rw [Bool.not_eq_true] at hst
            apply hcl
            rw [hst, Bool.false_and, if_neg (by simp)] at hx
            split at hx
            · cases hx
            · exact hx
        · simp only [Bool.and_eq_true, beq_iff_eq]
          rintro ⟨hx1, hx2⟩
          obtain ⟨g1, g2⟩ := hcl hx2
          obtain ⟨k, hk, hk'⟩ := h2 g1 0 l rfl ((stoppingLine_iff lib l).1 hx1)
          have : k = 0 := by omega
          subst this
          rw [Nat.add_zero, g2] at hk'
          cases hk'
      obtain ⟨r, hr, hc⟩ := hc
      rw [hr]
      simp only
      refine ih (fun x hx => hls x (List.mem_cons_of_mem _ hx)) fuel (n + 1) r.2.1 r.2.2 rd' tail e3 e2 htail ?_ ?_
      · intro i j a b hij ha hb' sa sb
        obtain ⟨k, k1, k2, k3⟩ := h1 (i + 1) (j + 1) a b (by omega) ha hb' sa sb
        obtain ⟨k, rfl⟩ : ∃ m, k = m + 1 := ⟨k - 1, by omega⟩
        exact ⟨k, by omega, by omega, by rw [← hn]; exact k3⟩
      · intro hcl j b hb' sb
        rcases hc hcl with hst | ⟨hcc, hne⟩
        · obtain ⟨k, k1, k2, k3⟩ := h1 0 (j + 1) l b (by omega) rfl hb' hst sb
          obtain ⟨k, rfl⟩ : ∃ m, k = m + 1 := ⟨k - 1, by omega⟩
          exact ⟨k, by omega, by rw [← hn]; exact k3⟩
        · obtain ⟨k, k2, k3⟩ := h2 hcc (j + 1) b hb' sb
          cases k with
          | zero =>
            rw [Nat.add_zero, hne] at k3
            cases k3
          | succ k => exact ⟨k, by omega, by rw [← hn]; exact k3⟩

/-- C147 with the channel: the server does not panic if it is told to stop only when the stream stopped before has ended. -/
theorem C147_channel_safe (lib : SLib F) (rtl : Nat → Rtl F) (s : Srv F) (c : Chan) (chunks ls : List Str) (tail : Str) (hls : ∀ l ∈ ls, Fits l) (htail : '\n' ∉ tail)
    (h : chunks.flatten = onWire ls ++ tail) (hc : c ≠ .closed)
    (hp : ∀ i j l l', i < j → ls[i]? = some l → ls[j]? = some l' → Stops lib l → Stops lib l' → ∃ k, i < k ∧ k ≤ j ∧ (rtl k).ended = true) :
    (serveC lib rtl s c chunks).2 ≠ none := by
  have hall : (⟨[], chunks⟩ : Rd).all = chunks.flatten := rfl
  exact loopC_safe lib rtl ls hls (chunks.flatten.length + 1) 0 s c ⟨[], chunks⟩ tail (by simp) (by rw [hall, h]) htail
    (by simpa only [Nat.zero_add] using hp) (fun h => absurd h hc)

theorem loopC_panics (lib : SLib F) (rtl : Nat → Rtl F) (ls : List Str) (hls : ∀ l ∈ ls, Fits l) :
    ∀ (fuel n : Nat) (s : Srv F) (c : Chan) (rd : Rd) (tail : Str), rd.buf.length ≤ rdSize → rd.all = onWire ls ++ tail → rd.all.length < fuel →
      ∀ j l', ls[j]? = some l' → Stops lib l' → (∀ k, k ≤ j → (rtl (n + k)).ended = false) →
      (c = .closed ∨ c = .opened ∧ ∃ i l, i < j ∧ ls[i]? = some l ∧ Stops lib l) → (serveLoopC lib rtl fuel n s c rd).2 = none := by
  induction ls with
  | nil => intro fuel n s c rd tail _ _ _ j l' hj; simp at hj
  | cons l ls ih =>
    intro fuel n s c rd tail hb hall hfuel j l' hj sl' hne hc
    obtain ⟨fuel, rfl⟩ : ∃ k, fuel = k + 1 := ⟨fuel - 1, by omega⟩
    have hall' : rd.all = l ++ '\n' :: (onWire ls ++ tail) := by
      rw [hall]
      simp [onWire]
    obtain ⟨rd', e1, e2, e3⟩ := readSlice_line hb (hls l (by simp)) hall'
    have hlen : rd'.all.length < fuel := by
      rw [hall', List.length_append, List.length_cons, ← e2] at hfuel
      omega
    have hn0 : (rtl n).ended = false := hne 0 (Nat.zero_le _)
    rw [serveLoopC, e1]
    simp only
    by_cases hst : Stops lib l
    · have hst' := (stoppingLine_iff lib l).2 hst
      rcases hc with rfl | ⟨rfl, i, li, hij, -, -⟩
      · have : serveLineC lib (rtl n) s .closed (l ++ ['\n']) = none := by
          unfold serveLineC
          simp only [hn0, hst']
          rfl
        rw [this]
      · obtain ⟨j, rfl⟩ : ∃ m, j = m + 1 := ⟨j - 1, by omega⟩
        have : serveLineC lib (rtl n) s .opened (l ++ ['\n']) = some ((serveLine lib (rtl n) (s.now (rtl n)) (l ++ ['\n'])).1,
            (serveLine lib (rtl n) (s.now (rtl n)) (l ++ ['\n'])).2, .closed) := by
          unfold serveLineC
          simp only [hn0, hst']
          rfl
        rw [this]
        exact ih (fun x hx => hls x (List.mem_cons_of_mem _ hx)) fuel (n + 1) _ .closed rd' tail e3 e2 hlen j l' hj sl'
          (fun k hk => by rw [Nat.add_assoc, Nat.add_comm 1]; exact hne (k + 1) (by omega)) (.inl rfl)
    · have hst' : stoppingLine lib (l ++ ['\n']) = false := by
        rw [← stoppingLine_iff] at hst
        simpa using hst
      cases j with
      | zero =>
        simp only [List.getElem?_cons_zero, Option.some.injEq] at hj
        exact absurd (hj ▸ sl') hst
      | succ j =>
        have hcn : c ≠ .nil := by rcases hc with rfl | ⟨rfl, -⟩ <;> simp
        have : serveLineC lib (rtl n) s c (l ++ ['\n']) = some ((serveLine lib (rtl n) (s.now (rtl n)) (l ++ ['\n'])).1,
            (serveLine lib (rtl n) (s.now (rtl n)) (l ++ ['\n'])).2, c) := by
          unfold serveLineC
          simp [hn0, hst', hcn]
        rw [this]
        refine ih (fun x hx => hls x (List.mem_cons_of_mem _ hx)) fuel (n + 1) _ c rd' tail e3 e2 hlen j l' hj sl'
          (fun k hk => by rw [Nat.add_assoc, Nat.add_comm 1]; exact hne (k + 1) (by omega)) ?_
        rcases hc with hc | ⟨hc, i, li, hij, hi, si⟩
        · exact .inl hc
        · refine .inr ⟨hc, ?_⟩
          cases i with
          | zero =>
            simp only [List.getElem?_cons_zero, Option.some.injEq] at hi
            exact absurd (hi ▸ si) hst
          | succ i => exact ⟨i, li, by omega, hi, si⟩

/-- C147 with the channel, the converse of `C147_channel_safe`: while a stream is going on, two lines that stop streams make the server panic if it has not ended
before the second of them, whatever lines are between them. -/
theorem C147_channel_panics (lib : SLib F) (rtl : Nat → Rtl F) (s : Srv F) (chunks ls : List Str) (tail : Str) (hls : ∀ l ∈ ls, Fits l)
    (h : chunks.flatten = onWire ls ++ tail) (i j : Nat) (l l' : Str) (hij : i < j) (hi : ls[i]? = some l) (hj : ls[j]? = some l') (sl : Stops lib l) (sl' : Stops lib l')
    (hne : ∀ k, k ≤ j → (rtl k).ended = false) : (serveC lib rtl s .opened chunks).2 = none := by
  have hall : (⟨[], chunks⟩ : Rd).all = chunks.flatten := rfl
  exact loopC_panics lib rtl ls hls (chunks.flatten.length + 1) 0 s .opened ⟨[], chunks⟩ tail (by simp) (by rw [hall, h]) (by rw [hall]; omega) j l' hj sl'
    (by simpa only [Nat.zero_add] using hne) (.inr ⟨rfl, i, l, hij, hi, sl⟩)

/-- C147 does not hold: while a stream is going on, a second STOP before the next callback makes the server panic; the first is answered, the second and all
that follows, of this client and of all others, are not. -/
theorem C147_violated_stop (lib : SLib F) (r6 : F → F) (hl : lib.Laws r6) (rtl : Nat → Rtl F) (h0 : (rtl 0).ended = false) (h1 : (rtl 1).ended = false)
    (s : Srv F) (hs : s.streaming = true) (chunks : List Str) (rest : Str) (h : chunks.flatten = "STOP\nSTOP\n".toList ++ rest) :
    serveC lib rtl s .opened chunks = (["DEVICE -\n".toList, "STOP OK\n".toList], none) := by
  have hfit : Fits (lit "STOP") := ⟨by decide, by decide⟩
  have hst : stoppingLine lib (lit "STOP" ++ ['\n']) = true := by
    rw [stoppingLine_iff]
    have hp : Plain (lit "STOP") := by decide
    refine ⟨lit "STOP", [], ?_, .inl (by decide)⟩
    rw [hl.trim _ hp.text, split_none _ _ hp.blank]
  have hlen : chunks.flatten.length = rest.length + 10 := by
    rw [h, List.length_append]
    rw [show ("STOP\nSTOP\n".toList).length = 10 by decide]
    omega
  have e : chunks.flatten = lit "STOP" ++ '\n' :: (lit "STOP" ++ '\n' :: rest) := by
    rw [h]
    rfl
  obtain ⟨rd1, a1, a2, a3⟩ := readSlice_line (rd := ⟨[], chunks⟩) (by simp) hfit (show (⟨[], chunks⟩ : Rd).all = _ from e)
  obtain ⟨rd2, b1, b2, b3⟩ := readSlice_line a3 hfit a2
  have hr : (serveLine lib (rtl 0) (s.now (rtl 0)) (lit "STOP" ++ ['\n'])).1 = some (lit "STOP OK\n") := by
    rw [serve0 lib hl (rtl 0) (s.now (rtl 0)) (lit "STOP") (by decide) (by decide), handle_stop]
    unfold onStop Srv.now
    simp only [hs, h0, Bool.not_false, Bool.and_self, if_true]
    rfl
  unfold serveC
  rw [hlen]
  have hl0 : serveLineC lib (rtl 0) s .opened (lit "STOP" ++ ['\n']) =
      some (some (lit "STOP OK\n"), (serveLine lib (rtl 0) (s.now (rtl 0)) (lit "STOP" ++ ['\n'])).2, .closed) := by
    unfold serveLineC
    simp only [h0, hst, hr]
    rfl
  have hl1 : ∀ s', serveLineC lib (rtl 1) s' .closed (lit "STOP" ++ ['\n']) = none := by
    intro s'
    unfold serveLineC
    simp only [h1, hst]
    rfl
  rw [serveLoopC, a1]
  simp only [hl0]
  rw [serveLoopC, b1]
  simp only [Nat.zero_add, hl1]
  rfl

/-- The calls that make the server end its stream. -/
def Op.Ends : Op F → Prop
  | .stop => True
  | .selectDevice h => h = lit "-" ∨ h = lit "!"
  | _ => False

theorem stops_ends {lib : SLib F} {r6 : F → F} (hl : lib.Laws r6) (op : Op F) (hp : op.PlainArgs) (l : Str) (hr : op.request lib.toLib = some (l ++ ['\n']))
    (h : Stops lib l) : op.Ends := by
  obtain ⟨cmd, args, hs, h⟩ := h
  have h0 : ∀ c : Str, Plain c → c ++ ['\n'] = l ++ ['\n'] → cmd = c ∧ args = [] := by
    intro c hc e
    rw [← e, hl.trim _ hc.text, split_none _ _ hc.blank] at hs
    cases hs
    exact ⟨rfl, rfl⟩
  have h1 : ∀ c a : Str, Plain c → Plain a → c ++ ' ' :: a ++ ['\n'] = l ++ ['\n'] → cmd = c ∧ args = [a] := by
    intro c a hc ha e
    have ht : Text (c ++ ' ' :: a) := text_join c [] a hc ha.last
    rw [← e, hl.trim _ ht, split_append _ _ _ hc.blank, split_none _ _ ha.blank] at hs
    cases hs
    exact ⟨rfl, rfl⟩
  have no : ∀ c : Str, cmd = c → c.map Char.toUpper ≠ "STOP".toList → c.map Char.toUpper ≠ "DEVICE".toList → op.Ends := by
    rintro c rfl g1 g2
    exact (h.elim g1 fun g => g2 g.1).elim
  cases op <;> simp only [Op.request, Option.some.injEq, reduceCtorEq] at hr
  case selectDevice x =>
    obtain ⟨rfl, rfl⟩ := h1 (lit "DEVICE") x (by decide) hp hr
    rcases h with h | ⟨-, h⟩
    · exact absurd h (by decide)
    · simpa [Op.Ends, lit] using h
  case setFrequency f => exact no _ (h1 (lit "FREQ") _ (by decide) (hl.formatFloat f).1 hr).1 (by decide) (by decide)
  case frequency => exact no _ (h0 (lit "FREQ") (by decide) hr).1 (by decide) (by decide)
  case setAntenna a => exact no _ (h1 (lit "ANTENNA") a (by decide) hp hr).1 (by decide) (by decide)
  case antenna => exact no _ (h0 (lit "ANTENNA") (by decide) hr).1 (by decide) (by decide)
  case setRate f => exact no _ (h1 (lit "RATE") _ (by decide) (hl.formatFloat f).1 hr).1 (by decide) (by decide)
  case rate => exact no _ (h0 (lit "RATE") (by decide) hr).1 (by decide) (by decide)
  case setGain f => exact no _ (h1 (lit "GAIN") _ (by decide) (hl.formatFloat f).1 hr).1 (by decide) (by decide)
  case gain => exact no _ (h0 (lit "GAIN") (by decide) hr).1 (by decide) (by decide)
  case setDestination d => exact no _ (h1 (lit "DEST") d (by decide) hp hr).1 (by decide) (by decide)
  case destination => exact no _ (h0 (lit "DEST") (by decide) hr).1 (by decide) (by decide)
  case setHeaderEnabled e =>
    cases e with
    | true => exact no _ (h1 (lit "HEADER") (lit "ON") (by decide) (by decide) hr).1 (by decide) (by decide)
    | false => exact no _ (h1 (lit "HEADER") (lit "OFF") (by decide) (by decide) hr).1 (by decide) (by decide)
  case headerEnabled => exact no _ (h0 (lit "HEADER") (by decide) hr).1 (by decide) (by decide)
  case go => exact no _ (h0 (lit "GO") (by decide) hr).1 (by decide) (by decide)
  case stop => trivial

/-- C149 with the channel: if between any two calls that end a stream the stream stopped has ended, the server does not panic, and the session is that
of `C149_session_partial`. -/
theorem C149_channel_partial (lib : SLib F) (r6 : F → F) (hl : lib.Laws r6) (rtl : Nat → Rtl F) (hq : ∀ n, Quiet (rtl n)) (s : Srv F) (c : Chan)
    (ht : s.streaming = true ↔ c ≠ .nil) (hc : c ≠ .closed)
    (hd : ∀ d, s.dest = some d → Plain d) (ops : List (Op F)) (hops : ∀ op ∈ ops, op.Short lib.toLib)
    (hp : ∀ i j a b, i < j → ops[i]? = some a → ops[j]? = some b → a.Ends → b.Ends → ∃ k, i < k ∧ k ≤ j ∧ (rtl k).ended = true) (up down : List Str)
    (hup : up.flatten = written lib.toLib ops) (hdown : down.flatten = (serveC lib rtl s c up).1.flatten) :
    clientSide lib.toLib ops down = ((converse lib rtl 0 s ⟨false, none, [], []⟩ ops).map fun t => (t.1, { t.2.2 with replies := [] })) ∧
    ∃ s' c', (serveC lib rtl s c up).2 = some (s', c', .ended) ∧ ∀ t, converse lib rtl 0 s ⟨false, none, [], []⟩ ops = some t → s' = t.2.1 := by
  obtain ⟨ls, h1, h2, h3⟩ := short_lines lib.toLib ops (fun x => (hl.formatFloat x).1) hops
  have hop : ∀ (i : Nat) (l : Str), ls[i]? = some l → ∃ op : Op F, ops[i]? = some op ∧ op.request lib.toLib = some (l ++ ['\n']) := by
    intro i l hi
    have := congrArg (fun x => x[i]?) h2
    simp only [List.getElem?_map, hi, Option.map_some] at this
    rw [Option.map_eq_some_iff] at this
    exact this
  have hsafe := C147_channel_safe lib rtl s c up ls [] h1 (by simp) (by rw [hup, h3, List.append_nil]) hc (by
    intro i j l l' hij hi hj sl sl'
    obtain ⟨a, a1, a2⟩ := hop i l hi
    obtain ⟨b, b1, b2⟩ := hop j l' hj
    exact hp i j a b hij a1 b1 (stops_ends hl a (hops a (List.mem_of_getElem? a1)).1 l a2 sl) (stops_ends hl b (hops b (List.mem_of_getElem? b1)).1 l' b2 sl'))
  obtain ⟨⟨s', c', e⟩, h⟩ := Option.ne_none_iff_exists'.1 hsafe
  obtain ⟨g, -⟩ := (C147_channel lib rtl s c up ht).2 s' c' e h
  have hlines := C147_lines_partial lib rtl s up ls [] h1 ⟨by simp, by simp⟩ (by rw [hup, h3, List.append_nil])
  have he : e = .ended := by
    rw [g] at hlines
    simp only [Prod.mk.injEq] at hlines
    exact hlines.2.2
  subst he
  obtain ⟨k1, k2⟩ := C149_session_partial lib r6 hl rtl hq s hd ops hops up down hup (by rw [hdown, g])
  refine ⟨k1, s', c', h, ?_⟩
  intro t htt
  have := k2 t htt
  rw [g] at this
  simp only [Prod.mk.injEq] at this
  exact this.1

/-- Non-vacuity: a device whose stream has ended when the second line is served. -/
def patientRtl : Nat → Rtl Nat := fun n => { testRtl with ended := n == 1 }

def streamSrv : Srv Nat := { testSrv with streaming := true }

/-- Non-vacuity of `C147_violated_stop`. -/
example : serveC testSLib (fun _ => testRtl) streamSrv .opened ["STO".toList, "P\nSTOP\nRATE".toList, "\n".toList] =
    (["DEVICE -\n".toList, "STOP OK\n".toList], none) :=
  C147_violated_stop testSLib id testSLib_laws (fun _ => testRtl) rfl rfl streamSrv rfl _ "RATE\n".toList (by decide)

/-- Non-vacuity of `C147_channel_panics`: a request between the two. -/
example : (serveC testSLib (fun _ => testRtl) streamSrv .opened ["STOP\nRATE\nDEVICE\n".toList, "RATE\n".toList]).2 = none :=
  C147_channel_panics testSLib (fun _ => testRtl) streamSrv _ ["STOP".toList, "RATE".toList, "DEVICE".toList] "RATE\n".toList (by
    intro l hl
    simp only [List.mem_cons, List.not_mem_nil, or_false] at hl
    rcases hl with rfl | rfl | rfl <;> exact ⟨by decide, by decide⟩) (by decide) 0 2 _ _ (by omega) rfl rfl ((stoppingLine_iff _ _).1 (by decide))
    ((stoppingLine_iff _ _).1 (by decide)) (fun _ _ => rfl)

theorem patient_lines : ∀ l ∈ ["STOP".toList, "device !".toList, "rate".toList], Fits l := by
  intro l hl
  simp only [List.mem_cons, List.not_mem_nil, or_false] at hl
  rcases hl with rfl | rfl | rfl <;> exact ⟨by decide, by decide⟩

theorem patient_safe : (serveC testSLib patientRtl streamSrv .opened ["STOP\ndev".toList, "ice !\nrate\n".toList]).2 ≠ none := by
  refine C147_channel_safe testSLib patientRtl streamSrv .opened _ ["STOP".toList, "device !".toList, "rate".toList] [] patient_lines (by simp) (by decide) (by decide) ?_
  intro i j l l' hij hi hj sl sl'
  have hj3 : j < 3 := (List.getElem?_eq_some_iff.1 hj).1
  have : ¬ Stops testSLib "rate".toList := by
    rw [← stoppingLine_iff]
    decide
  have hj1 : j = 1 := by
    rcases j with _ | _ | _ | j
    · omega
    · rfl
    · simp only [List.getElem?_cons_succ, List.getElem?_cons_zero, Option.some.injEq] at hj
      subst hj
      exact absurd sl' this
    · omega
  subst hj1
  exact ⟨1, hij, Nat.le_refl 1, rfl⟩

/-- Non-vacuity of `C147_channel_safe` and `C147_channel`: STOP and DEVICE ! with the end of the stream between them, then a request. -/
example : (serveC testSLib patientRtl streamSrv .opened ["STOP\ndev".toList, "ice !\nrate\n".toList]).1 =
    ["DEVICE -\n".toList, "STOP OK\n".toList, "DEVICE -\n".toList, "RATE DEVICE no active device\n".toList] := by
  obtain ⟨⟨s', c', e⟩, h⟩ := Option.ne_none_iff_exists'.1 patient_safe
  obtain ⟨g, -⟩ := (C147_channel testSLib patientRtl streamSrv .opened _ (by decide)).2 s' c' e h
  rw [C147_lines_partial testSLib patientRtl streamSrv _ ["STOP".toList, "device !".toList, "rate".toList] [] patient_lines ⟨by simp, by simp⟩ (by decide)] at g
  have := congrArg Prod.fst g
  simp only at this
  rw [← this]
  decide

/-- Non-vacuity of `C149_channel_partial`: Stop twice, the stream ending between the calls, then a query. -/
example : (clientSide testSLib.toLib [.stop, .stop, .rate] (serveC testSLib patientRtl streamSrv .opened ["STOP\nSTOP\nRATE\n".toList]).1).map (fun t => t.1) =
    some [.ok .unit, .error (.response (lit "STOPPED") []), .ok (.float 3)] := by
  rw [(C149_channel_partial testSLib id testSLib_laws patientRtl (fun _ => testRtl_quiet) streamSrv .opened (by decide) (by decide) testSrv_dest [.stop, .stop, .rate]
    (by
      intro op h
      simp only [List.mem_cons, List.not_mem_nil, or_false] at h
      rcases h with rfl | rfl | rfl <;> exact ⟨trivial, _, rfl, by decide⟩)
    (by
      intro i j a b hij hi hj sa sb
      have hj3 : j < 3 := (List.getElem?_eq_some_iff.1 hj).1
      have hj1 : j = 1 := by
        rcases j with _ | _ | _ | j
        · omega
        · rfl
        · simp only [List.getElem?_cons_succ, List.getElem?_cons_zero, Option.some.injEq] at hj
          subst hj
          exact sb.elim
        · omega
      subst hj1
      exact ⟨1, hij, Nat.le_refl 1, rfl⟩) ["STOP\nSTOP\nRATE\n".toList] _ (by decide) rfl).1]
  rfl

end Verif.Borip
