import Verif.Borip.SessionModel
import Verif.Borip.LoopProps
import Verif.Borip.LineProps

/-!
# Property C149: a session over the network
-/

namespace Verif.Borip
variable {F : Type}

/-! ## Specification -/

/-- The calls made one after the other, each answered by the server before the next: what they return, and what server and
client are at the end. `none` if a call panics or is not answered. -/
def converse (lib : SLib F) (rtl : Nat → Rtl F) : Nat → Srv F → BorIP F → List (Op F) → Option (List (Except CErr (Value F)) × Srv F × BorIP F)
  | _, s, bor, [] => some ([], s, bor)
  | n, s, bor, op :: ops =>
    (talk lib (rtl n) (s.now (rtl n)) bor op).bind fun r =>
      (op.request lib.toLib).bind fun req =>
        (converse lib rtl (n + 1) (serveLine lib (rtl n) (s.now (rtl n)) req).2 r.2 ops).map fun t => (r.1 :: t.1, t.2)

/-- What the driver says contains no newline. -/
def Quiet (rtl : Rtl F) : Prop := (∀ e, rtl.start = some e → '\n' ∉ e) ∧ ∀ i, rtl.openAny = some i → '\n' ∉ i.name

/-- A call whose request is one line that fits the server's buffer. -/
def Op.Short (lib : Lib F) (op : Op F) : Prop := op.PlainArgs ∧ ∃ req, op.request lib = some req ∧ req.length ≤ 4096

/-! ## ReadString -/

theorem fill_todo {rd rd' : Rd} (hroom : rd.buf.length < rdSize) (hf : rd.fill = some rd') : rd'.todo < rd.todo := by
  unfold Rd.fill at hf
  split at hf
  · cases hf
  · rename_i ch rest hc
    split at hf
    · cases hf
      simp only [Rd.todo, hc, List.map_cons, List.sum_cons]
      omega
    · cases hf
      simp only [Rd.todo, hc, List.map_cons, List.sum_cons, List.length_drop]
      omega

/-- `ReadString` returns the first line, however long it is and however it arrives. -/
theorem readString_line (rd : Rd) (hb : rd.buf.length ≤ rdSize) (frags l rest : Str) (h : rd.all = l ++ '\n' :: rest) (hl : '\n' ∉ l) :
    (rd.readString frags).1 = some (frags ++ (l ++ ['\n'])) ∧ (rd.readString frags).2.all = rest ∧ (rd.readString frags).2.buf.length ≤ rdSize := by
  induction hn : rd.todo using Nat.strongRecOn generalizing rd frags l with
  | _ n ih =>
    -- the turn after a full buffer has been put aside
    have main : ∀ (rd : Rd), rd.buf.length < rdSize → rd.todo = n → ∀ frags l, rd.all = l ++ '\n' :: rest → '\n' ∉ l →
        (rd.readString frags).1 = some (frags ++ (l ++ ['\n'])) ∧ (rd.readString frags).2.all = rest ∧ (rd.readString frags).2.buf.length ≤ rdSize := by
      intro rd hb hn frags l h hl
      rw [Rd.readString]
      cases hi : newlineAt rd.buf with
      | some i =>
        obtain ⟨a, b, h1, h2, rfl⟩ := newlineAt_some hi
        simp only
        have ht : rd.buf.take (a.length + 1) = a ++ ['\n'] := by
          rw [h1, show a ++ '\n' :: b = (a ++ ['\n']) ++ b by simp, List.take_left' (by simp)]
        have hd : rd.buf.drop (a.length + 1) = b := by
          rw [h1, show a ++ '\n' :: b = (a ++ ['\n']) ++ b by simp, List.drop_left' (by simp)]
        rw [ht, hd]
        have hall : rd.all = a ++ '\n' :: (b ++ rd.chunks.flatten) := by simp only [Rd.all, h1, List.append_assoc, List.cons_append]
        rw [hall] at h
        obtain ⟨e1, e2⟩ := first_line h h2 hl
        rw [h1, List.length_append, List.length_cons] at hb
        refine ⟨by rw [e1], ?_, by show b.length ≤ rdSize; omega⟩
        simp only [Rd.all, e2]
      | none =>
        simp only
        rw [dif_neg (by omega)]
        cases hf : rd.fill with
        | none =>
          exfalso
          have hc : rd.chunks = [] := by
            unfold Rd.fill at hf
            split at hf
            · assumption
            · split at hf <;> cases hf
          have hall : rd.all = rd.buf := by simp [Rd.all, hc]
          have hno := newlineAt_none hi
          rw [← hall, h] at hno
          simp at hno
        | some rd' =>
          obtain ⟨h1, h2⟩ := fill_all hf (Nat.le_of_lt hb)
          exact ih _ (by rw [← hn]; exact fill_todo hb hf) rd' h2 frags l (by rw [h1, h]) hl rfl
    rcases Nat.lt_or_eq_of_le hb with hlt | heq
    · exact main rd hlt hn frags l h hl
    · cases hi : newlineAt rd.buf with
      | some i =>
        rw [Rd.readString, hi]
        obtain ⟨a, b, h1, h2, rfl⟩ := newlineAt_some hi
        simp only
        have ht : rd.buf.take (a.length + 1) = a ++ ['\n'] := by
          rw [h1, show a ++ '\n' :: b = (a ++ ['\n']) ++ b by simp, List.take_left' (by simp)]
        have hd : rd.buf.drop (a.length + 1) = b := by
          rw [h1, show a ++ '\n' :: b = (a ++ ['\n']) ++ b by simp, List.drop_left' (by simp)]
        rw [ht, hd]
        have hall : rd.all = a ++ '\n' :: (b ++ rd.chunks.flatten) := by simp only [Rd.all, h1, List.append_assoc, List.cons_append]
        rw [hall] at h
        obtain ⟨e1, e2⟩ := first_line h h2 hl
        rw [h1, List.length_append, List.length_cons] at hb
        refine ⟨by rw [e1], ?_, by show b.length ≤ rdSize; omega⟩
        simp only [Rd.all, e2]
      | none =>
        have hno := newlineAt_none hi
        -- the line begins with the whole buffer
        have hl' : ∃ l', l = rd.buf ++ l' := by
          unfold Rd.all at h
          rcases List.append_eq_append_iff.1 h with ⟨a', h1, h2⟩ | ⟨c', h1, h2⟩
          · exact ⟨a', h1⟩
          · cases c' with
            | nil => exact ⟨[], by rw [h1]; simp⟩
            | cons x xs =>
              rw [List.cons_append, List.cons.injEq] at h2
              exact absurd (by rw [h1, h2.1]; simp) hno
        obtain ⟨l', rfl⟩ := hl'
        rw [Rd.readString, hi]
        simp only
        rw [dif_pos (by omega)]
        have hall : (⟨[], rd.chunks⟩ : Rd).all = l' ++ '\n' :: rest := by
          simp only [Rd.all, List.nil_append]
          have h' := h
          unfold Rd.all at h'
          rw [List.append_assoc] at h'
          exact List.append_cancel_left h'
        have := main ⟨[], rd.chunks⟩ (by show 0 < 4096; omega) hn (frags ++ rd.buf) l' hall (fun c => hl (List.mem_append_right _ c))
        rw [show ({ rd with buf := [] } : Rd) = ⟨[], rd.chunks⟩ from rfl]
        refine ⟨?_, this.2⟩
        rw [this.1]
        simp

/-- Without a newline there is no line, and nothing is left. -/
theorem readString_none (rd : Rd) (frags : Str) (hb : rd.buf.length ≤ rdSize) (h : '\n' ∉ rd.all) :
    (rd.readString frags).1 = none ∧ (rd.readString frags).2.all = [] := by
  induction hn : rd.todo using Nat.strongRecOn generalizing rd frags with
  | _ n ih =>
    have main : ∀ (rd : Rd), rd.buf.length < rdSize → rd.todo = n → '\n' ∉ rd.all → ∀ frags,
        (rd.readString frags).1 = none ∧ (rd.readString frags).2.all = [] := by
      intro rd hb hn h frags
      rw [Rd.readString]
      cases hi : newlineAt rd.buf with
      | some i =>
        exfalso
        obtain ⟨a, b, h1, -, -⟩ := newlineAt_some hi
        apply h
        simp only [Rd.all, h1]
        simp
      | none =>
        simp only
        rw [dif_neg (by omega)]
        cases hf : rd.fill with
        | none =>
          have hc : rd.chunks = [] := by
            unfold Rd.fill at hf
            split at hf
            · assumption
            · split at hf <;> cases hf
          simp [Rd.all, hc]
        | some rd' =>
          obtain ⟨h1, h2⟩ := fill_all hf (Nat.le_of_lt hb)
          exact ih _ (by rw [← hn]; exact fill_todo hb hf) rd' frags h2 (by rw [h1]; exact h) rfl
    rcases Nat.lt_or_eq_of_le hb with hlt | heq
    · exact main rd hlt hn h frags
    · have hi : newlineAt rd.buf = none := by
        cases hi : newlineAt rd.buf with
        | none => rfl
        | some i =>
          exfalso
          obtain ⟨a, b, h1, -, -⟩ := newlineAt_some hi
          apply h
          simp only [Rd.all, h1]
          simp
      rw [Rd.readString, hi]
      simp only
      rw [dif_pos (by omega)]
      exact main ⟨[], rd.chunks⟩ (by show 0 < 4096; omega) hn (fun c => h (by simp only [Rd.all, List.nil_append] at c ⊢; exact List.mem_append_right _ c)) _

/-- The lines the client reads are the lines sent, whatever their length; after them every read fails. -/
theorem replies_lines (tail : Str) (htail : '\n' ∉ tail) (ls : List Str) (hls : ∀ l ∈ ls, '\n' ∉ l) : ∀ (n : Nat) (rd : Rd), rd.buf.length ≤ rdSize →
    rd.all = onWire ls ++ tail → rd.replies (ls.length + n) = (ls.map fun l => Reply.line (l ++ ['\n'])) ++ List.replicate n .fail := by
  induction ls with
  | nil =>
    intro n rd hb h
    simp only [List.length_nil, Nat.zero_add, List.map_nil, List.nil_append]
    have htail' : '\n' ∉ rd.all := by rw [h]; exact htail
    clear h
    induction n generalizing rd with
    | zero => rfl
    | succ n ihn =>
      obtain ⟨h1, h2⟩ := readString_none rd [] hb htail'
      rw [Rd.replies]
      revert h1 h2
      cases hr : rd.readString [] with
      | mk o rd' =>
        rintro rfl h2
        simp only [List.replicate_succ, List.cons.injEq, true_and]
        have h2 : rd'.all = [] := h2
        refine ihn rd' ?_ (by rw [h2]; simp)
        have : rd'.buf = [] := (List.append_eq_nil_iff.1 h2).1
        rw [this]
        exact Nat.zero_le _
  | cons l ls ih =>
    intro n rd hb h
    have h' : rd.all = l ++ '\n' :: (onWire ls ++ tail) := by rw [h]; simp [onWire]
    obtain ⟨h1, h2, h3⟩ := readString_line rd hb [] l (onWire ls ++ tail) h' (hls l List.mem_cons_self)
    rw [List.length_cons, Nat.succ_add, Rd.replies]
    revert h1 h2 h3
    cases hr : rd.readString [] with
    | mk o rd' =>
      rintro rfl h2 h3
      simp only [List.nil_append, List.map_cons, List.cons_append, List.cons.injEq, true_and]
      exact ih (fun l hl => hls l (List.mem_cons_of_mem _ hl)) n rd' h3 h2

theorem replies_take : ∀ (m k : Nat) (rd : Rd), rd.replies m = (rd.replies (m + k)).take m := by
  intro m k
  induction m with
  | zero => intro rd; rw [List.take_zero]; rfl
  | succ m ih =>
    intro rd
    rw [Nat.succ_add, Rd.replies, Rd.replies]
    cases rd.readString [] with
    | mk o rd' => cases o <;> simp only [List.take_succ_cons] <;> rw [← ih]

/-! ## The replies of the server are lines -/

theorem not_mem_plain {s : Str} (h : Plain s) : '\n' ∉ s := fun hm => absurd (h.2 _ hm) (by decide)

theorem not_mem_append {a b : Str} (ha : '\n' ∉ a) (hb : '\n' ∉ b) : '\n' ∉ a ++ b := by
  rw [List.mem_append, not_or]
  exact ⟨ha, hb⟩

theorem not_mem_join (ws : List Str) (h : ∀ w ∈ ws, '\n' ∉ w) : '\n' ∉ join ws := by
  induction ws with
  | nil => simp [join]
  | cons w ws ih =>
    cases ws with
    | nil => simpa [join] using h
    | cons v vs =>
      rw [join_cons _ _ (by simp)]
      refine not_mem_append (h w (by simp)) ?_
      rw [List.mem_cons, not_or]
      exact ⟨by decide, ih fun x hx => h x (List.mem_cons_of_mem _ hx)⟩

/-- One line with its newline. -/
def OneLine (r : Str) : Prop := ∃ t, r = t ++ ['\n'] ∧ '\n' ∉ t

theorem response_line (cmd : Str) (args : List Str) (hc : '\n' ∉ cmd) (ha : ∀ a ∈ args, '\n' ∉ a) : OneLine (response cmd args) :=
  ⟨_, response_eq cmd args, not_mem_join _ (by
    intro w hw
    rw [List.mem_cons] at hw
    rcases hw with rfl | hw
    · exact hc
    · exact ha w hw)⟩

theorem number_line {lib : SLib F} {r6 : F → F} (hl : lib.Laws r6) (cmd what : Str) (hc : '\n' ∉ cmd) (hw : '\n' ∉ what) (get : Option Int) :
    OneLine (getNumber lib cmd get what) ∧ ∀ (arg : Str) (set : F → Bool) (ok : F → Int → List Str), (∀ v i, ∀ a ∈ ok v i, '\n' ∉ a) →
      OneLine (setNumber lib cmd arg set get ok what) := by
  refine ⟨?_, ?_⟩
  · unfold getNumber
    cases get with
    | none =>
      refine response_line _ _ hc ?_
      simp only [List.forall_mem_cons, List.not_mem_nil, false_imp_iff, implies_true, and_true]
      exact ⟨by decide, not_mem_append (by decide) hw⟩
    | some i =>
      refine response_line _ _ hc ?_
      simp only [List.forall_mem_cons, List.not_mem_nil, false_imp_iff, implies_true, and_true]
      exact not_mem_plain (hl.itoa i).1
  · intro arg set ok hok
    unfold setNumber
    cases lib.parseFloat arg with
    | none =>
      refine response_line _ _ hc ?_
      simp only [List.forall_mem_cons, List.not_mem_nil, false_imp_iff, implies_true, and_true]
      exact ⟨by decide, not_mem_append (not_mem_append (by decide) hw) (by decide)⟩
    | some v =>
      simp only
      split
      · cases get with
        | none =>
          refine response_line _ _ hc ?_
          simp only [List.forall_mem_cons, List.not_mem_nil, false_imp_iff, implies_true, and_true]
          exact ⟨by decide, not_mem_append (by decide) hw⟩
        | some i => exact response_line _ _ hc (hok v i)
      · refine response_line _ _ hc ?_
        simp only [List.forall_mem_cons, List.not_mem_nil, false_imp_iff, implies_true, and_true]
        exact ⟨by decide, not_mem_append (by decide) hw⟩

theorem onDevice_hint (lib : SLib F) (rtl : Rtl F) (s : Srv F) (args : List Str) : onDevice lib rtl s args =
    if args.headD (lit "-") = lit "-" then
      match rtl.openAny with
      | none => (response (lit "DEVICE") [lit "-", lit "no devices available"], { s with dev := none })
      | some i => (response (lit "DEVICE") [deviceLine lib i], { s with dev := some i })
    else if args.headD (lit "-") = lit "!" then (response (lit "DEVICE") [lit "-"], { s with dev := none })
    else (response (lit "DEVICE") [lit "-", lit "unknown hint"], s) := by
  cases args <;> rfl

theorem handle_line {lib : SLib F} {r6 : F → F} (hl : lib.Laws r6) {rtl : Rtl F} (hq : Quiet rtl) {s : Srv F} (hd : ∀ d, s.dest = some d → Plain d)
    (cmd : Str) (hc : '\n' ∉ cmd) (args : List Str) : OneLine (handleCommand lib rtl s cmd args).1 := by
  have two : ∀ c a b : Str, '\n' ∉ c → '\n' ∉ a → '\n' ∉ b → OneLine (response c [a, b]) := by
    intro c a b hc ha hb
    refine response_line _ _ hc ?_
    simp only [List.forall_mem_cons, List.not_mem_nil, false_imp_iff, implies_true, and_true]
    exact ⟨ha, hb⟩
  have one : ∀ c a : Str, '\n' ∉ c → '\n' ∉ a → OneLine (response c [a]) := by
    intro c a hc ha
    refine response_line _ _ hc ?_
    simpa using ha
  unfold handleCommand
  split
  · unfold onFreq
    cases s.dev <;> cases args
    · exact two _ _ _ (by decide) (by decide) (by decide)
    · exact two _ _ _ (by decide) (by decide) (by decide)
    · exact (number_line hl _ _ (by decide) (by decide) _).1
    · refine (number_line hl _ _ (by decide) (by decide) _).2 _ _ _ ?_
      intro v i
      simp only [List.forall_mem_cons, List.not_mem_nil, false_imp_iff, implies_true, and_true]
      exact ⟨by decide, not_mem_plain (hl.fmtF _).1, not_mem_plain (hl.itoa _).1, not_mem_plain (hl.fmtF _).1, not_mem_plain (hl.fmtF _).1⟩
  split
  · unfold onAntenna
    cases s.dev <;> cases args
    · exact two _ _ _ (by decide) (by decide) (by decide)
    · exact two _ _ _ (by decide) (by decide) (by decide)
    · exact two _ _ _ (by decide) (by decide) (by decide)
    · exact one _ _ (by decide) (by decide)
  split
  · unfold onRate
    cases s.dev <;> cases args
    · exact two _ _ _ (by decide) (by decide) (by decide)
    · exact two _ _ _ (by decide) (by decide) (by decide)
    · exact (number_line hl _ _ (by decide) (by decide) _).1
    · refine (number_line hl _ _ (by decide) (by decide) _).2 _ _ _ ?_
      intro v i
      simp only [List.forall_mem_cons, List.not_mem_nil, false_imp_iff, implies_true, and_true]
      exact ⟨by decide, not_mem_plain (hl.itoa _).1⟩
  split
  · unfold onGain
    cases s.dev <;> cases args
    · exact two _ _ _ (by decide) (by decide) (by decide)
    · exact two _ _ _ (by decide) (by decide) (by decide)
    · exact (number_line hl _ _ (by decide) (by decide) _).1
    · refine (number_line hl _ _ (by decide) (by decide) _).2 _ _ _ ?_
      intro v i
      simp only [List.forall_mem_cons, List.not_mem_nil, false_imp_iff, implies_true, and_true]
      exact ⟨by decide, not_mem_plain (hl.itoa _).1⟩
  split
  · unfold onDest
    cases args with
    | nil =>
      simp only
      cases hs : s.dest with
      | none => exact two _ _ _ (by decide) (by decide) (by decide)
      | some d => exact one _ _ (by decide) (not_mem_plain (hd d hs))
    | cons a args =>
      simp only
      cases lib.resolve a
      · exact two _ _ _ (by decide) (by decide) (by decide)
      · exact one _ _ (by decide) (by decide)
  split
  · unfold onGo
    split
    · exact two _ _ _ (by decide) (by decide) (by decide)
    split
    · exact two _ _ _ (by decide) (by decide) (by decide)
    split
    · exact one _ _ (by decide) (by decide)
    · cases he : rtl.start with
      | some e => exact two _ _ _ (by decide) (by decide) (hq.1 e he)
      | none => exact one _ _ (by decide) (by decide)
  split
  · unfold onStop
    split <;> exact one _ _ (by decide) (by decide)
  split
  · rw [onDevice_hint]
    split
    · cases hi : rtl.openAny with
      | none => exact two _ _ _ (by decide) (by decide) (by decide)
      | some i =>
        refine one _ _ (by decide) ?_
        have hbar : ∀ t : Str, '\n' ∉ t → '\n' ∉ '|' :: t := by
          intro t ht
          rw [List.mem_cons, not_or]
          exact ⟨by decide, ht⟩
        unfold deviceLine
        exact not_mem_append (hq.2 i hi) (hbar _ (not_mem_append (not_mem_plain (hl.fmtF _).1) (hbar _ (not_mem_append (not_mem_plain (hl.fmtF _).1)
          (hbar _ (not_mem_append (not_mem_plain (hl.fmtF _).1) (hbar _ (not_mem_append (not_mem_plain (hl.fmtF _).1)
          (hbar _ (not_mem_append (not_mem_plain (hl.itoa _).1) (hbar _ (by decide))))))))))))
    split
    · exact one _ _ (by decide) (by decide)
    · exact two _ _ _ (by decide) (by decide) (by decide)
  · exact one _ _ hc (by decide)

/-- The destination stays a printable word. -/
theorem serveLine_dest {lib : SLib F} {r6 : F → F} (hl : lib.Laws r6) (rtl : Rtl F) {s : Srv F} (hd : ∀ d, s.dest = some d → Plain d) (raw : Str) :
    ∀ d, (serveLine lib rtl s raw).2.dest = some d → Plain d := by
  have key : ∀ cmd args, ∀ d, (handleCommand lib rtl s cmd args).2.dest = some d → Plain d := by
    intro cmd args
    unfold handleCommand
    repeat (split; exact hd)
    split
    · unfold onDest
      cases args with
      | nil =>
        simp only
        split <;> exact hd
      | cons a args =>
        simp only
        cases hr : lib.resolve a with
        | none => exact hd
        | some d =>
          intro d' h
          simp only [Option.some.injEq] at h
          subst h
          exact hl.resolve _ _ hr
    split
    · unfold onGo
      repeat (split; exact hd)
      cases rtl.start <;> exact hd
    split
    · exact hd
    split
    · rw [onDevice_hint]
      split
      · cases rtl.openAny <;> exact hd
      split <;> exact hd
    · exact hd
  unfold serveLine
  simp only
  split
  · exact hd
  split
  · exact hd
  · exact key _ _

/-- The request of a call, served: the reply is one line. -/
theorem request_line {lib : SLib F} {r6 : F → F} (hl : lib.Laws r6) {rtl : Rtl F} (hq : Quiet rtl) {s : Srv F} (hd : ∀ d, s.dest = some d → Plain d)
    (op : Op F) (hp : op.PlainArgs) (req : Str) (hr : op.request lib.toLib = some req) :
    ∃ raw, (serveLine lib rtl s req).1 = some raw ∧ OneLine raw := by
  have h0 : ∀ cmd : Str, Plain cmd → cmd.map Char.toUpper = cmd → req = cmd ++ ['\n'] → ∃ raw, (serveLine lib rtl s req).1 = some raw ∧ OneLine raw := by
    rintro cmd hc hu rfl
    exact ⟨_, serve0 lib hl rtl s cmd hc hu, handle_line hl hq hd _ (not_mem_plain hc) _⟩
  have h1 : ∀ cmd arg : Str, Plain cmd → cmd.map Char.toUpper = cmd → Plain arg → req = cmd ++ ' ' :: arg ++ ['\n'] →
      ∃ raw, (serveLine lib rtl s req).1 = some raw ∧ OneLine raw := by
    rintro cmd arg hc hu ha rfl
    exact ⟨_, serve1 lib hl rtl s cmd arg hc hu ha, handle_line hl hq hd _ (not_mem_plain hc) _⟩
  cases op <;> simp only [Op.request, Option.some.injEq, reduceCtorEq] at hr
  case selectDevice h => exact h1 (lit "DEVICE") h (by decide) (by decide) hp hr.symm
  case setFrequency f => exact h1 (lit "FREQ") _ (by decide) (by decide) (hl.formatFloat f).1 hr.symm
  case frequency => exact h0 (lit "FREQ") (by decide) (by decide) hr.symm
  case setAntenna a => exact h1 (lit "ANTENNA") a (by decide) (by decide) hp hr.symm
  case antenna => exact h0 (lit "ANTENNA") (by decide) (by decide) hr.symm
  case setRate f => exact h1 (lit "RATE") _ (by decide) (by decide) (hl.formatFloat f).1 hr.symm
  case rate => exact h0 (lit "RATE") (by decide) (by decide) hr.symm
  case setGain f => exact h1 (lit "GAIN") _ (by decide) (by decide) (hl.formatFloat f).1 hr.symm
  case gain => exact h0 (lit "GAIN") (by decide) (by decide) hr.symm
  case setDestination d => exact h1 (lit "DEST") d (by decide) (by decide) hp hr.symm
  case destination => exact h0 (lit "DEST") (by decide) (by decide) hr.symm
  case setHeaderEnabled e =>
    cases e with
    | true => exact h1 (lit "HEADER") (lit "ON") (by decide) (by decide) (by decide) hr.symm
    | false => exact h1 (lit "HEADER") (lit "OFF") (by decide) (by decide) (by decide) hr.symm
  case headerEnabled => exact h0 (lit "HEADER") (by decide) (by decide) hr.symm
  case go => exact h0 (lit "GO") (by decide) (by decide) hr.symm
  case stop => exact h0 (lit "STOP") (by decide) (by decide) hr.symm

/-! ## The client takes one reply per call -/

theorem perform_replies (lib : Lib F) (bor : BorIP F) (raw : Str) (rest : List Reply) (op : Op F) (req : Str) (hr : op.request lib = some req) :
    BorIP.perform lib { bor with replies := .line raw :: rest } op =
      (BorIP.perform lib { bor with replies := [.line raw] } op).map fun r => (r.1, { r.2 with replies := rest }) := by
  have hcall : ∀ (cmd : Str) (args : List Str) (parse : Str → Option (Except CErr (Value F))),
      BorIP.call lib { bor with replies := .line raw :: rest } cmd args parse =
        (BorIP.call lib { bor with replies := [.line raw] } cmd args parse).map fun r => (r.1, { r.2 with replies := rest }) := by
    intro cmd args parse
    unfold BorIP.call BorIP.command
    simp only
    cases parse (lib.trim raw) <;> rfl
  have hrun : ∀ (cmd : Str) (b : Bool), BorIP.setRunning lib { bor with replies := .line raw :: rest } cmd b =
      (BorIP.setRunning lib { bor with replies := [.line raw] } cmd b).map fun r => (r.1, { r.2 with replies := rest }) := by
    intro cmd b
    unfold BorIP.setRunning BorIP.command
    simp only
    cases parseAndCheck (lib.trim raw) 1 with
    | none => rfl
    | some v => cases v <;> rfl
  cases op
  case selectDevice h =>
    unfold BorIP.perform BorIP.selectDevice BorIP.command
    simp only
    cases parseSelect lib (lib.trim raw) with
    | none => rfl
    | some v => cases v <;> rfl
  case go => exact hrun _ _
  case stop => exact hrun _ _
  case close => cases hr
  all_goals
    simp only [BorIP.perform, BorIP.setFrequency, BorIP.frequency, BorIP.setAntenna, BorIP.antenna, BorIP.setRate, BorIP.rate,
      BorIP.setGain, BorIP.gain, BorIP.setDestination, BorIP.destination, BorIP.setHeaderEnabled, BorIP.headerEnabled]
    exact hcall _ _ _

/-- Calls whose exchanges fail. -/
theorem performEach_fail (lib : Lib F) : ∀ (ops : List (Op F)) (bor : BorIP F), (∀ op ∈ ops, ∃ req, op.request lib = some req) →
    ∃ bor', BorIP.performEach lib { bor with replies := List.replicate ops.length .fail } ops = some (List.replicate ops.length (.error .io), bor') ∧
      bor'.running = bor.running ∧ bor'.device = bor.device := by
  intro ops
  induction ops with
  | nil => intro bor _; exact ⟨_, rfl, rfl, rfl⟩
  | cons op ops ih =>
    intro bor h
    obtain ⟨req, hreq⟩ := h op List.mem_cons_self
    have := C68_failed lib { bor with replies := List.replicate (op :: ops).length .fail } (List.replicate ops.length .fail)
      (Or.inl (by rw [List.length_cons, List.replicate_succ])) op req hreq
    obtain ⟨bor', h1, h2, h3⟩ := ih { bor with log := bor.log ++ [(req, .fail)] } (fun o ho => h o (List.mem_cons_of_mem _ ho))
    refine ⟨bor', ?_, h2, h3⟩
    rw [BorIP.performEach, this, Option.bind_some]
    simp only
    simp only at h1
    rw [h1]
    rfl

/-- Server and client answer each other as in `converse`. -/
theorem session_replies {lib : SLib F} {r6 : F → F} (hl : lib.Laws r6) {rtl : Nat → Rtl F} (hq : ∀ n, Quiet (rtl n)) :
    ∀ (ops : List (Op F)) (ls : List Str), (∀ op ∈ ops, op.PlainArgs) → (ops.map (Op.request lib.toLib) = ls.map fun l => some (l ++ ['\n'])) →
    ∀ (n : Nat) (s : Srv F), (∀ d, s.dest = some d → Plain d) →
    ∃ rs : List Str, rs.length = ops.length ∧ (∀ r ∈ rs, '\n' ∉ r) ∧ (answers lib rtl n s ls).1 = rs.map (fun r => r ++ ['\n']) ∧
      ∀ (bor : BorIP F),
        (∀ t, converse lib rtl n s bor ops = some t → t.2.1 = (answers lib rtl n s ls).2) ∧
        ∀ (more : List (Op F)) (rest : List Reply),
          BorIP.performEach lib.toLib { bor with replies := (rs.map fun r => Reply.line (r ++ ['\n'])) ++ rest } (ops ++ more) =
            (converse lib rtl n s bor ops).bind fun t => (BorIP.performEach lib.toLib { t.2.2 with replies := rest } more).map fun u => (t.1 ++ u.1, u.2) := by
  intro ops
  induction ops with
  | nil =>
    intro ls _ hls n s _
    have : ls = [] := by simpa using hls.symm
    subst this
    refine ⟨[], rfl, by simp, rfl, fun bor => ⟨?_, ?_⟩⟩
    · intro t ht
      cases ht
      rfl
    · intro more rest
      simp only [converse, List.map_nil, List.nil_append, Option.bind_some]
      cases BorIP.performEach lib.toLib { bor with replies := rest } more <;> rfl
  | cons op ops ih =>
    intro ls hp hls n s hd
    cases ls with
    | nil => simp at hls
    | cons l ls =>
      simp only [List.map_cons, List.cons.injEq] at hls
      obtain ⟨hreq, hls⟩ := hls
      obtain ⟨raw, h1, t, rfl, ht⟩ := request_line hl (hq n) (s := s.now (rtl n)) hd op (hp op List.mem_cons_self) _ hreq
      obtain ⟨rs, g1, g2, g3, g4⟩ := ih ls (fun o ho => hp o (List.mem_cons_of_mem _ ho)) hls (n + 1) (serveLine lib (rtl n) (s.now (rtl n)) (l ++ ['\n'])).2
        (serveLine_dest hl (rtl n) (s := s.now (rtl n)) hd _)
      refine ⟨t :: rs, by rw [List.length_cons, List.length_cons, g1], ?_, ?_, ?_⟩
      · intro r hr
        rw [List.mem_cons] at hr
        rcases hr with rfl | hr
        · exact ht
        · exact g2 r hr
      · rw [answers]
        simp only [h1, g3]
        rfl
      intro bor
      have htalk : talk lib (rtl n) (s.now (rtl n)) bor op = BorIP.perform lib.toLib { bor with replies := [.line (t ++ ['\n'])] } op := by
        unfold talk
        rw [hreq, Option.bind_some, h1, Option.bind_some]
      refine ⟨?_, ?_⟩
      · intro u hu
        rw [converse, hreq] at hu
        simp only [Option.bind_eq_some_iff, Option.some.injEq, exists_eq_left', Option.map_eq_some_iff] at hu
        obtain ⟨r, -, v, hv, rfl⟩ := hu
        exact (g4 r.2).1 v hv
      · intro more rest
        rw [List.cons_append, BorIP.performEach, List.map_cons, List.cons_append, perform_replies lib.toLib bor _ _ op _ hreq, converse, hreq, htalk]
        cases hperf : BorIP.perform lib.toLib { bor with replies := [.line (t ++ ['\n'])] } op with
        | none => rfl
        | some r =>
          simp only [Option.map_some, Option.bind_some]
          rw [(g4 r.2).2 more rest]
          cases converse lib rtl (n + 1) (serveLine lib (rtl n) (s.now (rtl n)) (l ++ ['\n'])).2 r.2 ops with
          | none => rfl
          | some u =>
            simp only [Option.bind_some, Option.map_some]
            cases BorIP.performEach lib.toLib { u.2.2 with replies := rest } more <;> rfl

/-! ## C149 -/

/-- The lines of short calls. -/
theorem short_lines (lib : Lib F) : ∀ ops : List (Op F), (∀ x, Plain (lib.formatFloat x)) → (∀ op ∈ ops, op.Short lib) →
    ∃ ls : List Str, (∀ l ∈ ls, Fits l) ∧ (ops.map (Op.request lib) = ls.map fun l => some (l ++ ['\n'])) ∧ written lib ops = onWire ls := by
  intro ops hf
  induction ops with
  | nil => intro _; exact ⟨[], by simp, rfl, rfl⟩
  | cons op ops ih =>
    intro h
    obtain ⟨ls, h1, h2, h3⟩ := ih fun o ho => h o (List.mem_cons_of_mem _ ho)
    obtain ⟨hp, req, hreq, hlen⟩ := h op List.mem_cons_self
    obtain ⟨t, ht, hn⟩ := request_of lib op (by rintro rfl; cases hreq) (fun x => not_mem_plain (hf x))
    have hn := hn (by
      cases op <;> simp only [Op.strings, List.forall_mem_cons, List.not_mem_nil, false_imp_iff, implies_true, and_true]
      all_goals exact not_mem_plain hp)
    rw [ht] at hreq
    cases hreq
    refine ⟨t :: ls, ?_, ?_, ?_⟩
    · intro l hl
      rw [List.mem_cons] at hl
      rcases hl with rfl | hl
      · refine ⟨hn, ?_⟩
        rw [List.length_append, List.length_singleton] at hlen
        omega
      · exact h1 l hl
    · rw [List.map_cons, List.map_cons, ht, h2]
    · unfold written at h3 ⊢
      rw [List.filterMap_cons, ht]
      simp only [List.flatten_cons, h3]
      simp [onWire]

theorem answers_append (lib : SLib F) (rtl : Nat → Rtl F) (ls ls' : List Str) : ∀ (n : Nat) (s : Srv F),
    (answers lib rtl n s (ls ++ ls')).1 = (answers lib rtl n s ls).1 ++ (answers lib rtl (n + ls.length) (answers lib rtl n s ls).2 ls').1 := by
  induction ls with
  | nil => intro n s; rfl
  | cons l ls ih =>
    intro n s
    rw [List.cons_append, answers, answers, List.length_cons]
    simp only
    rw [ih, List.append_assoc, Nat.add_assoc, Nat.add_comm 1]

theorem answers_dest {lib : SLib F} {r6 : F → F} (hl : lib.Laws r6) (rtl : Nat → Rtl F) (ls : List Str) : ∀ (n : Nat) (s : Srv F), (∀ d, s.dest = some d → Plain d) →
    ∀ d, (answers lib rtl n s ls).2.dest = some d → Plain d := by
  induction ls with
  | nil => intro n s h; exact h
  | cons l ls ih =>
    intro n s h
    rw [answers]
    exact ih (n + 1) _ (serveLine_dest hl (rtl n) (s := s.now (rtl n)) h _)

/-- What the server and the client make of the requests `done` when of the replies to them and to what follows only these, and part of a
line, reach the client. -/
theorem client_eq {lib : SLib F} {r6 : F → F} (hl : lib.Laws r6) {rtl : Nat → Rtl F} (hq : ∀ n, Quiet (rtl n)) {s : Srv F} (hd : ∀ d, s.dest = some d → Plain d)
    (done : List (Op F)) (hops : ∀ op ∈ done, op.Short lib.toLib) :
    ∃ (ls rs : List Str), (∀ l ∈ ls, Fits l) ∧ written lib.toLib done = onWire ls ∧ rs.length = done.length ∧ (∀ r ∈ rs, '\n' ∉ r) ∧
      (answers lib rtl 0 s ls).1 = rs.map (fun r => r ++ ['\n']) ∧
      (∀ t, converse lib rtl 0 s ⟨false, none, [], []⟩ done = some t → t.2.1 = (answers lib rtl 0 s ls).2) ∧
      ∀ (more : List (Op F)) (down : List Str) (part : Str), '\n' ∉ part → down.flatten = onWire (lit "DEVICE -" :: rs) ++ part →
        clientSide lib.toLib (done ++ more) down = (converse lib rtl 0 s ⟨false, none, [], []⟩ done).bind fun t =>
          (BorIP.performEach lib.toLib { t.2.2 with replies := List.replicate more.length .fail } more).map fun u => (t.1 ++ u.1, u.2) := by
  obtain ⟨ls, h1, h2, h3⟩ := short_lines lib.toLib done (fun x => (hl.formatFloat x).1) hops
  obtain ⟨rs, g1, g2, g3, g4⟩ := session_replies hl hq done ls (fun op ho => (hops op ho).1) h2 0 s hd
  obtain ⟨k1, k2⟩ := g4 ⟨false, none, [], []⟩
  refine ⟨ls, rs, h1, h3, g1, g2, g3, k1, ?_⟩
  intro more down part hpart hdown
  have hrep : Rd.replies ((done ++ more).length + 1) ⟨[], down⟩ =
      Reply.line (lit "DEVICE -" ++ ['\n']) :: ((rs.map fun r => Reply.line (r ++ ['\n'])) ++ List.replicate more.length .fail) := by
    have := replies_lines part hpart (lit "DEVICE -" :: rs) (by
      intro l hl
      rw [List.mem_cons] at hl
      rcases hl with rfl | hl
      · decide
      · exact g2 l hl) more.length ⟨[], down⟩ (Nat.zero_le _) hdown
    rw [List.length_cons, g1, show done.length + 1 + more.length = (done ++ more).length + 1 by rw [List.length_append]; omega] at this
    rw [this]
    rfl
  unfold clientSide
  rw [hrep, dial, Option.bind_some]
  exact k2 more _

/-- C149, the part that holds: calls with printable words whose requests fit the server's buffer, made over a connection that cuts the bytes of either
direction in any way, return what they return when each is answered at once, and leave client and server as then. -/
theorem C149_session_partial (lib : SLib F) (r6 : F → F) (hl : lib.Laws r6) (rtl : Nat → Rtl F) (hq : ∀ n, Quiet (rtl n)) (s : Srv F)
    (hd : ∀ d, s.dest = some d → Plain d) (ops : List (Op F)) (hops : ∀ op ∈ ops, op.Short lib.toLib) (up down : List Str)
    (hup : up.flatten = written lib.toLib ops) (hdown : down.flatten = (serve lib rtl s up).1.flatten) :
    clientSide lib.toLib ops down = ((converse lib rtl 0 s ⟨false, none, [], []⟩ ops).map fun t => (t.1, { t.2.2 with replies := [] })) ∧
    ∀ t, converse lib rtl 0 s ⟨false, none, [], []⟩ ops = some t → (serve lib rtl s up).2 = (t.2.1, .ended) := by
  obtain ⟨ls, rs, h1, h2, h3, h4, h5, h6, h7⟩ := client_eq hl hq hd ops hops
  have hs := C147_lines_partial lib rtl s up ls [] h1 ⟨by simp, by simp⟩ (by rw [hup, h2, List.append_nil])
  refine ⟨?_, ?_⟩
  · have := h7 [] down [] (by simp) (by rw [hdown, hs, h5, List.append_nil]; rfl)
    rw [List.append_nil] at this
    rw [this]
    cases converse lib rtl 0 s ⟨false, none, [], []⟩ ops with
    | none => rfl
    | some t => simp [BorIP.performEach]
  · intro t ht
    rw [hs, h6 t ht]

/-- C149, no call waits for ever: when the requests of the first calls have reached the server it has sent the greeting and one reply for each
of them, and these are the first it sends in the whole session. -/
theorem C149_progress (lib : SLib F) (r6 : F → F) (hl : lib.Laws r6) (rtl : Nat → Rtl F) (hq : ∀ n, Quiet (rtl n)) (s : Srv F)
    (hd : ∀ d, s.dest = some d → Plain d) (ops more : List (Op F)) (hops : ∀ op ∈ ops ++ more, op.Short lib.toLib) (up up' : List Str)
    (hup : up.flatten = written lib.toLib ops) (hup' : up'.flatten = written lib.toLib (ops ++ more)) :
    (serve lib rtl s up).1.length = ops.length + 1 ∧ (serve lib rtl s up).1 <+: (serve lib rtl s up').1 := by
  obtain ⟨ls, rs, h1, h2, h3, h4, h5, -, -⟩ := client_eq hl hq hd ops fun o ho => hops o (List.mem_append_left _ ho)
  obtain ⟨ls', g1, -, g3⟩ := short_lines lib.toLib more (fun x => (hl.formatFloat x).1) fun o ho => hops o (List.mem_append_right _ ho)
  have hs := C147_lines_partial lib rtl s up ls [] h1 ⟨by simp, by simp⟩ (by rw [hup, h2, List.append_nil])
  have hs' := C147_lines_partial lib rtl s up' (ls ++ ls') [] (by
      intro l hl
      rw [List.mem_append] at hl
      rcases hl with hl | hl
      · exact h1 l hl
      · exact g1 l hl) ⟨by simp, by simp⟩ (by
    have : written lib.toLib (ops ++ more) = written lib.toLib ops ++ written lib.toLib more := by
      unfold written
      rw [List.filterMap_append, List.flatten_append]
    rw [hup', this, h2, g3, List.append_nil]
    simp [onWire])
  refine ⟨by rw [hs, List.length_cons, h5, List.length_map, h3], ?_⟩
  rw [hs, hs', answers_append]
  exact ⟨(answers lib rtl (0 + ls.length) (answers lib rtl 0 s ls).2 ls').1, by simp⟩

/-- The start of some lines is the first of them, and part of a line. -/
theorem prefix_lines (ls : List Str) (hls : ∀ l ∈ ls, '\n' ∉ l) : ∀ p, p <+: onWire ls → ∃ k part, k ≤ ls.length ∧ p = onWire (ls.take k) ++ part ∧ '\n' ∉ part := by
  induction ls with
  | nil =>
    intro p hp
    have : p = [] := by simpa [onWire] using hp
    exact ⟨0, [], by simp, by rw [this]; rfl, by simp⟩
  | cons l ls ih =>
    intro p hp
    have hw : onWire (l :: ls) = (l ++ ['\n']) ++ onWire ls := by simp [onWire]
    rw [hw] at hp
    by_cases hlen : p.length ≤ l.length
    · refine ⟨0, p, Nat.zero_le _, rfl, ?_⟩
      have : p <+: l := List.prefix_of_prefix_length_le (by rw [List.append_assoc] at hp; exact hp) (List.prefix_append _ _) hlen
      exact fun hm => hls l List.mem_cons_self (this.subset hm)
    · have : l ++ ['\n'] <+: p := List.prefix_of_prefix_length_le (List.prefix_append _ _) hp (by
        rw [List.length_append, List.length_singleton]; omega)
      obtain ⟨q, rfl⟩ := this
      obtain ⟨k, part, h1, rfl, h3⟩ := ih (fun l hl => hls l (List.mem_cons_of_mem _ hl)) q ((List.prefix_append_right_inj _).1 hp)
      refine ⟨k + 1, part, by rw [List.length_cons]; omega, ?_, h3⟩
      simp [onWire]

/-- C149, a connection that breaks: if of what the server sends only a part reaches the client, cut off at any byte, then either `Dial` fails or a number of calls
return what they return when each is answered at once, and all later calls return the error of the connection and leave
the device and the running flag as they are. -/
theorem C149_broken (lib : SLib F) (r6 : F → F) (hl : lib.Laws r6) (rtl : Nat → Rtl F) (hq : ∀ n, Quiet (rtl n)) (s : Srv F)
    (hd : ∀ d, s.dest = some d → Plain d) (ops : List (Op F)) (hops : ∀ op ∈ ops, op.Short lib.toLib) (up down : List Str)
    (hup : up.flatten = written lib.toLib ops) (hdown : down.flatten <+: (serve lib rtl s up).1.flatten) :
    ('\n' ∉ down.flatten ∧ (dial (Rd.replies (ops.length + 1) ⟨[], down⟩) : Option (BorIP F)) = none) ∨
    ∃ k, k ≤ ops.length ∧
      (converse lib rtl 0 s ⟨false, none, [], []⟩ (ops.take k) = none → clientSide lib.toLib ops down = none) ∧
      ∀ t, converse lib rtl 0 s ⟨false, none, [], []⟩ (ops.take k) = some t →
        ∃ bor', clientSide lib.toLib ops down = some (t.1 ++ List.replicate (ops.length - k) (.error .io), bor') ∧
          bor'.running = t.2.2.running ∧ bor'.device = t.2.2.device := by
  obtain ⟨ls, rs, h1, h2, h3, h4, h5, -, -⟩ := client_eq hl hq hd ops hops
  have hs := C147_lines_partial lib rtl s up ls [] h1 ⟨by simp, by simp⟩ (by rw [hup, h2, List.append_nil])
  have hall : (serve lib rtl s up).1.flatten = onWire (lit "DEVICE -" :: rs) := by rw [hs, h5]; rfl
  rw [hall] at hdown
  obtain ⟨k, part, hk, hp, hpart⟩ := prefix_lines (lit "DEVICE -" :: rs) (by
      intro l hl
      rw [List.mem_cons] at hl
      rcases hl with rfl | hl
      · decide
      · exact h4 l hl) _ hdown
  cases k with
  | zero =>
    left
    have hp : down.flatten = part := hp
    refine ⟨by rw [hp]; exact hpart, ?_⟩
    have := replies_lines part hpart [] (by simp) (ops.length + 1) ⟨[], down⟩ (Nat.zero_le _) hp
    rw [List.length_nil, Nat.zero_add] at this
    rw [this]
    rfl
  | succ k =>
    right
    rw [List.length_cons, h3] at hk
    have hshort : ∀ op ∈ ops.take k, op.Short lib.toLib := fun o ho => hops o (List.mem_of_mem_take ho)
    obtain ⟨ls', rs', f1, f2, f3, f4, f5, -, f7⟩ := client_eq hl hq hd (ops.take k) hshort
    have hs' := C147_lines_partial lib rtl s [written lib.toLib (ops.take k)] ls' [] f1 ⟨by simp, by simp⟩ (by rw [f2]; simp)
    have hpre := (C149_progress lib r6 hl rtl hq s hd (ops.take k) (ops.drop k) (by rw [List.take_append_drop]; exact hops)
      [written lib.toLib (ops.take k)] up (by simp) (by rw [List.take_append_drop]; exact hup)).2
    rw [hs, hs', h5, f5, List.cons_prefix_cons] at hpre
    have hinj : rs' <+: rs := by
      obtain ⟨q, hq⟩ := hpre.2
      obtain ⟨a, b, rfl, ha, -⟩ := List.map_eq_append_iff.1 hq.symm
      refine ⟨b, ?_⟩
      have : a = rs' := (List.map_injective_iff.2 fun x y hxy => List.append_cancel_right hxy) ha
      rw [this]
    have htake : (lit "DEVICE -" :: rs).take (k + 1) = lit "DEVICE -" :: rs' := by
      rw [List.take_succ_cons]
      congr 1
      obtain ⟨q, rfl⟩ := hinj
      rw [List.take_left' (by rw [f3, List.length_take]; omega)]
    rw [htake] at hp
    have hclient := f7 (ops.drop k) down part hpart hp
    rw [List.take_append_drop] at hclient
    refine ⟨k, by omega, ?_, ?_⟩
    · intro hnone
      rw [hclient, hnone]
      rfl
    · intro t ht
      obtain ⟨bor', e1, e2, e3⟩ := performEach_fail lib.toLib (ops.drop k) t.2.2 (by
        intro o ho
        obtain ⟨-, req, hreq, -⟩ := hops o (List.mem_of_mem_drop ho)
        exact ⟨req, hreq⟩)
      refine ⟨bor', ?_, e2, e3⟩
      rw [hclient, ht, Option.bind_some, e1, List.length_drop]
      rfl

/-- C149 does not hold: the name of an antenna that makes the request longer than the server's buffer ends the connection, so that this call and all later ones
fail; answered directly, the call succeeds if a device is selected. -/
theorem C149_violated_long (lib : SLib F) (r6 : F → F) (hl : lib.Laws r6) (rtl : Nat → Rtl F) (hq : ∀ n, Quiet (rtl n)) (s : Srv F)
    (hd : ∀ d, s.dest = some d → Plain d) (ops more : List (Op F)) (hops : ∀ op ∈ ops, op.Short lib.toLib)
    (hmore : ∀ op ∈ more, ∃ req, op.request lib.toLib = some req) (a : Str) (ha : Plain a) (hlen : 4088 ≤ a.length) (up down : List Str)
    (hup : up.flatten = written lib.toLib (ops ++ .setAntenna a :: more)) (hdown : down.flatten = (serve lib rtl s up).1.flatten)
    (t : List (Except CErr (Value F)) × Srv F × BorIP F) (ht : converse lib rtl 0 s ⟨false, none, [], []⟩ ops = some t) :
    (∃ bor', clientSide lib.toLib (ops ++ .setAntenna a :: more) down = some (t.1 ++ .error .io :: List.replicate more.length (.error .io), bor')) ∧
    ((serve lib rtl s up).2 = (t.2.1, .bufferFull)) ∧
    (t.2.1.dev.isSome → ∃ bor', talk lib (rtl ops.length) t.2.1 t.2.2 (.setAntenna a) = some (.ok .unit, bor')) := by
  obtain ⟨ls, rs, h1, h2, h3, h4, h5, h6, h7⟩ := client_eq hl hq hd ops hops
  have hs := C147_violated_long lib rtl s up ls (lit "ANTENNA " ++ a) ('\n' :: written lib.toLib more) h1
    (not_mem_append (by decide) (not_mem_plain ha)) (by rw [List.length_append]; show 4096 ≤ 8 + a.length; omega) (by
      rw [hup, ← h2]
      unfold written
      rw [List.filterMap_append, List.flatten_append, List.filterMap_cons]
      simp only [Op.request, List.flatten_cons, List.append_assoc]
      rfl)
  refine ⟨?_, ?_, ?_⟩
  · have := h7 (.setAntenna a :: more) down [] (by simp) (by rw [hdown, hs, h5, List.append_nil]; rfl)
    obtain ⟨bor', e1, -, -⟩ := performEach_fail lib.toLib (.setAntenna a :: more) t.2.2 (by
      intro o ho
      rw [List.mem_cons] at ho
      rcases ho with rfl | ho
      · exact ⟨_, rfl⟩
      · exact hmore o ho)
    refine ⟨bor', ?_⟩
    rw [this, ht, Option.bind_some, e1]
    rfl
  · rw [hs, h6 t ht]
  · intro hdev
    refine C68_understood_partial lib r6 hl (rtl ops.length) t.2.1 ?_ t.2.2 (.setAntenna a) ha id .unit ?_
    · rw [h6 t ht]
      exact answers_dest hl rtl ls 0 s hd
    · simp only [meant]
      rw [if_pos hdev]

/-- The calls of the examples. -/
def testOps : List (Op Nat) := [.stop, .setAntenna (lit "x"), .rate]

theorem testOps_short : ∀ op ∈ testOps, op.Short testSLib.toLib := by
  intro op h
  simp only [testOps, List.mem_cons, List.not_mem_nil, or_false] at h
  rcases h with rfl | rfl | rfl
  · exact ⟨trivial, _, rfl, by decide⟩
  · exact ⟨by show Plain (lit "x"); decide, _, rfl, by decide⟩
  · exact ⟨trivial, _, rfl, by decide⟩

theorem testRtl_quiet : Quiet testRtl := by
  refine ⟨?_, ?_⟩
  · intro e h
    cases h
    decide
  · intro i h
    cases h
    decide

theorem testSrv_dest : ∀ d, testSrv.dest = some d → Plain d := by
  intro d h
  cases h
  decide

/-- Three calls, the bytes cut in the middle of words both ways. -/
example : (clientSide testSLib.toLib testOps ["DEVICE -\nSTOP STO".toList, "PPED\nANTENNA OK\nRA".toList, "TE 1111\n".toList]).map (fun t => t.1) =
    some [.error (.response (lit "STOPPED") []), .ok .unit, .ok (.float 3)] := by
  rw [(C149_session_partial testSLib id testSLib_laws (fun _ => testRtl) (fun _ => testRtl_quiet) testSrv testSrv_dest testOps testOps_short
    ["STO".toList, "P\nANTENNA x\nR".toList, "ATE\n".toList] _ (by decide) (by
      rw [C147_lines_partial testSLib (fun _ => testRtl) testSrv _ ["STOP".toList, "ANTENNA x".toList, "RATE".toList] [] (by
        intro l hl
        simp only [List.mem_cons, List.not_mem_nil, or_false] at hl
        rcases hl with rfl | rfl | rfl <;> exact ⟨by decide, by decide⟩) ⟨by decide, by decide⟩ (by decide)]
      decide)).1]
  rfl

/-- The connection breaks within the reply to the second call. -/
example : ∃ k ≤ 3, ∀ t, converse testSLib (fun _ => testRtl) 0 testSrv ⟨false, none, [], []⟩ (testOps.take k) = some t →
    ∃ bor', clientSide testSLib.toLib testOps ["DEVICE -\nSTOP STO".toList, "PPED\nANTEN".toList] = some (t.1 ++ List.replicate (3 - k) (.error .io), bor') := by
  rcases C149_broken testSLib id testSLib_laws (fun _ => testRtl) (fun _ => testRtl_quiet) testSrv testSrv_dest testOps testOps_short
    ["STO".toList, "P\nANTENNA x\nR".toList, "ATE\n".toList] ["DEVICE -\nSTOP STO".toList, "PPED\nANTEN".toList] (by decide) (by
      rw [C147_lines_partial testSLib (fun _ => testRtl) testSrv _ ["STOP".toList, "ANTENNA x".toList, "RATE".toList] [] (by
        intro l hl
        simp only [List.mem_cons, List.not_mem_nil, or_false] at hl
        rcases hl with rfl | rfl | rfl <;> exact ⟨by decide, by decide⟩) ⟨by decide, by decide⟩ (by decide)]
      exact ⟨"NA OK\nRATE 1111\n".toList, by decide⟩) with ⟨h, -⟩ | ⟨k, h1, -, h2⟩
  · exact absurd (by decide) h
  · refine ⟨k, h1, fun t ht => ?_⟩
    obtain ⟨bor', h, -⟩ := h2 t ht
    exact ⟨bor', h⟩

/-- After two of three requests three lines have been sent. -/
example : (serve testSLib (fun _ => testRtl) testSrv ["STOP\nANT".toList, "ENNA x\n".toList]).1.length = 3 :=
  (C149_progress testSLib id testSLib_laws (fun _ => testRtl) (fun _ => testRtl_quiet) testSrv testSrv_dest (testOps.take 2) (testOps.drop 2) testOps_short
    ["STOP\nANT".toList, "ENNA x\n".toList] ["STOP\nANTENNA x\nRATE\n".toList] (by decide) (by decide)).1

/-- A name that is too long, then a call that would have been answered. -/
example (n : Nat) (hn : 4088 ≤ n) : ∃ bor', clientSide testSLib.toLib ([] ++ .setAntenna (List.replicate n 'x') :: [.rate])
      (serve testSLib (fun _ => testRtl) testSrv [written testSLib.toLib ([] ++ .setAntenna (List.replicate n 'x') :: [.rate])]).1 =
    some ([.error .io, .error .io], bor') := by
  have hp : Plain (List.replicate n 'x') := by
    refine ⟨?_, ?_⟩
    · intro h
      have := congrArg List.length h
      rw [List.length_replicate, List.length_nil] at this
      omega
    · intro c hc
      rw [List.eq_of_mem_replicate hc]
      decide
  exact (C149_violated_long testSLib id testSLib_laws (fun _ => testRtl) (fun _ => testRtl_quiet) testSrv testSrv_dest [] [.rate] (by simp)
    (by
      intro o ho
      rw [List.mem_singleton] at ho
      subst ho
      exact ⟨_, rfl⟩) _ hp (by rw [List.length_replicate]; exact hn) _ _ (by simp) rfl _ rfl).1

/-- C149 does not hold: after a name with a newline in it the answer to its second part is taken for the answer to the next call. Here `Rate`
fails although the rate, asked for by itself, is 3. -/
theorem C149_violated_newline :
    (clientSide testSLib.toLib [.setAntenna (lit "x\nSTOP"), .rate]
      (serve testSLib (fun _ => testRtl) testSrv [written testSLib.toLib [.setAntenna (lit "x\nSTOP"), .rate]]).1).map (fun t => t.1) =
      some [.ok .unit, .error .number] ∧
    (talk testSLib testRtl testSrv testBor .rate).map (fun t => t.1) = some (.ok (.float 3)) := by
  refine ⟨?_, rfl⟩
  rw [C147_lines_partial testSLib (fun _ => testRtl) testSrv _ ["ANTENNA x".toList, "STOP".toList, "RATE".toList] [] (by
        intro l hl
        simp only [List.mem_cons, List.not_mem_nil, or_false] at hl
        rcases hl with rfl | rfl | rfl <;> exact ⟨by decide, by decide⟩) ⟨by decide, by decide⟩ (by decide)]
  have h1 : '\n' ∉ ([] : Str) := by simp
  have h2 : ∀ l ∈ ["DEVICE -".toList, "ANTENNA OK".toList, "STOP STOPPED".toList, "RATE 1111".toList], '\n' ∉ l := by decide
  -- the first three of the four lines
  have := replies_lines [] h1 _ h2 0 ⟨[], ["DEVICE -\n".toList, "ANTENNA OK\n".toList, "STOP STOPPED\n".toList, "RATE 1111\n".toList]⟩ (Nat.zero_le _) (by decide)
  have h3 := replies_take 3 1 ⟨[], ["DEVICE -\n".toList, "ANTENNA OK\n".toList, "STOP STOPPED\n".toList, "RATE 1111\n".toList]⟩
  rw [show 3 + 1 = ["DEVICE -".toList, "ANTENNA OK".toList, "STOP STOPPED".toList, "RATE 1111".toList].length + 0 from rfl, this] at h3
  unfold clientSide
  have h4 : Rd.replies ([Op.setAntenna (lit "x\nSTOP"), (Op.rate : Op Nat)].length + 1) ⟨[], "DEVICE -\n".toList ::
      (answers testSLib (fun _ => testRtl) 0 testSrv ["ANTENNA x".toList, "STOP".toList, "RATE".toList]).1⟩ =
      [.line "DEVICE -\n".toList, .line "ANTENNA OK\n".toList, .line "STOP STOPPED\n".toList] := h3
  rw [h4]
  rfl

end Verif.Borip
