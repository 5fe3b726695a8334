import Verif.Borip.GoModel
import Verif.Borip.ServerProps
import Mathlib.Data.List.Basic

/-!
# Property C146: what the replies to GO and STOP promise
-/

namespace Verif.Borip

/-! ## What a step does to channel and callback -/

/-- How the channel and the callback of a connection can change in one step. -/
inductive Change (a : Action) (c : Nat) (x y : Conn) : Prop
  | same : y.closeChan = x.closeChan → y.async = x.async → Change a c x y
  | start (ok : Bool) : a = .go c ok → x.closeChan = .nil → y.closeChan = .opened → y.async = true → Change a c x y
  | close : a = .advance c → x.closeChan = .opened → y.closeChan = .closed → y.async = x.async → Change a c x y
  | finish (b : Bool) : a = .callback c b → x.async = true → y.closeChan = .nil → y.async = false → Change a c x y

theorem change_refl (a : Action) (c : Nat) (x : Conn) : Change a c x x := .same rfl rfl

theorem change_setConn {a : Action} {c : Nat} {s : Server} {x : Conn} (h : Change a c (s.conns c) x) (c' : Nat) : Change a c' (s.conns c') ((s.setConn c x).conns c') := by
  by_cases hc : c' = c
  · subst hc
    simp only [Server.setConn, Function.update_self]
    exact h
  · simp only [Server.setConn, Function.update_of_ne hc]
    exact change_refl _ _ _

theorem closeDev_conns (s : Server) (c d : Nat) : (s.closeDev c d).conns = s.conns := by
  unfold Server.closeDev
  split <;> rfl

theorem change_closeDev {a : Action} {c d : Nat} {s : Server} {x : Conn} (h : Change a c (s.conns c) x) (c' : Nat) :
    Change a c' (s.conns c') (((s.closeDev c d).setConn c x).conns c') := by
  have := change_setConn (s := s.closeDev c d) (a := a) (c := c) (x := x) (by rw [closeDev_conns]; exact h) c'
  rw [closeDev_conns] at this
  exact this

theorem change_command {a : Action} {c : Nat} {s s' : Server} {x : Conn} (hs : s.command c x = some s') (h : Change a c (s.conns c) x) (c' : Nat) :
    Change a c' (s.conns c') (s'.conns c') := by
  unfold Server.command at hs
  split at hs
  · cases hs
    exact change_setConn h c'
  · cases hs

theorem step_change {s s' : Server} {a : Action} (h : s.step a = some s') (c : Nat) : Change a c (s.conns c) (s'.conns c) := by
  unfold Server.step at h
  split at h
  · cases h
  · cases a with
    | connect c1 =>
      simp only at h
      split at h
      · cases h; exact change_setConn (by exact .same rfl rfl) c
      · cases h
    | stop c1 => exact change_command h (.same rfl rfl) c
    | select c1 => exact change_command h (.same rfl rfl) c
    | release c1 => exact change_command h (.same rfl rfl) c
    | disconnect c1 => exact change_command h (.same rfl rfl) c
    | go c1 ok =>
      refine change_command h ?_ c
      split
      · rename_i hg
        exact .start ok rfl hg.2.1 rfl rfl
      · exact change_refl _ _ _
    | list c1 l =>
      simp only at h
      split at h
      · cases h; exact change_setConn (by exact .same rfl rfl) c
      · cases h
    | gains c1 n =>
      simp only at h
      split at h
      · split at h
        · cases h; exact change_refl _ _ _
        · cases h; exact change_setConn (by exact .same rfl rfl) c
      · cases h
    | tryOpen c1 ok =>
      simp only [Server.tryOpen] at h
      split at h
      · cases h; exact change_setConn (by exact .same rfl rfl) c
      · split at h
        · cases h; exact change_setConn (by exact .same rfl rfl) c
        · cases h
          exact change_setConn (s := s.openDev c1 _) (by exact .same rfl rfl) c
      · cases h
    | callback c1 b =>
      simp only [Server.callback] at h
      split at h
      · cases h
      · rename_i hasync
        split at h
        · cases h
          exact change_setConn (.finish b rfl (by simpa using hasync) rfl rfl) c
        · cases h; exact change_refl _ _ _
    | advance c1 =>
      simp only [Server.advance] at h
      split at h
      · cases h; exact change_setConn (by exact .same rfl rfl) c
      · split at h
        · rename_i hc
          cases h; exact change_setConn (by exact .close rfl hc rfl rfl) c
        · cases h; exact change_refl _ _ _
        · cases h; exact change_refl _ _ _
      · split at h
        · cases h; exact change_setConn (by exact .same rfl rfl) c
        · cases h; exact change_closeDev (by exact .same rfl rfl) c
      · cases h; exact change_setConn (by exact .same rfl rfl) c
      · cases h

/-! ## What holds in every state -/

/-- A connection is streaming exactly when the driver calls its callback; a callback in progress is one the
driver calls, and its socket exists. -/
structure Paired (s : Full) : Prop where
  chan : ∀ c, (s.srv.conns c).async = true ↔ (s.srv.conns c).closeChan ≠ .nil
  busy : ∀ c, s.busy c ≠ 0 → (s.srv.conns c).async = true
  sock : ∀ c, (s.srv.conns c).async = true → s.sock c < s.sockets.length

theorem paired_init : Paired Full.init :=
  ⟨fun c => by simp [Full.init, Server.init], fun c h => absurd rfl h, fun c h => by simp [Full.init, Server.init] at h⟩

theorem change_chan {a : Action} {c : Nat} {x y : Conn} (h : Change a c x y) (hx : x.async = true ↔ x.closeChan ≠ .nil) : y.async = true ↔ y.closeChan ≠ .nil := by
  cases h with
  | same h1 h2 => rw [h1, h2]; exact hx
  | start ok _ _ h1 h2 => rw [h1, h2]; simp
  | close _ h0 h1 h2 => rw [h1, h2, hx, h0]; simp
  | finish b _ _ h1 h2 => rw [h1, h2]; simp

/-- A step that neither starts nor calls back keeps `async`. -/
theorem change_async {a : Action} {c : Nat} {x y : Conn} (h : Change a c x y) (h1 : ∀ ok, a ≠ .go c ok) (h2 : ∀ b, a ≠ .callback c b) : y.async = x.async := by
  cases h with
  | same _ h => exact h
  | start ok h => exact absurd h (h1 ok)
  | close _ _ _ h => exact h
  | finish b h => exact absurd h (h2 b)

/-- The result of a step: replies and datagrams are added at the end, and what each connection gets. -/
structure Moves (s s' : Full) (c : Nat) : Prop where
  mk ::
  paired : Paired s'
  out : ∃ r q, s'.replies = s.replies ++ r ∧ s'.sent = s.sent ++ q ∧
    -- without a GO acknowledged
    ((c, .go, .ok) ∉ r →
      -- a stopped stream stays stopped and only finishes its buffer
      ((s.srv.conns c).closeChan ≠ .opened → (s'.srv.conns c).closeChan ≠ .opened ∧ (q.filter (·.1 = c)).length + s'.busy c ≤ s.busy c) ∧
      -- datagrams go where they went
      (∀ a, ((s.srv.conns c).async = true → s.sockets[s.sock c]? = some a) →
        ((s'.srv.conns c).async = true → s'.sockets[s'.sock c]? = some a) ∧ ∀ e ∈ q, e.1 = c → e.2 = a))

theorem moves_quiet {s s' : Full} (hp : Paired s) (c : Nat) {a : Action} (h : s.srv.step a = some s'.srv) (h1 : ∀ c ok, a ≠ .go c ok) (h2 : ∀ c b, a ≠ .callback c b)
    (hso : s'.sockets = s.sockets) (hsk : s'.sock = s.sock) (hb : s'.busy = s.busy) (hse : s'.sent = s.sent) (r : List (Nat × Cmd × Ans)) (hr : s'.replies = s.replies ++ r) : Moves s s' c := by
  have has : ∀ c, (s'.srv.conns c).async = (s.srv.conns c).async := fun c => change_async (step_change h c) (h1 c) (h2 c)
  refine ⟨⟨fun c => change_chan (step_change h c) (hp.chan c), fun c hc => ?_, fun c hc => ?_⟩, r, [], hr, by rw [hse, List.append_nil], fun _ => ⟨fun hno => ⟨?_, ?_⟩, fun b hb2 => ⟨?_, by simp⟩⟩⟩
  · rw [has]; exact hp.busy c (by rw [← hb]; exact hc)
  · rw [has] at hc; rw [hso, hsk]; exact hp.sock c hc
  · cases step_change h c with
    | same h3 _ => rw [h3]; exact hno
    | start ok h3 => exact absurd h3 (h1 c ok)
    | close _ h3 => exact absurd h3 hno
    | finish b h3 => exact absurd h3 (h2 c b)
  · rw [hb]; simp
  · rw [has, hso, hsk]; exact hb2

theorem moves_reply {s : Full} (hp : Paired s) (c : Nat) (so : List Nat) (r : List (Nat × Cmd × Ans)) :
    Moves s { s with sockets := s.sockets ++ so, replies := s.replies ++ r } c := by
  refine ⟨⟨hp.chan, hp.busy, fun c hc => ?_⟩, r, [], rfl, (List.append_nil _).symm, fun _ => ⟨fun hno => ⟨hno, by simp⟩, fun a ha => ⟨fun hc => ?_, by simp⟩⟩⟩
  · simp only [List.length_append]
    exact Nat.lt_of_lt_of_le (hp.sock c hc) (Nat.le_add_right _ _)
  · have := ha hc
    simp only
    rw [List.getElem?_append_left (hp.sock c hc)]
    exact this

theorem moves_go {s s' : Full} (hp : Paired s) (c c1 : Nat) (dial reset : Bool) (h : s.go c1 dial reset = some s') : Moves s s' c := by
  unfold Full.go at h
  split at h
  · cases h
  · rename_i hpre
    split at h
    · cases h
      have := moves_reply hp c [] [(c1, .go, .fail)]
      rw [List.append_nil] at this
      exact this
    · rename_i addr hdest
      split at h
      · cases h
        have := moves_reply hp c [] [(c1, .go, .device)]
        rw [List.append_nil] at this
        exact this
      · rename_i hdev
        split at h
        · cases h
          have := moves_reply hp c [] [(c1, .go, .running)]
          rw [List.append_nil] at this
          exact this
        · rename_i hchan
          split at h
          · cases h
            have := moves_reply hp c [] [(c1, .go, .fail)]
            rw [List.append_nil] at this
            exact this
          · split at h
            · cases h
              exact moves_reply hp c [addr] [(c1, .go, .fail)]
            · rw [Option.map_eq_some_iff] at h
              obtain ⟨srv, hsrv, rfl⟩ := h
              have hch := step_change hsrv
              refine ⟨⟨fun c => change_chan (hch c) (hp.chan c), fun c2 hc => ?_, fun c2 hc => ?_⟩, [(c1, .go, .ok)], [], rfl, (List.append_nil _).symm, fun hno => ?_⟩
              · simp only [Full.reply] at hc ⊢
                cases hch c2 with
                | same _ h3 => rw [h3]; exact hp.busy c2 hc
                | start ok _ _ _ h3 => exact h3
                | close _ _ _ h3 => rw [h3]; exact hp.busy c2 hc
                | finish b h3 => cases h3
              · simp only [Full.reply] at hc ⊢
                by_cases hcc : c2 = c1
                · rw [hcc, Function.update_self]
                  simp
                · rw [Function.update_of_ne hcc, List.length_append]
                  have : (s.srv.conns c2).async = true := by
                    cases hch c2 with
                    | same _ h3 => rw [← h3]; exact hc
                    | start ok h3 => cases h3; exact absurd rfl hcc
                    | close h3 => cases h3
                    | finish b h3 => cases h3
                  exact Nat.lt_of_lt_of_le (hp.sock c2 this) (Nat.le_add_right _ _)
              · have hcc : c ≠ c1 := by
                  rintro rfl
                  exact hno (by simp)
                have hsame : (srv.conns c).closeChan = (s.srv.conns c).closeChan ∧ (srv.conns c).async = (s.srv.conns c).async := by
                  cases hch c with
                  | same h2 h3 => exact ⟨h2, h3⟩
                  | start ok h3 => cases h3; exact absurd rfl hcc
                  | close h3 => cases h3
                  | finish b h3 => cases h3
                simp only [Full.reply]
                refine ⟨fun hno => ⟨by rw [hsame.1]; exact hno, by simp⟩, fun a ha => ⟨fun hc => ?_, by simp⟩⟩
                rw [hsame.2] at hc
                rw [Function.update_of_ne hcc, List.getElem?_append_left (hp.sock c hc)]
                exact ha hc

theorem moves_callback {s s' : Full} (hp : Paired s) (c c1 : Nat) (b : Bool) (n : Nat) (h : s.callback c1 b n = some s') : Moves s s' c := by
  unfold Full.callback at h
  split at h
  · cases h
  · rename_i hbusy
    rw [not_not] at hbusy
    rw [Option.map_eq_some_iff] at h
    obtain ⟨srv, hsrv, rfl⟩ := h
    have hch := step_change hsrv
    have has : ∀ c, (srv.conns c).async = true → (s.srv.conns c).async = true := by
      intro c hc
      cases hch c with
      | same _ h3 => rw [← h3]; exact hc
      | start ok h3 => cases h3
      | close h3 => cases h3
      | finish b _ h3 => exact h3
    refine ⟨⟨fun c => change_chan (hch c) (hp.chan c), fun c2 hc => ?_, fun c2 hc => hp.sock c2 (has c2 hc)⟩, [], [], (List.append_nil _).symm, (List.append_nil _).symm,
      fun _ => ⟨fun hno => ⟨?_, ?_⟩, fun a ha => ⟨fun hc => ha (has c hc), by simp⟩⟩⟩
    · simp only at hc ⊢
      by_cases hcc : c2 = c1
      · subst hcc
        rw [Function.update_self] at hc
        by_contra hf
        rw [if_neg hf] at hc
        exact hc rfl
      · rw [Function.update_of_ne hcc] at hc
        cases hch c2 with
        | same _ h3 => rw [h3]; exact hp.busy c2 hc
        | start ok h3 => cases h3
        | close h3 => cases h3
        | finish b h3 => cases h3; exact absurd rfl hcc
    · simp only
      cases hch c with
      | same h3 _ => rw [h3]; exact hno
      | start ok h3 => cases h3
      | close h3 => cases h3
      | finish b _ _ h3 => rw [h3]; simp
    · simp only [List.filter_nil, List.length_nil, Nat.zero_add]
      by_cases hcc : c = c1
      · subst hcc
        rw [Function.update_self, hbusy]
        have : (srv.conns c).async = false := by
          -- the channel is closed or nil: the callback ends the stream
          by_contra hf
          rw [Bool.not_eq_false] at hf
          have h1 := has c hf
          have h2 : (s.srv.conns c).closeChan = .closed := by
            have := (hp.chan c).mp h1
            cases h3 : (s.srv.conns c).closeChan
            · exact absurd h3 this
            · exact absurd h3 hno
            · rfl
          unfold Server.step at hsrv
          split at hsrv
          · cases hsrv
          · simp only [Server.callback] at hsrv
            rw [if_neg (by rw [h1]; simp), if_pos (.inr h2)] at hsrv
            cases hsrv
            simp [Server.setConn] at hf
        rw [this]
        simp
      · rw [Function.update_of_ne hcc]
        exact Nat.le_refl _

theorem moves_send {s s' : Full} (hp : Paired s) (c c1 : Nat) (h : s.send c1 = some s') : Moves s s' c := by
  unfold Full.send at h
  split at h
  · cases h
  · split at h
    · cases h
    · rename_i k hk
      rw [Option.map_eq_some_iff] at h
      obtain ⟨a, ha, rfl⟩ := h
      have hasync := hp.busy c1 (by rw [hk]; simp)
      refine ⟨⟨hp.chan, fun c2 hc => ?_, hp.sock⟩, [], [(c1, a)], (List.append_nil _).symm, rfl, fun _ => ⟨fun hno => ⟨hno, ?_⟩, fun b hb => ⟨hb, ?_⟩⟩⟩
      · simp only at hc ⊢
        by_cases hcc : c2 = c1
        · rw [hcc]; exact hasync
        · rw [Function.update_of_ne hcc] at hc
          exact hp.busy c2 hc
      · simp only
        by_cases hcc : c = c1
        · subst hcc
          rw [Function.update_self, hk]
          simp
          omega
        · rw [Function.update_of_ne hcc]
          simp [Ne.symm hcc]
      · intro e he hec
        rw [List.mem_singleton] at he
        subst he
        simp only at hec
        subst hec
        have := hb hasync
        rw [ha] at this
        exact Option.some.inj this

theorem full_step {s s' : Full} (hp : Paired s) (c : Nat) (a : FAction) (h : s.step a = some s') : Moves s s' c := by
  have hlift : ∀ {b : Action}, s.lift b = some s' → (∀ c ok, b ≠ .go c ok) → (∀ c x, b ≠ .callback c x) → Moves s s' c := by
    intro b hb h1 h2
    unfold Full.lift at hb
    rw [Option.map_eq_some_iff] at hb
    obtain ⟨srv, hsrv, rfl⟩ := hb
    exact moves_quiet hp c hsrv h1 h2 rfl rfl rfl rfl [] (List.append_nil _).symm
  cases a with
  | connect c1 remote =>
    simp only [Full.step, Option.map_eq_some_iff] at h
    obtain ⟨srv, hsrv, rfl⟩ := h
    exact moves_quiet hp c hsrv (by simp) (by simp) rfl rfl rfl rfl [] (List.append_nil _).symm
  | dest c1 addr =>
    simp only [Full.step] at h
    split at h
    · cases h
    · have hrefl : ∀ d, Moves s { s with dest := d } c := by
        intro d
        exact ⟨⟨hp.chan, hp.busy, hp.sock⟩, [], [], (List.append_nil _).symm, (List.append_nil _).symm, fun _ => ⟨fun hno => ⟨hno, by simp⟩, fun a ha => ⟨ha, by simp⟩⟩⟩
      cases addr with
      | none => cases h; exact hrefl s.dest
      | some a => cases h; exact hrefl _
  | go c1 dial reset => exact moves_go hp c c1 dial reset h
  | callback c1 b n => exact moves_callback hp c c1 b n h
  | send c1 => exact moves_send hp c c1 h
  | stop c1 =>
    simp only [Full.step, Full.stop, Option.map_eq_some_iff] at h
    obtain ⟨srv, hsrv, rfl⟩ := h
    split
    · exact moves_quiet hp c hsrv (by simp) (by simp) rfl rfl rfl rfl [(c1, .stop, .stopped)] rfl
    · exact moves_quiet hp c hsrv (by simp) (by simp) rfl rfl rfl rfl [] (List.append_nil _).symm
  | advance c1 =>
    simp only [Full.step, Full.advance, Option.map_eq_some_iff] at h
    obtain ⟨srv, hsrv, rfl⟩ := h
    split
    · exact moves_quiet hp c hsrv (by simp) (by simp) rfl rfl rfl rfl [(c1, .stop, .ok)] rfl
    · exact moves_quiet hp c hsrv (by simp) (by simp) rfl rfl rfl rfl [] (List.append_nil _).symm
  | select c1 => exact hlift h (by simp) (by simp)
  | release c1 => exact hlift h (by simp) (by simp)
  | disconnect c1 => exact hlift h (by simp) (by simp)
  | list c1 l => exact hlift h (by simp) (by simp)
  | tryOpen c1 ok => exact hlift h (by simp) (by simp)
  | gains c1 n => exact hlift h (by simp) (by simp)

theorem moves_refl {s : Full} (hp : Paired s) (c : Nat) : Moves s s c :=
  ⟨hp, [], [], (List.append_nil _).symm, (List.append_nil _).symm, fun _ => ⟨fun hno => ⟨hno, by simp⟩, fun _ ha => ⟨ha, by simp⟩⟩⟩

theorem moves_trans {s t u : Full} {c : Nat} (h : Moves s t c) (h' : Moves t u c) : Moves s u c := by
  obtain ⟨-, r, q, h1, h2, h3⟩ := h
  obtain ⟨hp, r', q', g1, g2, g3⟩ := h'
  refine ⟨hp, r ++ r', q ++ q', by rw [g1, h1, List.append_assoc], by rw [g2, h2, List.append_assoc], fun hno => ?_⟩
  rw [List.mem_append, not_or] at hno
  obtain ⟨h4, h5⟩ := h3 hno.1
  obtain ⟨g4, g5⟩ := g3 hno.2
  refine ⟨fun hop => ?_, fun a ha => ?_⟩
  · obtain ⟨h6, h7⟩ := h4 hop
    obtain ⟨g6, g7⟩ := g4 h6
    refine ⟨g6, ?_⟩
    rw [List.filter_append, List.length_append]
    omega
  · obtain ⟨h6, h7⟩ := h5 a ha
    obtain ⟨g6, g7⟩ := g5 a h6
    refine ⟨g6, fun e he => ?_⟩
    rw [List.mem_append] at he
    rcases he with he | he
    · exact h7 e he
    · exact g7 e he

theorem full_run (as : List FAction) : ∀ {s s' : Full}, Paired s → ∀ c, s.run as = some s' → Moves s s' c := by
  induction as with
  | nil => intro s s' hp c h; cases h; exact moves_refl hp c
  | cons a as ih =>
    intro s s' hp c h
    rw [Full.run, Option.bind_eq_some_iff] at h
    obtain ⟨t, h1, h2⟩ := h
    have hm := full_step hp c a h1
    exact moves_trans hm (ih hm.paired c h2)

/-! ## C146 -/

/-- C146: every execution of this model is, for connections and devices, one of the model of C66 and C67. -/
theorem C146_server (as : List FAction) (s : Full) (h : Full.init.run as = some s) : ∃ bs, Server.init.run bs = some s.srv := by
  have hstep : ∀ (s s' : Full) (a : FAction), s.step a = some s' → s'.srv = s.srv ∨ ∃ b, s.srv.step b = some s'.srv := by
    intro s s' a h
    have hlift : ∀ {b : Action}, s.lift b = some s' → s'.srv = s.srv ∨ ∃ b, s.srv.step b = some s'.srv := by
      intro b hb
      unfold Full.lift at hb
      rw [Option.map_eq_some_iff] at hb
      obtain ⟨srv, hsrv, rfl⟩ := hb
      exact .inr ⟨b, hsrv⟩
    cases a with
    | connect c1 remote =>
      simp only [Full.step, Option.map_eq_some_iff] at h
      obtain ⟨srv, hsrv, rfl⟩ := h
      exact .inr ⟨_, hsrv⟩
    | dest c1 addr =>
      simp only [Full.step] at h
      split at h
      · cases h
      · cases addr <;> (cases h; exact .inl rfl)
    | go c1 dial reset =>
      simp only [Full.step, Full.go] at h
      split at h
      · cases h
      · split at h
        · cases h; exact .inl rfl
        · split at h
          · cases h; exact .inl rfl
          · split at h
            · cases h; exact .inl rfl
            · split at h
              · cases h; exact .inl rfl
              · split at h
                · cases h; exact .inl rfl
                · rw [Option.map_eq_some_iff] at h
                  obtain ⟨srv, hsrv, rfl⟩ := h
                  exact .inr ⟨_, hsrv⟩
    | callback c1 b n =>
      simp only [Full.step, Full.callback] at h
      split at h
      · cases h
      · rw [Option.map_eq_some_iff] at h
        obtain ⟨srv, hsrv, rfl⟩ := h
        exact .inr ⟨_, hsrv⟩
    | send c1 =>
      simp only [Full.step, Full.send] at h
      split at h
      · cases h
      · split at h
        · cases h
        · rw [Option.map_eq_some_iff] at h
          obtain ⟨a, -, rfl⟩ := h
          exact .inl rfl
    | stop c1 =>
      simp only [Full.step, Full.stop, Option.map_eq_some_iff] at h
      obtain ⟨srv, hsrv, rfl⟩ := h
      refine .inr ⟨.stop c1, ?_⟩
      split <;> exact hsrv
    | advance c1 =>
      simp only [Full.step, Full.advance, Option.map_eq_some_iff] at h
      obtain ⟨srv, hsrv, rfl⟩ := h
      refine .inr ⟨.advance c1, ?_⟩
      split <;> exact hsrv
    | select c1 => exact hlift h
    | release c1 => exact hlift h
    | disconnect c1 => exact hlift h
    | list c1 l => exact hlift h
    | tryOpen c1 ok => exact hlift h
    | gains c1 n => exact hlift h
  have hrun : ∀ (as : List FAction) (s s' : Full), s.run as = some s' → ∃ bs, s.srv.run bs = some s'.srv := by
    intro as
    induction as with
    | nil => intro s s' h; cases h; exact ⟨[], rfl⟩
    | cons a as ih =>
      intro s s' h
      rw [Full.run, Option.bind_eq_some_iff] at h
      obtain ⟨t, h1, h2⟩ := h
      obtain ⟨bs, hbs⟩ := ih t s' h2
      rcases hstep s t a h1 with he | ⟨b, hb⟩
      · exact ⟨bs, by rw [← he]; exact hbs⟩
      · exact ⟨b :: bs, by rw [Server.run, hb]; exact hbs⟩
  exact hrun as Full.init s h

/-- C146: in every state the server takes a connection for streaming (and answers RUNNING to GO and does not
answer STOPPED to STOP) exactly when the driver still calls its callback. -/
theorem C146_streaming_partial (as : List FAction) (s : Full) (h : Full.init.run as = some s) (c : Nat) :
    (s.srv.conns c).closeChan ≠ .nil ↔ (s.srv.conns c).async = true :=
  ((full_run as paired_init c h).paired.chan c).symm

/-- Specification: the address a client has last given with DEST, or else that of its connection. -/
def lastDest (c : Nat) : List FAction → Option Nat → Option Nat
  | [], cur => cur
  | .connect c' remote :: as, cur => lastDest c as (if c' = c then remote else cur)
  | .dest c' (some a) :: as, cur => lastDest c as (if c' = c then some a else cur)
  | _ :: as, cur => lastDest c as cur

theorem lastDest_run (c : Nat) (as : List FAction) : ∀ (s s' : Full), s.run as = some s' → s'.dest c = lastDest c as (s.dest c) := by
  induction as with
  | nil => intro s s' h; cases h; rfl
  | cons a as ih =>
    intro s s' h
    rw [Full.run, Option.bind_eq_some_iff] at h
    obtain ⟨t, h1, h2⟩ := h
    rw [ih t s' h2]
    have hlift : ∀ {b : Action}, s.lift b = some t → t.dest = s.dest := by
      intro b hb
      unfold Full.lift at hb
      rw [Option.map_eq_some_iff] at hb
      obtain ⟨srv, -, rfl⟩ := hb
      rfl
    cases a with
    | connect c1 remote =>
      simp only [Full.step, Option.map_eq_some_iff] at h1
      obtain ⟨srv, -, rfl⟩ := h1
      simp only [lastDest, Function.update_apply, eq_comm]
    | dest c1 addr =>
      simp only [Full.step] at h1
      split at h1
      · cases h1
      · cases addr with
        | none => cases h1; rfl
        | some a =>
          cases h1
          simp only [lastDest, Function.update_apply, eq_comm]
    | go c1 dial reset =>
      have : t.dest = s.dest := by
        simp only [Full.step, Full.go] at h1
        split at h1
        · cases h1
        · split at h1
          · cases h1; rfl
          · split at h1
            · cases h1; rfl
            · split at h1
              · cases h1; rfl
              · split at h1
                · cases h1; rfl
                · split at h1
                  · cases h1; rfl
                  · rw [Option.map_eq_some_iff] at h1
                    obtain ⟨srv, -, rfl⟩ := h1
                    rfl
      rw [this]; rfl
    | callback c1 b n =>
      have : t.dest = s.dest := by
        simp only [Full.step, Full.callback] at h1
        split at h1
        · cases h1
        · rw [Option.map_eq_some_iff] at h1
          obtain ⟨srv, -, rfl⟩ := h1
          rfl
      rw [this]; rfl
    | send c1 =>
      have : t.dest = s.dest := by
        simp only [Full.step, Full.send] at h1
        split at h1
        · cases h1
        · split at h1
          · cases h1
          · rw [Option.map_eq_some_iff] at h1
            obtain ⟨srv, -, rfl⟩ := h1
            rfl
      rw [this]; rfl
    | stop c1 =>
      simp only [Full.step, Full.stop, Option.map_eq_some_iff] at h1
      obtain ⟨srv, -, rfl⟩ := h1
      split <;> rfl
    | advance c1 =>
      simp only [Full.step, Full.advance, Option.map_eq_some_iff] at h1
      obtain ⟨srv, -, rfl⟩ := h1
      split <;> rfl
    | select c1 => rw [hlift h1]; rfl
    | release c1 => rw [hlift h1]; rfl
    | disconnect c1 => rw [hlift h1]; rfl
    | list c1 l => rw [hlift h1]; rfl
    | tryOpen c1 ok => rw [hlift h1]; rfl
    | gains c1 n => rw [hlift h1]; rfl

/-- C146: after a GO that was acknowledged, and until the next one, every datagram of the connection goes to
the destination this client had given when the GO came, whatever DEST says later and whatever other clients
give. -/
theorem C146_destination_partial (pre : List FAction) (s0 s1 s2 : Full) (c : Nat) (dial reset : Bool) (mid : List FAction)
    (h0 : Full.init.run pre = some s0) (h1 : s0.step (.go c dial reset) = some s1) (hok : s1.replies = s0.replies ++ [(c, .go, .ok)])
    (h2 : s1.run mid = some s2) (r : List (Nat × Cmd × Ans)) (hr : s2.replies = s1.replies ++ r) (hno : (c, .go, .ok) ∉ r) :
    ∃ a q, lastDest c pre none = some a ∧ s2.sent = s1.sent ++ q ∧ ∀ e ∈ q, e.1 = c → e.2 = a := by
  have hp0 := (full_run pre paired_init c h0).paired
  have hp1 := (full_step hp0 c _ h1).paired
  obtain ⟨-, r', q, g1, g2, g3⟩ := full_run mid hp1 c h2
  have : r' = r := List.append_cancel_left (g1.symm.trans hr)
  subst this
  simp only [Full.step, Full.go] at h1
  have hne : ∀ {x : Ans}, x ≠ .ok → (s0.reply c .go x).replies ≠ s0.replies ++ [(c, .go, .ok)] := by
    intro x hx he
    have := List.append_cancel_left he
    simp at this
    exact hx this
  split at h1
  · cases h1
  · split at h1
    · cases h1; exact absurd hok (hne (by simp))
    · rename_i a ha
      split at h1
      · cases h1; exact absurd hok (hne (by simp))
      · split at h1
        · cases h1; exact absurd hok (hne (by simp))
        · split at h1
          · cases h1; exact absurd hok (hne (by simp))
          · split at h1
            · cases h1; exact absurd hok (hne (by simp))
            · rw [Option.map_eq_some_iff] at h1
              obtain ⟨srv, hsrv, rfl⟩ := h1
              refine ⟨a, q, by rw [← ha, lastDest_run c pre _ _ h0]; rfl, g2, ((g3 hno).2 a fun _ => ?_).2⟩
              simp only [Full.reply, Function.update_self]
              rw [List.getElem?_append_right (Nat.le_refl _)]
              simp

/-- C146: after a STOP that was acknowledged, and until the next acknowledged GO, the connection sends at most
the datagrams of the buffer that its callback was working on. -/
theorem C146_stopped_partial (pre : List FAction) (s0 s1 s2 : Full) (c : Nat) (a : FAction) (ans : Ans) (mid : List FAction)
    (h0 : Full.init.run pre = some s0) (h1 : s0.step a = some s1) (hok : s1.replies = s0.replies ++ [(c, .stop, ans)])
    (h2 : s1.run mid = some s2) (r : List (Nat × Cmd × Ans)) (hr : s2.replies = s1.replies ++ r) (hno : (c, .go, .ok) ∉ r) :
    ∃ q, s2.sent = s1.sent ++ q ∧ (q.filter (·.1 = c)).length ≤ s1.busy c := by
  have hp0 := (full_run pre paired_init c h0).paired
  have hp1 := (full_step hp0 c _ h1).paired
  obtain ⟨-, r', q, g1, g2, g3⟩ := full_run mid hp1 c h2
  have : r' = r := List.append_cancel_left (g1.symm.trans hr)
  subst this
  refine ⟨q, g2, ?_⟩
  have hclosed : (s1.srv.conns c).closeChan ≠ .opened := by
    have hnil : ∀ (l : List (Nat × Cmd × Ans)) x, l ≠ l ++ [x] := by
      intro l x he
      have := congrArg List.length he
      simp at this
    have hnogo : ∀ (c1 : Nat) (x : Ans), (s0.reply c1 .go x).replies ≠ s0.replies ++ [(c, .stop, ans)] := by
      intro c1 x he
      have := List.append_cancel_left he
      simp at this
    have hlift : ∀ {b : Action}, s0.lift b = some s1 → False := by
      intro b hb
      unfold Full.lift at hb
      rw [Option.map_eq_some_iff] at hb
      obtain ⟨srv, -, rfl⟩ := hb
      exact hnil _ _ hok
    cases a with
    | connect c1 remote =>
      simp only [Full.step, Option.map_eq_some_iff] at h1
      obtain ⟨srv, -, rfl⟩ := h1
      exact absurd hok (hnil _ _)
    | dest c1 addr =>
      simp only [Full.step] at h1
      split at h1
      · cases h1
      · cases addr <;> (cases h1; exact absurd hok (hnil _ _))
    | go c1 dial reset =>
      simp only [Full.step, Full.go] at h1
      split at h1
      · cases h1
      · split at h1
        · cases h1; exact absurd hok (hnogo _ _)
        · split at h1
          · cases h1; exact absurd hok (hnogo _ _)
          · split at h1
            · cases h1; exact absurd hok (hnogo _ _)
            · split at h1
              · cases h1; exact absurd hok (hnogo _ _)
              · split at h1
                · cases h1; exact absurd hok (hnogo _ _)
                · rw [Option.map_eq_some_iff] at h1
                  obtain ⟨srv, -, rfl⟩ := h1
                  exact absurd hok (hnogo _ _)
    | callback c1 b n =>
      simp only [Full.step, Full.callback] at h1
      split at h1
      · cases h1
      · rw [Option.map_eq_some_iff] at h1
        obtain ⟨srv, -, rfl⟩ := h1
        exact absurd hok (hnil _ _)
    | send c1 =>
      simp only [Full.step, Full.send] at h1
      split at h1
      · cases h1
      · split at h1
        · cases h1
        · rw [Option.map_eq_some_iff] at h1
          obtain ⟨a, -, rfl⟩ := h1
          exact absurd hok (hnil _ _)
    | stop c1 =>
      simp only [Full.step, Full.stop, Option.map_eq_some_iff] at h1
      obtain ⟨srv, hsrv, rfl⟩ := h1
      split at hok
      · rename_i hidle
        have := List.append_cancel_left hok
        simp only [List.cons.injEq, Prod.mk.injEq, and_true, true_and] at this
        obtain ⟨rfl, -⟩ := this
        rw [if_pos hidle]
        simp only [Full.reply]
        unfold Server.step at hsrv
        split at hsrv
        · cases hsrv
        · simp only [Server.command] at hsrv
          split at hsrv
          · cases hsrv
            simp only [Server.setConn, Function.update_self] at hidle ⊢
            split at hidle
            · rename_i hn
              rw [hn]; simp
            · cases hidle
          · cases hsrv
      · exact absurd hok (hnil _ _)
    | advance c1 =>
      simp only [Full.step, Full.advance, Option.map_eq_some_iff] at h1
      obtain ⟨srv, hsrv, rfl⟩ := h1
      split at hok
      · rename_i hidle
        have := List.append_cancel_left hok
        simp only [List.cons.injEq, Prod.mk.injEq, and_true, true_and] at this
        obtain ⟨rfl, -⟩ := this
        rw [if_pos hidle]
        simp only [Full.reply]
        unfold Server.step at hsrv
        split at hsrv
        · cases hsrv
        · simp only [Server.advance] at hsrv
          rcases hidle with ⟨hph | hph, hidle⟩
          · rw [hph] at hsrv
            simp only [Option.some.injEq] at hsrv
            subst hsrv
            simp only [Server.setConn, Function.update_self] at hidle ⊢
            split at hidle
            · rename_i hn
              rw [hn]; simp
            · cases hidle
          · rw [hph] at hsrv
            simp only at hsrv
            split at hsrv
            · cases hsrv
              simp [Server.setConn]
            · cases hsrv
              simp only at hidle
              rw [hph] at hidle
              cases hidle
            · cases hsrv
              simp only at hidle
              rw [hph] at hidle
              cases hidle
      · exact absurd hok (hnil _ _)
    | select c1 => exact (hlift h1).elim
    | release c1 => exact (hlift h1).elim
    | disconnect c1 => exact (hlift h1).elim
    | list c1 l => exact (hlift h1).elim
    | tryOpen c1 ok => exact (hlift h1).elim
    | gains c1 n => exact (hlift h1).elim
  have := ((g3 hno).1 hclosed).2
  omega

/-- Connect from address 7, select device 0, start. -/
def startedFull : List FAction :=
  [.connect 0 (some 7), .select 0, .advance 0, .list 0 [0], .tryOpen 0 true, .advance 0, .gains 0 (some 2), .go 0 true true]

/-- Two datagrams to 7 though DEST has changed, a STOP within a buffer of four datagrams of which one more
comes, the end of the stream, a new one to 9. -/
def session : List FAction :=
  [.callback 0 false 4, .send 0, .dest 0 (some 9), .send 0, .stop 0, .advance 0, .advance 0, .send 0, .send 0, .callback 0 false 4,
    .go 0 true true, .callback 0 false 4, .send 0]

example : (Full.init.run (startedFull ++ session)).map (fun s => (s.sent, s.replies, s.sockets)) =
    some ([(0, 7), (0, 7), (0, 7), (0, 7), (0, 9)], [(0, .go, .ok), (0, .stop, .ok), (0, .go, .ok)], [7, 9]) := by
  rfl

/-- C146 does not hold: after an acknowledged STOP that the callback has not seen yet, GO is answered with
RUNNING, nothing is sent any more and the stream ends; the client waits for datagrams in vain. For every
state. -/
theorem C146_violated_running (s : Full) (hs : s.srv.panic = none) (c a d : Nat) (hp : (s.srv.conns c).phase = .idle)
    (hc : (s.srv.conns c).closeChan = .closed) (has : (s.srv.conns c).async = true) (hb : s.busy c = 0) (hdest : s.dest c = some a)
    (hdev : (s.srv.conns c).dev = some d) (dial reset bufNil : Bool) (n : Nat) :
    ∃ s', s.run [.go c dial reset, .callback c bufNil n] = some s' ∧ s'.replies = s.replies ++ [(c, .go, .running)] ∧ s'.sent = s.sent ∧
      (s'.srv.conns c).async = false ∧ s'.busy c = 0 := by
  refine ⟨_, by simp [Full.run, Full.step, Full.go, hs, hp, hdest, hdev, hc, Full.callback, Full.reply, hb, Server.step, Server.callback, has]; rfl, ?_⟩
  simp [Server.setConn]

/-- Such a state is reached. -/
example : (Full.init.run (startedFull ++ [.stop 0, .advance 0, .advance 0])).map (fun s =>
    (s.replies, (s.srv.conns 0).phase, (s.srv.conns 0).closeChan, (s.srv.conns 0).async, s.busy 0, s.dest 0, (s.srv.conns 0).dev)) =
    some ([(0, .go, .ok), (0, .stop, .ok)], .idle, .closed, true, 0, some 7, some 0) := by
  rfl

/-- Connection 0 has a device and is idle, nothing streams, and there is no other connection. -/
def Resting (s : Full) : Prop :=
  s.srv.panic = none ∧ (s.srv.conns 0).phase = .idle ∧ (s.srv.conns 0).dev = some 0 ∧ (s.srv.conns 0).closeChan = .nil ∧ s.busy 0 = 0 ∧ s.dest 0 = some 7 ∧
    ∀ c, c ≠ 0 → (s.srv.conns c).phase = .absent

theorem resting_again (s : Full) (h : Resting s) : ∃ s', s.run [.go 0 true true, .callback 0 true 0] = some s' ∧ Resting s' ∧ s'.sockets = s.sockets ++ [7] := by
  obtain ⟨h1, h2, h3, h4, h5, h6, h7⟩ := h
  refine ⟨_, by simp [Full.run, Full.step, Full.go, h1, h2, h3, h4, h5, h6, Full.callback, Full.reply, Server.step, Server.callback, Server.command, Server.setConn]; rfl, ?_, ?_⟩
  · refine ⟨by simp [h1], by simp [h2], by simp [h3], by simp, by simp, by simp [h6], fun c hc => ?_⟩
    simp [Function.update_of_ne hc, h7 c hc]
  · simp

/-- C146 does not hold: the sockets of ended streams are never closed. For every number there is an execution
after which all clients have gone and so many sockets are open. -/
theorem C146_violated_sockets (n : Nat) : ∃ as s, Full.init.run as = some s ∧ s.sockets.length = n ∧ s.srv.panic = none ∧
    ∀ c, (s.srv.conns c).phase = .absent ∨ (s.srv.conns c).phase = .gone := by
  have happ : ∀ (as bs : List FAction) (s s' : Full), s.run as = some s' → s.run (as ++ bs) = s'.run bs := by
    intro as
    induction as with
    | nil => intro bs s s' h; cases h; rfl
    | cons a as ih =>
      intro bs s s' h
      rw [Full.run, Option.bind_eq_some_iff] at h
      obtain ⟨t, h1, h2⟩ := h
      rw [List.cons_append, Full.run, h1, Option.bind_some]
      exact ih bs t s' h2
  have hrest : ∀ n, ∃ as s, Full.init.run as = some s ∧ Resting s ∧ s.sockets.length = n := by
    intro n
    induction n with
    | zero =>
      refine ⟨[.connect 0 (some 7), .select 0, .advance 0, .list 0 [0], .tryOpen 0 true, .advance 0, .gains 0 (some 2)], _, rfl, ?_, rfl⟩
      refine ⟨rfl, rfl, rfl, rfl, rfl, rfl, fun c hc => ?_⟩
      simp [Server.setConn, Server.openDev, Function.update_of_ne hc, Full.init, Server.init]
    | succ n ih =>
      obtain ⟨as, s, h1, h2, h3⟩ := ih
      obtain ⟨s', g1, g2, g3⟩ := resting_again s h2
      refine ⟨as ++ [.go 0 true true, .callback 0 true 0], s', ?_, g2, ?_⟩
      · rw [happ as _ _ s h1]; exact g1
      · rw [g3, List.length_append, h3]; rfl
  obtain ⟨as, s, h1, ⟨h2, h3, h4, h5, h6, h7, h8⟩, h9⟩ := hrest n
  have hend : ∃ s', s.run [.disconnect 0, .advance 0, .advance 0] = some s' ∧ s'.sockets = s.sockets ∧ s'.srv.panic = none ∧
      (s'.srv.conns 0).phase = .gone ∧ ∀ c, c ≠ 0 → s'.srv.conns c = s.srv.conns c := by
    refine ⟨_, by simp [Full.run, Full.step, Full.lift, Full.advance, Server.step, Server.command, Server.advance, Server.setConn, h2, h3, h4, h5, After.next, After.closed]; rfl, ?_, ?_, ?_, ?_⟩
    · simp
    · simp [Server.closeDev]; split <;> simp [h2]
    · simp
    · intro c hc
      simp [Function.update_of_ne hc, closeDev_conns]
  obtain ⟨s', g1, g2, g3, g4, g5⟩ := hend
  refine ⟨as ++ [.disconnect 0, .advance 0, .advance 0], s', ?_, by rw [g2, h9], g3, fun c => ?_⟩
  · rw [happ as _ _ s h1]; exact g1
  · by_cases hc : c = 0
    · rw [hc]; exact .inr g4
    · rw [g5 c hc]; exact .inl (h8 c hc)

end Verif.Borip
