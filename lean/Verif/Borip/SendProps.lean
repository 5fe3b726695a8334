import Verif.Borip.SendModel
import Verif.Borip.SessionProps

/-!
# C149 with errors of writing
-/

namespace Verif.Borip

variable {F : Type}

theorem written_cons (lib : Lib F) (op : Op F) (ops : List (Op F)) : written lib (op :: ops) = (op.request lib).getD [] ++ written lib ops := by
  unfold written
  cases h : op.request lib <;> simp [h]

/-- How many calls get their requests written. -/
theorem repliesW_eq (lib : Lib F) : ∀ (ops : List (Op F)) (w : Nat) (rd : Rd), ∃ k, k ≤ ops.length ∧ (written lib (ops.take k)).length ≤ w ∧
    (k < ops.length → w < (written lib (ops.take (k + 1))).length) ∧ repliesW lib w ops rd = rd.replies k ++ List.replicate (ops.length - k) .fail := by
  intro ops
  induction ops with
  | nil =>
    intro w rd
    refine ⟨0, Nat.le_refl _, ?_, ?_, rfl⟩
    · simp [written]
    · simp
  | cons op ops ih =>
    intro w rd
    rw [repliesW]
    by_cases hw : ((op.request lib).getD []).length ≤ w
    · rw [if_pos hw]
      rcases hrd : rd.readString [] with ⟨_ | l, rd'⟩
      all_goals
        obtain ⟨k, h1, h2, h3, h4⟩ := ih (w - ((op.request lib).getD []).length) rd'
        refine ⟨k + 1, by simpa using h1, ?_, ?_, ?_⟩
        · rw [List.take_succ_cons, written_cons, List.length_append]
          omega
        · intro hk
          have := h3 (by simpa using hk)
          rw [List.take_succ_cons, written_cons, List.length_append]
          omega
        · simp only
          rw [h4, Rd.replies, hrd]
          simp
    · rw [if_neg hw]
      refine ⟨0, Nat.zero_le _, ?_, ?_, ?_⟩
      · simp [written]
      · intro _
        rw [List.take_succ_cons, written_cons, List.length_append]
        omega
      · simp [Rd.replies]

theorem written_append (lib : Lib F) (a b : List (Op F)) : written lib (a ++ b) = written lib a ++ written lib b := by
  unfold written
  rw [List.filterMap_append, List.flatten_append]

theorem readString_replies (rd : Rd) (n : Nat) : rd.replies (n + 1) = (match (rd.readString []).1 with | some l => Reply.line l | none => .fail) :: (rd.readString []).2.replies n := by
  rw [Rd.replies]
  rcases rd.readString [] with ⟨_ | l, rd'⟩ <;> rfl

/-- C149, errors of writing: if the connection takes only `w` bytes from the client, the calls whose requests are written in full return what they return when
each is answered at once; all later calls return the error of the connection and leave the device and the running flag as they are; and the server is left as
after the first of them. -/
theorem C149_unsent (lib : SLib F) (r6 : F → F) (hl : lib.Laws r6) (rtl : Nat → Rtl F) (hq : ∀ n, Quiet (rtl n)) (s : Srv F)
    (hd : ∀ d, s.dest = some d → Plain d) (ops : List (Op F)) (hops : ∀ op ∈ ops, op.Short lib.toLib) (w : Nat) (up down : List Str)
    (hup : up.flatten = (written lib.toLib ops).take w) (hdown : down.flatten = (serve lib rtl s up).1.flatten) :
    ∃ k, k ≤ ops.length ∧ (written lib.toLib (ops.take k)).length ≤ w ∧ (k < ops.length → w < (written lib.toLib (ops.take (k + 1))).length) ∧
      (converse lib rtl 0 s ⟨false, none, [], []⟩ (ops.take k) = none → clientSideW lib.toLib w ops down = none) ∧
      ∀ t, converse lib rtl 0 s ⟨false, none, [], []⟩ (ops.take k) = some t → (serve lib rtl s up).2 = (t.2.1, .ended) ∧
        ∃ bor', clientSideW lib.toLib w ops down = some (t.1 ++ List.replicate (ops.length - k) (.error .io), bor') ∧
          bor'.running = t.2.2.running ∧ bor'.device = t.2.2.device := by
  obtain ⟨k, hk, k1, k2, k3⟩ := repliesW_eq lib.toLib ops w (Rd.readString ⟨[], down⟩ []).2
  have hshort : ∀ op ∈ ops.take k, op.Short lib.toLib := fun o ho => hops o (List.mem_of_mem_take ho)
  obtain ⟨ls, h1, h2, h3⟩ := short_lines lib.toLib (ops.take k) (fun x => (hl.formatFloat x).1) hshort
  obtain ⟨ws, g1, g2, g3, g4⟩ := session_replies hl hq (ops.take k) ls (fun op ho => (hshort op ho).1) h2 0 s hd
  -- what the server gets: the requests of these calls and part of a line
  obtain ⟨part, hpart, hfit⟩ : ∃ part, up.flatten = onWire ls ++ part ∧ Fits part := by
    have hsplit : written lib.toLib ops = written lib.toLib (ops.take k) ++ written lib.toLib (ops.drop k) := by
      rw [← written_append, List.take_append_drop]
    rw [hup, hsplit, List.take_append, List.take_of_length_le k1, h3]
    refine ⟨_, rfl, ?_⟩
    rw [← h3]
    by_cases hlt : k < ops.length
    · have hdrop : ops.drop k = ops[k] :: ops.drop (k + 1) := by rw [List.drop_eq_getElem_cons hlt]
      have hw := k2 hlt
      rw [List.take_succ_eq_append_getElem hlt, written_append, List.length_append, written_cons] at hw
      obtain ⟨ls', f1, f2, f3⟩ := short_lines lib.toLib [ops[k]] (fun x => (hl.formatFloat x).1) (by
        intro o ho
        rw [List.mem_singleton] at ho
        subst ho
        exact hops _ (List.getElem_mem hlt))
      obtain ⟨l, rfl⟩ : ∃ l, ls' = [l] := by
        have := congrArg List.length f2
        simp only [List.length_map, List.length_singleton] at this
        exact List.length_eq_one_iff.1 this.symm
      have hl1 := f1 l (by simp)
      simp only [List.map_cons, List.map_nil, List.cons.injEq, and_true] at f2
      rw [f2] at hw
      have hw' : w - (written lib.toLib (ops.take k)).length ≤ l.length := by
        simp only [Option.getD_some, List.length_append, List.length_singleton, show written lib.toLib ([] : List (Op F)) = [] from rfl, List.length_nil] at hw
        omega
      rw [hdrop, written_cons, f2]
      simp only [Option.getD_some, List.append_assoc]
      rw [List.take_append_of_le_length hw']
      exact ⟨fun h => hl1.1 (List.mem_of_mem_take h), by rw [List.length_take]; have := hl1.2; omega⟩
    · rw [List.drop_eq_nil_of_le (by omega)]
      exact ⟨by simp [written], by simp [written]⟩
  have hserve := C147_lines_partial lib rtl s up ls part h1 hfit hpart
  -- what the client gets
  have hrep : Rd.replies (k + 1) ⟨[], down⟩ = Reply.line (lit "DEVICE -" ++ ['\n']) :: ws.map fun r => Reply.line (r ++ ['\n']) := by
    have := replies_lines [] (by simp) (lit "DEVICE -" :: ws) (by
      intro l hl
      rw [List.mem_cons] at hl
      rcases hl with rfl | hl
      · decide
      · exact g2 l hl) 0 ⟨[], down⟩ (Nat.zero_le _) (by
        show down.flatten = _
        rw [hdown, hserve, g3, List.append_nil]
        rfl)
    rw [List.length_cons, g1, List.length_take, Nat.min_eq_left hk, Nat.add_zero] at this
    rw [this]
    simp
  rw [readString_replies] at hrep
  have hside : clientSideW lib.toLib w ops down = (converse lib rtl 0 s ⟨false, none, [], []⟩ (ops.take k)).bind fun t =>
      (BorIP.performEach lib.toLib { t.2.2 with replies := List.replicate (ops.drop k).length .fail } (ops.drop k)).map fun u => (t.1 ++ u.1, u.2) := by
    unfold clientSideW
    rcases hrs : Rd.readString ⟨[], down⟩ [] with ⟨_ | g, rd⟩
    · rw [hrs] at hrep
      simp at hrep
    · rw [hrs] at hrep k3
      simp only [List.cons.injEq] at hrep k3
      simp only
      rw [k3, hrep.2, dial, Option.bind_some]
      have := (g4 ⟨false, none, [], []⟩).2 (ops.drop k) (List.replicate (ops.drop k).length .fail)
      rw [List.take_append_drop] at this
      rw [List.length_drop] at this ⊢
      exact this
  refine ⟨k, hk, k1, k2, ?_, ?_⟩
  · intro hnone
    rw [hside, hnone]
    rfl
  · intro t ht
    refine ⟨?_, ?_⟩
    · rw [hserve]
      simp only
      rw [(g4 _).1 t ht]
    · obtain ⟨bor', e1, e2, e3⟩ := performEach_fail lib.toLib (ops.drop k) t.2.2 (by
        intro o ho
        obtain ⟨-, req, hreq, -⟩ := hops o (List.mem_of_mem_drop ho)
        exact ⟨req, hreq⟩)
      refine ⟨bor', ?_, e2, e3⟩
      rw [hside, ht, Option.bind_some, e1, List.length_drop]
      rfl

/-- Non-vacuity: of the requests STOP, ANTENNA x and RATE the connection takes 17 bytes. -/
example : ∃ k, k ≤ 3 ∧ (written testSLib.toLib (testOps.take k)).length ≤ 17 ∧ (k < 3 → 17 < (written testSLib.toLib (testOps.take (k + 1))).length) ∧
    ∀ t, converse testSLib (fun _ => testRtl) 0 testSrv ⟨false, none, [], []⟩ (testOps.take k) = some t →
      ∃ bor', clientSideW testSLib.toLib 17 testOps (serve testSLib (fun _ => testRtl) testSrv ["STOP\nANTENNA ".toList, "x\nRA".toList]).1 =
        some (t.1 ++ List.replicate (3 - k) (.error .io), bor') := by
  obtain ⟨k, h1, h2, h3, -, h5⟩ := C149_unsent testSLib id testSLib_laws (fun _ => testRtl) (fun _ => testRtl_quiet) testSrv testSrv_dest testOps testOps_short 17
    ["STOP\nANTENNA ".toList, "x\nRA".toList] _ (by decide) rfl
  refine ⟨k, h1, h2, h3, fun t ht => ?_⟩
  obtain ⟨-, bor', h, -⟩ := h5 t ht
  exact ⟨bor', h⟩

end Verif.Borip
