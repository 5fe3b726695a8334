import Verif.Borip.WriteProps
import Verif.Borip.SessionProps

/-!
# C149 with errors of the server's writer: how far the server can be ahead of the client
-/

namespace Verif.Borip

variable {F : Type}

/-- C149, errors of the server's writer: if the connection takes only `w` bytes of what the server has to send, then either the greeting was cut off, `Dial`
fails and no line is served; or some calls return what they return when each is answered at once, all later ones return the error of the connection and leave
the device and the running flag as they are, and the server is exactly one call ahead: it has carried out the first of the calls that failed, and no other. -/
theorem C149_ahead (lib : SLib F) (r6 : F → F) (hl : lib.Laws r6) (rtl : Nat → Rtl F) (hq : ∀ n, Quiet (rtl n)) (s : Srv F)
    (hd : ∀ d, s.dest = some d → Plain d) (ops : List (Op F)) (hops : ∀ op ∈ ops, op.Short lib.toLib) (w : Nat) (up down : List Str)
    (hup : up.flatten = written lib.toLib ops) (hw : w < (serve lib rtl s up).1.flatten.length) (hdown : down.flatten = (serveW lib rtl s (some w) up).1) :
    (w < "DEVICE -\n".length ∧ (dial (Rd.replies (ops.length + 1) ⟨[], down⟩) : Option (BorIP F)) = none ∧ (serveW lib rtl s (some w) up).2 = (s, .write)) ∨
    ∃ k, k < ops.length ∧
      (converse lib rtl 0 s ⟨false, none, [], []⟩ (ops.take k) = none → clientSide lib.toLib ops down = none) ∧
      (∀ t, converse lib rtl 0 s ⟨false, none, [], []⟩ (ops.take k) = some t →
        ∃ bor', clientSide lib.toLib ops down = some (t.1 ++ List.replicate (ops.length - k) (.error .io), bor') ∧
          bor'.running = t.2.2.running ∧ bor'.device = t.2.2.device) ∧
      ∀ t, converse lib rtl 0 s ⟨false, none, [], []⟩ (ops.take (k + 1)) = some t → (serveW lib rtl s (some w) up).2 = (t.2.1, .write) := by
  obtain ⟨ls, h1, h2, h3⟩ := short_lines lib.toLib ops (fun x => (hl.formatFloat x).1) hops
  have hlen : ls.length = ops.length := by simpa using (congrArg List.length h2).symm
  have hs := C147_lines_partial lib rtl s up ls [] h1 ⟨by simp, by simp⟩ (by rw [hup, h3, List.append_nil])
  have hw' : w < ("DEVICE -\n".toList ++ (answers lib rtl 0 s ls).1.flatten).length := by
    rw [hs] at hw
    exact hw
  obtain ⟨j, hj, j1, j2, j3⟩ := C147_broken lib rtl s w up ls [] h1 (by rw [hup, h3, List.append_nil]) hw'
  rw [j1] at hdown ⊢
  simp only at hdown ⊢
  have htake : ∀ i, (ops.take i).map (Op.request lib.toLib) = (ls.take i).map fun l => some (l ++ ['\n']) := by
    intro i
    rw [List.map_take, List.map_take, h2]
  have hplain : ∀ i, ∀ op ∈ ops.take i, op.PlainArgs := fun i op ho => (hops op (List.mem_of_mem_take ho)).1
  have hG : "DEVICE -\n".toList = lit "DEVICE -" ++ ['\n'] := by decide
  cases j with
  | zero =>
    left
    have j2 : w < ("DEVICE -\n".toList ++ []).length := j2
    rw [List.append_nil] at j2
    have hpart : down.flatten = (lit "DEVICE -").take w := by
      rw [hdown, List.take_append_of_le_length (by omega), hG, List.take_append_of_le_length]
      rw [hG, List.length_append] at j2
      simpa using Nat.lt_succ_iff.1 j2
    refine ⟨j2, ?_, rfl⟩
    have := replies_lines _ (fun h => (by decide : '\n' ∉ lit "DEVICE -") (List.mem_of_mem_take h)) [] (by simp) (ops.length + 1) ⟨[], down⟩ (Nat.zero_le _) hpart
    rw [List.length_nil, Nat.zero_add] at this
    rw [this]
    rfl
  | succ k =>
    right
    have hk : k < ls.length := hj
    have hk' : k < ops.length := by omega
    obtain ⟨rs, g1, g2, g3, g4⟩ := session_replies hl hq (ops.take k) (ls.take k) (hplain k) (htake k) 0 s hd
    rw [List.length_take, Nat.min_eq_left (Nat.le_of_lt hk')] at g1
    -- the reply that does not fit
    have hone : (ops.take (k + 1)).drop k = [ops[k]] := by
      rw [List.take_succ_eq_append_getElem hk', List.drop_left' (by rw [List.length_take]; omega)]
    have hline : some (ls[k] ++ ['\n']) = ops[k].request lib.toLib := by
      have := congrArg (fun x => x[k]?) h2
      simp only [List.getElem?_map, List.getElem?_eq_getElem hk', List.getElem?_eq_getElem hk, Option.map_some, Option.some.injEq] at this
      exact this.symm
    obtain ⟨rs1, r1, r2, r3, -⟩ := session_replies hl hq [ops[k]] [ls[k]] (by
      intro o ho
      rw [List.mem_singleton] at ho
      subst ho
      exact (hops _ (List.getElem_mem hk')).1) (by simp [hline]) (0 + (ls.take k).length) (answers lib rtl 0 s (ls.take k)).2 (answers_dest hl rtl _ 0 s hd)
    obtain ⟨r, rfl⟩ := List.length_eq_one_iff.1 r1
    have hnext : (answers lib rtl 0 s (ls.take (k + 1))).1 = (rs ++ [r]).map fun x => x ++ ['\n'] := by
      rw [List.take_succ_eq_append_getElem hk, answers_append, g3, r3, List.map_append]
    have hall : ∃ more, (answers lib rtl 0 s ls).1 = ((rs ++ [r]).map fun x => x ++ ['\n']) ++ more := by
      have := answers_append lib rtl (ls.take (k + 1)) (ls.drop (k + 1)) 0 s
      rw [List.take_append_drop, hnext] at this
      exact ⟨_, this⟩
    obtain ⟨more, hall⟩ := hall
    rw [hnext] at j2
    have j3 := j3 k (Nat.lt_succ_self k)
    rw [g3] at j3
    have hwire : "DEVICE -\n".toList ++ (rs.map fun x => x ++ ['\n']).flatten = onWire (lit "DEVICE -" :: rs) := by
      rw [hG]
      simp [onWire]
    obtain ⟨part, hpart, hp⟩ : ∃ part, '\n' ∉ part ∧ down.flatten = onWire (lit "DEVICE -" :: rs) ++ part := by
      refine ⟨r.take (w - (onWire (lit "DEVICE -" :: rs)).length), fun h => r2 r (by simp) (List.mem_of_mem_take h), ?_⟩
      rw [hdown, hall, List.map_append, List.flatten_append, List.flatten_append, List.append_assoc, ← List.append_assoc, hwire, List.take_append,
        List.take_of_length_le (by rw [← hwire]; exact j3)]
      congr 1
      rw [List.map_append, List.flatten_append, ← List.append_assoc, hwire, List.length_append] at j2
      simp only [List.map_cons, List.map_nil, List.flatten_cons, List.flatten_nil, List.append_nil, List.length_append, List.length_singleton] at j2 ⊢
      rw [List.append_assoc, List.take_append_of_le_length (by omega)]
    have hclient : clientSide lib.toLib ops down = (converse lib rtl 0 s ⟨false, none, [], []⟩ (ops.take k)).bind fun t =>
        (BorIP.performEach lib.toLib { t.2.2 with replies := List.replicate (ops.length - k) .fail } (ops.drop k)).map fun u => (t.1 ++ u.1, u.2) := by
      have := replies_lines part hpart (lit "DEVICE -" :: rs) (by
        intro l hl
        rw [List.mem_cons] at hl
        rcases hl with rfl | hl
        · decide
        · exact g2 l hl) (ops.length - k) ⟨[], down⟩ (Nat.zero_le _) hp
      rw [List.length_cons, g1, show k + 1 + (ops.length - k) = ops.length + 1 by omega] at this
      unfold clientSide
      rw [this, List.map_cons, List.cons_append, dial, Option.bind_some]
      have := (g4 ⟨false, none, [], []⟩).2 (ops.drop k) (List.replicate (ops.length - k) .fail)
      rw [List.take_append_drop] at this
      exact this
    refine ⟨k, hk', ?_, ?_, ?_⟩
    · intro hnone
      rw [hclient, hnone]
      rfl
    · intro t ht
      obtain ⟨bor', e1, e2, e3⟩ := performEach_fail lib.toLib (ops.drop k) t.2.2 (by
        intro o ho
        obtain ⟨-, req, hreq, -⟩ := hops o (List.mem_of_mem_drop ho)
        exact ⟨req, hreq⟩)
      rw [List.length_drop] at e1
      refine ⟨bor', ?_, e2, e3⟩
      rw [hclient, ht, Option.bind_some, e1]
      rfl
    · intro t ht
      obtain ⟨_, _, _, _, q⟩ := session_replies hl hq (ops.take (k + 1)) (ls.take (k + 1)) (hplain _) (htake _) 0 s hd
      rw [(q _).1 t ht]

/-- Non-vacuity: of the greeting and the replies to STOP, ANTENNA x and RATE the connection takes 12 bytes. -/
example : 12 < (serve testSLib (fun _ => testRtl) testSrv ["STOP\nANTENNA x\nRATE\n".toList]).1.flatten.length ∧
    ∃ k, k < 3 ∧ ∀ t, converse testSLib (fun _ => testRtl) 0 testSrv ⟨false, none, [], []⟩ (testOps.take (k + 1)) = some t →
      (serveW testSLib (fun _ => testRtl) testSrv (some 12) ["STOP\nANTENNA x\nRATE\n".toList]).2 = (t.2.1, .write) := by
  have h12 : 12 < (serve testSLib (fun _ => testRtl) testSrv ["STOP\nANTENNA x\nRATE\n".toList]).1.flatten.length := by
    rw [C147_lines_partial testSLib (fun _ => testRtl) testSrv ["STOP\nANTENNA x\nRATE\n".toList] ["STOP".toList, "ANTENNA x".toList, "RATE".toList] []
      (by simp [Fits, rdSize]) ⟨by simp, by simp⟩ (by decide +kernel)]
    decide +kernel
  refine ⟨h12, ?_⟩
  rcases C149_ahead testSLib id testSLib_laws (fun _ => testRtl) (fun _ => testRtl_quiet) testSrv testSrv_dest testOps testOps_short 12
    ["STOP\nANTENNA x\nRATE\n".toList] [_] (by decide) h12 (List.flatten_singleton ..) with h | ⟨k, hk, -, -, h⟩
  · exact absurd h.1 (by decide)
  · exact ⟨k, hk, h⟩

end Verif.Borip
