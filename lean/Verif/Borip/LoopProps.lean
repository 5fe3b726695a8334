import Verif.Borip.LoopModel
import Verif.Borip.InteropProps

/-!
# Property C147: the server answers the lines it is sent
-/

namespace Verif.Borip

variable {F : Type}

/-! ## The reader -/

theorem newlineAt_none {s : Str} (h : newlineAt s = none) : '\n' ∉ s := by
  induction s with
  | nil => simp
  | cons x xs ih =>
    rw [newlineAt] at h
    split at h
    · cases h
    · rename_i hx
      rw [Option.map_eq_none_iff] at h
      rw [List.mem_cons, not_or]
      exact ⟨Ne.symm hx, ih h⟩

theorem newlineAt_some {s : Str} {i : Nat} (h : newlineAt s = some i) : ∃ a b, s = a ++ '\n' :: b ∧ '\n' ∉ a ∧ a.length = i := by
  induction s generalizing i with
  | nil => cases h
  | cons x xs ih =>
    rw [newlineAt] at h
    split at h
    · rename_i hx
      rw [Option.some.injEq] at h
      exact ⟨[], xs, by rw [hx]; rfl, by simp, h⟩
    · rename_i hx
      rw [Option.map_eq_some_iff] at h
      obtain ⟨j, hj, rfl⟩ := h
      obtain ⟨a, b, rfl, h2, h3⟩ := ih hj
      exact ⟨x :: a, b, rfl, by rw [List.mem_cons, not_or]; exact ⟨Ne.symm hx, h2⟩, by simp [h3]⟩

/-- All that the reader will still see. -/
def Rd.all (rd : Rd) : Str := rd.buf ++ rd.chunks.flatten

theorem fill_all {rd rd' : Rd} (h : rd.fill = some rd') (hb : rd.buf.length ≤ rdSize) : rd'.all = rd.all ∧ rd'.buf.length ≤ rdSize := by
  unfold Rd.fill at h
  split at h
  · cases h
  · rename_i ch rest hc
    split at h
    · cases h
      refine ⟨?_, ?_⟩
      · simp only [Rd.all, hc, List.flatten_cons, List.append_assoc]
      · simp only [List.length_append]; omega
    · cases h
      refine ⟨?_, ?_⟩
      · simp only [Rd.all, hc, List.flatten_cons, List.append_assoc]
        rw [← List.append_assoc (ch.take _), List.take_append_drop]
      · simp only [List.length_append, List.length_take]; omega

/-- What `ReadSlice` returns, in terms of the bytes alone. -/
inductive Sliced (bytes : Str) : Except ReadErr Str → Str → Prop
  | line (l rest : Str) : bytes = l ++ '\n' :: rest → '\n' ∉ l → l.length < rdSize → Sliced bytes (.ok (l ++ ['\n'])) rest
  | full (a b rest : Str) : bytes = a ++ b → '\n' ∉ a → a.length = rdSize → Sliced bytes (.error .bufferFull) rest
  | ended (rest : Str) : '\n' ∉ bytes → bytes.length < rdSize → Sliced bytes (.error .ended) rest

theorem readSlice_sliced (rd : Rd) (hb : rd.buf.length ≤ rdSize) : Sliced rd.all rd.readSlice.1 rd.readSlice.2.all ∧ rd.readSlice.2.buf.length ≤ rdSize := by
  induction hn : rd.todo using Nat.strongRecOn generalizing rd with
  | _ n ih =>
    rw [Rd.readSlice]
    cases hi : newlineAt rd.buf with
    | some i =>
      obtain ⟨a, b, h1, h2, rfl⟩ := newlineAt_some hi
      simp only
      have ht : rd.buf.take (a.length + 1) = a ++ ['\n'] := by
        rw [h1, show a ++ '\n' :: b = (a ++ ['\n']) ++ b by simp, List.take_left' (by simp)]
      have hd : rd.buf.drop (a.length + 1) = b := by
        rw [h1, show a ++ '\n' :: b = (a ++ ['\n']) ++ b by simp, List.drop_left' (by simp)]
      rw [ht, hd]
      rw [h1, List.length_append, List.length_cons] at hb
      refine ⟨.line a _ ?_ h2 (by omega), by omega⟩
      simp only [Rd.all, h1, List.append_assoc, List.cons_append]
    | none =>
      have hno := newlineAt_none hi
      simp only
      split
      · exact ⟨.full rd.buf rd.chunks.flatten _ rfl hno (by omega), by simp⟩
      · rename_i hroom
        cases hf : rd.fill with
        | none =>
          have hc : rd.chunks = [] := by
            unfold Rd.fill at hf
            split at hf
            · assumption
            · split at hf <;> cases hf
          simp only
          have hall : rd.all = rd.buf := by simp [Rd.all, hc]
          exact ⟨.ended _ (by rw [hall]; exact hno) (by rw [hall]; omega), by simp⟩
        | some rd' =>
          obtain ⟨h1, h2⟩ := fill_all hf hb
          have hlt : rd'.todo < n := by
            rw [← hn]
            unfold Rd.fill at hf
            split at hf
            · cases hf
            · rename_i ch rest hc
              split at hf
              · cases hf
                simp only [Rd.todo, hc, List.map_cons, List.sum_cons]
                omega
              · cases hf
                simp only [Rd.todo, hc, List.map_cons, List.sum_cons, List.length_drop]
                omega
          have := ih _ hlt rd' h2 rfl
          rw [h1] at this
          exact this

theorem first_line {l l' rest rest' : Str} (h : l ++ '\n' :: rest = l' ++ '\n' :: rest') (hl : '\n' ∉ l) (hl' : '\n' ∉ l') : l = l' ∧ rest = rest' := by
  induction l generalizing l' with
  | nil =>
    cases l' with
    | nil => exact ⟨rfl, by simpa using h⟩
    | cons x xs =>
      simp only [List.nil_append, List.cons_append, List.cons.injEq] at h
      exact absurd (h.1 ▸ List.mem_cons_self) hl'
  | cons y ys ih =>
    cases l' with
    | nil =>
      simp only [List.nil_append, List.cons_append, List.cons.injEq] at h
      exact absurd (h.1 ▸ List.mem_cons_self) hl
    | cons x xs =>
      simp only [List.cons_append, List.cons.injEq] at h
      rw [List.mem_cons, not_or] at hl hl'
      obtain ⟨h1, h2⟩ := ih h.2 hl.2 hl'.2
      exact ⟨by rw [h.1, h1], h2⟩

/-- A line and a start without newline that is too long exclude each other. -/
theorem not_both {l rest a b : Str} (h : l ++ '\n' :: rest = a ++ b) (ha : '\n' ∉ a) (hlen : l.length < a.length) : False := by
  rcases List.append_eq_append_iff.mp h with ⟨as, h1, h2⟩ | ⟨bs, h1, h2⟩
  · cases as with
    | nil => rw [h1, List.append_nil] at hlen; omega
    | cons x xs =>
      rw [List.cons_append, List.cons.injEq] at h2
      exact ha (by rw [h1, h2.1]; simp)
  · rw [h1, List.length_append] at hlen; omega

/-! ## The loop -/

/-- The lines are answered in turn: their replies, and what becomes of the client. -/
def answers (lib : SLib F) (rtl : Nat → Rtl F) : Nat → Srv F → List Str → List Str × Srv F
  | _, s, [] => ([], s)
  | n, s, l :: ls =>
    let r := serveLine lib (rtl n) (s.now (rtl n)) (l ++ ['\n'])
    let t := answers lib rtl (n + 1) r.2 ls
    (r.1.toList ++ t.1, t.2)

/-- A line that fits the buffer with its newline. -/
def Fits (l : Str) : Prop := '\n' ∉ l ∧ l.length < 4096

/-- Lines with their newlines. -/
def onWire (ls : List Str) : Str := (ls.map fun l => l ++ ['\n']).flatten

theorem serveLoop_answers (lib : SLib F) (rtl : Nat → Rtl F) (ls : List Str) (hls : ∀ l ∈ ls, Fits l) :
    ∀ (fuel n : Nat) (s : Srv F) (rd : Rd) (tail : Str), rd.buf.length ≤ rdSize → rd.all = onWire ls ++ tail → rd.all.length < fuel →
      ((∃ a b, tail = a ++ b ∧ '\n' ∉ a ∧ a.length = 4096) → serveLoop lib rtl fuel n s rd = ((answers lib rtl n s ls).1, (answers lib rtl n s ls).2, .bufferFull)) ∧
      ('\n' ∉ tail → tail.length < 4096 → serveLoop lib rtl fuel n s rd = ((answers lib rtl n s ls).1, (answers lib rtl n s ls).2, .ended)) := by
  induction ls with
  | nil =>
    intro fuel n s rd tail hb hall hfuel
    have hall : rd.all = tail := hall
    obtain ⟨fuel, rfl⟩ : ∃ k, fuel = k + 1 := ⟨fuel - 1, by omega⟩
    rw [serveLoop]
    obtain ⟨hs, -⟩ := readSlice_sliced rd hb
    rw [hall] at hs
    generalize rd.readSlice = p at hs
    obtain ⟨p1, p2⟩ := p
    simp only at hs
    refine ⟨?_, ?_⟩
    · rintro ⟨a, b, h1, h2, h3⟩
      cases hs with
      | line l rest h4 h5 h6 =>
        exact (not_both (h4.symm.trans h1) h2 (by rw [h3]; exact h6)).elim
      | full a b rest _ _ _ => rfl
      | ended rest h4 h5 =>
        rw [h1, List.length_append, h3] at h5
        unfold rdSize at h5
        omega
    · intro h1 h2
      cases hs with
      | line l rest h4 h5 h6 => exact absurd (by rw [h4]; simp) h1
      | full a b rest h4 h5 h6 =>
        rw [h4, List.length_append, h6] at h2
        unfold rdSize at h2
        omega
      | ended rest _ _ => rfl
  | cons l ls ih =>
    intro fuel n s rd tail hb hall hfuel
    obtain ⟨fuel, rfl⟩ : ∃ k, fuel = k + 1 := ⟨fuel - 1, by omega⟩
    obtain ⟨hl1, hl2⟩ := hls l (by simp)
    have hall' : rd.all = l ++ '\n' :: (onWire ls ++ tail) := by
      rw [hall]
      simp [onWire]
    obtain ⟨hs, hb'⟩ := readSlice_sliced rd hb
    rw [serveLoop]
    generalize rd.readSlice = p at hs hb'
    obtain ⟨p1, p2⟩ := p
    simp only at hs hb'
    have hstep : p1 = .ok (l ++ ['\n']) ∧ p2.all = onWire ls ++ tail := by
      generalize hx : p2.all = x at hs ⊢
      cases hs with
      | line l' rest h4 h5 h6 =>
        obtain ⟨rfl, rfl⟩ := first_line (hall'.symm.trans h4) hl1 h5
        exact ⟨rfl, rfl⟩
      | full a b rest h4 h5 h6 => exact (not_both (hall'.symm.trans h4) h5 (by rw [h6]; exact hl2)).elim
      | ended rest h4 h5 => exact absurd (by rw [hall']; simp) h4
    obtain ⟨rfl, hrest⟩ := hstep
    simp only
    have hlen : p2.all.length < fuel := by
      rw [hall', List.length_append, List.length_cons, ← hrest] at hfuel
      omega
    obtain ⟨g1, g2⟩ := ih (fun x hx => hls x (List.mem_cons_of_mem _ hx)) fuel (n + 1) (serveLine lib (rtl n) (s.now (rtl n)) (l ++ ['\n'])).2 p2 tail hb' hrest hlen
    refine ⟨fun h => ?_, fun h h' => ?_⟩
    · rw [g1 h]; rfl
    · rw [g2 h h']; rfl

/-- Every text is lines that fit, then a part that is too long or the incomplete last line. -/
theorem lines_exist (bytes : Str) : ∃ ls tail, bytes = onWire ls ++ tail ∧ (∀ l ∈ ls, Fits l) ∧
    ((∃ a b, tail = a ++ b ∧ '\n' ∉ a ∧ a.length = 4096) ∨ ('\n' ∉ tail ∧ tail.length < 4096)) := by
  induction hn : bytes.length using Nat.strongRecOn generalizing bytes with
  | _ n ih =>
    cases hi : newlineAt bytes with
    | none =>
      refine ⟨[], bytes, rfl, by simp, ?_⟩
      have := newlineAt_none hi
      by_cases hlen : bytes.length < 4096
      · exact .inr ⟨this, hlen⟩
      · refine .inl ⟨bytes.take 4096, bytes.drop 4096, (List.take_append_drop _ _).symm, fun h => this (List.mem_of_mem_take h), ?_⟩
        rw [List.length_take]; omega
    | some i =>
      obtain ⟨a, b, h1, h2, rfl⟩ := newlineAt_some hi
      by_cases hlen : a.length < 4096
      · obtain ⟨ls, tail, g1, g2, g3⟩ := ih b.length (by rw [← hn, h1, List.length_append, List.length_cons]; omega) b rfl
        refine ⟨a :: ls, tail, ?_, ?_, g3⟩
        · rw [h1, g1]; simp [onWire]
        · intro l hl
          rw [List.mem_cons] at hl
          rcases hl with rfl | hl
          · exact ⟨h2, hlen⟩
          · exact g2 l hl
      · refine ⟨[], bytes, rfl, by simp, .inl ⟨a.take 4096, a.drop 4096 ++ '\n' :: b, ?_, fun h => h2 (List.mem_of_mem_take h), ?_⟩⟩
        · rw [h1, ← List.append_assoc, List.take_append_drop]
        · rw [List.length_take]; omega

/-! ## C147 -/

/-- C147: the replies depend on the bytes the client sends, not on how the network cuts them. -/
theorem C147_chunks (lib : SLib F) (rtl : Nat → Rtl F) (s : Srv F) (chunks chunks' : List Str) (h : chunks.flatten = chunks'.flatten) :
    serve lib rtl s chunks = serve lib rtl s chunks' := by
  obtain ⟨ls, tail, h1, h2, h3⟩ := lines_exist chunks.flatten
  have key : ∀ cs : List Str, cs.flatten = chunks.flatten → ∀ e, (e = ReadErr.bufferFull ∧ (∃ a b, tail = a ++ b ∧ '\n' ∉ a ∧ a.length = 4096)) ∨ (e = ReadErr.ended ∧ '\n' ∉ tail ∧ tail.length < 4096) →
      serveLoop lib rtl (cs.flatten.length + 1) 0 s ⟨[], cs⟩ = ((answers lib rtl 0 s ls).1, (answers lib rtl 0 s ls).2, e) := by
    intro cs hcs e he
    have hall : (⟨[], cs⟩ : Rd).all = cs.flatten := rfl
    have := serveLoop_answers lib rtl ls h2 (cs.flatten.length + 1) 0 s ⟨[], cs⟩ tail (by simp) (by rw [hall, hcs, h1]) (by rw [hall]; omega)
    rcases he with ⟨rfl, he⟩ | ⟨rfl, he, he'⟩
    · exact this.1 he
    · exact this.2 he he'
  have fin : ∀ e, (e = ReadErr.bufferFull ∧ (∃ a b, tail = a ++ b ∧ '\n' ∉ a ∧ a.length = 4096)) ∨ (e = ReadErr.ended ∧ '\n' ∉ tail ∧ tail.length < 4096) →
      serve lib rtl s chunks = serve lib rtl s chunks' := by
    intro e he
    unfold serve
    rw [key chunks rfl e he, key chunks' h.symm e he]
  rcases h3 with h3 | h3
  · exact fin .bufferFull (.inl ⟨rfl, h3⟩)
  · exact fin .ended (.inr ⟨rfl, h3⟩)

/-- C147: after the greeting, every complete line of fewer than 4096 bytes is served, in order, however the
bytes arrive; a last line without newline is not. -/
theorem C147_lines_partial (lib : SLib F) (rtl : Nat → Rtl F) (s : Srv F) (chunks ls : List Str) (tail : Str) (hls : ∀ l ∈ ls, Fits l) (ht : Fits tail)
    (h : chunks.flatten = onWire ls ++ tail) :
    serve lib rtl s chunks = ("DEVICE -\n".toList :: (answers lib rtl 0 s ls).1, (answers lib rtl 0 s ls).2, .ended) := by
  have hall : (⟨[], chunks⟩ : Rd).all = chunks.flatten := rfl
  have := (serveLoop_answers lib rtl ls hls (chunks.flatten.length + 1) 0 s ⟨[], chunks⟩ tail (by simp) (by rw [hall, h]) (by rw [hall]; omega)).2 ht.1 ht.2
  unfold serve
  rw [this]
  congr 1

/-- C147 does not hold: a line of 4096 bytes or more ends the connection, whatever comes after it; it and all
later lines stay unanswered. -/
theorem C147_violated_long (lib : SLib F) (rtl : Nat → Rtl F) (s : Srv F) (chunks ls : List Str) (a rest : Str) (hls : ∀ l ∈ ls, Fits l)
    (ha : '\n' ∉ a) (hlen : 4096 ≤ a.length) (h : chunks.flatten = onWire ls ++ (a ++ rest)) :
    serve lib rtl s chunks = ("DEVICE -\n".toList :: (answers lib rtl 0 s ls).1, (answers lib rtl 0 s ls).2, .bufferFull) := by
  have hall : (⟨[], chunks⟩ : Rd).all = chunks.flatten := rfl
  have := (serveLoop_answers lib rtl ls hls (chunks.flatten.length + 1) 0 s ⟨[], chunks⟩ (a ++ rest) (by simp) (by rw [hall, h]) (by rw [hall]; omega)).1
    ⟨a.take 4096, a.drop 4096 ++ rest, by rw [← List.append_assoc, List.take_append_drop], fun h => ha (List.mem_of_mem_take h), by rw [List.length_take]; omega⟩
  unfold serve
  rw [this]
  congr 1

/-- C147: a line is answered by exactly one line unless it is blank. -/
theorem C147_one_reply (lib : SLib F) (rtl : Rtl F) (s : Srv F) (raw : Str) :
    (serveLine lib rtl s raw).1 = none ↔ lib.trim raw = [] := by
  unfold serveLine
  simp only
  split
  · rename_i h
    exact ⟨fun _ => List.length_eq_zero_iff.mp h, fun _ => rfl⟩
  · rename_i h
    have hne : lib.trim raw ≠ [] := fun h' => h (by rw [h']; rfl)
    split
    · rename_i hs
      exact absurd hs (split_ne_nil _ _)
    · simp [hne]

/-- Two commands and the start of a third, cut in the middle of words. -/
example : serve testSLib (fun _ => testRtl) testSrv ["sto".toList, "p\nra".toList, "te\n\nGO".toList] =
    (["DEVICE -\n".toList, "STOP STOPPED\n".toList, "RATE 1111\n".toList], testSrv, .ended) := by
  rw [C147_lines_partial testSLib (fun _ => testRtl) testSrv _ ["stop".toList, "rate".toList, []] "GO".toList (by
    intro l hl
    simp only [List.mem_cons, List.not_mem_nil, or_false] at hl
    rcases hl with rfl | rfl | rfl <;> exact ⟨by decide, by decide⟩) ⟨by decide, by decide⟩ (by decide)]
  rfl

/-- A line that is too long. -/
example (n : Nat) (hn : 4096 ≤ n) : (serve testSLib (fun _ => testRtl) testSrv ["stop\n".toList, List.replicate n 'x' ++ ['\n'], "stop\n".toList]).1 =
    ["DEVICE -\n".toList, "STOP STOPPED\n".toList] := by
  rw [C147_violated_long testSLib (fun _ => testRtl) testSrv _ ["stop".toList] (List.replicate n 'x') ('\n' :: "stop\n".toList) (by
    intro l hl
    simp only [List.mem_cons, List.not_mem_nil, or_false] at hl
    rcases hl with rfl; exact ⟨by decide, by decide⟩) (by rw [List.mem_replicate]; simp) (by rw [List.length_replicate]; exact hn)
    (by simp only [List.flatten_cons, List.flatten_nil, List.append_nil, List.append_assoc, List.cons_append, List.nil_append]; rfl)]
  rfl

end Verif.Borip
