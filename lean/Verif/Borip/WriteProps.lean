import Verif.Borip.WriteModel
import Verif.Borip.LoopProps

/-!
# Property C147 with errors of the writer
-/

namespace Verif.Borip

variable {F : Type}

/-- A connection that takes `room` bytes takes these. -/
def Takes (room : Option Nat) (out : Str) : Prop := ∀ w, room = some w → out.length ≤ w

theorem send_takes {room : Option Nat} {r : Str} (h : Takes room r) : ∃ room', send room r = (r, some room') ∧ ∀ x, Takes room (r ++ x) ↔ Takes room' x := by
  cases room with
  | none => exact ⟨none, rfl, fun x => by simp [Takes]⟩
  | some w =>
    have hw := h w rfl
    refine ⟨some (w - r.length), by rw [send, if_pos hw], fun x => ?_⟩
    simp only [Takes, Option.some.injEq, forall_eq', List.length_append]
    omega

theorem loop_delivers (lib : SLib F) (rtl : Nat → Rtl F) : ∀ (fuel n : Nat) (room : Option Nat) (s : Srv F) (rd : Rd),
    Takes room (serveLoop lib rtl fuel n s rd).1.flatten →
    serveLoopW lib rtl fuel n room s rd = ((serveLoop lib rtl fuel n s rd).1.flatten, (serveLoop lib rtl fuel n s rd).2.1, .read (serveLoop lib rtl fuel n s rd).2.2) := by
  intro fuel
  induction fuel with
  | zero => exact fun _ _ _ _ _ => rfl
  | succ fuel ih =>
    intro n room s rd h
    rw [serveLoopW]
    rw [serveLoop] at h ⊢
    generalize rd.readSlice = p at h ⊢
    rcases p with ⟨_ | raw, rd'⟩
    · rfl
    · simp only at h ⊢
      rcases hr : serveLine lib (rtl n) (s.now (rtl n)) raw with ⟨_ | reply, s'⟩
      · rw [hr] at h
        exact ih _ _ _ _ h
      · rw [hr] at h
        simp only [Option.toList_some, List.cons_append, List.nil_append, List.flatten_cons] at h ⊢
        have h1 : Takes room reply := fun w hw => by
          have := h w hw
          rw [List.length_append] at this
          omega
        obtain ⟨room', e1, e2⟩ := send_takes h1
        rw [e1]
        simp only
        rw [ih _ _ _ _ ((e2 _).1 h)]

/-- C147: as long as the connection takes the replies, the bytes sent are the replies one after the other, and the loop ends as without errors of the writer. -/
theorem C147_delivered (lib : SLib F) (rtl : Nat → Rtl F) (s : Srv F) (room : Option Nat) (chunks : List Str)
    (h : ∀ w, room = some w → (serve lib rtl s chunks).1.flatten.length ≤ w) :
    serveW lib rtl s room chunks = ((serve lib rtl s chunks).1.flatten, (serve lib rtl s chunks).2.1, .read (serve lib rtl s chunks).2.2) := by
  have h' : Takes room (serve lib rtl s chunks).1.flatten := h
  unfold serve at h' ⊢
  unfold serveW
  simp only [List.flatten_cons] at h' ⊢
  have h1 : Takes room (response (lit "DEVICE") [lit "-"]) := fun w hw => by
    have := h' w hw
    rw [List.length_append] at this
    omega
  obtain ⟨room', e1, e2⟩ := send_takes h1
  rw [e1]
  simp only
  rw [loop_delivers lib rtl _ _ _ _ _ ((e2 _).1 h')]

theorem readSlice_line {rd : Rd} {l rest : Str} (hb : rd.buf.length ≤ rdSize) (hl : Fits l) (h : rd.all = l ++ '\n' :: rest) :
    ∃ rd', rd.readSlice = (.ok (l ++ ['\n']), rd') ∧ rd'.all = rest ∧ rd'.buf.length ≤ rdSize := by
  obtain ⟨hs, hb'⟩ := readSlice_sliced rd hb
  generalize rd.readSlice = p at hs hb'
  obtain ⟨p1, p2⟩ := p
  simp only at hs hb'
  have hstep : p1 = .ok (l ++ ['\n']) ∧ p2.all = rest := by
    generalize hx : p2.all = x at hs ⊢
    cases hs with
    | line l' rest h4 h5 h6 =>
      obtain ⟨rfl, rfl⟩ := first_line (h.symm.trans h4) hl.1 h5
      exact ⟨rfl, rfl⟩
    | full a b rest h4 h5 h6 => exact (not_both (h.symm.trans h4) h5 (by rw [h6]; exact hl.2)).elim
    | ended rest h4 h5 => exact absurd (by rw [h]; simp) h4
  obtain ⟨rfl, h2⟩ := hstep
  exact ⟨p2, rfl, h2, hb'⟩

theorem loop_breaks (lib : SLib F) (rtl : Nat → Rtl F) (ls : List Str) (hls : ∀ l ∈ ls, Fits l) :
    ∀ (fuel n w : Nat) (s : Srv F) (rd : Rd) (tail : Str), rd.buf.length ≤ rdSize → rd.all = onWire ls ++ tail → rd.all.length < fuel →
      w < (answers lib rtl n s ls).1.flatten.length →
      ∃ j, j ≤ ls.length ∧ 0 < j ∧
        serveLoopW lib rtl fuel n (some w) s rd = ((answers lib rtl n s ls).1.flatten.take w, (answers lib rtl n s (ls.take j)).2, .write) ∧
        w < (answers lib rtl n s (ls.take j)).1.flatten.length ∧ ∀ i < j, (answers lib rtl n s (ls.take i)).1.flatten.length ≤ w := by
  induction ls with
  | nil => intro fuel n w s rd tail _ _ _ h; simp [answers] at h
  | cons l ls ih =>
    intro fuel n w s rd tail hb hall hfuel h
    obtain ⟨fuel, rfl⟩ : ∃ k, fuel = k + 1 := ⟨fuel - 1, by omega⟩
    have hall' : rd.all = l ++ '\n' :: (onWire ls ++ tail) := by
      rw [hall]
      simp [onWire]
    obtain ⟨rd', h1, h2, h3⟩ := readSlice_line hb (hls l (by simp)) hall'
    have hlen : rd'.all.length < fuel := by
      rw [hall', List.length_append, List.length_cons, ← h2] at hfuel
      omega
    rw [serveLoopW, h1]
    simp only [answers] at h ⊢
    rcases hr : serveLine lib (rtl n) (s.now (rtl n)) (l ++ ['\n']) with ⟨_ | reply, s'⟩
    · rw [hr] at h
      simp only [Option.toList_none, List.nil_append] at h ⊢
      obtain ⟨j, j1, j2, j3, j4, j5⟩ := ih (fun x hx => hls x (List.mem_cons_of_mem _ hx)) fuel (n + 1) w s' rd' tail h3 h2 hlen h
      refine ⟨j + 1, by simpa using j1, by omega, ?_, ?_, fun i hi => ?_⟩
      · rw [j3]
        simp [answers, hr]
      · simpa [answers, hr] using j4
      · rcases i with _ | i
        · simp [answers]
        · have := j5 i (by omega)
          simpa [answers, hr] using this
    · rw [hr] at h
      simp only [Option.toList_some, List.cons_append, List.nil_append, List.flatten_cons] at h ⊢
      by_cases hw : reply.length ≤ w
      · rw [send, if_pos hw]
        simp only
        rw [List.length_append] at h
        obtain ⟨j, j1, j2, j3, j4, j5⟩ := ih (fun x hx => hls x (List.mem_cons_of_mem _ hx)) fuel (n + 1) (w - reply.length) s' rd' tail h3 h2 hlen (by omega)
        refine ⟨j + 1, by simpa using j1, by omega, ?_, ?_, fun i hi => ?_⟩
        · rw [j3, List.take_append, List.take_of_length_le hw]
          simp [answers, hr]
        · simp only [List.take_succ_cons, answers, hr, Option.toList_some, List.cons_append, List.nil_append, List.flatten_cons, List.length_append]
          omega
        · rcases i with _ | i
          · simp [answers]
          · have := j5 i (by omega)
            simp only [List.take_succ_cons, answers, hr, Option.toList_some, List.cons_append, List.nil_append, List.flatten_cons, List.length_append]
            omega
      · rw [send, if_neg hw]
        simp only
        refine ⟨1, by simp, by omega, ?_, ?_, fun i hi => ?_⟩
        · rw [List.take_append_of_le_length (by omega)]
          simp [answers, hr]
        · simp only [List.take_succ_cons, List.take_zero, answers, hr, Option.toList_some, List.append_nil, List.flatten_cons, List.flatten_nil]
          omega
        · have : i = 0 := by omega
          subst this
          simp [answers]

/-- C147: if the connection takes only `w` bytes, fewer than the replies to the complete lines have, then the first `w` bytes of the replies are sent and the loop
ends with the error of the writer; the last line served is the first one whose reply does not fit any more, and the state is that after this line. -/
theorem C147_broken (lib : SLib F) (rtl : Nat → Rtl F) (s : Srv F) (w : Nat) (chunks ls : List Str) (tail : Str) (hls : ∀ l ∈ ls, Fits l)
    (h : chunks.flatten = onWire ls ++ tail) (hw : w < ("DEVICE -\n".toList ++ (answers lib rtl 0 s ls).1.flatten).length) :
    ∃ j, j ≤ ls.length ∧
      serveW lib rtl s (some w) chunks = (("DEVICE -\n".toList ++ (answers lib rtl 0 s ls).1.flatten).take w, (answers lib rtl 0 s (ls.take j)).2, .write) ∧
      w < ("DEVICE -\n".toList ++ (answers lib rtl 0 s (ls.take j)).1.flatten).length ∧
      ∀ i < j, ("DEVICE -\n".toList ++ (answers lib rtl 0 s (ls.take i)).1.flatten).length ≤ w := by
  have hg : response (lit "DEVICE") [lit "-"] = "DEVICE -\n".toList := by decide
  have hl : ("DEVICE -\n".toList).length = 9 := by decide
  unfold serveW
  rw [hg]
  generalize "DEVICE -\n".toList = g at *
  simp only [List.length_append] at hw ⊢
  by_cases h9 : 9 ≤ w
  · rw [send, if_pos (by omega)]
    simp only
    have hall : (⟨[], chunks⟩ : Rd).all = chunks.flatten := rfl
    obtain ⟨j, j1, j2, j3, j4, j5⟩ := loop_breaks lib rtl ls hls (chunks.flatten.length + 1) 0 (w - g.length) s ⟨[], chunks⟩ tail (by simp) (by rw [hall, h])
      (by rw [hall]; omega) (by omega)
    refine ⟨j, j1, ?_, by omega, fun i hi => ?_⟩
    · rw [j3, List.take_append (l₁ := g), List.take_of_length_le (l := g) (by omega)]
    · have := j5 i hi
      omega
  · rw [send, if_neg (by omega)]
    refine ⟨0, by omega, ?_, ?_, fun i hi => by omega⟩
    · rw [List.take_append_of_le_length (by omega)]
      rfl
    · omega

/-- The connection breaks in the reply to the second of three lines: the third is not served. -/
example : ∃ j, serveW testSLib (fun _ => testRtl) testSrv (some 26) ["stop\nra".toList, "te\nstop\n".toList] =
    ("DEVICE -\nSTOP STOPPED\nRATE".toList, (answers testSLib (fun _ => testRtl) 0 testSrv (["stop".toList, "rate".toList, "stop".toList].take j)).2, .write) := by
  obtain ⟨j, -, h, -⟩ := C147_broken testSLib (fun _ => testRtl) testSrv 26 ["stop\nra".toList, "te\nstop\n".toList] ["stop".toList, "rate".toList, "stop".toList] [] (by
    intro l hl
    simp only [List.mem_cons, List.not_mem_nil, or_false] at hl
    rcases hl with rfl | rfl | rfl <;> exact ⟨by decide, by decide⟩) (by decide) (by decide)
  exact ⟨j, h⟩

end Verif.Borip
