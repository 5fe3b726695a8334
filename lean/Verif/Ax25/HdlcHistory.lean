import Verif.Ax25.HdlcProps

/-! # Helper lemmas: the decoder state as a function of the whole bit history -/

namespace Verif.Ax25

open Spec

/-- The number of ones at the end of `l`, when `n` ones came before. -/
def cnt (n : Nat) (l : List Bool) : Nat := l.foldl (fun n b => if b then n + 1 else 0) n

theorem cnt_snoc (n : Nat) (l : List Bool) (b : Bool) :
    cnt n (l ++ [b]) = if b then cnt n l + 1 else 0 := by
  simp [cnt]

theorem destuffFrom_snoc (l : List Bool) (n : Nat) (b : Bool) :
    destuffFrom n (l ++ [b]) =
      destuffFrom n l ++ (if b then [true] else if cnt n l = 5 then [] else [false]) := by
  induction l generalizing n with
  | nil =>
    cases b
    · by_cases h : n = 5 <;> simp [destuffFrom, cnt, h]
    · simp [destuffFrom]
  | cons a l ih =>
    cases a
    · have : cnt n (false :: l) = cnt 0 l := by simp [cnt]
      simp only [List.cons_append, destuffFrom, ih, this]
      split <;> simp
    · have : cnt n (true :: l) = cnt (n + 1) l := by simp [cnt]
      simp only [List.cons_append, destuffFrom, ih, this]

theorem cnt_suffix (l : List Bool) : (false :: List.replicate (cnt 0 l) true) <:+ (false :: l) := by
  induction l using List.reverseRecOn with
  | nil => simp [cnt]
  | append_singleton l b ih =>
    cases b
    · rw [cnt_snoc]
      exact ⟨false :: l, by simp⟩
    · rw [cnt_snoc]
      obtain ⟨p, hp⟩ := ih
      refine ⟨p, ?_⟩
      simp only [if_true, List.replicate_succ']
      rw [← List.cons_append, ← List.append_assoc, hp]
      simp

theorem le_cnt_of_suffix (k : Nat) (l : List Bool) (h : List.replicate k true <:+ l) :
    k ≤ cnt 0 l := by
  induction k generalizing l with
  | zero => omega
  | succ k ih =>
    obtain ⟨p, hp⟩ := h
    rw [List.replicate_succ', ← List.append_assoc] at hp
    subst hp
    rw [cnt_snoc]
    have := ih (p ++ List.replicate k true) ⟨p, rfl⟩
    simp; omega

theorem infix_snoc {p l : List Bool} {b : Bool} (h : p <:+: l ++ [b]) : p <:+: l ∨ p <:+ l ++ [b] := by
  obtain ⟨a, c, hc⟩ := h
  rcases List.eq_nil_or_concat c with rfl | ⟨c', x, rfl⟩
  · right; exact ⟨a, by simpa using hc⟩
  · left
    refine ⟨a, c', ?_⟩
    rw [List.concat_eq_append, ← List.append_assoc] at hc
    exact (List.append_inj' hc rfl).1

/-- No abort pattern. -/
def NoAbort (l : List Bool) : Prop := ¬ List.replicate 7 true <:+: l

/-- The decoder state right after a flag. -/
def startDec : Dec := ⟨0x7e#8, true, 0, 0, []⟩

/-- What is known `mid` bits after a flag, if these contain neither flag nor abort. -/
structure Mid (d : Dec) (mid : List Bool) : Prop where
  tail : Tail d.bitstream (cnt 0 mid)
  le6 : cnt 0 mid ≤ 6
  fits : (destuff mid).length < 4104 → InData d (destuff mid)
  over : 4104 ≤ (destuff mid).length → d.inFrame = false

theorem feedRaw_overflow {d : Dec} {bits : List Bool} (h : InData d bits) (b : Bool)
    (hlen : bits.length = 4103)
    (h1 : shiftIn d.bitstream b &&& 0xff#8 ≠ 0x7e#8) (h2 : shiftIn d.bitstream b &&& 0x7f#8 ≠ 0x7f#8)
    (h3 : shiftIn d.bitstream b &&& 0x3f#8 ≠ 0x3e#8) :
    (feedRaw d (bitInt b)).2 = none ∧ (feedRaw d (bitInt b)).1.inFrame = false := by
  have hin := h.inFrame
  have hdiv := h.bits_div
  obtain ⟨p, hp1, hp8, hp2, hp3⟩ := h.pend
  have hbs : (d.bitstream <<< 1) ||| BitVec.ofInt 8 (bitInt b) = shiftIn d.bitstream b := rfl
  have hl := congrArg List.length hp3
  rw [List.length_append, bytesBits_length] at hl
  have h8 : d.rxBitI + 1 = 8 := by omega
  have hm : d.rxBuf.length ≥ maxBufferSize := by unfold maxBufferSize; omega
  unfold feedRaw
  simp only [hbs, h1, h2, h3, hin, if_false, Bool.true_eq_false, h8, if_true, hm]
  trivial

/-- An idle decoder stays idle unless the flag completes. -/
theorem feedRaw_idle' (d : Dec) (b : Bool) (h : d.inFrame = false)
    (h1 : shiftIn d.bitstream b &&& 0xff#8 ≠ 0x7e#8) :
    (feedRaw d (bitInt b)).2 = none ∧ (feedRaw d (bitInt b)).1.inFrame = false := by
  have e : ∀ x : BitVec 8, x &&& 0xff#8 = x := by decide +kernel
  obtain ⟨i1, i2⟩ := feedRaw_idle d b h
  exact ⟨i1, i2 (by rwa [e] at h1)⟩

theorem mid_data {d : Dec} {mid : List Bool} (h : Mid d mid) (b : Bool)
    (hd : destuff (mid ++ [b]) = destuff mid ++ [b])
    (ht : Tail (shiftIn d.bitstream b) (cnt 0 (mid ++ [b]))) (h6 : cnt 0 (mid ++ [b]) ≤ 6)
    (h1 : shiftIn d.bitstream b &&& 0xff#8 ≠ 0x7e#8) (h2 : shiftIn d.bitstream b &&& 0x7f#8 ≠ 0x7f#8)
    (h3 : shiftIn d.bitstream b &&& 0x3f#8 ≠ 0x3e#8) :
    (feedRaw d (bitInt b)).2 = none ∧ Mid (feedRaw d (bitInt b)).1 (mid ++ [b]) := by
  have hlen : (destuff (mid ++ [b])).length = (destuff mid).length + 1 := by rw [hd]; simp
  by_cases hf : (destuff mid).length < 4103
  · obtain ⟨a1, a2, a3⟩ := feedRaw_data (h.fits (by omega)) b (by omega) h1 h2 h3
    exact ⟨a1, by rwa [a2], h6, fun _ => by rwa [hd], fun _ => by omega⟩
  · by_cases hf' : (destuff mid).length = 4103
    · obtain ⟨a1, a2⟩ := feedRaw_overflow (h.fits (by omega)) b hf' h1 h2 h3
      exact ⟨a1, by rwa [feedRaw_bitstream], h6, fun _ => by omega, fun _ => a2⟩
    · obtain ⟨a1, a2⟩ := feedRaw_idle' d b (h.over (by omega)) h1
      exact ⟨a1, by rwa [feedRaw_bitstream], h6, fun _ => by omega, fun _ => a2⟩

/-- One more bit after a flag: either still no flag and no abort, or the flag or abort completes. -/
theorem mid_step {d : Dec} {mid : List Bool} (h : Mid d mid) (b : Bool) :
    (cnt 0 mid < 6 ∧ (feedRaw d (bitInt b)).2 = none ∧ Mid (feedRaw d (bitInt b)).1 (mid ++ [b])) ∨
    (cnt 0 mid = 6 ∧ b = true ∧ (feedRaw d (bitInt b)).2 = none ∧
      (feedRaw d (bitInt b)).1.inFrame = false) ∨
    (cnt 0 mid = 6 ∧ b = false ∧ (feedRaw d (bitInt b)).1 = startDec ∧
      (feedRaw d (bitInt b)).2 =
        if d.inFrame = true ∧ d.rxBuf.length > 2 then some d.rxBuf else none) := by
  have h6 := h.le6
  have ht := h.tail
  rcases Nat.lt_or_ge (cnt 0 mid) 6 with hc | hc
  · left
    refine ⟨hc, ?_⟩
    cases b with
    | true =>
      obtain ⟨t1, t2, t3, t4⟩ := tail_true _ _ hc ht
      refine mid_data h true ?_ ?_ ?_ t1 t2 t3
      · simp [destuff, destuffFrom_snoc]
      · rw [cnt_snoc]; simpa using t4
      · rw [cnt_snoc]; simp; omega
    | false =>
      rcases Nat.lt_or_ge (cnt 0 mid) 5 with hc5 | hc5
      · obtain ⟨t1, t2, t3, t4⟩ := tail_false _ _ hc5 ht
        refine mid_data h false ?_ ?_ ?_ t1 t2 t3
        · simp [destuff, destuffFrom_snoc]; omega
        · rw [cnt_snoc]; simpa using t4
        · rw [cnt_snoc]; simp
      · have h5 : cnt 0 mid = 5 := by omega
        rw [h5] at ht
        obtain ⟨t1, t2, t3, t4⟩ := tail_stuffed _ ht
        have hd : destuff (mid ++ [false]) = destuff mid := by
          simp [destuff, destuffFrom_snoc, h5]
        by_cases hf : (destuff mid).length < 4104
        · obtain ⟨a1, a2, a3⟩ := feedRaw_stuffed (h.fits hf) ht
          refine ⟨a1, ?_, ?_, ?_, ?_⟩
          · rw [a2, cnt_snoc]; simpa using t4
          · rw [cnt_snoc]; simp
          · intro _; rwa [hd]
          · intro hh; rw [hd] at hh; omega
        · obtain ⟨a1, a2⟩ := feedRaw_idle' d false (h.over (by omega)) t1
          refine ⟨a1, ?_, ?_, ?_, ?_⟩
          · rw [feedRaw_bitstream, cnt_snoc]; simpa using t4
          · rw [cnt_snoc]; simp
          · intro hh; rw [hd] at hh; omega
          · intro _; exact a2
  · right
    have h6 : cnt 0 mid = 6 := by omega
    rw [h6] at ht
    cases b with
    | true =>
      left
      obtain ⟨t1, t2⟩ := tail_abort _ ht
      refine ⟨h6, rfl, ?_⟩
      have hbs : (d.bitstream <<< 1) ||| BitVec.ofInt 8 (bitInt true) = shiftIn d.bitstream true := rfl
      unfold feedRaw
      simp only [hbs, t1, t2, if_false, if_true]
      trivial
    | false =>
      right
      obtain ⟨t1, t2⟩ := tail_flag _ ht
      obtain ⟨a1, a2⟩ := feedRaw_flag t2
      exact ⟨h6, rfl, a2, a1⟩

theorem Mid_start : Mid startDec [] :=
  ⟨Tail_start, by decide, fun _ => InData_start, fun h => by simp [destuff, destuffFrom] at h⟩

theorem flag_suffix_of_cnt6 (mid : List Bool) (h : cnt 0 mid = 6) :
    flag <:+ false :: (mid ++ [false]) := by
  obtain ⟨p, hp⟩ := cnt_suffix mid
  rw [h] at hp
  refine ⟨p, ?_⟩
  rw [← List.cons_append, ← hp]
  simp [flag, List.replicate_succ]

theorem cnt_of_flag_suffix (mid : List Bool) (h : flag <:+ false :: (mid ++ [false])) :
    cnt 0 mid = 6 ∨ 7 ≤ cnt 0 mid := by
  obtain ⟨p, hp⟩ := h
  have e : flag = [false] ++ List.replicate 6 true ++ [false] := by decide
  rw [e, ← List.cons_append, ← List.append_assoc, ← List.append_assoc] at hp
  have h1 := (List.append_inj' hp rfl).1
  have : List.replicate 6 true <:+ false :: mid := ⟨p ++ [false], by rw [← h1]⟩
  have h2 : List.replicate 6 true <:+ mid := by
    rcases List.suffix_cons_iff.1 this with h | h
    · simp [List.replicate_succ] at h
    · exact h
  have := le_cnt_of_suffix 6 mid h2
  omega

/-- After a flag, bits without flag or abort. -/
theorem runRaw_mid (mid : List Bool) (hf : ¬ HasFlag (false :: mid)) (ha : NoAbort mid) :
    Mid (runRaw startDec (mid.map bitInt)).1 mid := by
  induction mid using List.reverseRecOn with
  | nil => exact Mid_start
  | append_singleton l b ih =>
    have hf' : ¬ HasFlag (false :: l) := fun h => hf (h.trans ⟨[], [b], by simp⟩)
    have ha' : NoAbort l := fun h => ha (h.trans ⟨[], [b], by simp⟩)
    have hm := ih hf' ha'
    rw [List.map_append, runRaw_append]
    rcases mid_step hm b with ⟨_, _, h⟩ | ⟨h6, rfl, _, _⟩ | ⟨h6, rfl, _, _⟩
    · exact h
    · exfalso
      apply ha
      obtain ⟨p, hp⟩ := cnt_suffix l
      rw [h6] at hp
      have hs0 : List.replicate 6 true <:+ false :: l := ⟨p ++ [false], by rw [← hp]; simp⟩
      have hs : List.replicate 6 true <:+ l := by
        rcases List.suffix_cons_iff.1 hs0 with h | h
        · simp [List.replicate_succ] at h
        · exact h
      obtain ⟨q, hq⟩ := hs
      exact ⟨q, [], by rw [← hq]; simp [List.replicate_succ]⟩
    · exfalso
      apply hf
      have := flag_suffix_of_cnt6 l h6
      exact this.isInfix

/-- Dichotomy of histories: no flag, or a last flag. -/
theorem last_flag (h : List Bool) (hf : HasFlag h) :
    ∃ pre mid, h = pre ++ flag ++ mid ∧ ¬ HasFlag (false :: mid) := by
  induction h using List.reverseRecOn with
  | nil =>
    obtain ⟨a, c, hc⟩ := hf
    simp [flag] at hc
  | append_singleton l b ih =>
    by_cases hs : flag <:+ l ++ [b]
    · obtain ⟨p, hp⟩ := hs
      refine ⟨p, [], by simpa using hp.symm, ?_⟩
      rintro ⟨a, c, hc⟩
      have := congrArg List.length hc
      simp [flag] at this
      omega
    · have hl : HasFlag l := (infix_snoc hf).resolve_right hs
      obtain ⟨pre, mid, rfl, hm⟩ := ih hl
      refine ⟨pre, mid ++ [b], by simp, ?_⟩
      intro hm'
      rw [← List.cons_append] at hm'
      rcases infix_snoc hm' with h | ⟨p, hp⟩
      · exact hm h
      · apply hs
        refine ⟨pre ++ flag.dropLast ++ p, ?_⟩
        rw [List.append_assoc, hp]
        simp [flag]

/-- Without a flag the decoder is idle (a leading zero is implied by the initial register). -/
theorem idle_of_no_flag (h : List Bool) (hf : ¬ HasFlag (false :: h)) :
    (runRaw newDecoder (h.map bitInt)).1.inFrame = false ∧
    ∀ o ∈ (runRaw newDecoder (h.map bitInt)).2, o = none := by
  induction h using List.reverseRecOn with
  | nil => simp [runRaw, newDecoder]
  | append_singleton l b ih =>
    have hf' : ¬ HasFlag (false :: l) := fun h => hf (h.trans ⟨[], [b], by simp⟩)
    obtain ⟨i1, i2⟩ := ih hf'
    rw [List.map_append, runRaw_append]
    simp only [List.map_cons, List.map_nil, runRaw]
    obtain ⟨j1, j2⟩ := feedRaw_idle _ b i1
    refine ⟨j2 ?_, ?_⟩
    · rw [runRaw_bitstream]
      have e : shiftIn (reg newDecoder.bitstream l) b = reg newDecoder.bitstream (List.replicate 8 false ++ (l ++ [b])) := by
        simp [reg, newDecoder, List.replicate_succ]
        have : shiftIn 0#8 false = 0#8 := by decide
        simp [this]
      rw [e]
      intro h7
      rw [reg_flag_iff _ _ (by simp)] at h7
      apply hf
      obtain ⟨p, hp⟩ := h7
      -- the flag begins with a single zero, so it lies within `false :: l ++ [b]`
      have hsuf : ∀ k m (w : List Bool), flag <:+ List.replicate k false ++ w → k = m + 1 →
          flag <:+ false :: w ∨ w = [] := by
        intro k m w
        induction k generalizing m with
        | zero => intro _ h; omega
        | succ k ihk =>
          intro hs hk
          cases k with
          | zero => left; simpa using hs
          | succ k =>
            rw [List.replicate_succ, List.cons_append] at hs
            rcases List.suffix_cons_iff.1 hs with h | h
            · simp [flag, List.replicate_succ] at h
            · exact ihk k h rfl
      rcases hsuf 8 7 (l ++ [b]) ⟨p, hp⟩ rfl with h | h
      · exact h.isInfix
      · simp at h
    · intro o ho
      simp only [List.mem_append, List.mem_cons, List.not_mem_nil, or_false] at ho
      rcases ho with ho | ho
      · exact i2 o ho
      · rw [ho, j1]

theorem newDecoder_zero (h : List Bool) :
    (runRaw newDecoder ((false :: h).map bitInt)).1 = (runRaw newDecoder (h.map bitInt)).1 := by
  have : (feedRaw newDecoder (bitInt false)).1 = newDecoder := by decide
  simp only [List.map_cons, runRaw, this]

/-- After an abort the decoder is idle until the next flag. -/
theorem idle_of_abort (mid : List Bool) (hf : ¬ HasFlag (false :: mid)) (ha : ¬ NoAbort mid) :
    (runRaw startDec (mid.map bitInt)).1.inFrame = false := by
  induction mid using List.reverseRecOn with
  | nil =>
    exfalso; apply ha
    rintro ⟨a, c, hc⟩
    have := congrArg List.length hc
    simp at this
  | append_singleton l b ih =>
    have hf' : ¬ HasFlag (false :: l) := fun h => hf (h.trans ⟨[], [b], by simp⟩)
    rw [List.map_append, runRaw_append]
    simp only [List.map_cons, List.map_nil, runRaw]
    by_cases hl : NoAbort l
    · have hm := runRaw_mid l hf' hl
      rcases mid_step hm b with ⟨h6, _, _⟩ | ⟨_, _, _, h⟩ | ⟨h6, rfl, _, _⟩
      · exfalso
        have : List.replicate 7 true <:+: l ++ [b] := by
          by_contra hc; exact ha hc
        rcases infix_snoc this with h | h
        · exact hl h
        · have := le_cnt_of_suffix 7 _ h
          rw [cnt_snoc] at this
          split at this <;> omega
      · exact h
      · exfalso; exact hf (flag_suffix_of_cnt6 l h6).isInfix
    · have hi := ih hf' hl
      refine (feedRaw_idle _ b hi).2 ?_
      rw [runRaw_bitstream]
      have e : shiftIn (reg startDec.bitstream l) b = reg 0#8 (flag ++ (l ++ [b])) := by
        have : reg 0#8 flag = startDec.bitstream := by decide
        rw [reg_append, this, reg_append]; rfl
      rw [e]
      intro h7
      rw [reg_flag_iff _ _ (by simp [flag])] at h7
      apply hf
      have h7l : 7 ≤ l.length := by
        have : List.replicate 7 true <:+: l := by by_contra hc; exact hl hc
        simpa using this.length_le
      obtain ⟨p, hp⟩ := h7
      -- `l ++ [b]` has at least eight elements, hence contains the final flag
      have : flag <:+ l ++ [b] := by
        refine List.suffix_of_suffix_length_le ⟨p, hp⟩ ⟨flag, rfl⟩ ?_
        simp [flag]; omega
      exact this.isInfix.trans ⟨[false], [], by simp⟩

end Verif.Ax25
