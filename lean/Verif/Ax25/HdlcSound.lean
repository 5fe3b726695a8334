import Verif.Ax25.HdlcHistory

/-!
# Properties C06, C09, C71: which histories make the receiver report a frame

`Between h content` is the specification: it says what an HDLC receiver should see at the end of the
bit history `h`, in terms of flags, aborts and destuffing only.
-/

namespace Verif.Ax25

open Spec

namespace Spec

/-- The history `h` (with the zero that the initial register implies) consists of some prefix, a
flag, and then `mid`, after which the next bit `false` completes a closing flag (which may share its
first zero with the last zero of the opening flag); inside there is neither a flag nor an abort. -/
structure Enclosed (h mid : List Bool) : Prop where
  opening : ∃ pre, false :: h = pre ++ flag ++ mid
  closing : flag <:+ false :: (mid ++ [false])
  noFlag : ¬ HasFlag (false :: mid)
  noAbort : ¬ List.replicate 7 true <:+: mid

/-- `buf` is the byte string made of the complete octets of the destuffed bits of `mid`. -/
def OctetsOf (mid : List Bool) (buf : List (BitVec 8)) : Prop :=
  bytesBits buf <+: destuff mid ∧ (destuff mid).length < 8 * buf.length + 8

end Spec

theorem octets_of_InData {d : Dec} {bits : List Bool} (h : InData d bits) :
    bytesBits d.rxBuf <+: bits ∧ bits.length < 8 * d.rxBuf.length + 8 := by
  obtain ⟨p, hp1, hp8, hp2, hp3⟩ := h.pend
  refine ⟨⟨p, hp3⟩, ?_⟩
  rw [← hp3, List.length_append, bytesBits_length]
  omega

theorem octets_unique {bits : List Bool} {a b : List Byte}
    (ha : bytesBits a <+: bits ∧ bits.length < 8 * a.length + 8)
    (hb : bytesBits b <+: bits ∧ bits.length < 8 * b.length + 8) : a = b := by
  obtain ⟨⟨p, hp⟩, hp'⟩ := ha
  obtain ⟨⟨q, hq⟩, hq'⟩ := hb
  have l1 := congrArg List.length hp
  have l2 := congrArg List.length hq
  rw [List.length_append, bytesBits_length] at l1 l2
  apply bytesBits_inj
  rw [← hq] at hp
  exact (List.append_inj hp (by rw [bytesBits_length, bytesBits_length]; omega)).1

/-- State after a flag and `mid`. -/
theorem state_after (h pre mid : List Bool) (hh : false :: h = pre ++ flag ++ mid) :
    (runRaw newDecoder (h.map bitInt)).1 = (runRaw startDec (mid.map bitInt)).1 := by
  rw [← newDecoder_zero, hh, List.map_append, runRaw_append, List.map_append, runRaw_append,
    runRaw_flag]
  rfl

/-- **C06 (exact).** After any bit history `h` fed to a new decoder, feeding a zero makes the decoder
process the byte string `buf` **if and only if** `h` ends in an enclosed bit string that has `buf` as
its complete destuffed octets, `buf` has more than two bytes, and fewer than 513 octets were
received.  -/
theorem C06_processed_iff (h : List Bool) (buf : List Byte) :
    (feedRaw (runRaw newDecoder (h.map bitInt)).1 (bitInt false)).2 = some buf ↔
      ∃ mid, Enclosed h mid ∧ OctetsOf mid buf ∧ 2 < buf.length ∧ buf.length ≤ 512 := by
  constructor
  · intro hout
    by_cases hf : HasFlag (false :: h)
    · obtain ⟨pre, mid, hh, hm⟩ := last_flag _ hf
      rw [state_after h pre mid hh] at hout
      by_cases ha : NoAbort mid
      · have hM := runRaw_mid mid hm ha
        rcases mid_step hM false with ⟨_, h1, _⟩ | ⟨_, h1, _, _⟩ | ⟨h6, _, _, h1⟩
        · rw [h1] at hout; simp at hout
        · simp at h1
        · rw [h1] at hout
          split at hout
          · rename_i hin
            have hlen : (destuff mid).length < 4104 := by
              by_contra hc
              rw [hM.over (by omega)] at hin
              simp at hin
            have ho := octets_of_InData (hM.fits hlen)
            have hb : (runRaw startDec (mid.map bitInt)).1.rxBuf = buf := by simpa using hout
            have hle := runRaw_buf_le (mid.map bitInt) startDec (by decide)
            rw [hb] at ho hin hle
            exact ⟨mid, ⟨⟨pre, hh⟩, flag_suffix_of_cnt6 mid h6, hm, ha⟩, ho, hin.2, hle⟩
          · simp at hout
      · have := (feedRaw_idle _ false (idle_of_abort mid hm ha)).1
        rw [this] at hout; simp at hout
    · have := (feedRaw_idle _ false (idle_of_no_flag h hf).1).1
      rw [this] at hout; simp at hout
  · rintro ⟨mid, ⟨⟨pre, hh⟩, hcl, hm, ha⟩, ho, h2, h512⟩
    rw [state_after h pre mid hh]
    have hM := runRaw_mid mid hm ha
    have hlen : (destuff mid).length < 4104 := by have := ho.2; omega
    have hI := hM.fits hlen
    have hb := octets_unique (octets_of_InData hI) ho
    rcases mid_step hM false with ⟨h6, _, _⟩ | ⟨_, h1, _, _⟩ | ⟨h6, _, _, h1⟩
    · rcases cnt_of_flag_suffix mid hcl with h | h <;> omega
    · simp at h1
    · rw [h1, hb, hI.inFrame]
      simp [h2]

/-- Feeding a one never makes the decoder process anything, in any state. -/
theorem C06_one_never_ends_frame (d : Dec) : (feedRaw d (bitInt true)).2 = none := by
  have hbs : (d.bitstream <<< 1) ||| BitVec.ofInt 8 (bitInt true) = shiftIn d.bitstream true := rfl
  have h7 : ∀ x : BitVec 8, shiftIn x true &&& 0xff#8 ≠ 0x7e#8 := by decide +kernel
  unfold feedRaw
  simp only [hbs, h7, if_false]
  repeat' split
  all_goals rfl

theorem processFrame_sound (buf : List Byte) (fr : Frame) (h : processFrame buf = some (some fr)) :
    10 ≤ buf.length ∧ checkCrc buf = true := by
  unfold processFrame at h
  split at h
  · simp at h
  · split at h
    · simp at h
    · rename_i h1 h2
      exact ⟨by omega, by simpa using h2⟩

/-- **C06.** If feeding a bit `b` after a history `h` returns a frame, then the bit is the zero that
completes a closing flag, and the complete destuffed octets since the opening flag are a payload of
at least eight and at most 510 bytes followed by its frame check sequence. -/
theorem C06_frame_sound (h : List Bool) (b : Bool) (d : Dec) (fr : Frame)
    (hf : feed (runRaw newDecoder (h.map bitInt)).1 (bitInt b) = some (d, some fr)) :
    b = false ∧ ∃ mid payload, Enclosed h mid ∧ OctetsOf mid (payload ++ fcs payload) ∧
      8 ≤ payload.length ∧ payload.length ≤ 510 := by
  unfold feed at hf
  cases b with
  | true =>
    have := C06_one_never_ends_frame (runRaw newDecoder (h.map bitInt)).1
    split at hf
    · simp at hf
    · rename_i d' buf heq
      rw [heq] at this; simp at this
  | false =>
    refine ⟨rfl, ?_⟩
    split at hf
    · simp at hf
    · rename_i d' buf heq
      have h1 := (C06_processed_iff h buf).1 (by rw [heq])
      obtain ⟨mid, hE, hO, _, h512⟩ := h1
      split at hf
      · simp at hf
      · rename_i f hpf
        have hfr : f = some fr := by simpa using (Prod.mk.inj (Option.some.inj hf)).2
        rw [hfr] at hpf
        obtain ⟨h10, hcrc⟩ := processFrame_sound buf fr hpf
        obtain ⟨payload, x, y, rfl⟩ : ∃ p x y, buf = p ++ [x, y] := by
          refine ⟨buf.take (buf.length - 2), buf[buf.length - 2], buf[buf.length - 1], ?_⟩
          apply List.ext_getElem
          · simp; omega
          · intro i h1 h2
            rw [List.getElem_append]
            split
            · simp
            · rename_i hi
              simp at hi h2
              have : i = buf.length - 2 ∨ i = buf.length - 1 := by omega
              rcases this with rfl | rfl
              · simp
              · have : buf.length - 1 - min (buf.length - 2) buf.length = 1 := by omega
                simp [show buf.length - 1 - (buf.length - 2) = 1 by omega]
        have := (C02_accepted_iff_fcs payload x y).1 hcrc
        rw [this] at hO
        simp at h10 h512
        exact ⟨mid, payload, hE, hO, by omega, by omega⟩

/-- Non-vacuity of the hypotheses: a history (opening flag, the stuffed bits of three bytes with a
run of ones, and the first seven bits of the closing flag) with an enclosed part. -/
example : Enclosed (flag ++ stuff (bytesBits [0x7e#8, 0xff#8, 0x01#8]) ++ flag.dropLast)
    (stuff (bytesBits [0x7e#8, 0xff#8, 0x01#8]) ++ flag.dropLast) ∧
    OctetsOf (stuff (bytesBits [0x7e#8, 0xff#8, 0x01#8]) ++ flag.dropLast)
      [0x7e#8, 0xff#8, 0x01#8] := by
  refine ⟨⟨⟨[false], ?_⟩, ?_, ?_, ?_⟩, ?_, ?_⟩
  · rw [List.append_assoc, List.append_assoc]; rfl
  · exact ⟨false :: stuff (bytesBits [0x7e#8, 0xff#8, 0x01#8]), by decide⟩
  · unfold HasFlag; decide +kernel
  · decide +kernel
  · decide +kernel
  · decide +kernel

/-! ### C09: oversize frames -/

theorem mid_stuffFrom (data : List Bool) (d : Dec) (mid : List Bool) (n : Nat) (h : Mid d mid)
    (hn : cnt 0 mid = n) (h5 : n < 5) :
    (∀ o ∈ (runRaw d ((stuffFrom n data).map bitInt)).2, o = none) ∧
    ∃ mid', Mid (runRaw d ((stuffFrom n data).map bitInt)).1 mid' ∧
      destuff mid' = destuff mid ++ data ∧ cnt 0 mid' < 5 := by
  induction data generalizing d mid n with
  | nil =>
    simp only [stuffFrom, List.map_nil, runRaw, List.append_nil]
    exact ⟨by simp, mid, h, rfl, by omega⟩
  | cons b data ih =>
    have step : ∀ {d mid} (b : Bool), Mid d mid → cnt 0 mid < 6 →
        (feedRaw d (bitInt b)).2 = none ∧ Mid (feedRaw d (bitInt b)).1 (mid ++ [b]) := by
      intro d mid b h hc
      rcases mid_step h b with ⟨_, h1, h2⟩ | ⟨h6, _⟩ | ⟨h6, _⟩
      · exact ⟨h1, h2⟩
      · omega
      · omega
    obtain ⟨s1, s2⟩ := step b h (by omega)
    cases b with
    | false =>
      have hc : cnt 0 (mid ++ [false]) = 0 := by rw [cnt_snoc]; simp
      obtain ⟨i1, mid', i2, i3, i4⟩ := ih _ _ 0 s2 hc (by omega)
      simp only [stuffFrom, List.map_cons, runRaw]
      refine ⟨?_, mid', i2, ?_, i4⟩
      · intro o ho
        rcases List.mem_cons.1 ho with ho | ho
        · rw [ho, s1]
        · exact i1 o ho
      · rw [i3]
        have : cnt 0 mid ≠ 5 := by omega
        simp [destuff, destuffFrom_snoc, this]
    | true =>
      have hc : cnt 0 (mid ++ [true]) = n + 1 := by rw [cnt_snoc]; simp; omega
      have hd : destuff (mid ++ [true]) = destuff mid ++ [true] := by
        simp [destuff, destuffFrom_snoc]
      by_cases h4 : n = 4
      · obtain ⟨t1, t2⟩ := step false s2 (by omega)
        have hc' : cnt 0 (mid ++ [true] ++ [false]) = 0 := by rw [cnt_snoc]; simp
        obtain ⟨i1, mid', i2, i3, i4⟩ := ih _ _ 0 t2 hc' (by omega)
        simp only [stuffFrom, h4, if_true, List.map_cons, runRaw]
        refine ⟨?_, mid', i2, ?_, i4⟩
        · intro o ho
          rcases List.mem_cons.1 ho with ho | ho
          · rw [ho, s1]
          · rcases List.mem_cons.1 ho with ho | ho
            · rw [ho, t1]
            · exact i1 o ho
        · rw [i3]
          have h5 : cnt 0 (mid ++ [true]) = 5 := by omega
          have : destuff (mid ++ [true] ++ [false]) = destuff (mid ++ [true]) := by
            unfold destuff; rw [destuffFrom_snoc (mid ++ [true]), h5]; simp
          rw [this, hd]; simp
      · obtain ⟨i1, mid', i2, i3, i4⟩ := ih _ _ (n + 1) s2 hc (by omega)
        simp only [stuffFrom, h4, if_false, List.map_cons, runRaw]
        refine ⟨?_, mid', i2, ?_, i4⟩
        · intro o ho
          rcases List.mem_cons.1 ho with ho | ho
          · rw [ho, s1]
          · exact i1 o ho
        · rw [i3, hd]; simp

/-- The closing flag when the frame overflowed. -/
theorem runRaw_closing_over {d : Dec} {mid : List Bool} (h : Mid d mid) (hc : cnt 0 mid < 5)
    (hl : 4104 ≤ (destuff mid).length) :
    ∀ o ∈ (runRaw d (flag.map bitInt)).2, o = none := by
  have step : ∀ {d mid} (b : Bool), Mid d mid → cnt 0 mid < 6 →
      4104 ≤ (destuff mid).length →
      (feedRaw d (bitInt b)).2 = none ∧ Mid (feedRaw d (bitInt b)).1 (mid ++ [b]) ∧
        4104 ≤ (destuff (mid ++ [b])).length := by
    intro d mid b h hc hl
    rcases mid_step h b with ⟨_, h1, h2⟩ | ⟨h6, _⟩ | ⟨h6, _⟩
    · refine ⟨h1, h2, ?_⟩
      simp only [destuff, destuffFrom_snoc, List.length_append] at hl ⊢
      omega
    · omega
    · omega
  have c0 : cnt 0 (mid ++ [false]) = 0 := by rw [cnt_snoc]; simp
  have c1 : ∀ (m : List Bool) (k : Nat), cnt 0 m = k → cnt 0 (m ++ [true]) = k + 1 := by
    intro m k hk; rw [cnt_snoc]; simp [hk]
  obtain ⟨a1, a2, a3⟩ := step false h (by omega) hl
  obtain ⟨b1, b2, b3⟩ := step true a2 (by omega) a3
  have d1 := c1 _ _ c0
  obtain ⟨e1, e2, e3⟩ := step true b2 (by omega) b3
  have d2 := c1 _ _ d1
  obtain ⟨f1, f2, f3⟩ := step true e2 (by omega) e3
  have d3 := c1 _ _ d2
  obtain ⟨g1, g2, g3⟩ := step true f2 (by omega) f3
  have d4 := c1 _ _ d3
  obtain ⟨h1, h2, h3⟩ := step true g2 (by omega) g3
  have d5 := c1 _ _ d4
  obtain ⟨i1, i2, i3⟩ := step true h2 (by omega) h3
  have j := (feedRaw_idle _ false (i2.over i3)).1
  intro o ho
  simp only [flag, List.map_cons, List.map_nil, runRaw, a1, b1, e1, f1, g1, h1, i1, j,
    List.mem_cons, List.not_mem_nil, or_false, or_self] at ho
  exact ho

/-- **C09.** From any state: after an opening flag, the stuffed bits of any byte string of more than
512 bytes and its closing flag make the decoder process nothing; the next byte strings (of at most
512 bytes) are processed normally, in order. -/
theorem C09_oversize_dropped (d : Dec) (f : List Byte) (hf : 512 < f.length)
    (fs : List (List Byte)) (hfs : ∀ g ∈ fs, g.length ≤ 512) :
    let d1 := (runRaw d (flag.map bitInt)).1
    (∀ o ∈ (runRaw d1 ((stuff (bytesBits f) ++ flag).map bitInt)).2, o = none) ∧
    (runRaw d1 ((stuff (bytesBits f) ++ flag ++ lineBits fs).map bitInt)).2.filterMap id =
      fs.filter (fun g => g.length > 2) := by
  intro d1
  have h1 : d1 = startDec := runRaw_flag d
  have hall : ∀ o ∈ (runRaw d1 ((stuff (bytesBits f) ++ flag).map bitInt)).2, o = none := by
    rw [h1, List.map_append, runRaw_append]
    obtain ⟨s1, mid', s2, s3, s4⟩ := mid_stuffFrom (bytesBits f) startDec [] 0 Mid_start rfl (by omega)
    intro o ho
    rcases List.mem_append.1 ho with ho | ho
    · exact s1 o ho
    · refine runRaw_closing_over s2 s4 ?_ o ho
      rw [s3, List.length_append, bytesBits_length]
      omega
  refine ⟨hall, ?_⟩
  rw [List.append_assoc, List.map_append, runRaw_append, List.map_append, runRaw_append]
  simp only [List.filterMap_append]
  rw [C05_frames_processed _ fs hfs]
  rw [List.map_append, runRaw_append] at hall
  have hn : ∀ l : List (Option (List Byte)), (∀ o ∈ l, o = none) → l.filterMap id = [] := by
    intro l hl
    rw [List.filterMap_eq_nil_iff]
    intro a ha
    rw [hl a ha]; rfl
  rw [hn _ (fun o ho => hall o (List.mem_append_left _ ho)),
    hn _ (fun o ho => hall o (List.mem_append_right _ ho))]
  rfl

/-- Non-vacuity: an oversize frame followed by two frames of admissible size. -/
example : 512 < (List.replicate 513 0xff#8).length ∧
    ∀ g ∈ [[1#8, 2#8, 3#8], [0xff#8, 0xff#8, 0xff#8]], g.length ≤ 512 := by
  constructor
  · rw [List.length_replicate]; omega
  · decide

end Verif.Ax25
