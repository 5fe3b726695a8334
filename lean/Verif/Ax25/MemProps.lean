import Verif.Ax25.MemModel
import Verif.Ax25.FrameProps

/-! # Property C12: lifetime of `Frame.Info`; property C71: frames that are not whole octets -/

namespace Verif.Ax25

open Spec

theorem readMem_length (mem : Nat → Byte) (off k : Nat) : (readMem mem off k).length = k := by
  simp [readMem]

theorem readMem_snoc (mem : Nat → Byte) (n : Nat) (b : Byte) :
    readMem (fun i => if i = n then b else mem i) 0 (n + 1) = readMem mem 0 n ++ [b] := by
  unfold readMem
  rw [List.range_succ, List.map_append]
  congr 1
  · apply List.map_congr_left
    intro i hi
    have := List.mem_range.1 hi
    exact if_neg (by omega)
  · simp

/-- The memory model refines the list model: same states, same results. -/
theorem feedMem_refines (d : MDec) (b : Int) :
    feed d.abs b = some ((feedMem d b).1.abs, (feedMem d b).2.map Prod.fst) := by
  rw [feed_eq]
  unfold feedRaw feedMem MDec.abs
  simp only [readMem_length]
  split
  · split
    · rename_i h1 h2
      simp only [Option.bind_some]
      rw [show frameOf (readMem d.mem 0 d.len) = (processFrame (readMem d.mem 0 d.len)).getD none from rfl]
      rcases processFrame (readMem d.mem 0 d.len) with _ | _ | fr <;> rfl
    · rfl
  · split
    · rfl
    · split
      · rfl
      · split
        · rfl
        · split
          · split
            · rfl
            · simp only [readMem_snoc]; rfl
          · rfl

theorem runMem_refines (d : MDec) (bits : List Int) :
    run d.abs bits = some ((runMem d bits).1.abs, (runMem d bits).2.map (Option.map Prod.fst)) := by
  induction bits generalizing d with
  | nil => rfl
  | cons b bits ih => simp [run, feedMem_refines, runMem, ih]

/-- C12, a new decoder fed any bits gives the frames of the list model of C1 and following. -/
theorem C12_same_frames (bits : List Int) :
    run newDecoder bits = some ((runMem newMDec bits).1.abs, (runMem newMDec bits).2.map (Option.map Prod.fst)) :=
  runMem_refines newMDec bits

/-! ### `Info` is a suffix of the payload -/

theorem repeaterLoop_suffix (fuel : Nat) (prev : Byte) (rest : List Byte) (as : List Address)
    (r : List Byte) (h : repeaterLoop fuel prev rest = some (as, r)) : r <:+ rest := by
  induction fuel generalizing prev rest as with
  | zero => simp [repeaterLoop] at h
  | succ fuel ih =>
    unfold repeaterLoop at h
    split at h
    · rename_i hc
      obtain ⟨a, r0, h1, h2, h3⟩ := parseAddress_ok rest (by omega)
      have h6 : 6 < r0.length := by omega
      have h7 : r0.drop 7 = rest.drop 7 := by
        have := congrArg (List.drop 1) h3
        simpa using this
      simp only [h1, List.getElem?_eq_getElem h6] at h
      split at h
      · simp at h
      · rename_i as' r' hr
        simp only [Option.some.injEq, Prod.mk.injEq] at h
        rw [h.2] at hr
        have := ih _ _ _ hr
        rw [h7] at this
        exact this.trans (List.drop_suffix 7 rest)
    · simp only [Option.some.injEq, Prod.mk.injEq] at h
      rw [h.2]

theorem processHeader_suffix (buf : List Byte) (fr : Frame) (rest : List Byte)
    (h : processHeader buf = some (some (fr, rest))) :
    rest <:+ buf ∧ rest.length + 7 ≤ buf.length ∧ fr.info = [] := by
  unfold processHeader at h
  split at h
  · simp at h
  · split at h
    · split at h
      · rename_i h6
        simp only [Option.some.injEq, Prod.mk.injEq] at h
        obtain ⟨rfl, rfl⟩ := h
        have : 6 < buf.length := by
          by_contra hc
          rw [List.getElem?_eq_none (by omega)] at h6
          simp at h6
        refine ⟨List.drop_suffix _ _, by simp; omega, ?_⟩
        split <;> rfl
      · simp at h
    · split at h
      · simp at h
      · rename_i hlen
        have h13 : 13 < buf.length := by omega
        have h6 : 6 < buf.length := by omega
        simp only [List.getElem?_eq_getElem h13, List.getElem?_eq_getElem h6] at h
        obtain ⟨a, r, h1, h2, h3⟩ := parseAddress_ok buf (by omega)
        simp only [h1] at h
        obtain ⟨a', r', h1', h2', h3'⟩ := parseAddress_ok (r.drop 7) (by simp; omega)
        simp only [h1'] at h
        have h6' : 6 < r'.length := by rw [h2']; simp; omega
        simp only [List.getElem?_eq_getElem h6'] at h
        split at h
        · simp at h
        · rename_i as r'' hl
          simp only [Option.some.injEq, Prod.mk.injEq] at h
          obtain ⟨rfl, rfl⟩ := h
          have hs := repeaterLoop_suffix _ _ _ _ _ hl
          have e1 : r'.drop 7 = (r.drop 7).drop 7 := by
            have := congrArg (List.drop 1) h3'
            simpa using this
          have e2 : r.drop 7 = buf.drop 7 := by
            have := congrArg (List.drop 1) h3
            simpa using this
          rw [e1, e2, List.drop_drop] at hs
          refine ⟨hs.trans (List.drop_suffix _ _), ?_, ?_⟩
          · have := hs.length_le
            simp at this; omega
          · split <;> rfl

theorem processControl_suffix (fr : Frame) (h : fr.info = []) (rest : List Byte) :
    (processControl fr rest).info <:+ rest ∧
      ((processControl fr rest).info ≠ [] → (processControl fr rest).info.length + 2 = rest.length) := by
  rcases rest with _ | ⟨c, _ | ⟨p, info⟩⟩
  · simp [processControl, h]
  · simp only [processControl]
    repeat' split
    all_goals simp [h]
  · simp only [processControl]
    by_cases h1 : c &&& 1#8 = 0#8
    · simp only [if_pos h1, true_or, if_true]
      exact ⟨⟨[c, p], rfl⟩, fun _ => rfl⟩
    · by_cases h2 : c &&& 2#8 ≠ 0#8
      · simp only [if_neg h1, if_pos h2]
        split
        · exact ⟨⟨[c, p], rfl⟩, fun _ => rfl⟩
        · simp [h]
      · simp only [if_neg h1, if_neg h2, reduceCtorEq, false_and, or_self, if_false]
        simp [h]

/-- In a returned frame, `Info` is the end of the payload and, if nonempty, is preceded by at least
nine bytes. -/
theorem processFrame_info (buf : List Byte) (fr : Frame) (h : processFrame buf = some (some fr)) :
    fr.info <:+ buf.take (buf.length - 2) ∧ (fr.info ≠ [] → fr.info.length + 11 ≤ buf.length) := by
  obtain ⟨h10, _⟩ := processFrame_sound buf fr h
  unfold processFrame at h
  split at h
  · simp at h
  · split at h
    · simp at h
    · simp only at h
      split at h
      · simp at h
      · simp at h
      · rename_i fr0 rest hh
        obtain ⟨h1, h2, h3⟩ := processHeader_suffix _ _ _ hh
        obtain ⟨h4, h5⟩ := processControl_suffix fr0 h3 rest
        simp only [Option.some.injEq] at h
        rw [h] at h4 h5
        refine ⟨h4.trans h1, fun hne => ?_⟩
        have := h5 hne
        simp at h2
        omega

theorem readMem_suffix (mem : Nat → Byte) (n : Nat) (l : List Byte)
    (h : l <:+ (readMem mem 0 n).take (n - 2)) : l = readMem mem (n - 2 - l.length) l.length := by
  obtain ⟨p, hp⟩ := h
  have hl := congrArg List.length hp
  simp only [List.length_append, List.length_take, readMem_length] at hl
  have hpl : p.length = n - 2 - l.length := by omega
  apply List.ext_getElem
  · simp [readMem]
  · intro i h1 h2
    have e : (p ++ l)[p.length + i]'(by simp; omega) = l[i] := by
      rw [List.getElem_append_right (by omega)]
      simp
    rw [← e]
    have e2 : ∀ (k : Nat) (hk : k < (p ++ l).length), (p ++ l)[k] = mem k := by
      intro k hk
      have : (p ++ l)[k]? = some (mem k) := by
        rw [hp, List.getElem?_take]
        simp at hk
        rw [if_pos (by omega), List.getElem?_eq_getElem (by rw [readMem_length]; omega)]
        simp [readMem]
      rw [List.getElem?_eq_getElem hk] at this
      exact Option.some.inj this
    rw [e2, hpl]
    simp [readMem]

/-- When a frame is returned, its `Info` is the contents of the slice of the backing array; if it is
nonempty it starts at offset nine or later. -/
theorem C12_info_is_view (d : MDec) (b : Int) (fr : Frame) (off : Nat)
    (h : (feedMem d b).2 = some (fr, off)) :
    fr.info = readMem (feedMem d b).1.mem off fr.info.length ∧ (fr.info ≠ [] → 9 ≤ off) ∧
      (feedMem d b).1.len = 0 ∧ (feedMem d b).1.rxBitI = 0 := by
  unfold feedMem at h ⊢
  simp only at h ⊢
  split at h
  · rename_i hb
    rw [if_pos hb]
    split at h
    · split at h
      · rename_i fr' hp
        simp only [Option.some.injEq, Prod.mk.injEq] at h
        obtain ⟨rfl, rfl⟩ := h
        obtain ⟨h1, h2⟩ := processFrame_info _ _ hp
        rw [readMem_length] at h1 h2
        refine ⟨readMem_suffix d.mem d.len fr'.info h1, fun hne => ?_, rfl, rfl⟩
        have := h2 hne
        omega
      · simp at h
    · simp at h
  · exfalso
    revert h
    repeat' split
    all_goals simp

/-- One call stores at most at index `len`, and eight calls are needed per byte. -/
theorem feedMem_progress (d : MDec) (b : Int) (k : Nat) (h : 8 * d.len + d.rxBitI ≤ k) :
    8 * (feedMem d b).1.len + (feedMem d b).1.rxBitI ≤ k + 1 ∧
    ∀ i, k + 1 < 8 * (i + 1) → (feedMem d b).1.mem i = d.mem i := by
  unfold feedMem
  simp only
  split
  · exact ⟨by simp, fun _ _ => rfl⟩
  · split
    · exact ⟨by simp; omega, fun _ _ => rfl⟩
    · split
      · exact ⟨by simp; omega, fun _ _ => rfl⟩
      · split
        · exact ⟨by simp; omega, fun _ _ => rfl⟩
        · split
          · split
            · exact ⟨by simp; omega, fun _ _ => rfl⟩
            · refine ⟨by simp; omega, fun i hi => ?_⟩
              simp only
              rw [if_neg (by omega)]
          · exact ⟨by simp; omega, fun _ _ => rfl⟩

theorem runMem_stable (bits : List Int) (d : MDec) (k : Nat) (h : 8 * d.len + d.rxBitI ≤ k) (i : Nat)
    (hi : k + bits.length < 8 * (i + 1)) : (runMem d bits).1.mem i = d.mem i := by
  induction bits generalizing d k with
  | nil => rfl
  | cons b bits ih =>
    simp only [List.length_cons] at hi
    obtain ⟨h1, h2⟩ := feedMem_progress d b k h
    simp only [runMem]
    rw [ih _ (k + 1) h1 (by omega), h2 i (by omega)]

/-- **C12, the part that holds.** If a call returns a frame whose `Info` starts at offset `off` of the
backing array, then `Info` keeps its value during the next `8·(off+1) − 1` calls, whatever bits are
fed; `off ≥ 9` whenever `Info` is not empty, so `Info` survives at least the next 79 calls.  (Missing
for C12: it does not survive longer, see `C12_violated`.) -/
theorem C12_info_stable_partial (d : MDec) (b : Int) (fr : Frame) (off : Nat)
    (h : (feedMem d b).2 = some (fr, off)) (bits : List Int) (hb : bits.length < 8 * (off + 1)) :
    readMem (runMem (feedMem d b).1 bits).1.mem off fr.info.length = fr.info ∧
      (fr.info ≠ [] → 9 ≤ off) := by
  obtain ⟨h1, h2, h3, h4⟩ := C12_info_is_view d b fr off h
  refine ⟨?_, h2⟩
  conv_rhs => rw [h1]
  unfold readMem
  apply List.map_congr_left
  intro i _
  exact runMem_stable bits _ 0 (by omega) _ (by omega)

/-- First witness frame: UI frame from N0CALL-1 to APRS with information "AB". -/
def wit1 : List Byte :=
  [0x82, 0xa0, 0xa4, 0xa6, 0x40, 0x40, 0xe0, 0x9c, 0x60, 0x86, 0x82, 0x98, 0x98, 0x63, 0x03, 0xf0,
    0x41, 0x42]

/-- Second witness frame: the same header with information "CD". -/
def wit2 : List Byte :=
  [0x82, 0xa0, 0xa4, 0xa6, 0x40, 0x40, 0xe0, 0x9c, 0x60, 0x86, 0x82, 0x98, 0x98, 0x63, 0x03, 0xf0,
    0x43, 0x44]

/-- Line bits of a frame, without opening flag. -/
def witBits (p : List Byte) : List Int := (stuff (bytesBits (p ++ fcs p)) ++ flag).map bitInt

/-- **C12 is violated.** There is a history after which a frame with `Info` = "AB" is returned, and a
continuation (the next frame) after which the `Info` slice of that frame reads "CD". -/
theorem C12_violated : ∃ (h1 h2 : List Int) (fr : Frame) (off : Nat),
    (runMem newMDec h1).2.getLast? = some (some (fr, off)) ∧ fr.info = [0x41#8, 0x42#8] ∧
    readMem (runMem newMDec h1).1.mem off fr.info.length = [0x41#8, 0x42#8] ∧
    readMem (runMem newMDec (h1 ++ h2)).1.mem off fr.info.length = [0x43#8, 0x44#8] := by
  have key : ∃ fr off, (runMem newMDec (flag.map bitInt ++ witBits wit1)).2.getLast? = some (some (fr, off)) ∧
      fr.info = [0x41#8, 0x42#8] ∧ off = 16 := by
    have hk : ((runMem newMDec (flag.map bitInt ++ witBits wit1)).2.getLast?.bind id).map
        (fun x => (x.1.info, x.2)) = some ([0x41#8, 0x42#8], 16) := by decide +kernel
    rcases h : (runMem newMDec (flag.map bitInt ++ witBits wit1)).2.getLast? with _ | _ | ⟨fr, off⟩
    · rw [h] at hk; simp at hk
    · rw [h] at hk; simp at hk
    · rw [h] at hk
      simp only [Option.bind_some, id, Option.map_some, Option.some.injEq, Prod.mk.injEq] at hk
      exact ⟨fr, off, rfl, hk.1, hk.2⟩
  obtain ⟨fr, off, k1, k2, rfl⟩ := key
  refine ⟨flag.map bitInt ++ witBits wit1, witBits wit2, fr, 16, k1, k2, ?_, ?_⟩
  · rw [k2]; decide +kernel
  · rw [k2]; decide +kernel

/-- Non-vacuity of `C12_info_stable_partial`: a state and bit for which a frame is returned. -/
example : ∃ (d : MDec) (b : Int) (fr : Frame), (feedMem d b).2 = some (fr, 16) := by
  refine ⟨(runMem newMDec (flag.map bitInt ++ (witBits wit1).dropLast)).1, 0, ?_⟩
  have hk : (feedMem (runMem newMDec (flag.map bitInt ++ (witBits wit1).dropLast)).1 0).2.map
      Prod.snd = some 16 := by decide +kernel
  rcases h : (feedMem (runMem newMDec (flag.map bitInt ++ (witBits wit1).dropLast)).1 0).2 with _ | ⟨fr, off⟩
  · rw [h] at hk; simp at hk
  · rw [h] at hk
    simp only [Option.map_some, Option.some.injEq] at hk
    exact ⟨fr, by rw [hk]⟩

/-! ### C71: a frame is a whole number of octets -/

/-- Closing flag after arbitrary data bits. -/
theorem runRaw_closing_any {d : Dec} {mid : List Bool} (h : Mid d mid) (hc : cnt 0 mid < 5)
    (hl : (destuff mid).length + 7 < 4104) :
    ∃ buf : List Byte, bytesBits buf <+: destuff mid ++ flag.take 7 ∧
      (destuff mid ++ flag.take 7).length < 8 * buf.length + 8 ∧
      (runRaw d (flag.map bitInt)).2 = List.replicate 7 none ++ [if buf.length > 2 then some buf else none] := by
  have step : ∀ {d mid} (b : Bool), Mid d mid → cnt 0 mid < 6 → (b = false → cnt 0 mid < 5) →
      (feedRaw d (bitInt b)).2 = none ∧ Mid (feedRaw d (bitInt b)).1 (mid ++ [b]) ∧
        destuff (mid ++ [b]) = destuff mid ++ [b] := by
    intro d mid b h hc hl
    rcases mid_step h b with ⟨_, h1, h2⟩ | ⟨h6, _⟩ | ⟨h6, _⟩
    · refine ⟨h1, h2, ?_⟩
      simp only [destuff, destuffFrom_snoc]
      cases b
      · have := hl rfl
        rw [if_neg (by simp), if_neg (by omega)]
      · simp
    · omega
    · omega
  have c0 : cnt 0 (mid ++ [false]) = 0 := by rw [cnt_snoc]; simp
  have c1 : ∀ (m : List Bool) (k : Nat), cnt 0 m = k → cnt 0 (m ++ [true]) = k + 1 := by
    intro m k hk; rw [cnt_snoc]; simp [hk]
  obtain ⟨a1, a2, a3⟩ := step false h (by omega) (fun _ => hc)
  obtain ⟨b1, b2, b3⟩ := step true a2 (by omega) (by simp)
  have d1 := c1 _ _ c0
  obtain ⟨e1, e2, e3⟩ := step true b2 (by omega) (by simp)
  have d2 := c1 _ _ d1
  obtain ⟨f1, f2, f3⟩ := step true e2 (by omega) (by simp)
  have d3 := c1 _ _ d2
  obtain ⟨g1, g2, g3⟩ := step true f2 (by omega) (by simp)
  have d4 := c1 _ _ d3
  obtain ⟨h1, h2, h3⟩ := step true g2 (by omega) (by simp)
  have d5 := c1 _ _ d4
  obtain ⟨i1, i2, i3⟩ := step true h2 (by omega) (by simp)
  have d6 := c1 _ _ d5
  have hds : destuff (mid ++ [false] ++ [true] ++ [true] ++ [true] ++ [true] ++ [true] ++ [true]) =
      destuff mid ++ flag.take 7 := by
    rw [i3, h3, g3, f3, e3, b3, a3]; simp [flag]
  have hI := i2.fits (by rw [hds]; simp [flag]; omega)
  rw [hds] at hI
  obtain ⟨o1, o2⟩ := octets_of_InData hI
  rcases mid_step i2 false with ⟨h6, _⟩ | ⟨_, hh, _⟩ | ⟨_, _, _, hout⟩
  · omega
  · simp at hh
  · refine ⟨_, o1, o2, ?_⟩
    rw [hI.inFrame] at hout
    simp only [true_and] at hout
    simp only [flag, List.map_cons, List.map_nil, runRaw, a1, b1, e1, f1, g1, h1, i1, hout]
    simp [List.replicate_succ]

/-- **C71 is violated, for every misaligned frame.** From any decoder state: if `data` is any bit
string that is *not* a whole number of octets (more than 16 and fewer than 4096 bits), sent bit-stuffed
between two flags, then the decoder does not reject it but processes one octet *more* than complete
octets were sent, namely `data` completed by the first bits `0111111` of the closing flag. -/
theorem C71_violated_misaligned_processed (d : Dec) (data : List Bool) (hr : data.length % 8 ≠ 0)
    (h16 : 16 < data.length) (hlen : data.length < 4096) :
    ∃ buf : List Byte, bytesBits buf = data ++ (flag.take 7).take (8 - data.length % 8) ∧
      (runRaw (runRaw d (flag.map bitInt)).1 ((stuff data ++ flag).map bitInt)).2.getLast? =
        some (some buf) := by
  have h1 : (runRaw d (flag.map bitInt)).1 = startDec := runRaw_flag d
  obtain ⟨s1, mid', s2, s3, s4⟩ := mid_stuffFrom data startDec [] 0 Mid_start rfl (by omega)
  have s3' : destuff mid' = data := by simpa [destuff, destuffFrom] using s3
  obtain ⟨buf, b1, b2, b3⟩ := runRaw_closing_any s2 s4 (by rw [s3']; omega)
  rw [s3'] at b1 b2
  have hl7 : (flag.take 7).length = 7 := by decide
  rw [List.length_append, hl7] at b2
  have hbl := b1.length_le
  rw [bytesBits_length, List.length_append, hl7] at hbl
  have hb8 : 8 * buf.length = data.length + (8 - data.length % 8) := by omega
  refine ⟨buf, ?_, ?_⟩
  · have h2 : data ++ (flag.take 7).take (8 - data.length % 8) <+: data ++ flag.take 7 :=
      (List.prefix_append_right_inj data).2 (List.take_prefix _ _)
    have hle : (bytesBits buf).length =
        (data ++ (flag.take 7).take (8 - data.length % 8)).length := by
      rw [bytesBits_length, List.length_append, List.length_take, hl7]
      omega
    exact List.IsPrefix.eq_of_length (List.prefix_of_prefix_length_le b1 h2 (by omega)) hle
  · rw [h1, List.map_append, runRaw_append]
    simp only
    unfold stuff
    rw [b3, if_pos (by omega), ← List.append_assoc, List.getLast?_append]
    simp

/-- A payload whose frame check sequence happens to end in `fc`. -/
def wit3 : List Byte :=
  [0x82, 0xa0, 0xa4, 0xa6, 0x40, 0x40, 0xe0, 0x9c, 0x60, 0x86, 0x82, 0x98, 0x98, 0x63, 0x03, 0xf0,
    0x21]

/-- **C71 is violated, up to the returned frame.** Sending only the first 145 of the 152 bits of a
frame, followed by a flag, returns a frame. -/
theorem C71_violated_frame_returned : ∃ data : List Bool, data.length = 145 ∧
    ∃ (d : Dec) (outs : List (Option Frame)) (fr : Frame),
      run newDecoder ((flag ++ stuff data ++ flag).map bitInt) = some (d, outs) ∧
      outs.getLast? = some (some fr) ∧ fr.info = [0x21#8] := by
  refine ⟨(bytesBits (wit3 ++ fcs wit3)).take 145, by decide +kernel, ?_⟩
  have hk : ((run newDecoder ((flag ++ stuff ((bytesBits (wit3 ++ fcs wit3)).take 145) ++ flag).map
      bitInt)).bind (fun x => x.2.getLast?.bind id)).map Frame.info = some [0x21#8] := by
    decide +kernel
  rcases h : run newDecoder ((flag ++ stuff ((bytesBits (wit3 ++ fcs wit3)).take 145) ++ flag).map
      bitInt) with _ | ⟨d, outs⟩
  · rw [h] at hk; simp at hk
  · rw [h] at hk
    refine ⟨d, outs, ?_⟩
    rcases h2 : outs.getLast? with _ | _ | fr
    · simp [h2] at hk
    · simp [h2] at hk
    · simp only [Option.bind_some, h2, id, Option.map_some, Option.some.injEq] at hk
      exact ⟨fr, rfl, rfl, hk⟩

/-- **C71, the part that holds.** A misaligned frame returns no frame unless the octets completed by
the flag bits pass the frame check. -/
theorem C71_misaligned_rejected_partial (d : Dec) (data : List Bool) (hr : data.length % 8 ≠ 0)
    (h16 : 16 < data.length) (hlen : data.length < 4096)
    (hbad : ¬ goodBits (data ++ (flag.take 7).take (8 - data.length % 8))) :
    ∃ d' outs, run (runRaw d (flag.map bitInt)).1 ((stuff data ++ flag).map bitInt) = some (d', outs) ∧
      outs.getLast? = some none := by
  obtain ⟨buf, h1, h2⟩ := C71_violated_misaligned_processed d data hr h16 hlen
  refine ⟨_, _, run_eq _ _, ?_⟩
  rw [List.getLast?_map, h2]
  simp only [Option.map_some, Option.bind_some]
  rw [← h1] at hbad
  have hc : checkCrc buf = false := by
    by_contra hc
    exact hbad ((C01_check_is_good_residue buf).1 (by simpa using hc))
  unfold frameOf processFrame
  simp [hc]

/-- Non-vacuity. -/
example : ((List.replicate 21 true).length % 8 ≠ 0 ∧ 16 < (List.replicate 21 true).length ∧
    (List.replicate 21 true).length < 4096) ∧
    ¬ goodBits (List.replicate 21 true ++ (flag.take 7).take (8 - (List.replicate 21 true).length % 8)) := by
  unfold goodBits
  decide +kernel

end Verif.Ax25
