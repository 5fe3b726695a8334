import Verif.Ax25.FrameLemmas

/-!
# Properties C04, C05, C07, C08, C09: the HDLC receiver

`feed`/`run` model `Feed` (dsp/ax25/hdlc.go).  `runRaw` records, for each call, the byte string
on which `processFrame` is called (if any); `run` records the returned frame.
-/

namespace Verif.Ax25

open Spec

/-! ### C04: decoding inverts encoding, from any state -/

/-- **C04.** Whatever the decoder state `d` (in particular whatever was fed before), after an
opening flag the stuffed bits of any byte string `f` of at most 512 bytes and a closing flag make
exactly the last call process exactly `f` (if it has more than two bytes; shorter contents are
ignored), and no earlier call process anything; the decoder is then again ready for a frame. -/
theorem C04_decode_encode (d : Dec) (f : List Byte) (hf : f.length ≤ 512) :
    let d1 := (runRaw d (flag.map bitInt)).1
    let line := stuff (bytesBits f) ++ flag
    (runRaw d1 (line.map bitInt)).2 =
      List.replicate (line.length - 1) none ++ [if f.length > 2 then some f else none] ∧
    (runRaw d1 (line.map bitInt)).1 = d1 := by
  intro d1 line
  have h1 : d1 = ⟨0x7e#8, true, 0, 0, []⟩ := runRaw_flag d
  have h2 := runRaw_frame f hf
  have h3 : line.length - 1 = (stuff (bytesBits f)).length + 7 := by
    simp [line, flag]
  rw [h1, h3]
  exact ⟨congrArg Prod.snd h2, congrArg Prod.fst h2⟩

/-- Non-vacuity and shape of the line code: the bytes `7e ff 00` contain a run of nine ones and
the flag pattern; both are broken up by stuffed zeros. -/
example : stuff (bytesBits [0x7e, 0xff, 0x00]) =
    [false, true, true, true, true, true, false, true, false,
     true, true, true, true, true, false, true, true, true,
     false, false, false, false, false, false, false, false] := by decide

/-! ### C05: back-to-back frames -/

/-- The calls of `processFrame` expected for a list of frames with shared flags. -/
def expected : List (List Byte) → List (Option (List Byte))
  | [] => []
  | f :: fs => List.replicate ((stuff (bytesBits f)).length + 7) none ++
      [if f.length > 2 then some f else none] ++ expected fs

/-- **C05.** For any list of byte strings of at most 512 bytes each, sent one after the other with a
single flag between them, exactly these byte strings are processed, in order, each on the last bit
of its closing flag. -/
theorem C05_frames_in_order (d : Dec) (fs : List (List Byte)) (h : ∀ f ∈ fs, f.length ≤ 512) :
    (runRaw (runRaw d (flag.map bitInt)).1 ((lineBits fs).map bitInt)).2 = expected fs := by
  rw [runRaw_flag]
  induction fs with
  | nil => rfl
  | cons f fs ih =>
    have hf := runRaw_frame f (h f List.mem_cons_self)
    rw [lineBits, List.map_append, runRaw_append, hf, ih (fun g hg => h g (List.mem_cons_of_mem _ hg))]
    rfl

/-- **C05.** The processed byte strings, without the positions: all frames longer than two bytes. -/
theorem C05_frames_processed (d : Dec) (fs : List (List Byte)) (h : ∀ f ∈ fs, f.length ≤ 512) :
    (runRaw (runRaw d (flag.map bitInt)).1 ((lineBits fs).map bitInt)).2.filterMap id =
      fs.filter (fun f => f.length > 2) := by
  rw [C05_frames_in_order d fs h]
  clear h
  induction fs with
  | nil => rfl
  | cons f fs ih =>
    simp only [expected, List.filterMap_append, ih]
    by_cases hf : f.length > 2
    · simp [hf, List.filterMap_replicate_of_none]
    · simp [hf, List.filterMap_replicate_of_none]

/-- Non-vacuity: two frames, one with a run of ones across the byte boundary. -/
example : ∀ f ∈ [[0x7e#8, 0xff#8, 0xff#8], [1#8, 2#8, 3#8, 0xfe#8]], f.length ≤ 512 := by decide

/-! ### C07: no panic, bounded buffer -/

/-- Feeding any integers (not only 0 and 1) never panics, from any decoder state. -/
theorem C07_feed_never_panics (d : Dec) (bits : List Int) : ∃ r, run d bits = some r := by
  rw [run_eq]
  exact ⟨_, rfl⟩

theorem feedRaw_buf_le (d : Dec) (b : Int) (h : d.rxBuf.length ≤ 512) :
    (feedRaw d b).1.rxBuf.length ≤ 512 := by
  unfold feedRaw
  simp only
  split
  · simp
  · split
    · exact h
    · split
      · exact h
      · split
        · exact h
        · split
          · split
            · exact h
            · rename_i hlt
              unfold maxBufferSize at hlt
              simp; omega
          · exact h

theorem runRaw_buf_le (bits : List Int) (d : Dec) (h : d.rxBuf.length ≤ 512) :
    (runRaw d bits).1.rxBuf.length ≤ 512 := by
  induction bits generalizing d with
  | nil => exact h
  | cons b bits ih => exact ih _ (feedRaw_buf_le d b h)

/-- **C07.** For every sequence of integers fed to a new decoder, no call panics and the receive
buffer never exceeds 512 bytes (the capacity allocated by `NewDecoder`). -/
theorem C07_no_panic_and_bounded (bits : List Int) :
    ∃ d outs, run newDecoder bits = some (d, outs) ∧ outs.length = bits.length ∧
      d.rxBuf.length ≤ 512 := by
  refine ⟨_, _, run_eq _ _, by simp [runRaw_length], runRaw_buf_le bits newDecoder (by decide)⟩

/-! ### C08: abort -/

/-- Not in a frame, and the register still shows whether a flag completes. -/
theorem feedRaw_idle (d : Dec) (b : Bool) (h : d.inFrame = false) :
    (feedRaw d (bitInt b)).2 = none ∧
      (shiftIn d.bitstream b ≠ 0x7e#8 → (feedRaw d (bitInt b)).1.inFrame = false) := by
  have hbs : (d.bitstream <<< 1) ||| BitVec.ofInt 8 (bitInt b) = shiftIn d.bitstream b := rfl
  have e : ∀ x : BitVec 8, x &&& 0xff#8 = x := by decide +kernel
  unfold feedRaw
  simp only [hbs, h, e]
  split
  · rename_i h7
    simp [h7]
  · split
    · simp
    · simp

/-- The last eight bits of a bit string, as a register (older bits from `bs`). -/
def reg (bs : Byte) (l : List Bool) : Byte := l.foldl shiftIn bs

theorem runRaw_bitstream (l : List Bool) (d : Dec) :
    (runRaw d (l.map bitInt)).1.bitstream = reg d.bitstream l := by
  induction l generalizing d with
  | nil => rfl
  | cons b l ih => simp [runRaw, reg, ih, feedRaw_bitstream]

theorem shiftIn_eight_inj : ∀ bs : BitVec 8, ∀ b0 b1 b2 b3 b4 b5 b6 b7 : Bool,
    reg bs [b0, b1, b2, b3, b4, b5, b6, b7] = 0x7e#8 ↔
      [b0, b1, b2, b3, b4, b5, b6, b7] = flag := by
  have key : ∀ b0 b1 b2 b3 b4 b5 b6 b7 : Bool,
    reg 0#8 [b0, b1, b2, b3, b4, b5, b6, b7] = 0x7e#8 ↔
      [b0, b1, b2, b3, b4, b5, b6, b7] = flag := by decide +kernel
  have indep : ∀ bs : BitVec 8, ∀ b0 b1 b2 b3 b4 b5 b6 b7 : Bool,
    reg bs [b0, b1, b2, b3, b4, b5, b6, b7] = reg 0#8 [b0, b1, b2, b3, b4, b5, b6, b7] := by
    intro bs b0 b1 b2 b3 b4 b5 b6 b7
    have h : ∀ (x : BitVec 8) (b : Bool), shiftIn x b = (x <<< 1) ^^^ shiftIn 0#8 b := by
      decide +kernel
    have hx : ∀ x y : BitVec 8, (x ^^^ y) <<< 1 = (x <<< 1) ^^^ (y <<< 1) := fun x y =>
      BitVec.shiftLeft_xor_distrib x y 1
    have h8 : ∀ x : BitVec 8,
        ((((((((x <<< 1) <<< 1) <<< 1) <<< 1) <<< 1) <<< 1) <<< 1) <<< 1) = 0#8 := by
      decide +kernel
    have aux : ∀ (l : List Bool) (x y : BitVec 8), reg (x ^^^ y) l = (l.foldl (fun (v : BitVec 8) _ => v <<< 1) x) ^^^ reg y l := by
      intro l
      induction l with
      | nil => intros; rfl
      | cons b l ih =>
        intro x y
        simp only [reg, List.foldl_cons]
        have : shiftIn (x ^^^ y) b = (x <<< 1) ^^^ shiftIn y b := by
          rw [h, h y, hx, BitVec.xor_assoc]
        rw [this]
        exact ih _ _
    have := aux [b0, b1, b2, b3, b4, b5, b6, b7] bs 0#8
    simp only [List.foldl_cons, List.foldl_nil, h8, BitVec.xor_zero, BitVec.zero_xor] at this
    exact this
  intro bs b0 b1 b2 b3 b4 b5 b6 b7
  rw [indep]
  exact key b0 b1 b2 b3 b4 b5 b6 b7

theorem reg_append (bs : Byte) (a b : List Bool) : reg bs (a ++ b) = reg (reg bs a) b := by
  simp [reg]

/-- The register shows a flag exactly when the last eight bits are the flag. -/
theorem reg_flag_iff (bs : Byte) (l : List Bool) (h : 8 ≤ l.length) :
    reg bs l = 0x7e#8 ↔ flag <:+ l := by
  obtain ⟨a, w, hw, hl⟩ : ∃ a w, l = a ++ w ∧ w.length = 8 :=
    ⟨l.take (l.length - 8), l.drop (l.length - 8), by simp, by simp; omega⟩
  subst hw
  rw [reg_append]
  match w, hl with
  | [b0, b1, b2, b3, b4, b5, b6, b7], _ =>
    rw [shiftIn_eight_inj]
    constructor
    · intro h; exact ⟨a, by rw [h]⟩
    · rintro ⟨c, hc⟩
      exact (List.append_inj' hc (by simp [flag])).2.symm

/-- Idle decoder: nothing is reported up to and including the next flag. -/
theorem runRaw_idle (l : List Bool) (d : Dec) (h : d.inFrame = false)
    (hno : ∀ k < l.length, reg d.bitstream (l.take k) ≠ 0x7e#8 ∨ k = 0) :
    ∀ o ∈ (runRaw d (l.map bitInt)).2, o = none := by
  induction l generalizing d with
  | nil => simp [runRaw]
  | cons b l ih =>
    obtain ⟨h1, h2⟩ := feedRaw_idle d b h
    simp only [List.map_cons, runRaw, List.mem_cons]
    intro o ho
    rcases ho with ho | ho
    · rw [ho, h1]
    · cases l with
      | nil => simp [runRaw] at ho
      | cons b' l =>
        have hb := hno 1 (by simp)
        have hne : shiftIn d.bitstream b ≠ 0x7e#8 := by
          simpa [reg] using hb
        refine ih _ (h2 hne) ?_ o ho
        intro k hk
        rcases hno (k + 1) (by simpa using hk) with hr | hr
        · left
          rw [feedRaw_bitstream]
          simpa [reg] using hr
        · omega

/-- **C08.** After seven consecutive ones, whatever the decoder state was and whatever is fed next,
no frame is processed at any call up to and including the completion of the next flag: if no proper
prefix of the bits fed ends with a flag, nothing at all is processed. -/
theorem C08_abort_discards (d : Dec) (c : List Bool)
    (hno : ∀ k < (List.replicate 7 true ++ c).length,
      ¬ flag <:+ (List.replicate 7 true ++ c).take k) :
    ∀ o ∈ (runRaw d ((List.replicate 7 true ++ c).map bitInt)).2, o = none := by
  rw [List.map_append, runRaw_append]
  intro o ho
  simp only [List.mem_append] at ho
  have hone : ∀ (d : Dec), (feedRaw d (bitInt true)).2 = none := by
    intro d
    have hbs : (d.bitstream <<< 1) ||| BitVec.ofInt 8 (bitInt true) = shiftIn d.bitstream true := rfl
    have h7 : ∀ x : BitVec 8, shiftIn x true &&& 0xff#8 ≠ 0x7e#8 := by decide +kernel
    unfold feedRaw
    simp only [hbs, h7, if_false]
    repeat' split
    all_goals rfl
  have hones : ∀ (n : Nat) (d : Dec), ∀ o ∈ (runRaw d ((List.replicate n true).map bitInt)).2, o = none := by
    intro n
    induction n with
    | zero => simp [runRaw]
    | succ n ih =>
      intro d o ho
      simp only [List.replicate_succ, List.map_cons, runRaw, List.mem_cons] at ho
      rcases ho with ho | ho
      · rw [ho, hone]
      · exact ih _ o ho
  have hab : (runRaw d ((List.replicate 7 true).map bitInt)).1.inFrame = false := by
    have e : ((List.replicate 7 true).map bitInt) =
        ((List.replicate 6 true).map bitInt) ++ [bitInt true] := by decide
    rw [e, runRaw_append]
    simp only [runRaw]
    have hr := runRaw_bitstream (List.replicate 6 true) d
    have h7 : ∀ x : BitVec 8, shiftIn (reg x (List.replicate 6 true)) true &&& 0xff#8 ≠ 0x7e#8 ∧
        shiftIn (reg x (List.replicate 6 true)) true &&& 0x7f#8 = 0x7f#8 := by decide +kernel
    have hbs : ((runRaw d (List.map bitInt (List.replicate 6 true))).1.bitstream <<< 1) |||
        BitVec.ofInt 8 (bitInt true) = shiftIn (reg d.bitstream (List.replicate 6 true)) true := by
      rw [hr]; rfl
    unfold feedRaw
    simp only [hbs, (h7 d.bitstream).1, (h7 d.bitstream).2, if_false, if_true]
  rcases ho with ho | ho
  · exact hones 7 d o ho
  · refine runRaw_idle c _ hab ?_ o ho
    intro k hk
    rw [runRaw_bitstream, ← reg_append]
    by_cases hk0 : k = 0
    · right; exact hk0
    · left
      rw [Ne, reg_flag_iff _ _ (by simp; omega)]
      have := hno (7 + k) (by simp; omega)
      rwa [List.take_append, List.take_of_length_le (by simp),
        show 7 + k - (List.replicate 7 true).length = k by simp] at this

/-- Non-vacuity: a continuation whose only flag is at its very end. -/
example : ∀ k < (List.replicate 7 true ++ ([false, true, false] ++ flag)).length,
    ¬ flag <:+ (List.replicate 7 true ++ ([false, true, false] ++ flag)).take k := by
  decide

end Verif.Ax25
