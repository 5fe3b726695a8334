import Verif.Ax25.HdlcModel
import Verif.Ax25.HdlcSpec
import Verif.Ax25.CrcLemmas

/-! # Helper lemmas for the HDLC bit-level properties -/

namespace Verif.Ax25

open Spec

/-- The shift register ends in a zero followed by exactly `n` ones. -/
def Tail (bs : Byte) (n : Nat) : Prop := bs.toNat % 2 ^ (n + 1) = 2 ^ n - 1

instance (bs : Byte) (n : Nat) : Decidable (Tail bs n) := by unfold Tail; infer_instance

/-- The shift register after a bit. -/
def shiftIn (bs : Byte) (b : Bool) : Byte := (bs <<< 1) ||| BitVec.ofInt 8 (bitInt b)

theorem tail_false : ∀ bs : BitVec 8, ∀ n < 5, Tail bs n →
    shiftIn bs false &&& 0xff#8 ≠ 0x7e#8 ∧ shiftIn bs false &&& 0x7f#8 ≠ 0x7f#8 ∧
    shiftIn bs false &&& 0x3f#8 ≠ 0x3e#8 ∧ Tail (shiftIn bs false) 0 := by
  decide +kernel

theorem tail_true : ∀ bs : BitVec 8, ∀ n < 6, Tail bs n →
    shiftIn bs true &&& 0xff#8 ≠ 0x7e#8 ∧ shiftIn bs true &&& 0x7f#8 ≠ 0x7f#8 ∧
    shiftIn bs true &&& 0x3f#8 ≠ 0x3e#8 ∧ Tail (shiftIn bs true) (n + 1) := by
  decide +kernel

theorem tail_stuffed : ∀ bs : BitVec 8, Tail bs 5 →
    shiftIn bs false &&& 0xff#8 ≠ 0x7e#8 ∧ shiftIn bs false &&& 0x7f#8 ≠ 0x7f#8 ∧
    shiftIn bs false &&& 0x3f#8 = 0x3e#8 ∧ Tail (shiftIn bs false) 0 := by
  decide +kernel

theorem tail_flag : ∀ bs : BitVec 8, Tail bs 6 → shiftIn bs false &&& 0xff#8 = 0x7e#8 ∧
    shiftIn bs false = 0x7e#8 := by
  decide +kernel

theorem tail_abort : ∀ bs : BitVec 8, Tail bs 6 →
    shiftIn bs true &&& 0xff#8 ≠ 0x7e#8 ∧ shiftIn bs true &&& 0x7f#8 = 0x7f#8 := by
  decide +kernel

/-- Partial byte: the receive register after shifting in the bits `p`. -/
def shiftBits (p : List Bool) : Byte :=
  p.foldl (fun r b => if bitInt b ≠ 0 then (r >>> 1) ||| 0x80#8 else r >>> 1) 0#8

theorem shiftBits_snoc (p : List Bool) (b : Bool) :
    shiftBits (p ++ [b]) =
      if bitInt b ≠ 0 then (shiftBits p >>> 1) ||| 0x80#8 else shiftBits p >>> 1 := by
  simp [shiftBits]

theorem byteBits_shiftBits8 : ∀ b0 b1 b2 b3 b4 b5 b6 b7 : Bool,
    byteBits (shiftBits [b0, b1, b2, b3, b4, b5, b6, b7]) = [b0, b1, b2, b3, b4, b5, b6, b7] := by
  decide +kernel

theorem byteBits_shiftBits (p : List Bool) (h : p.length = 8) : byteBits (shiftBits p) = p := by
  match p, h with
  | [b0, b1, b2, b3, b4, b5, b6, b7], _ => exact byteBits_shiftBits8 b0 b1 b2 b3 b4 b5 b6 b7

theorem bytesBits_snoc (bs : List Byte) (b : Byte) :
    bytesBits (bs ++ [b]) = bytesBits bs ++ byteBits b := by
  simp [bytesBits]

theorem bytesBits_cons (bs : List Byte) (b : Byte) :
    bytesBits (b :: bs) = byteBits b ++ bytesBits bs := by
  simp [bytesBits]

theorem bytesBits_inj (a b : List Byte) (h : bytesBits a = bytesBits b) : a = b := by
  induction a generalizing b with
  | nil =>
    cases b with
    | nil => rfl
    | cons y b =>
      have := congrArg List.length h
      simp [bytesBits_length] at this
  | cons x a ih =>
    cases b with
    | nil =>
      have := congrArg List.length h
      simp [bytesBits_length] at this
    | cons y b =>
      rw [bytesBits_cons, bytesBits_cons] at h
      obtain ⟨h1, h2⟩ := List.append_inj h (by simp [byteBits_length])
      rw [byteBits_inj x y h1, ih b h2]

/-- In a frame, the data bits received so far are `bits`. -/
structure InData (d : Dec) (bits : List Bool) : Prop where
  inFrame : d.inFrame = true
  pend : ∃ p : List Bool, p.length = d.rxBitI ∧ p.length < 8 ∧ d.rxBits = shiftBits p ∧
    bytesBits d.rxBuf ++ p = bits

theorem InData.bits_div {d : Dec} {bits : List Bool} (h : InData d bits) :
    d.rxBuf.length = bits.length / 8 := by
  obtain ⟨p, _, h8, _, h2⟩ := h.pend
  have := congrArg List.length h2
  rw [List.length_append, bytesBits_length] at this
  omega

/-- A data bit (no flag, abort or stuffing pattern) is appended. -/
theorem feedRaw_data {d : Dec} {bits : List Bool} (h : InData d bits) (b : Bool)
    (hlen : bits.length % 8 = 7 → bits.length < 4096)
    (h1 : shiftIn d.bitstream b &&& 0xff#8 ≠ 0x7e#8) (h2 : shiftIn d.bitstream b &&& 0x7f#8 ≠ 0x7f#8)
    (h3 : shiftIn d.bitstream b &&& 0x3f#8 ≠ 0x3e#8) :
    (feedRaw d (bitInt b)).2 = none ∧
      (feedRaw d (bitInt b)).1.bitstream = shiftIn d.bitstream b ∧
      InData (feedRaw d (bitInt b)).1 (bits ++ [b]) := by
  have hin := h.inFrame
  have hdiv := h.bits_div
  obtain ⟨p, hp1, hp8, hp2, hp3⟩ := h.pend
  have hbs : (d.bitstream <<< 1) ||| BitVec.ofInt 8 (bitInt b) = shiftIn d.bitstream b := rfl
  unfold feedRaw
  simp only [hbs, h1, h2, h3, hin, if_false, Bool.true_eq_false]
  by_cases h8 : d.rxBitI + 1 = 8
  · have hl : ¬ (d.rxBuf.length ≥ maxBufferSize) := by
      unfold maxBufferSize
      have := congrArg List.length hp3
      rw [List.length_append, bytesBits_length] at this
      omega
    simp only [h8, if_true, hl, if_false]
    refine ⟨trivial, trivial, ⟨rfl, [], by simp, by simp, by simp [shiftBits], ?_⟩⟩
    simp only [List.append_nil]
    rw [bytesBits_snoc, hp2, ← shiftBits_snoc, byteBits_shiftBits _ (by simp; omega), ← hp3]
    simp
  · simp only [h8, if_false]
    refine ⟨trivial, trivial, ⟨rfl, p ++ [b], by simp [hp1], by simp; omega, ?_, ?_⟩⟩
    · rw [shiftBits_snoc, hp2]
    · rw [← hp3]; simp

/-- A stuffed zero is skipped. -/
theorem feedRaw_stuffed {d : Dec} {bits : List Bool} (h : InData d bits) (ht : Tail d.bitstream 5) :
    (feedRaw d (bitInt false)).2 = none ∧
      (feedRaw d (bitInt false)).1.bitstream = shiftIn d.bitstream false ∧
      InData (feedRaw d (bitInt false)).1 bits := by
  have hin := h.inFrame
  obtain ⟨h1, h2, h3, _⟩ := tail_stuffed _ ht
  have hbs : (d.bitstream <<< 1) ||| BitVec.ofInt 8 (bitInt false) = shiftIn d.bitstream false := rfl
  unfold feedRaw
  simp only [hbs, h1, h2, h3, hin, if_false, if_true, Bool.true_eq_false]
  exact ⟨trivial, trivial, ⟨rfl, h.pend⟩⟩

/-- The last bit of a flag. -/
theorem feedRaw_flag {d : Dec} (h : shiftIn d.bitstream false = 0x7e#8) :
    (feedRaw d (bitInt false)).2 =
        (if d.inFrame = true ∧ d.rxBuf.length > 2 then some d.rxBuf else none) ∧
      (feedRaw d (bitInt false)).1 = ⟨0x7e#8, true, 0, 0, []⟩ := by
  have hbs : (d.bitstream <<< 1) ||| BitVec.ofInt 8 (bitInt false) = shiftIn d.bitstream false := rfl
  unfold feedRaw
  have e : (0x7e#8 : BitVec 8) &&& 0xff#8 = 0x7e#8 := by decide
  simp only [hbs, h, e, if_true]
  trivial

theorem runRaw_append (d : Dec) (a b : List Int) :
    runRaw d (a ++ b) =
      ((runRaw (runRaw d a).1 b).1, (runRaw d a).2 ++ (runRaw (runRaw d a).1 b).2) := by
  induction a generalizing d with
  | nil => simp [runRaw]
  | cons x a ih => simp [runRaw, ih]

theorem runRaw_length (d : Dec) (a : List Int) : (runRaw d a).2.length = a.length := by
  induction a generalizing d with
  | nil => rfl
  | cons x a ih => simp [runRaw, ih]

/-- Feeding stuffed data bits. -/
theorem runRaw_stuffFrom (data : List Bool) (d : Dec) (bits : List Bool) (n : Nat)
    (h : InData d bits) (hn : n < 5) (ht : Tail d.bitstream n)
    (hlen : bits.length + data.length ≤ 4096) :
    (runRaw d ((stuffFrom n data).map bitInt)).2 =
        List.replicate (stuffFrom n data).length none ∧
      InData (runRaw d ((stuffFrom n data).map bitInt)).1 (bits ++ data) ∧
      ∃ m < 5, Tail (runRaw d ((stuffFrom n data).map bitInt)).1.bitstream m := by
  induction data generalizing d bits n with
  | nil => simp only [stuffFrom, List.map_nil, runRaw, List.append_nil]; exact ⟨rfl, h, n, hn, ht⟩
  | cons b data ih =>
    simp only [List.length_cons] at hlen
    cases b with
    | false =>
      obtain ⟨t1, t2, t3, t4⟩ := tail_false _ n hn ht
      obtain ⟨f1, f2, f3⟩ := feedRaw_data h false (by omega) t1 t2 t3
      rw [← f2] at t4
      obtain ⟨i1, i2, i3⟩ := ih _ _ 0 f3 (by omega) t4 (by simp; omega)
      simp only [stuffFrom, List.map_cons, runRaw, f1, i1, List.length_cons, List.replicate_succ]
      refine ⟨trivial, ?_, i3⟩
      simpa using i2
    | true =>
      obtain ⟨t1, t2, t3, t4⟩ := tail_true _ n (by omega) ht
      obtain ⟨f1, f2, f3⟩ := feedRaw_data h true (by omega) t1 t2 t3
      rw [← f2] at t4
      by_cases h4 : n = 4
      · subst h4
        obtain ⟨g1, g2, g3⟩ := feedRaw_stuffed f3 t4
        obtain ⟨_, _, _, u4⟩ := tail_stuffed _ t4
        rw [← g2] at u4
        obtain ⟨i1, i2, i3⟩ := ih _ _ 0 g3 (by omega) u4 (by simp; omega)
        simp only [stuffFrom, if_true, List.map_cons, runRaw, f1, g1, i1, List.length_cons,
          List.replicate_succ]
        refine ⟨trivial, ?_, i3⟩
        simpa using i2
      · obtain ⟨i1, i2, i3⟩ := ih _ _ (n + 1) f3 (by omega) t4 (by simp; omega)
        simp only [stuffFrom, h4, if_false, List.map_cons, runRaw, f1, i1, List.length_cons,
          List.replicate_succ]
        refine ⟨trivial, ?_, i3⟩
        simpa using i2

/-- Any eight bits determine the register. -/
theorem shiftIn8 : ∀ bs : BitVec 8,
    shiftIn (shiftIn (shiftIn (shiftIn (shiftIn (shiftIn (shiftIn bs false) true) true) true) true)
      true) true = 0x3f#8 ||| (bs <<< 7) := by
  decide +kernel

theorem feedRaw_bitstream (d : Dec) (b : Bool) :
    (feedRaw d (bitInt b)).1.bitstream = shiftIn d.bitstream b := by
  have hbs : (d.bitstream <<< 1) ||| BitVec.ofInt 8 (bitInt b) = shiftIn d.bitstream b := rfl
  unfold feedRaw
  simp only [hbs]
  split
  · rfl
  · split
    · rfl
    · split
      · rfl
      · split
        · rfl
        · split
          · split <;> rfl
          · rfl

/-- After any history, a flag leaves the decoder at the start of a frame. -/
theorem runRaw_flag (d : Dec) : (runRaw d (flag.map bitInt)).1 = ⟨0x7e#8, true, 0, 0, []⟩ := by
  simp only [flag, List.map_cons, List.map_nil, runRaw]
  apply (feedRaw_flag _).2
  simp only [feedRaw_bitstream]
  rw [shiftIn8]
  generalize d.bitstream = bs
  revert bs
  decide +kernel

/-- The closing flag after complete bytes hands the bytes to `processFrame`. -/
theorem runRaw_closing (d : Dec) (f : List Byte) (n : Nat) (hn : n < 5) (ht : Tail d.bitstream n)
    (h : InData d (bytesBits f)) :
    runRaw d (flag.map bitInt) = (⟨0x7e#8, true, 0, 0, []⟩,
      List.replicate 7 none ++ [if f.length > 2 then some f else none]) := by
  have hl := bytesBits_length f
  obtain ⟨t1, t2, t3, t4⟩ := tail_false _ n hn ht
  obtain ⟨a1, a2, h⟩ := feedRaw_data h false (by omega) t1 t2 t3
  rw [← a2] at t4
  obtain ⟨t1, t2, t3, t4⟩ := tail_true _ _ (by omega) t4
  obtain ⟨b1, b2, h⟩ := feedRaw_data h true (by simp; omega) t1 t2 t3
  rw [← b2] at t4
  obtain ⟨t1, t2, t3, t4⟩ := tail_true _ _ (by omega) t4
  obtain ⟨c1, c2, h⟩ := feedRaw_data h true (by simp; omega) t1 t2 t3
  rw [← c2] at t4
  obtain ⟨t1, t2, t3, t4⟩ := tail_true _ _ (by omega) t4
  obtain ⟨d1, d2, h⟩ := feedRaw_data h true (by simp; omega) t1 t2 t3
  rw [← d2] at t4
  obtain ⟨t1, t2, t3, t4⟩ := tail_true _ _ (by omega) t4
  obtain ⟨e1, e2, h⟩ := feedRaw_data h true (by simp; omega) t1 t2 t3
  rw [← e2] at t4
  obtain ⟨t1, t2, t3, t4⟩ := tail_true _ _ (by omega) t4
  obtain ⟨f1, f2, h⟩ := feedRaw_data h true (by simp; omega) t1 t2 t3
  rw [← f2] at t4
  obtain ⟨t1, t2, t3, t4⟩ := tail_true _ _ (by omega) t4
  obtain ⟨g1, g2, h⟩ := feedRaw_data h true (by simp; omega) t1 t2 t3
  rw [← g2] at t4
  obtain ⟨_, t5⟩ := tail_flag _ t4
  obtain ⟨k1, k2⟩ := feedRaw_flag t5
  have hdiv := h.bits_div
  have hbuf : ∀ e : Dec, InData e
      (bytesBits f ++ [false] ++ [true] ++ [true] ++ [true] ++ [true] ++ [true] ++ [true]) →
      e.rxBuf = f := by
    intro e he
    obtain ⟨p, hp1, hp8, hp2, hp3⟩ := he.pend
    apply bytesBits_inj
    have hlen := congrArg List.length hp3
    simp only [List.length_append, bytesBits_length, List.length_cons, List.length_nil] at hlen
    have : e.rxBuf.length = f.length := by omega
    simp only [List.append_assoc] at hp3
    exact (List.append_inj hp3 (by rw [bytesBits_length, bytesBits_length, this])).1
  have hb := hbuf _ h
  have hin := h.inFrame
  rw [hb, hin] at k1
  simp only [true_and] at k1
  simp only [flag, List.map_cons, List.map_nil, runRaw, a1, b1, c1, d1, e1, f1, g1, k1, k2]
  simp [List.replicate_succ]

theorem InData_start : InData ⟨0x7e#8, true, 0, 0, []⟩ [] :=
  ⟨rfl, [], rfl, by decide, by simp [shiftBits], by simp [bytesBits]⟩

theorem Tail_start : Tail (0x7e#8) 0 := by decide

/-- One stuffed frame and its closing flag, after an opening flag. -/
theorem runRaw_frame (f : List Byte) (hf : f.length ≤ 512) :
    runRaw ⟨0x7e#8, true, 0, 0, []⟩ ((stuff (bytesBits f) ++ flag).map bitInt) =
      (⟨0x7e#8, true, 0, 0, []⟩, List.replicate ((stuff (bytesBits f)).length + 7) none ++
        [if f.length > 2 then some f else none]) := by
  obtain ⟨h1, h2, m, hm, h3⟩ := runRaw_stuffFrom (bytesBits f) ⟨0x7e#8, true, 0, 0, []⟩ [] 0
    InData_start (by omega) Tail_start (by rw [bytesBits_length]; simp; omega)
  rw [List.nil_append] at h2
  have h4 := runRaw_closing _ f m hm h3 h2
  rw [List.map_append, runRaw_append]
  unfold stuff
  rw [h4, h1, List.replicate_add]
  simp

end Verif.Ax25
