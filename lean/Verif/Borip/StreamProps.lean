import Verif.Borip.StreamModel
import Verif.Conv.ConvProps
import Mathlib.Data.List.Basic
import Mathlib.Data.List.Flatten

/-!
# Property C65 of the server's datagrams
-/

namespace Verif.Borip
open Verif.Conv

/-! ## Specification -/

/-- The payload for a run of device bytes: each becomes a little-endian 16-bit sample. -/
def converted (xs : List (BitVec 8)) : List (BitVec 8) :=
  xs.flatMap fun v => [octet 0 (BitVec.ofInt 16 (widen v.toNat)).toNat, octet 1 (BitVec.ofInt 16 (widen v.toNat)).toNat]

/-- The header of datagram number `k` of a stream: start flag on the first, then zero, then the number
modulo 65536, least significant byte first. -/
def header (k : Nat) : List (BitVec 8) := [if k = 0 then 0x10 else 0, 0, BitVec.ofNat 8 (k % 65536 % 256), BitVec.ofNat 8 (k % 65536 / 256)]

/-- A buffer, as the driver hands it over, that does not overlap the server's output buffer. -/
def Apart (base : Nat) (e : (Nat → BitVec 8) × Slice) : Prop := e.2.base + e.2.len ≤ base ∨ base + 16388 ≤ e.2.base

/-- The bytes of a buffer. -/
def deviceBytes (e : (Nat → BitVec 8) × Slice) : List (BitVec 8) := bytesOf e.1 e.2

/-! ## What the loop sends -/

/-- Sizes of the packets for a buffer. -/
def sizes (len : Nat) : List Nat := (List.range ((len + 8191) / 8192)).map fun j => min 8192 (len - 8192 * j)

/-- The payloads the code sends for a buffer. -/
def payloads (xs : List (BitVec 8)) : List (List (BitVec 8)) := (sizes xs.length).map fun n => converted (xs.take n)

/-- Datagrams from a sequence of payloads, the first having number `k`. -/
def framed (k : Nat) (ps : List (List (BitVec 8))) : List (List (BitVec 8)) := (ps.zipIdx k).map fun p => header p.2 ++ p.1

theorem framed_append (k : Nat) (ps qs : List (List (BitVec 8))) : framed k (ps ++ qs) = framed k ps ++ framed (k + ps.length) qs := by
  rw [framed, List.zipIdx_append, List.map_append]
  rfl

theorem framed_cons (k : Nat) (p : List (BitVec 8)) (ps : List (List (BitVec 8))) : framed k (p :: ps) = (header k ++ p) :: framed (k + 1) ps := by
  simp [framed, List.zipIdx_cons]

theorem converted_get (xs : List (BitVec 8)) (j : Nat) : (converted xs)[j]? =
    xs[j / 2]?.map fun v => octet (j % 2) (BitVec.ofInt 16 (widen v.toNat)).toNat := by
  induction xs generalizing j with
  | nil => simp [converted]
  | cons x xs ih =>
    match j with
    | 0 => rfl
    | 1 => rfl
    | j + 2 =>
      have h1 : (j + 2) / 2 = j / 2 + 1 := by omega
      have h2 : (j + 2) % 2 = j % 2 := by omega
      rw [h1, h2, List.getElem?_cons_succ, ← ih j]
      rfl

theorem converted_length (xs : List (BitVec 8)) : (converted xs).length = 2 * xs.length := by
  induction xs with
  | nil => rfl
  | cons x xs ih =>
    have : converted (x :: xs) = octet 0 (BitVec.ofInt 16 (widen x.toNat)).toNat :: octet 1 (BitVec.ofInt 16 (widen x.toNat)).toNat :: converted xs := rfl
    rw [this, List.length_cons, List.length_cons, List.length_cons, ih]
    omega

theorem bytesOf_get (m : Nat → BitVec 8) (s : Slice) (i : Nat) : (bytesOf m s)[i]? = if i < s.len then some (m (s.base + i)) else none := by
  unfold bytesOf
  split
  · rename_i h; simp [h]
  · rename_i h; simp [Nat.not_lt.mp h]

theorem bytesOf_length (m : Nat → BitVec 8) (s : Slice) : (bytesOf m s).length = s.len := by simp [bytesOf]

/-- The state between packets. -/
def Ready (st : Stream) : Prop :=
  st.bufOut.len = 16388 ∧ (st.first = true ↔ st.seq = 0) ∧ st.m st.bufOut.base = (if st.seq = 0 then 0x10 else 0) ∧ st.m (st.bufOut.base + 1) = 0

theorem packet_sends (st : Stream) (h : Ready st) (buf : Slice) (hap : buf.base + buf.len ≤ st.bufOut.base ∨ st.bufOut.base + 16388 ≤ buf.base)
    (n : Nat) (hn : n ≤ 8192) (hb : n ≤ buf.len) :
    ∃ st', packet st buf n = some st' ∧ Ready st' ∧ st'.bufOut = st.bufOut ∧ st'.seq = st.seq + 1 ∧
      st'.sent = st.sent ++ [header st.seq ++ converted ((bytesOf st.m buf).take n)] ∧
      ∀ a, ¬(st.bufOut.base ≤ a ∧ a < st.bufOut.base + 16388) → st'.m a = st.m a := by
  obtain ⟨hl, hf, h0, h1⟩ := h
  obtain ⟨m, ⟨O, len⟩, first, seq, sent⟩ := st
  simp only at hl hf h0 h1 hap ⊢
  subst hl
  let m2 : Nat → BitVec 8 := Function.update (Function.update m (O + 2) (BitVec.ofNat 8 (seq &&& 0xff))) (O + 3) (BitVec.ofNat 8 (seq >>> 8))
  have hm2 : ∀ a, a ≠ O + 2 → a ≠ O + 3 → m2 a = m a := by
    intro a ha hb
    simp only [m2]
    rw [Function.update_of_ne hb, Function.update_of_ne ha]
  have e22 : m2 (O + 2) = BitVec.ofNat 8 (seq &&& 0xff) := by
    simp only [m2]
    rw [Function.update_of_ne (by omega), Function.update_self]
  have e23 : m2 (O + 3) = BitVec.ofNat 8 (seq >>> 8) := by
    simp only [m2]
    rw [Function.update_self]
  let g : Nat → BitVec 8 := fun j => octet (j % 2) (BitVec.ofInt 16 (widen (m2 (buf.base + j / 2)).toNat)).toNat
  let m3 : Nat → BitVec 8 := fill m2 (O + 4) (2 * n) g
  have hconv : ui8toi16b ⟨buf.base, n⟩ ⟨O + 4, 16388 - 4⟩ m2 = some m3 := by
    have := C14_ui8toi16b ⟨buf.base, n⟩ ⟨O + 4, 16388 - 4⟩ m2 (by simp only; omega)
    simp only at this
    rw [show min ((16388 - 4) / 2) n = n by omega] at this
    exact this
  have hsent : bytesOf m3 ⟨O, 4 + n * 2⟩ = header seq ++ converted ((bytesOf m buf).take n) := by
    have hlen : (header seq).length = 4 := rfl
    apply List.ext_getElem?
    intro i
    rw [bytesOf_get]
    simp only
    by_cases hi : i < 4
    · rw [if_pos (by omega), List.getElem?_append_left (by rw [hlen]; exact hi)]
      have e : m3 (O + i) = m2 (O + i) := fill_out (by omega)
      rw [e]
      match i, hi with
      | 0, _ => rw [hm2 _ (by omega) (by omega), Nat.add_zero, h0]; rfl
      | 1, _ => rw [hm2 _ (by omega) (by omega), h1]; rfl
      | 2, _ =>
        rw [e22]
        simp only [header, List.getElem?_cons_succ, List.getElem?_cons_zero, Option.some.injEq]
        apply BitVec.eq_of_toNat_eq
        rw [BitVec.toNat_ofNat, BitVec.toNat_ofNat, show (0xff : Nat) = 2 ^ 8 - 1 from rfl, Nat.and_two_pow_sub_one_eq_mod]
        omega
      | 3, _ =>
        rw [e23]
        simp only [header, List.getElem?_cons_succ, List.getElem?_cons_zero, Option.some.injEq]
        apply BitVec.eq_of_toNat_eq
        rw [BitVec.toNat_ofNat, BitVec.toNat_ofNat, Nat.shiftRight_eq_div_pow]
        omega
    · rw [List.getElem?_append_right (by rw [hlen]; omega), hlen, converted_get]
      by_cases hi2 : i < 4 + n * 2
      · rw [if_pos hi2, List.getElem?_take_of_lt (by omega), bytesOf_get, if_pos (by omega), Option.map_some]
        congr 1
        obtain ⟨j, rfl⟩ := Nat.exists_eq_add_of_le (Nat.not_lt.mp hi)
        have e : m3 (O + (4 + j)) = g j := by
          rw [← Nat.add_assoc]
          exact fill_in (by omega)
        rw [e, Nat.add_sub_cancel_left]
        simp only [g]
        rw [hm2 _ (by omega) (by omega)]
      · rw [if_neg hi2, List.getElem?_eq_none (by rw [List.length_take]; omega)]
        rfl
  have hpk : packet ⟨m, ⟨O, 16388⟩, first, seq, sent⟩ buf n =
      clearFirst ⟨m3, ⟨O, 16388⟩, first, seq + 1, sent ++ [header seq ++ converted ((bytesOf m buf).take n)]⟩ := by
    unfold packet
    simp only
    rw [write_ok (by simp only; omega), Option.bind_some, write_ok (by simp only; omega), Option.bind_some, take_ok hb, Option.bind_some,
      drop_ok (by unfold headerSize; simp only; omega), Option.bind_some]
    have : ui8toi16b ⟨buf.base, n⟩ ⟨O + headerSize, 16388 - headerSize⟩ m2 = some m3 := hconv
    simp only [m2] at this
    rw [this, Option.bind_some, take_ok (by unfold headerSize; simp only; omega), Option.bind_some]
    have e : (⟨O, headerSize + n * 2⟩ : Slice) = ⟨O, 4 + n * 2⟩ := rfl
    rw [e, hsent]
  have e30 : m3 O = if seq = 0 then 0x10 else 0 := by
    have : m3 O = m2 O := fill_out (by omega)
    rw [this, hm2 _ (by omega) (by omega), h0]
  have e31 : m3 (O + 1) = 0 := by
    have : m3 (O + 1) = m2 (O + 1) := fill_out (by omega)
    rw [this, hm2 _ (by omega) (by omega), h1]
  have eout : ∀ a, ¬(O ≤ a ∧ a < O + 16388) → m3 a = m a := by
    intro a ha
    have : m3 a = m2 a := fill_out (by omega)
    rw [this, hm2 _ (by omega) (by omega)]
  rw [hpk]
  unfold clearFirst
  cases hfirst : first with
  | true =>
    simp only [if_true]
    rw [write_ok (by simp only; omega), Option.bind_some]
    refine ⟨_, rfl, ⟨rfl, ?_, ?_, ?_⟩, rfl, rfl, rfl, ?_⟩
    · simp
    · simp only [Nat.add_zero]
      rw [Function.update_self, if_neg (by omega)]
    · simp only [Nat.add_zero]
      rw [Function.update_of_ne (by omega), e31]
    · intro a ha
      simp only [Nat.add_zero]
      rw [Function.update_of_ne (by omega), eout a ha]
  | false =>
    rw [hfirst] at hf
    have hs : seq ≠ 0 := by simpa using hf
    simp only [Bool.false_eq_true, if_false]
    refine ⟨_, rfl, ⟨rfl, ?_, ?_, ?_⟩, rfl, rfl, rfl, ?_⟩
    · simp
    · simp only
      rw [e30, if_neg hs, if_neg (by omega)]
    · exact e31
    · exact eout

theorem bytesOf_congr (m m' : Nat → BitVec 8) (s : Slice) (h : ∀ a, s.base ≤ a → a < s.base + s.len → m a = m' a) : bytesOf m s = bytesOf m' s := by
  apply List.ext_getElem?
  intro i
  rw [bytesOf_get, bytesOf_get]
  split
  · rw [h _ (by omega) (by omega)]
  · rfl

theorem comp_shift {α : Type} (f : Nat → α) (n j : Nat) : ((fun i => f (min 8192 (n - 8192 * (j + i)))) ∘ Nat.succ) =
    fun i => f (min 8192 (n - 8192 * (j + 1 + i))) := by
  funext i
  have : j + Nat.succ i = j + 1 + i := by omega
  simp only [Function.comp]
  rw [this]

theorem packets_send (k : Nat) : ∀ (st : Stream) (buf : Slice) (j : Nat), Ready st →
    (buf.base + buf.len ≤ st.bufOut.base ∨ st.bufOut.base + 16388 ≤ buf.base) → j + k = (buf.len + 8191) / 8192 →
    ∃ st', packets st buf (8192 * j) = some st' ∧ Ready st' ∧ st'.bufOut = st.bufOut ∧ st'.seq = st.seq + k ∧
      st'.sent = st.sent ++ framed st.seq ((List.range k).map fun i => converted ((bytesOf st.m buf).take (min 8192 (buf.len - 8192 * (j + i))))) := by
  induction k with
  | zero =>
    intro st buf j hr hap hj
    rw [packets, if_neg (by omega)]
    exact ⟨st, rfl, hr, rfl, rfl, by simp [framed]⟩
  | succ k ih =>
    intro st buf j hr hap hj
    have hv : valuesAt buf.len (8192 * j) = min 8192 (buf.len - 8192 * j) := by
      unfold valuesAt samplesPerPacket
      split <;> omega
    obtain ⟨st1, p1, p2, p3, p4, p5, p6⟩ := packet_sends st hr buf hap (min 8192 (buf.len - 8192 * j)) (by omega) (by omega)
    obtain ⟨st2, q1, q2, q3, q4, q5⟩ := ih st1 buf (j + 1) p2 (by rw [p3]; exact hap) (by omega)
    refine ⟨st2, ?_, q2, q3.trans p3, by omega, ?_⟩
    · have hstep : 8192 * j + samplesPerPacket * 2 = 8192 * (j + 1) := by unfold samplesPerPacket; omega
      rw [packets, if_pos (by omega), hv, p1, Option.bind_some, hstep]
      exact q1
    · rw [q5, p5, p4, List.append_assoc]
      congr 1
      rw [List.range_succ_eq_map, List.map_cons, List.map_map, framed_cons, List.singleton_append, Nat.add_zero]
      have hb : bytesOf st1.m buf = bytesOf st.m buf := bytesOf_congr _ _ _ fun a h1 h2 => p6 a (by omega)
      rw [hb]
      rw [comp_shift (fun n => converted ((bytesOf st.m buf).take n)), Nat.add_zero j]

theorem payloads_eq (m : Nat → BitVec 8) (buf : Slice) : payloads (bytesOf m buf) =
    (List.range ((buf.len + 8191) / 8192)).map fun i => converted ((bytesOf m buf).take (min 8192 (buf.len - 8192 * i))) := by
  unfold payloads sizes
  rw [List.map_map, bytesOf_length]
  rfl

theorem callback_sends (st : Stream) (hr : Ready st) (e : (Nat → BitVec 8) × Slice) (hap : Apart st.bufOut.base e) :
    ∃ st', callback st e.1 e.2 = some st' ∧ Ready st' ∧ st'.bufOut = st.bufOut ∧ st'.seq = st.seq + (payloads (deviceBytes e)).length ∧
      st'.sent = st.sent ++ framed st.seq (payloads (deviceBytes e)) := by
  obtain ⟨driver, buf⟩ := e
  obtain ⟨hl, hf, h0, h1⟩ := hr
  have hr' : Ready { st with m := fun a => if st.bufOut.base ≤ a ∧ a < st.bufOut.base + st.bufOut.len then st.m a else driver a } := by
    refine ⟨hl, hf, ?_, ?_⟩
    · simp only
      rw [if_pos (by omega)]
      exact h0
    · simp only
      rw [if_pos (by omega)]
      exact h1
  obtain ⟨st', p1, p2, p3, p4, p5⟩ := packets_send ((buf.len + 8191) / 8192) _ buf 0 hr' hap (by omega)
  have hb : bytesOf (fun a => if st.bufOut.base ≤ a ∧ a < st.bufOut.base + st.bufOut.len then st.m a else driver a) buf = bytesOf driver buf := by
    apply bytesOf_congr
    intro a ha hb
    rw [if_neg]
    unfold Apart at hap
    simp only at hap
    omega
  simp only [hb, Nat.zero_add, ← payloads_eq] at p5
  refine ⟨st', p1, p2, p3, ?_, p5⟩
  rw [p4, deviceBytes, payloads_eq, List.length_map, List.length_range]

theorem start_ready (m : Nat → BitVec 8) (base : Nat) : Ready (startStream m base) := by
  refine ⟨rfl, by simp [startStream], ?_, ?_⟩
  · simp [startStream, flagStreamStart]
  · simp [startStream, headerSize, samplesPerPacket]

theorem stream_sends (es : List ((Nat → BitVec 8) × Slice)) : ∀ (st : Stream), Ready st → (∀ e ∈ es, Apart st.bufOut.base e) →
    ∃ st', stream st es = some st' ∧ st'.sent = st.sent ++ framed st.seq (es.flatMap fun e => payloads (deviceBytes e)) := by
  induction es with
  | nil => intro st _ _; exact ⟨st, rfl, by simp [framed]⟩
  | cons e es ih =>
    intro st hr hap
    obtain ⟨st1, p1, p2, p3, p4, p5⟩ := callback_sends st hr e (hap e (by simp))
    obtain ⟨st2, q1, q2⟩ := ih st1 p2 (by rw [p3]; exact fun e' he' => hap e' (by simp [he']))
    refine ⟨st2, ?_, ?_⟩
    · rw [stream, p1, Option.bind_some, q1]
    · rw [q2, p5, p4, List.flatMap_cons, framed_append, List.append_assoc]

/-! ## C65 -/

/-- C65, numbers and flags, for every sequence of buffers of every length: the callback never panics,
and datagram number `k` has the start flag exactly when `k = 0` and sequence number `k` modulo 65536. -/
theorem C65_headers_partial (m : Nat → BitVec 8) (base : Nat) (es : List ((Nat → BitVec 8) × Slice)) (hap : ∀ e ∈ es, Apart base e) :
    ∃ st, stream (startStream m base) es = some st ∧ ∀ k d, st.sent[k]? = some d → d.take 4 = header k := by
  obtain ⟨st, h1, h2⟩ := stream_sends es _ (start_ready m base) hap
  refine ⟨st, h1, ?_⟩
  intro k d hd
  have e1 : (startStream m base).sent = [] := rfl
  have e2 : (startStream m base).seq = 0 := rfl
  rw [h2, e1, e2, List.nil_append, framed, List.getElem?_map, Option.map_eq_some_iff] at hd
  obtain ⟨⟨p, i⟩, h3, h4⟩ := hd
  rw [List.getElem?_zipIdx, Option.map_eq_some_iff] at h3
  obtain ⟨_, -, h5⟩ := h3
  simp only [Prod.mk.injEq] at h5
  subst h4
  have hl : (header i).length = 4 := rfl
  simp only
  rw [List.take_append_of_le_length (by omega), List.take_of_length_le (by omega), ← h5.2, Nat.zero_add]

theorem framed_payloads (k : Nat) (ps : List (List (BitVec 8))) : ((framed k ps).map fun d => d.drop 4).flatten = ps.flatten := by
  induction ps generalizing k with
  | nil => rfl
  | cons p ps ih =>
    rw [framed_cons, List.map_cons, List.flatten_cons, ih, List.flatten_cons]
    rfl

theorem payloads_short (xs : List (BitVec 8)) (h : xs.length ≤ 8192) : (payloads xs).flatten = converted xs := by
  unfold payloads sizes
  by_cases h0 : xs.length = 0
  · have : xs = [] := List.eq_nil_of_length_eq_zero h0
    subst this
    rfl
  · rw [show (xs.length + 8191) / 8192 = 1 by omega]
    simp only [List.range_one, List.map_cons, List.map_nil, List.flatten_cons, List.flatten_nil, List.append_nil]
    rw [List.take_of_length_le (by omega)]

/-- C65, the payload part for device buffers of at most 8192 bytes: the payloads of all datagrams,
concatenated, are the conversion of all buffers in order. -/
theorem C65_short_partial (m : Nat → BitVec 8) (base : Nat) (es : List ((Nat → BitVec 8) × Slice)) (hap : ∀ e ∈ es, Apart base e)
    (hs : ∀ e ∈ es, e.2.len ≤ 8192) :
    ∃ st, stream (startStream m base) es = some st ∧
      (st.sent.map fun d => d.drop 4).flatten = converted (es.map deviceBytes).flatten := by
  obtain ⟨st, h1, h2⟩ := stream_sends es _ (start_ready m base) hap
  refine ⟨st, h1, ?_⟩
  have e1 : (startStream m base).sent = [] := rfl
  rw [h2, e1, List.nil_append, framed_payloads]
  clear h1 h2 hap
  induction es with
  | nil => rfl
  | cons e es ih =>
    rw [List.flatMap_cons, List.flatten_append, ih fun e' he' => hs e' (by simp [he']), List.map_cons, List.flatten_cons,
      payloads_short _ (by rw [deviceBytes, bytesOf_length]; exact hs e (by simp))]
    unfold converted
    rw [List.flatMap_append]

theorem take_repeat (xs : List (BitVec 8)) (r n : Nat) (hr : r = n - 8192) (hn : n ≤ xs.length) :
    xs.take (min 8192 n) ++ (List.range r).map (fun i => xs.getD (i % 8192) 0) = (List.range n).map fun i => xs.getD (i % 8192) 0 := by
  apply List.ext_getElem?
  intro i
  by_cases hi : i < min 8192 n
  · rw [List.getElem?_append_left (by rw [List.length_take]; omega), List.getElem?_take_of_lt hi, List.getElem?_map,
      List.getElem?_range (by omega), Option.map_some, Nat.mod_eq_of_lt (by omega), List.getD_eq_getElem?_getD, List.getElem?_eq_getElem (by omega),
      Option.getD_some]
  · rw [List.getElem?_append_right (by rw [List.length_take]; omega), List.length_take, List.getElem?_map, List.getElem?_map]
    by_cases hi2 : i < n
    · have h1 : min (min 8192 n) xs.length = 8192 := by omega
      have h2 : (i - 8192) % 8192 = i % 8192 := by omega
      rw [h1, List.getElem?_range (by omega), List.getElem?_range (by omega), Option.map_some, Option.map_some, h2]
    · rw [List.getElem?_eq_none (by rw [List.length_range]; omega), List.getElem?_eq_none (by rw [List.length_range]; omega)]

theorem converted_append (xs ys : List (BitVec 8)) : converted xs ++ converted ys = converted (xs ++ ys) := by
  unfold converted
  rw [List.flatMap_append]

theorem payloads_from (xs : List (BitVec 8)) (k : Nat) : ∀ j, j + k = (xs.length + 8191) / 8192 →
    ((List.range k).map fun i => converted (xs.take (min 8192 (xs.length - 8192 * (j + i))))).flatten =
      converted ((List.range (xs.length - 8192 * j)).map fun i => xs.getD (i % 8192) 0) := by
  induction k with
  | zero =>
    intro j hj
    have : xs.length - 8192 * j = 0 := by omega
    rw [this, List.range_zero, List.map_nil, List.map_nil]
    rfl
  | succ k ih =>
    intro j hj
    rw [List.range_succ_eq_map, List.map_cons, List.map_map, List.flatten_cons]
    have e3 : xs.length - 8192 * (j + 1) = xs.length - 8192 * j - 8192 := by omega
    rw [comp_shift (fun n => converted (xs.take n)), ih (j + 1) (by omega), Nat.add_zero, converted_append, take_repeat xs _ _ e3 (by omega)]

/-- What is sent for a buffer of any length is the conversion of a buffer of the same length that
repeats the first 8192 bytes. -/
theorem payloads_repeat (xs : List (BitVec 8)) :
    (payloads xs).flatten = converted ((List.range xs.length).map fun i => xs.getD (i % 8192) 0) := by
  have h := payloads_from xs ((xs.length + 8191) / 8192) 0 (by omega)
  rw [Nat.mul_zero, Nat.sub_zero] at h
  rw [← h]
  unfold payloads sizes
  rw [List.map_map]
  simp only [Function.comp_def, Nat.zero_add]

theorem octet_inj (v w : BitVec 8) (h : octet 0 (BitVec.ofInt 16 (widen v.toNat)).toNat = octet 0 (BitVec.ofInt 16 (widen w.toNat)).toNat) : v = w := by
  have e : ∀ v : BitVec 8, octet 0 (BitVec.ofInt 16 (widen v.toNat)).toNat = v - 128 := by decide +kernel
  rw [e, e] at h
  exact (BitVec.sub_left_inj _).mp h

theorem converted_inj (xs ys : List (BitVec 8)) (h : converted xs = converted ys) : xs = ys := by
  apply List.ext_getElem?
  intro i
  have h1 := congrArg (fun l => l[2 * i]?) h
  simp only [converted_get, Nat.mul_mod_right, Nat.mul_div_cancel_left i (by decide : 0 < 2)] at h1
  cases hx : xs[i]? with
  | none =>
    rw [hx, Option.map_none] at h1
    exact (Option.map_eq_none_iff.mp h1.symm).symm
  | some x =>
    rw [hx, Option.map_some] at h1
    obtain ⟨y, hy, he⟩ := Option.map_eq_some_iff.mp h1.symm
    rw [hy, octet_inj y x he]

/-- C65 does not hold: the payloads sent for a buffer are its conversion only if the buffer repeats
its first 8192 bytes. -/
theorem C65_violated (m : Nat → BitVec 8) (base : Nat) (e : (Nat → BitVec 8) × Slice) (hap : Apart base e) :
    ∃ st, stream (startStream m base) [e] = some st ∧
      ((st.sent.map fun d => d.drop 4).flatten = converted (deviceBytes e) ↔
        ∀ i, i < e.2.len → e.1 (e.2.base + i) = e.1 (e.2.base + i % 8192)) := by
  obtain ⟨st, h1, h2⟩ := stream_sends [e] _ (start_ready m base) (by intro e' he'; rw [List.mem_singleton.mp he']; exact hap)
  refine ⟨st, h1, ?_⟩
  have e1 : (startStream m base).sent = [] := rfl
  rw [h2, e1, List.nil_append, framed_payloads, List.flatMap_cons, List.flatMap_nil, List.append_nil, payloads_repeat]
  have hlen : (deviceBytes e).length = e.2.len := bytesOf_length _ _
  have hg : ∀ i, i < e.2.len → (deviceBytes e)[i]? = some (e.1 (e.2.base + i)) := by
    intro i hi
    rw [deviceBytes, bytesOf_get, if_pos hi]
  have hg2 : ∀ i, i < e.2.len → (deviceBytes e).getD (i % 8192) 0 = e.1 (e.2.base + i % 8192) := by
    intro i hi
    rw [List.getD_eq_getElem?_getD, hg _ (by omega)]
    rfl
  rw [hlen]
  constructor
  · intro h i hi
    have h3 := congrArg (fun l => l[i]?) (converted_inj _ _ h)
    simp only [List.getElem?_map, List.getElem?_range hi, Option.map_some, hg i hi, hg2 i hi, Option.some.injEq] at h3
    exact h3.symm
  · intro h
    congr 1
    apply List.ext_getElem?
    intro i
    by_cases hi : i < e.2.len
    · rw [List.getElem?_map, List.getElem?_range hi, Option.map_some, hg i hi, hg2 i hi, h i hi]
    · rw [List.getElem?_eq_none (by simpa using hi), List.getElem?_eq_none (by rw [hlen]; omega)]

/-- The buffer size the server asks for, 32768 bytes: a device buffer that differs from its beginning at
byte 20000 is not sent right. -/
example : ∃ st, stream (startStream (fun _ => 0) 0) [(fun a => if a = 20000 + 20000 then 1 else 0, ⟨20000, 32768⟩)] = some st ∧
    (st.sent.map fun d => d.drop 4).flatten ≠ converted (deviceBytes (fun a => if a = 20000 + 20000 then 1 else 0, ⟨20000, 32768⟩)) := by
  obtain ⟨st, h1, h2⟩ := C65_violated (fun _ => 0) 0 (fun a => if a = 20000 + 20000 then 1 else 0, ⟨20000, 32768⟩) (by simp [Apart])
  refine ⟨st, h1, fun hc => ?_⟩
  have := h2.mp hc 20000 (by simp)
  simp at this

/-- Two short buffers. -/
example : ∃ st, stream (startStream (fun _ => 0) 100) [(fun a => BitVec.ofNat 8 a, ⟨20, 3⟩), (fun _ => 7, ⟨17000, 2⟩)] = some st ∧
    (st.sent.map fun d => d.drop 4).flatten = converted [20, 21, 22, 7, 7] :=
  C65_short_partial (fun _ => 0) 100 [(fun a => BitVec.ofNat 8 a, ⟨20, 3⟩), (fun _ => 7, ⟨17000, 2⟩)]
    (by simp [Apart]) (by simp)

end Verif.Borip
