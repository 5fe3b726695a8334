import Verif.Borip.PacketModel
import Mathlib.Tactic.IntervalCases
import Mathlib.Data.List.Basic

/-!
# Properties C61 and C62 of the packet reader
-/

namespace Verif.Borip

/-! ## Specification -/

/-- A signed 16-bit little-endian number. -/
def le16 (lo hi : UInt8) : Int :=
  let v : Int := lo.toNat + 256 * hi.toNat
  if v < 32768 then v else v - 65536

/-- The I/Q samples of a payload; an incomplete one at the end is left out. -/
def iq : List UInt8 → List (Int × Int)
  | a :: b :: c :: d :: rest => (le16 a b, le16 c d) :: iq rest
  | _ => []

/-- Header length. -/
def hdr (withHeaders : Bool) : Nat := if withHeaders then 4 else 0

/-- A datagram with a complete header and complete samples that fits the buffer. -/
def WellFormed (withHeaders : Bool) (d : List UInt8) : Prop :=
  hdr withHeaders ≤ d.length ∧ d.length % 4 = 0 ∧ d.length ≤ 262144

/-- The header of a datagram. -/
def headerOf : List UInt8 → PacketHeader
  | f :: n :: lo :: hi :: _ => ⟨f, n, UInt16.ofNat (lo.toNat + 256 * hi.toNat)⟩
  | _ => ⟨0, 0, 0⟩

/-! ## Lemmas -/

theorem le_toNat (lo hi : UInt8) : (lo.toUInt16 ||| (hi.toUInt16 <<< 8)).toNat = lo.toNat + 256 * hi.toNat := by
  rw [UInt16.toNat_or, UInt16.toNat_shiftLeft]
  have h1 : lo.toNat < 2 ^ 8 := lo.toNat_lt
  have h2 : hi.toNat < 2 ^ 8 := hi.toNat_lt
  have h3 : hi.toUInt16.toNat <<< (UInt16.toNat 8 % 16) % 2 ^ 16 = hi.toNat <<< 8 := by
    rw [show UInt16.toNat 8 % 16 = 8 from rfl, UInt8.toNat_toUInt16]
    simp only [Nat.shiftLeft_eq]
    omega
  rw [h3, UInt8.toNat_toUInt16, Nat.or_comm, ← Nat.shiftLeft_add_eq_or_of_lt h1, Nat.shiftLeft_eq]
  omega

theorem le_signed (lo hi : UInt8) : (lo.toUInt16 ||| (hi.toUInt16 <<< 8)).toInt16.toInt = le16 lo hi := by
  have h := le_toNat lo hi
  have h1 : lo.toNat < 2 ^ 8 := lo.toNat_lt
  have h2 : hi.toNat < 2 ^ 8 := hi.toNat_lt
  have key : ∀ x : UInt16, x.toNat = lo.toNat + 256 * hi.toNat → x.toInt16.toInt = le16 lo hi := by
    intro x hx
    have e : x.toInt16.toInt = x.toBitVec.toInt := rfl
    have e2 : x.toBitVec.toNat = lo.toNat + 256 * hi.toNat := hx
    rw [e, BitVec.toInt_eq_toNat_cond, e2]
    unfold le16
    simp only
    split <;> split <;> omega
  exact key _ h

theorem le16_hi (x : UInt8) : le16 x 0 ≠ le16 x 1 := by
  have hx : x.toNat < 2 ^ 8 := x.toNat_lt
  unfold le16
  simp only [UInt8.toNat_zero, UInt8.toNat_one]
  split <;> split <;> omega

theorem le_header (lo hi : UInt8) : lo.toUInt16 ||| (hi.toUInt16 <<< 8) = UInt16.ofNat (lo.toNat + 256 * hi.toNat) := by
  apply UInt16.toNat_inj.mp
  rw [le_toNat, UInt16.toNat_ofNat']
  have h1 : lo.toNat < 2 ^ 8 := lo.toNat_lt
  have h2 : hi.toNat < 2 ^ 8 := hi.toNat_lt
  omega

/-- The sample decoded at a place of the buffer. -/
def sampleAt (buf : Nat → UInt8) (i : Nat) : Int × Int := (le16 (buf i) (buf (i + 1)), le16 (buf (i + 2)) (buf (i + 3)))

theorem drain_ok (buf : Nat → UInt8) (k : Nat) : ∀ (bufN bufI idx : Nat) (samples : List (Int × Int)),
    (bufN - bufI + 3) / 4 = k → idx + k ≤ samples.length → bufI + 4 * k ≤ defaultBufferSize →
    drain buf bufN bufI idx samples = some (bufI + 4 * k, idx + k,
      samples.take idx ++ (List.range k).map (fun j => sampleAt buf (bufI + 4 * j)) ++ samples.drop (idx + k)) := by
  induction k with
  | zero =>
    intro bufN bufI idx samples hk hs hb
    rw [drain, if_neg (by omega)]
    simp
  | succ k ih =>
    intro bufN bufI idx samples hk hs hb
    rw [drain, if_pos (by omega), uint16At, if_pos (by omega), Option.bind_some, uint16At, if_pos (by omega), Option.bind_some, store,
      if_pos (by omega), Option.bind_some, ih bufN (bufI + 4) (idx + 1) _ (by omega) (by rw [List.length_set]; omega) (by omega),
      le_signed, le_signed]
    have e1 : bufI + 4 + 4 * k = bufI + 4 * (k + 1) := by omega
    have e2 : idx + 1 + k = idx + (k + 1) := by omega
    rw [e1, e2]
    congr 3
    rw [List.range_succ_eq_map, List.map_cons, List.map_map, List.take_set, List.drop_set_of_lt (by omega)]
    have e3 : (fun j => sampleAt buf (bufI + 4 + 4 * j)) = (fun j => sampleAt buf (bufI + 4 * j)) ∘ Nat.succ := by
      funext j
      simp only [Function.comp, Nat.succ_eq_add_one]
      congr 1
      omega
    rw [e3]
    have hlt : idx < samples.length := by omega
    have e4 : (samples.take (idx + 1)).set idx (sampleAt buf bufI) = samples.take idx ++ [sampleAt buf bufI] := by
      rw [List.take_succ_eq_append_getElem hlt, List.set_append_right _ _ (by simp)]
      simp [Nat.min_eq_left hlt.le]
    have e5 : (le16 (buf bufI) (buf (bufI + 1)), le16 (buf (bufI + 2)) (buf (bufI + 2 + 1))) = sampleAt buf bufI := rfl
    rw [e5, e4]
    simp

theorem drain_panics (buf : Nat → UInt8) (k : Nat) : ∀ (bufN bufI idx : Nat) (samples : List (Int × Int)),
    (bufN - bufI + 3) / 4 = k → idx ≤ samples.length → samples.length < idx + k → drain buf bufN bufI idx samples = none := by
  induction k with
  | zero => intro bufN bufI idx samples hk h1 h2; omega
  | succ k ih =>
    intro bufN bufI idx samples hk h1 h2
    rw [drain, if_pos (by omega)]
    cases uint16At buf bufI with
    | none => rfl
    | some a =>
      rw [Option.bind_some]
      cases uint16At buf (bufI + 2) with
      | none => rfl
      | some b =>
        rw [Option.bind_some, store]
        split
        · rw [Option.bind_some]
          exact ih _ _ _ _ (by omega) (by rw [List.length_set]; omega) (by rw [List.length_set]; omega)
        · rfl

/-- The number of samples `ReadSamples` makes of a datagram. -/
def count (withHeaders : Bool) (d : List UInt8) : Nat := (min d.length defaultBufferSize - hdr withHeaders + 3) / 4

/-- The reader after a datagram that has its header. -/
def loaded (rd : PacketReader) (d : List UInt8) : PacketReader :=
  { rd with
    buf := received rd.buf d
    bufI := hdr rd.withHeaders
    bufN := min d.length defaultBufferSize
    header := if rd.withHeaders then
      ⟨received rd.buf d 0, received rd.buf d 1, ((received rd.buf d 2).toUInt16 ||| ((received rd.buf d 3).toUInt16 <<< 8))⟩
      else rd.header }

theorem accept_ok (rd : PacketReader) (d : List UInt8) (h : hdr rd.withHeaders ≤ d.length) : accept rd d = .ok (loaded rd d) := by
  unfold accept loaded hdr at *
  cases hw : rd.withHeaders with
  | false => simp
  | true =>
    rw [hw] at h
    simp only [if_true] at h ⊢
    rw [if_neg]
    unfold packetHeaderSize defaultBufferSize
    omega

/-- A call on an idle reader, in closed form. -/
theorem read_closed (rd : PacketReader) (hidle : rd.bufI ≥ rd.bufN) (d : List UInt8) (hd : hdr rd.withHeaders ≤ d.length)
    (rest : List Recv) (samples : List (Int × Int)) (hs : count rd.withHeaders d ≤ samples.length) :
    readSamples rd (.datagram d :: rest) samples = some ⟨.ok (count rd.withHeaders d),
      (List.range (count rd.withHeaders d)).map (fun j => sampleAt (received rd.buf d) (hdr rd.withHeaders + 4 * j)) ++
        samples.drop (count rd.withHeaders d),
      { loaded rd d with bufI := hdr rd.withHeaders + 4 * count rd.withHeaders d }, rest⟩ := by
  rw [readSamples, if_pos hidle]
  simp only [accept_ok rd d hd, decode]
  have h1 : (loaded rd d).bufI = hdr rd.withHeaders := rfl
  have h2 : (loaded rd d).bufN = min d.length defaultBufferSize := rfl
  have h3 : (loaded rd d).buf = received rd.buf d := rfl
  have hh : hdr rd.withHeaders = 0 ∨ hdr rd.withHeaders = 4 := by unfold hdr; split <;> simp
  rw [h1, h2, h3, drain_ok _ (count rd.withHeaders d) _ _ _ _ rfl (by omega) (by unfold count defaultBufferSize; omega), Option.bind_some]
  simp

theorem read_panics (rd : PacketReader) (hidle : rd.bufI ≥ rd.bufN) (d : List UInt8) (hd : hdr rd.withHeaders ≤ d.length)
    (rest : List Recv) (samples : List (Int × Int)) (hs : samples.length < count rd.withHeaders d) :
    readSamples rd (.datagram d :: rest) samples = none := by
  rw [readSamples, if_pos hidle]
  simp only [accept_ok rd d hd, decode]
  have h1 : (loaded rd d).bufI = hdr rd.withHeaders := rfl
  have h2 : (loaded rd d).bufN = min d.length defaultBufferSize := rfl
  rw [h1, h2, drain_panics _ (count rd.withHeaders d) _ _ _ _ rfl (by omega) (by omega)]
  rfl

theorem received_in (buf : Nat → UInt8) (d : List UInt8) {i : Nat} (h : i < d.length) (h2 : i < 262144) :
    received buf d i = d.getD i 0 := by
  rw [received, List.getElem?_take_of_lt (show i < defaultBufferSize from h2), List.getElem?_eq_getElem h]
  simp [h]

theorem received_out (buf : Nat → UInt8) (d : List UInt8) {i : Nat} (h : d.length ≤ i) : received buf d i = buf i := by
  rw [received, List.getElem?_eq_none (by rw [List.length_take]; omega)]

theorem iq_get (p : List UInt8) : ∀ j, (iq p)[j]? =
    if 4 * j + 4 ≤ p.length then some (le16 (p.getD (4 * j) 0) (p.getD (4 * j + 1) 0), le16 (p.getD (4 * j + 2) 0) (p.getD (4 * j + 3) 0)) else none := by
  induction p using iq.induct with
  | case1 a b c d rest ih =>
    intro j
    rw [iq]
    cases j with
    | zero => simp
    | succ j =>
      rw [List.getElem?_cons_succ, ih j]
      have e : ∀ k, (a :: b :: c :: d :: rest).getD (4 * (j + 1) + k) 0 = rest.getD (4 * j + k) 0 := by
        intro k
        rw [show 4 * (j + 1) + k = (4 * j + k) + 1 + 1 + 1 + 1 by omega]
        simp only [List.getD_cons_succ]
      have e0 := e 0
      rw [Nat.add_zero, Nat.add_zero] at e0
      rw [e, e, e, e0]
      simp only [List.length_cons]
      congr 1
      apply propext
      omega
  | case2 p hp =>
    intro j
    have hl : p.length < 4 := by
      by_contra hc
      match p, hp with
      | a :: b :: c :: d :: rest, hp => exact hp a b c d rest rfl
      | [], _ | [_], _ | [_, _], _ | [_, _, _], _ => simp at hc
    have e : iq p = [] := by
      unfold iq
      split
      · simp only [List.length_cons] at hl; omega
      · rfl
    rw [e, if_neg (by omega)]
    rfl

theorem iq_length (p : List UInt8) : (iq p).length = p.length / 4 := by
  have h1 := iq_get p (p.length / 4)
  rw [if_neg (by omega), List.getElem?_eq_none_iff] at h1
  by_contra hc
  have h2 := iq_get p (iq p).length
  rw [if_pos (by omega), List.getElem?_eq_none (Nat.le_refl _)] at h2
  exact absurd h2 (by simp)

/-- The complete samples of a datagram are decoded right, whatever was in the buffer. -/
theorem complete_samples (buf : Nat → UInt8) (d : List UInt8) (o : Nat) (hd : d.length ≤ 262144) :
    (List.range ((d.length - o) / 4)).map (fun j => sampleAt (received buf d) (o + 4 * j)) = iq (d.drop o) := by
  apply List.ext_getElem?
  intro j
  rw [iq_get]
  simp only [List.length_drop]
  by_cases hj : j < (d.length - o) / 4
  · rw [if_pos (by omega), List.getElem?_map, List.getElem?_range hj, Option.map_some]
    refine congrArg some ?_
    have e : ∀ k, k < 4 → received buf d (o + 4 * j + k) = (d.drop o).getD (4 * j + k) 0 := by
      intro k hk
      rw [received_in _ _ (by omega) (by omega)]
      simp only [List.getD_eq_getElem?_getD, List.getElem?_drop]
      congr 2
      omega
    have e0 := e 0 (by omega)
    rw [Nat.add_zero, Nat.add_zero] at e0
    rw [sampleAt, e 1 (by omega), e 2 (by omega), e 3 (by omega), e0]
  · rw [if_neg (by omega), List.getElem?_eq_none (by simpa using hj)]

/-! ## C61 -/

/-- C61, one call: on an idle reader, a well-formed datagram and a large enough slice, the call returns
the number of samples of the datagram, stores exactly these at the start of the slice, leaves the rest
of it, stores the header, and leaves the reader idle. -/
theorem C61_one (rd : PacketReader) (hidle : rd.bufI ≥ rd.bufN) (d : List UInt8) (hd : WellFormed rd.withHeaders d)
    (rest : List Recv) (samples : List (Int × Int)) (hs : (d.length - hdr rd.withHeaders) / 4 ≤ samples.length) :
    ∃ o, readSamples rd (.datagram d :: rest) samples = some o ∧
      o.result = .ok ((d.length - hdr rd.withHeaders) / 4) ∧
      o.samples = iq (d.drop (hdr rd.withHeaders)) ++ samples.drop ((d.length - hdr rd.withHeaders) / 4) ∧
      o.rd.header = (if rd.withHeaders then headerOf d else rd.header) ∧
      o.rd.withHeaders = rd.withHeaders ∧ o.rd.bufI ≥ o.rd.bufN ∧ o.conn = rest := by
  obtain ⟨h1, h2, h3⟩ := hd
  have hh : hdr rd.withHeaders = 0 ∨ hdr rd.withHeaders = 4 := by unfold hdr; split <;> simp
  have hc : count rd.withHeaders d = (d.length - hdr rd.withHeaders) / 4 := by
    unfold count defaultBufferSize
    omega
  refine ⟨_, read_closed rd hidle d h1 rest samples (by omega), by rw [hc], ?_, ?_, rfl, ?_, rfl⟩
  · simp only
    rw [hc, complete_samples _ _ _ h3]
  · simp only [loaded]
    cases hw : rd.withHeaders with
    | false => rfl
    | true =>
      have h4 : 4 ≤ d.length := by rw [hw] at h1; exact h1
      match d, h4 with
      | f :: n :: lo :: hi :: tl, _ =>
        simp only [if_true, headerOf]
        rw [received_in _ _ (by simp) (by decide), received_in _ _ (by simp) (by decide), received_in _ _ (by simp) (by decide),
          received_in _ _ (by simp) (by decide)]
        simp only [List.getD_cons_succ, List.getD_cons_zero, le_header]
  · simp only [loaded]
    unfold defaultBufferSize
    omega

/-- C61: for every sequence of well-formed datagrams and large enough slices, call number `i` returns
exactly the samples of datagram `i`, and the header is that of datagram `i`. -/
theorem C61_sequence (ds : List (List UInt8)) : ∀ (rd : PacketReader), rd.bufI ≥ rd.bufN → (∀ d ∈ ds, WellFormed rd.withHeaders d) →
    ∀ (slices : List (List (Int × Int))) (rest : List Recv), slices.length = ds.length →
    (∀ p ∈ ds.zip slices, (p.1.length - hdr rd.withHeaders) / 4 ≤ p.2.length) →
    ∃ os, readAll rd (ds.map .datagram ++ rest) slices = some os ∧ os.length = ds.length ∧
      ∀ (i : Nat) (d : List UInt8), ds[i]? = some d → ∃ (o : Outcome) (s : List (Int × Int)), os[i]? = some o ∧ slices[i]? = some s ∧
        o.result = .ok ((d.length - hdr rd.withHeaders) / 4) ∧
        o.samples = iq (d.drop (hdr rd.withHeaders)) ++ s.drop ((d.length - hdr rd.withHeaders) / 4) ∧
        (rd.withHeaders → o.rd.header = headerOf d) := by
  induction ds with
  | nil =>
    intro rd _ _ slices rest hl _
    have : slices = [] := List.eq_nil_of_length_eq_zero hl
    subst this
    exact ⟨[], rfl, rfl, by simp⟩
  | cons d ds ih =>
    intro rd hidle hw slices rest hl hs
    match slices, hl with
    | s :: slices, hl =>
      obtain ⟨o, h1, h2, h3, h4, h5, h6, h7⟩ := C61_one rd hidle d (hw d (by simp)) (ds.map .datagram ++ rest) s (hs (d, s) (by simp))
      obtain ⟨os, g1, g2, g3⟩ := ih o.rd h6 (by rw [h5]; exact fun d hd => hw d (by simp [hd])) slices rest (by simpa using hl)
        (by rw [h5]; exact fun p hp => hs p (by simp [hp]))
      refine ⟨o :: os, ?_, by simp [g2], ?_⟩
      · rw [readAll, List.map_cons, List.cons_append, h1, Option.bind_some, h7, g1, Option.bind_some]
      · intro i d' hi
        cases i with
        | zero =>
          rw [List.getElem?_cons_zero, Option.some.injEq] at hi
          subst hi
          exact ⟨o, s, by simp, by simp, h2, h3, fun hh => by rw [h4, if_pos hh]⟩
        | succ i =>
          rw [List.getElem?_cons_succ] at hi
          obtain ⟨o', s', a1, a2, a3, a4, a5⟩ := g3 i d' hi
          rw [h5] at a3 a4 a5
          exact ⟨o', s', by simpa using a1, by simpa using a2, a3, a4, a5⟩

example : ∃ os, readAll (newPacketReader true) ([[0x10, 0, 0xff, 1, 1, 0, 0xfe, 0xff], [0, 0, 0, 2], [0, 0, 1, 2, 0, 0x80, 0, 1]].map .datagram ++ [])
    [[(9, 9), (9, 9)], [], [(0, 0)]] = some os ∧ os.map (·.samples) = [[(1, -2), (9, 9)], [], [(-32768, 256)]] ∧
      os.map (·.rd.header.idx) = [511, 512, 513] := by
  obtain ⟨os, h1, h2, h3⟩ := C61_sequence [[0x10, 0, 0xff, 1, 1, 0, 0xfe, 0xff], [0, 0, 0, 2], [0, 0, 1, 2, 0, 0x80, 0, 1]]
    (newPacketReader true) (by decide) (by simp [WellFormed, newPacketReader, hdr]) [[(9, 9), (9, 9)], [], [(0, 0)]] [] rfl (by simp [newPacketReader, hdr])
  refine ⟨os, h1, ?_⟩
  match os, h2 with
  | [o1, o2, o3], _ =>
    obtain ⟨_, _, a1, a2, -, a3, a4⟩ := h3 0 _ rfl
    obtain ⟨_, _, b1, b2, -, b3, b4⟩ := h3 1 _ rfl
    obtain ⟨_, _, c1, c2, -, c3, c4⟩ := h3 2 _ rfl
    simp only [List.getElem?_cons_zero, List.getElem?_cons_succ, Option.some.injEq] at a1 a2 b1 b2 c1 c2
    subst a1 a2 b1 b2 c1 c2
    simp only [List.map_cons, List.map_nil, a3, b3, c3, a4 rfl, b4 rfl, c4 rfl]
    decide

/-- The header after some reads: that of the last datagram. -/
def headerAfter (h : PacketHeader) : List Recv → PacketHeader
  | [] => h
  | .datagram d :: es => headerAfter (headerOf d) es
  | .error _ :: es => headerAfter h es

/-- C61, with failing reads among the datagrams: the call whose read fails returns the error of the connection and leaves the caller's slice and the
header (all zero at the start) as they are; all other calls return the samples of their datagram as in `C61_sequence`. -/
theorem C61_mixed (es : List Recv) : ∀ (rd : PacketReader), rd.bufI ≥ rd.bufN → (∀ d, .datagram d ∈ es → WellFormed rd.withHeaders d) →
    ∀ (slices : List (List (Int × Int))) (rest : List Recv), slices.length = es.length →
    (∀ p ∈ es.zip slices, ∀ d, p.1 = .datagram d → (d.length - hdr rd.withHeaders) / 4 ≤ p.2.length) →
    ∃ os, readAll rd (es ++ rest) slices = some os ∧ os.length = es.length ∧
      ∀ (i : Nat) (e : Recv), es[i]? = some e → ∃ (o : Outcome) (s : List (Int × Int)), os[i]? = some o ∧ slices[i]? = some s ∧
        (∀ d, e = .datagram d → o.result = .ok ((d.length - hdr rd.withHeaders) / 4) ∧
          o.samples = iq (d.drop (hdr rd.withHeaders)) ++ s.drop ((d.length - hdr rd.withHeaders) / 4)) ∧
        (∀ j, e = .error j → o.result = .error .conn ∧ o.samples = s) ∧
        o.rd.header = (if rd.withHeaders then headerAfter rd.header (es.take (i + 1)) else rd.header) := by
  induction es with
  | nil =>
    intro rd _ _ slices rest hl _
    have : slices = [] := List.eq_nil_of_length_eq_zero hl
    subst this
    exact ⟨[], rfl, rfl, by simp⟩
  | cons e es ih =>
    intro rd hidle hw slices rest hl hs
    match slices, hl with
    | s :: slices, hl =>
      have step : ∃ o, readSamples rd (e :: (es ++ rest)) s = some o ∧
          (∀ d, e = .datagram d → o.result = .ok ((d.length - hdr rd.withHeaders) / 4) ∧
            o.samples = iq (d.drop (hdr rd.withHeaders)) ++ s.drop ((d.length - hdr rd.withHeaders) / 4)) ∧
          (∀ j, e = .error j → o.result = .error .conn ∧ o.samples = s) ∧
          o.rd.header = (if rd.withHeaders then headerAfter rd.header [e] else rd.header) ∧
          o.rd.withHeaders = rd.withHeaders ∧ o.rd.bufI ≥ o.rd.bufN ∧ o.conn = es ++ rest := by
        cases e with
        | datagram d =>
          obtain ⟨o, h1, h2, h3, h4, h5, h6, h7⟩ := C61_one rd hidle d (hw d (by simp)) (es ++ rest) s (hs (.datagram d, s) (by simp) d rfl)
          refine ⟨o, h1, ?_, by simp, h4, h5, h6, h7⟩
          intro d' hd
          obtain rfl := Recv.datagram.inj hd
          exact ⟨h2, h3⟩
        | error j =>
          refine ⟨⟨.error .conn, s, { rd with buf := received rd.buf j }, es ++ rest⟩, ?_, by simp, fun _ _ => ⟨rfl, rfl⟩, ?_, rfl, hidle, rfl⟩
          · unfold readSamples
            rw [if_pos hidle]
          · simp [headerAfter]
      obtain ⟨o, h1, h2, h3, h4, h5, h6, h7⟩ := step
      obtain ⟨os, g1, g2, g3⟩ := ih o.rd h6 (by rw [h5]; exact fun d hd => hw d (by simp [hd])) slices rest (by simpa using hl)
        (by rw [h5]; exact fun p hp => hs p (by simp [hp]))
      refine ⟨o :: os, ?_, by simp [g2], ?_⟩
      · rw [readAll, List.cons_append, h1, Option.bind_some, h7, g1, Option.bind_some]
      · intro i e' hi
        cases i with
        | zero =>
          rw [List.getElem?_cons_zero, Option.some.injEq] at hi
          subst hi
          exact ⟨o, s, by simp, by simp, h2, h3, by simpa using h4⟩
        | succ i =>
          rw [List.getElem?_cons_succ] at hi
          obtain ⟨o', s', a1, a2, a3, a4, a5⟩ := g3 i e' hi
          rw [h5, h4] at a5
          rw [h5] at a3
          refine ⟨o', s', by simpa using a1, by simpa using a2, a3, a4, ?_⟩
          rw [a5, List.take_succ_cons]
          cases rd.withHeaders with
          | false => rfl
          | true => cases e <;> simp [headerAfter]

/-- Non-vacuity: two failures, a datagram, a failure; the header is zero, zero, that of the datagram, and that of the datagram. -/
example : ∃ os, readAll (newPacketReader true) ([.error [1, 2], .error [], .datagram [0x10, 0, 7, 0, 1, 0, 2, 0], .error [9]] ++ [])
    [[(9, 9)], [(9, 9)], [(9, 9)], [(9, 9)]] = some os ∧ os.map (·.rd.header.idx) = [0, 0, 7, 7] ∧ os.map (·.rd.header.flags) = [0, 0, 0x10, 0x10] ∧
      os.map (·.samples) = [[(9, 9)], [(9, 9)], [(1, 2)], [(9, 9)]] := by
  obtain ⟨os, h1, h2, h3⟩ := C61_mixed [.error [1, 2], .error [], .datagram [0x10, 0, 7, 0, 1, 0, 2, 0], .error [9]]
    (newPacketReader true) (by decide) (by simp [WellFormed, newPacketReader, hdr]) [[(9, 9)], [(9, 9)], [(9, 9)], [(9, 9)]] [] rfl
    (by simp [newPacketReader, hdr])
  refine ⟨os, h1, ?_⟩
  match os, h2 with
  | [o1, o2, o3, o4], _ =>
    obtain ⟨_, _, a1, a2, -, a3, a4⟩ := h3 0 _ rfl
    obtain ⟨_, _, b1, b2, -, b3, b4⟩ := h3 1 _ rfl
    obtain ⟨_, _, c1, c2, c3, -, c4⟩ := h3 2 _ rfl
    obtain ⟨_, _, d1, d2, -, d3, d4⟩ := h3 3 _ rfl
    simp only [List.getElem?_cons_zero, List.getElem?_cons_succ, Option.some.injEq] at a1 a2 b1 b2 c1 c2 d1 d2
    subst a1 a2 b1 b2 c1 c2 d1 d2
    simp only [List.map_cons, List.map_nil, (a3 _ rfl).2, (b3 _ rfl).2, (c3 _ rfl).2, (d3 _ rfl).2, a4, b4, c4, d4]
    decide

/-! ## C62 -/

/-- Two successive calls: a first datagram, then `d`; the samples the second call delivers. -/
def second (withHeaders : Bool) (first d : List UInt8) (s1 s2 : List (Int × Int)) : Option (List (Int × Int)) :=
  (readAll (newPacketReader withHeaders) [.datagram first, .datagram d] [s1, s2]).bind fun os => os[1]?.map (·.samples)

/-- C62 does not hold: for every datagram whose payload is not a multiple of four bytes, the samples
delivered for it depend on an earlier datagram. -/
theorem C62_violated (withHeaders : Bool) (d : List UInt8) (hd : hdr withHeaders ≤ d.length) (hlen : d.length + 4 ≤ 262144)
    (hr : d.length % 4 ≠ 0) (s1 s2 : List (Int × Int)) (h1 : d.length + 4 ≤ s1.length) (h2 : d.length + 4 ≤ s2.length) :
    ∃ first first', WellFormed withHeaders first ∧ WellFormed withHeaders first' ∧
      ∃ r r', second withHeaders first d s1 s2 = some r ∧ second withHeaders first' d s1 s2 = some r' ∧ r ≠ r' := by
  have key0 : ∀ (b : UInt8) (i : Nat), received (received (fun _ => 0) (List.replicate (4 * (d.length / 4 + 1)) b)) d i =
      if i < d.length then d.getD i 0 else if i < 4 * (d.length / 4 + 1) then b else 0 := by
    intro b i
    by_cases hi : i < d.length
    · rw [received_in _ _ hi (by omega), if_pos hi]
    · rw [received_out _ _ (by omega), if_neg hi]
      by_cases hi2 : i < 4 * (d.length / 4 + 1)
      · rw [received_in _ _ (by simpa using hi2) (by omega), if_pos hi2]
        simp [List.getD_eq_getElem?_getD, hi2]
      · rw [received_out _ _ (by simpa using hi2), if_neg hi2]
  have key : ∀ b : UInt8, WellFormed withHeaders (List.replicate (4 * (d.length / 4 + 1)) b) ∧
      second withHeaders (List.replicate (4 * (d.length / 4 + 1)) b) d s1 s2 =
        some ((List.range (count withHeaders d)).map (fun j => sampleAt (fun i => if i < d.length then d.getD i 0 else if i < 4 * (d.length / 4 + 1) then b else 0)
          (hdr withHeaders + 4 * j)) ++ s2.drop (count withHeaders d)) := by
    intro b
    have hh : hdr withHeaders = 0 ∨ hdr withHeaders = 4 := by unfold hdr; split <;> simp
    have hw : WellFormed withHeaders (List.replicate (4 * (d.length / 4 + 1)) b) := by
      refine ⟨?_, ?_, ?_⟩ <;> rw [List.length_replicate] <;> omega
    refine ⟨hw, ?_⟩
    have c1 := read_closed (newPacketReader withHeaders) (by simp [newPacketReader]) (List.replicate (4 * (d.length / 4 + 1)) b) hw.1 [.datagram d] s1
      (by simp only [newPacketReader, count, List.length_replicate]; omega)
    rw [second, readAll, c1, Option.bind_some]
    simp only [readAll]
    rw [read_closed _ (by
        simp only [ge_iff_le, loaded, newPacketReader, count, List.length_replicate]
        unfold defaultBufferSize
        omega) d hd [] s2 (by simp only [loaded, newPacketReader, count]; omega)]
    simp only [Option.bind_some, List.getElem?_cons_succ, List.getElem?_cons_zero, Option.map_some, loaded, newPacketReader]
    have hbuf : received (received (fun _ => 0) (List.replicate (4 * (d.length / 4 + 1)) b)) d =
        fun i => if i < d.length then d.getD i 0 else if i < 4 * (d.length / 4 + 1) then b else 0 := by
      funext i
      exact key0 b i
    rw [hbuf]
  obtain ⟨w0, k0⟩ := key 0
  obtain ⟨w1, k1⟩ := key 1
  refine ⟨_, _, w0, w1, _, _, k0, k1, ?_⟩
  intro he
  have hh : hdr withHeaders = 0 ∨ hdr withHeaders = 4 := by unfold hdr; split <;> simp
  have hcount : count withHeaders d = d.length / 4 - hdr withHeaders / 4 + 1 := by
    unfold count defaultBufferSize
    omega
  have h3 := congrArg (fun l => l[d.length / 4 - hdr withHeaders / 4]?) he
  rw [List.getElem?_append_left (by simp; omega), List.getElem?_append_left (by simp; omega), List.getElem?_map, List.getElem?_map,
    List.getElem?_range (by omega), Option.map_some, Option.map_some, Option.some.injEq] at h3
  have h4 := congrArg Prod.snd h3
  simp only [sampleAt] at h4
  have e : hdr withHeaders + 4 * (d.length / 4 - hdr withHeaders / 4) = 4 * (d.length / 4) := by omega
  have n3 : ¬ 4 * (d.length / 4) + 3 < d.length := by omega
  have c3 : 4 * (d.length / 4) + 3 < 4 * (d.length / 4 + 1) := by omega
  have c2 : 4 * (d.length / 4) + 2 < 4 * (d.length / 4 + 1) := by omega
  rw [e] at h4
  by_cases hi : 4 * (d.length / 4) + 2 < d.length
  · simp only [if_neg n3, if_pos c3, if_pos hi] at h4
    exact le16_hi _ h4
  · simp only [if_neg n3, if_pos c3, if_neg hi, if_pos c2] at h4
    exact absurd h4 (by decide)

/-- C62 does not hold: after a datagram too short for its header the next call delivers a sample without
receiving anything, decoded from header bytes of that datagram and stale bytes. -/
theorem C62_violated_short (rd : PacketReader) (hidle : rd.bufI ≥ rd.bufN) (hw : rd.withHeaders = true) (d : List UInt8)
    (h0 : 0 < d.length) (h4 : d.length < 4) (rest : List Recv) (s1 s2 : List (Int × Int)) (hs : 1 ≤ s2.length) :
    ∃ o1 o2, readSamples rd (.datagram d :: rest) s1 = some o1 ∧ o1.result = .error .shortPacket ∧
      readSamples o1.rd o1.conn s2 = some o2 ∧ o2.result = .ok 1 ∧ o2.conn = rest ∧
      o2.samples.head? = some (le16 (d.getD 0 0) (if 1 < d.length then d.getD 1 0 else rd.buf 1),
        le16 (if 2 < d.length then d.getD 2 0 else rd.buf 2) (rd.buf 3)) := by
  have hacc : accept rd d = .error { rd with buf := received rd.buf d, bufI := 0, bufN := min d.length defaultBufferSize } := by
    unfold accept
    simp only [hw, if_true]
    rw [if_pos]
    unfold packetHeaderSize defaultBufferSize
    omega
  refine ⟨⟨.error .shortPacket, s1, { rd with buf := received rd.buf d, bufI := 0, bufN := min d.length defaultBufferSize }, rest⟩,
    ⟨.ok (0 + 1), s2.take 0 ++ (List.range 1).map (fun j => sampleAt (received rd.buf d) (0 + 4 * j)) ++ s2.drop (0 + 1),
      { rd with buf := received rd.buf d, bufI := 0 + 4 * 1, bufN := min d.length defaultBufferSize }, rest⟩, ?_, rfl, ?_, rfl, rfl, ?_⟩
  · rw [readSamples, if_pos hidle]
    simp only [hacc]
  · rw [readSamples.eq_def, if_neg (by simp only [ge_iff_le]; unfold defaultBufferSize; omega), decode]
    simp only
    rw [drain_ok _ 1 _ _ _ _ (by unfold defaultBufferSize; omega) (by omega) (by decide), Option.bind_some]
  · have e : ∀ i, received rd.buf d i = if i < d.length then d.getD i 0 else rd.buf i := by
      intro i
      split
      · rename_i h; exact received_in _ _ h (by omega)
      · rename_i h; exact received_out _ _ (by omega)
    simp [sampleAt, e, h0, show ¬ 3 < d.length by omega]

/-- C62 does not hold: a slice with fewer places than the datagram has samples makes the call panic. -/
theorem C62_violated_panic (rd : PacketReader) (hidle : rd.bufI ≥ rd.bufN) (d : List UInt8) (hd : WellFormed rd.withHeaders d)
    (rest : List Recv) (samples : List (Int × Int)) (hs : samples.length < (d.length - hdr rd.withHeaders) / 4) :
    readSamples rd (.datagram d :: rest) samples = none := by
  apply read_panics rd hidle d hd.1
  have hh : hdr rd.withHeaders = 0 ∨ hdr rd.withHeaders = 4 := by unfold hdr; split <;> simp
  have := hd.2
  unfold count defaultBufferSize
  omega

/-- C62, the part that holds: whatever the reader's buffer and whatever the length of the datagram, if
the datagram has its header and the slice is large enough, the call does not panic and every sample of
which all four bytes arrived is decoded from them; at most one more sample is delivered. -/
theorem C62_complete_partial (rd : PacketReader) (hidle : rd.bufI ≥ rd.bufN) (d : List UInt8) (hd : hdr rd.withHeaders ≤ d.length)
    (hlen : d.length ≤ 262144) (rest : List Recv) (samples : List (Int × Int)) (hs : d.length ≤ samples.length) :
    ∃ o n, readSamples rd (.datagram d :: rest) samples = some o ∧ o.result = .ok n ∧
      o.samples.take ((d.length - hdr rd.withHeaders) / 4) = iq (d.drop (hdr rd.withHeaders)) ∧
      (d.length - hdr rd.withHeaders) / 4 ≤ n ∧ n ≤ (d.length - hdr rd.withHeaders) / 4 + 1 ∧ o.rd.bufI ≥ o.rd.bufN ∧ o.conn = rest := by
  have hh : hdr rd.withHeaders = 0 ∨ hdr rd.withHeaders = 4 := by unfold hdr; split <;> simp
  have hc : (d.length - hdr rd.withHeaders) / 4 ≤ count rd.withHeaders d ∧ count rd.withHeaders d ≤ (d.length - hdr rd.withHeaders) / 4 + 1 ∧
      count rd.withHeaders d ≤ d.length := by
    unfold count defaultBufferSize
    omega
  refine ⟨_, _, read_closed rd hidle d hd rest samples (by omega), rfl, ?_, hc.1, hc.2.1, ?_, rfl⟩
  · simp only
    rw [List.take_append_of_le_length (by simp; omega), ← List.map_take, List.take_range, Nat.min_eq_left hc.1, complete_samples _ _ _ hlen]
  · simp only [loaded, count]
    unfold defaultBufferSize
    omega

example : ∃ first first', WellFormed true first ∧ WellFormed true first' ∧
      ∃ r r', second true first [0, 0, 7, 0, 5] (List.replicate 9 (0, 0)) (List.replicate 9 (0, 0)) = some r ∧
        second true first' [0, 0, 7, 0, 5] (List.replicate 9 (0, 0)) (List.replicate 9 (0, 0)) = some r' ∧ r ≠ r' :=
  C62_violated true [0, 0, 7, 0, 5] (by simp [hdr]) (by simp) (by simp) _ _ (by simp) (by simp)

example : ∃ o1 o2, readSamples (newPacketReader true) (.datagram [7, 8] :: []) [] = some o1 ∧
      readSamples o1.rd o1.conn [(0, 0)] = some o2 ∧ o2.samples.head? = some (0x0807, 0) := by
  obtain ⟨o1, o2, h1, -, h2, -, -, h3⟩ :=
    C62_violated_short (newPacketReader true) (by decide) rfl [7, 8] (by decide) (by decide) [] [] [(0, 0)] (by decide)
  exact ⟨o1, o2, h1, h2, h3.trans (by decide)⟩

example : ∃ o, readSamples (newPacketReader false) [.datagram [1, 0, 2, 0, 9]] (List.replicate 5 (7, 7)) = some o ∧
      o.samples.take 1 = [(1, 2)] := by
  obtain ⟨o, n, h1, -, h2, -⟩ := C62_complete_partial (newPacketReader false) (by decide) [1, 0, 2, 0, 9]
    (by simp [newPacketReader, hdr]) (by simp) [] (List.replicate 5 (7, 7)) (by simp)
  have e : iq (List.drop (hdr (newPacketReader false).withHeaders) [1, 0, 2, 0, 9]) = [(1, 2)] := by decide
  exact ⟨o, h1, h2.trans e⟩

example : readSamples (newPacketReader true) [.datagram [0, 0, 0, 0, 1, 2, 3, 4]] [] = none :=
  C62_violated_panic (newPacketReader true) (by decide) _ (by simp [WellFormed, newPacketReader, hdr]) [] [] (by decide)

end Verif.Borip
