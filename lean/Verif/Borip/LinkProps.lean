import Verif.Borip.StreamProps
import Verif.Borip.RxProps

/-!
# Property C136: from the receiver of the server to the recorder of the client

The datagrams of `StreamModel` go through a network that may lose, repeat and reorder them, to the reader of `PacketModel`
and the recorder of `RxModel`.  The network is a list of numbers of datagrams, in the order in which they arrive.
-/

namespace Verif.Borip
open Verif.Conv Verif.Fp

/-! ## Specification -/

/-- The samples of device bytes: pairs of components widened to 16 bits; an odd byte at the end is left out. -/
def heard : List (BitVec 8) → List (Int × Int)
  | i :: q :: rest => (widen i.toNat, widen q.toNat) :: heard rest
  | _ => []

/-- The blocks of 8192 bytes of a buffer, the last may be shorter. -/
def blocks (xs : List (BitVec 8)) : List (List (BitVec 8)) :=
  (List.range ((xs.length + 8191) / 8192)).map fun j => (xs.drop (8192 * j)).take 8192

/-- The blocks of a sequence of buffers. -/
def allBlocks (es : List ((Nat → BitVec 8) × Slice)) : List (List (BitVec 8)) := es.flatMap fun e => blocks (deviceBytes e)

/-- What the network delivers, of the datagrams sent. -/
def delivered (sent : List (List (BitVec 8))) (net : List Nat) : List (List UInt8) := net.map fun k => (sent.getD k []).map UInt8.ofBitVec

/-- The header of datagram number `k`. -/
def headerAt (k : Nat) : PacketHeader := ⟨if k = 0 then 0x10 else 0, 0, UInt16.ofNat k⟩

/-! ## Lemmas -/

theorem widen_le16 (v : BitVec 8) : le16 (UInt8.ofBitVec (octet 0 (BitVec.ofInt 16 (widen v.toNat)).toNat))
    (UInt8.ofBitVec (octet 1 (BitVec.ofInt 16 (widen v.toNat)).toNat)) = widen v.toNat := by
  have h : ∀ v : BitVec 8, le16 (UInt8.ofBitVec (octet 0 (BitVec.ofInt 16 (widen v.toNat)).toNat))
      (UInt8.ofBitVec (octet 1 (BitVec.ofInt 16 (widen v.toNat)).toNat)) = widen v.toNat := by
    decide +kernel
  exact h v

theorem heard_converted (xs : List (BitVec 8)) : iq ((converted xs).map UInt8.ofBitVec) = heard xs := by
  induction xs using heard.induct with
  | case1 i q rest ih =>
    have e : (converted (i :: q :: rest)).map UInt8.ofBitVec =
        UInt8.ofBitVec (octet 0 (BitVec.ofInt 16 (widen i.toNat)).toNat) :: UInt8.ofBitVec (octet 1 (BitVec.ofInt 16 (widen i.toNat)).toNat) ::
        UInt8.ofBitVec (octet 0 (BitVec.ofInt 16 (widen q.toNat)).toNat) :: UInt8.ofBitVec (octet 1 (BitVec.ofInt 16 (widen q.toNat)).toNat) ::
        (converted rest).map UInt8.ofBitVec := rfl
    rw [e, iq, ih, widen_le16, widen_le16, heard]
  | case2 xs h =>
    match xs, h with
    | [], _ => rfl
    | [a], _ => rfl
    | i :: q :: rest, h => exact absurd rfl (h i q rest)

theorem heard_length (xs : List (BitVec 8)) : (heard xs).length = xs.length / 2 := by
  rw [← heard_converted, iq_length, List.length_map, converted_length]
  omega

theorem header_of (k : Nat) (p : List (BitVec 8)) : headerOf ((header k ++ p).map UInt8.ofBitVec) = headerAt k := by
  have h1 : (BitVec.ofNat 8 (k % 65536 % 256)).toNat = k % 256 := by rw [BitVec.toNat_ofNat]; omega
  have h2 : (BitVec.ofNat 8 (k % 65536 / 256)).toNat = k % 65536 / 256 := by rw [BitVec.toNat_ofNat]; omega
  show PacketHeader.mk _ _ (UInt16.ofNat ((BitVec.ofNat 8 (k % 65536 % 256)).toNat + 256 * (BitVec.ofNat 8 (k % 65536 / 256)).toNat)) = _
  rw [h1, h2]
  unfold headerAt
  congr 1
  · split <;> rfl
  · apply UInt16.toNat_inj.mp
    rw [UInt16.toNat_ofNat', UInt16.toNat_ofNat']
    omega

theorem blocks_short (xs : List (BitVec 8)) (h : xs.length ≤ 8192) : payloads xs = (blocks xs).map converted := by
  unfold payloads sizes blocks
  rw [List.map_map, List.map_map]
  apply List.map_congr_left
  intro j hj
  rw [List.mem_range] at hj
  have : j = 0 := by omega
  subst this
  simp only [Function.comp, Nat.mul_zero, Nat.sub_zero, List.drop_zero]
  rw [List.take_of_length_le (by omega), List.take_of_length_le (by omega)]

theorem block_mem {xs b : List (BitVec 8)} (h : b ∈ blocks xs) : b.length ≤ 8192 ∧ (xs.length % 2 = 0 → b.length % 2 = 0) := by
  obtain ⟨j, hj, rfl⟩ := List.mem_map.1 h
  rw [List.length_take, List.length_drop]
  constructor <;> omega

theorem framed_get (ps : List (List (BitVec 8))) : ∀ (k i : Nat), (framed k ps)[i]? = ps[i]?.map fun p => header (k + i) ++ p := by
  intro k i
  rw [framed, List.getElem?_map, List.getElem?_zipIdx, Option.map_map]
  rfl

theorem framed_length (k : Nat) (ps : List (List (BitVec 8))) : (framed k ps).length = ps.length := by
  rw [framed, List.length_map, List.length_zipIdx]

/-- What is sent, when the payloads of each buffer are the conversions of some pieces. -/
theorem sent_pieces (m : Nat → BitVec 8) (base : Nat) (es : List ((Nat → BitVec 8) × Slice)) (hap : ∀ e ∈ es, Apart base e)
    (f : List (BitVec 8) → List (List (BitVec 8))) (hf : ∀ e ∈ es, payloads (deviceBytes e) = (f (deviceBytes e)).map converted) :
    ∃ st, stream (startStream m base) es = some st ∧
      st.sent = framed 0 ((es.flatMap fun e => f (deviceBytes e)).map converted) := by
  obtain ⟨st, h1, h2⟩ := stream_sends es _ (start_ready m base) hap
  refine ⟨st, h1, ?_⟩
  rw [h2, show (startStream m base).sent = [] from rfl, show (startStream m base).seq = 0 from rfl, List.nil_append, List.map_flatMap]
  congr 1
  rw [List.flatMap_congr (by intro e he; exact hf e he)]

theorem piece_delivered (bs : List (List (BitVec 8))) (k : Nat) (b : List (BitVec 8)) (hk : bs[k]? = some b) :
    ((framed 0 (bs.map converted)).getD k []).map UInt8.ofBitVec = (header k ++ converted b).map UInt8.ofBitVec := by
  rw [List.getD_eq_getElem?_getD, framed_get, List.getElem?_map, hk, Nat.zero_add]
  rfl

theorem piece_wellFormed (k : Nat) (b : List (BitVec 8)) (h : b.length ≤ 8192) (h2 : b.length % 2 = 0) :
    WellFormed true ((header k ++ converted b).map UInt8.ofBitVec) := by
  have e : ((header k ++ converted b).map UInt8.ofBitVec).length = 4 + 2 * b.length := by
    rw [List.length_map, List.length_append, converted_length]
    rfl
  refine ⟨?_, ?_, ?_⟩
  · rw [e]; show 4 ≤ _; omega
  · rw [e]; omega
  · rw [e]; omega

theorem piece_payload (k : Nat) (b : List (BitVec 8)) :
    iq (((header k ++ converted b).map UInt8.ofBitVec).drop (hdr true)) = heard b := by
  rw [← List.map_drop, show hdr true = (header k).length from rfl, List.drop_left, heard_converted]

theorem delivered_wellFormed (bs : List (List (BitVec 8))) (hb : ∀ b ∈ bs, b.length ≤ 8192 ∧ b.length % 2 = 0) (net : List Nat)
    (hn : ∀ k ∈ net, k < bs.length) : ∀ d ∈ delivered (framed 0 (bs.map converted)) net, WellFormed true d := by
  intro d hd
  obtain ⟨k, hk, rfl⟩ := List.mem_map.1 hd
  have hk' := List.getElem?_eq_getElem (hn k hk)
  rw [piece_delivered bs k _ hk']
  have := hb _ (List.getElem_mem (hn k hk))
  exact piece_wellFormed _ _ this.1 this.2

theorem delivered_iq (bs : List (List (BitVec 8))) (net : List Nat) (hn : ∀ k ∈ net, k < bs.length) :
    ((delivered (framed 0 (bs.map converted)) net).flatMap fun d => iq (d.drop (hdr true))) = net.flatMap fun k => heard (bs.getD k []) := by
  unfold delivered
  rw [List.flatMap_map]
  apply List.flatMap_congr
  intro k hk
  have hk' := List.getElem?_eq_getElem (hn k hk)
  rw [piece_delivered bs k _ hk', piece_payload, List.getD_eq_getElem?_getD, hk']
  rfl

/-! ## C136 -/

theorem shorts (es : List ((Nat → BitVec 8) × Slice)) (hs : ∀ e ∈ es, e.2.len ≤ 8192 ∧ e.2.len % 2 = 0) :
    ∀ b ∈ allBlocks es, b.length ≤ 8192 ∧ b.length % 2 = 0 := by
  intro b hb
  obtain ⟨e, he, hb⟩ := List.mem_flatMap.1 hb
  have := block_mem hb
  refine ⟨this.1, this.2 ?_⟩
  rw [deviceBytes, bytesOf_length]
  exact (hs e he).2

/-- C136 for buffers of whole samples that fit one packet: whatever the network loses, repeats or reorders, the call that
reads datagram number `k` returns exactly the samples of block number `k` of the device, with the start flag exactly if
`k = 0` and sequence number `k` modulo 65536.  Missing for the full statement: larger buffers and odd ones, for which it
fails (`C136_violated_large`, `C136_violated_odd`). -/
theorem C136_received_partial (m : Nat → BitVec 8) (base : Nat) (es : List ((Nat → BitVec 8) × Slice)) (hap : ∀ e ∈ es, Apart base e)
    (hs : ∀ e ∈ es, e.2.len ≤ 8192 ∧ e.2.len % 2 = 0) :
    ∃ st, stream (startStream m base) es = some st ∧ st.sent.length = (allBlocks es).length ∧
      ∀ (net : List Nat), (∀ k ∈ net, k < st.sent.length) →
      ∀ (slices : List (List (Int × Int))) (rest : List Recv), slices.length = net.length → (∀ s ∈ slices, 4096 ≤ s.length) →
      ∃ os, readAll (newPacketReader true) ((delivered st.sent net).map .datagram ++ rest) slices = some os ∧ os.length = net.length ∧
        ∀ (i k : Nat), net[i]? = some k → ∃ (o : Outcome) (s : List (Int × Int)) (b : List (BitVec 8)),
          os[i]? = some o ∧ slices[i]? = some s ∧ (allBlocks es)[k]? = some b ∧
          o.result = .ok (b.length / 2) ∧ o.samples = heard b ++ s.drop (b.length / 2) ∧ o.rd.header = headerAt k := by
  obtain ⟨st, h1, h2⟩ := sent_pieces m base es hap blocks fun e he => blocks_short _ (by rw [deviceBytes, bytesOf_length]; exact (hs e he).1)
  have hb := shorts es hs
  change st.sent = framed 0 ((allBlocks es).map converted) at h2
  have hlen : st.sent.length = (allBlocks es).length := by rw [h2, framed_length, List.length_map]
  refine ⟨st, h1, hlen, ?_⟩
  intro net hn slices rest hsl hbig
  rw [hlen] at hn
  have hdl : (delivered st.sent net).length = net.length := List.length_map ..
  have hget : ∀ (i k : Nat), net[i]? = some k → ∃ b, (allBlocks es)[k]? = some b ∧
      (delivered st.sent net)[i]? = some ((header k ++ converted b).map UInt8.ofBitVec) := by
    intro i k hk
    have hk' := List.getElem?_eq_getElem (hn k (List.mem_of_getElem? hk))
    refine ⟨_, hk', ?_⟩
    unfold delivered
    rw [List.getElem?_map, hk, h2, Option.map_some, piece_delivered _ _ _ hk']
  have hwf := delivered_wellFormed (allBlocks es) hb net hn
  rw [← h2] at hwf
  obtain ⟨os, a1, a2, a3⟩ := C61_sequence (delivered st.sent net) (newPacketReader true) (le_refl _) hwf slices rest (by rw [hsl, hdl]) (by
    intro p hp
    have hp1 := hwf p.1 (List.of_mem_zip hp).1
    have hp2 := hbig p.2 (List.of_mem_zip hp).2
    obtain ⟨i, hi⟩ := List.mem_iff_getElem?.1 (List.of_mem_zip hp).1
    have hi' : i < net.length := by
      rw [← hdl]
      exact (List.getElem?_eq_some_iff.1 hi).1
    obtain ⟨b, hb1, hb2⟩ := hget i _ (List.getElem?_eq_getElem hi')
    rw [hi] at hb2
    have e := Option.some.inj hb2
    have := hb b (List.mem_of_getElem? hb1)
    have e2 : p.1.length = 4 + 2 * b.length := by
      rw [e, List.length_map, List.length_append, converted_length]
      rfl
    show (p.1.length - 4) / 4 ≤ _
    omega)
  refine ⟨os, a1, by rw [a2, hdl], ?_⟩
  intro i k hk
  obtain ⟨b, hb1, hb2⟩ := hget i k hk
  obtain ⟨o, s, c1, c2, c3, c4, c5⟩ := a3 i _ hb2
  have hbl := hb b (List.mem_of_getElem? hb1)
  have e : (((header k ++ converted b).map UInt8.ofBitVec).length - hdr (newPacketReader true).withHeaders) / 4 = b.length / 2 := by
    rw [List.length_map, List.length_append, converted_length]
    show (4 + 2 * b.length - 4) / 4 = _
    omega
  rw [e] at c3 c4
  refine ⟨o, s, b, c1, c2, hb1, c3, ?_, ?_⟩
  · rw [c4]
    congr 1
    exact piece_payload k b
  · rw [c5 rfl, header_of]

/-- C136 for the recorder, for such buffers: the file holds exactly the samples of the blocks delivered, in the order of
their arrival; with a faultless network it holds the samples of the device. -/
theorem C136_recorder_partial (m : Nat → BitVec 8) (base : Nat) (es : List ((Nat → BitVec 8) × Slice)) (hap : ∀ e ∈ es, Apart base e)
    (hs : ∀ e ∈ es, e.2.len ≤ 8192 ∧ e.2.len % 2 = 0) :
    ∃ st, stream (startStream m base) es = some st ∧
      (∀ (net : List Nat), (∀ k ∈ net, k < st.sent.length) → ∀ rest,
        ∃ r, (Rec.start true ((delivered st.sent net).map .datagram ++ rest)).run net.length = some (.ok r) ∧ r.conn = rest ∧
          readFile r.file = (net.flatMap fun k => heard ((allBlocks es).getD k [])).map fun p => (exactly p.1, exactly p.2)) ∧
      ∀ rest, ∃ r, (Rec.start true (st.sent.map (fun d => .datagram (d.map UInt8.ofBitVec)) ++ rest)).run st.sent.length = some (.ok r) ∧
          readFile r.file = (es.flatMap fun e => heard (deviceBytes e)).map fun p => (exactly p.1, exactly p.2) := by
  obtain ⟨st, h1, h2⟩ := sent_pieces m base es hap blocks fun e he => blocks_short _ (by rw [deviceBytes, bytesOf_length]; exact (hs e he).1)
  have hb := shorts es hs
  change st.sent = framed 0 ((allBlocks es).map converted) at h2
  have hlen : st.sent.length = (allBlocks es).length := by rw [h2, framed_length, List.length_map]
  have key : ∀ (net : List Nat), (∀ k ∈ net, k < st.sent.length) → ∀ rest,
        ∃ r, (Rec.start true ((delivered st.sent net).map .datagram ++ rest)).run net.length = some (.ok r) ∧ r.conn = rest ∧
          readFile r.file = (net.flatMap fun k => heard ((allBlocks es).getD k [])).map fun p => (exactly p.1, exactly p.2) := by
    intro net hn rest
    rw [hlen] at hn
    have hwf := delivered_wellFormed (allBlocks es) hb net hn
    rw [← h2] at hwf
    obtain ⟨r, a1, a2, a3, -⟩ := C107_recorded true (delivered st.sent net) hwf rest
    rw [show (delivered st.sent net).length = net.length from List.length_map ..] at a1
    refine ⟨r, a1, a2, ?_⟩
    rw [a3, h2, delivered_iq _ _ hn]
  refine ⟨st, h1, key, ?_⟩
  intro rest
  obtain ⟨r, a1, -, a3⟩ := key (List.range st.sent.length) (fun k hk => List.mem_range.1 hk) rest
  have e : (delivered st.sent (List.range st.sent.length)).map Recv.datagram = st.sent.map fun d => .datagram (d.map UInt8.ofBitVec) := by
    unfold delivered
    rw [List.map_map]
    apply List.ext_getElem?
    intro i
    by_cases hi : i < st.sent.length
    · rw [List.getElem?_map, List.getElem?_range hi, List.getElem?_map, List.getElem?_eq_getElem hi]
      simp only [Function.comp, Option.map_some, List.getD_eq_getElem?_getD, List.getElem?_eq_getElem hi, Option.getD_some]
    · rw [List.getElem?_eq_none (by simpa using hi), List.getElem?_eq_none (by simpa using hi)]
  rw [e, List.length_range] at a1
  refine ⟨r, a1, ?_⟩
  rw [a3]
  congr 1
  have e2 : ((List.range st.sent.length).flatMap fun k => heard ((allBlocks es).getD k [])) = (allBlocks es).flatMap heard := by
    rw [hlen, ← List.flatMap_map (fun k => (allBlocks es).getD k []) heard]
    congr 1
    apply List.ext_getElem?
    intro i
    by_cases hi : i < (allBlocks es).length
    · rw [List.getElem?_map, List.getElem?_range hi, List.getElem?_eq_getElem hi]
      simp only [Option.map_some, List.getD_eq_getElem?_getD, List.getElem?_eq_getElem hi, Option.getD_some]
    · rw [List.getElem?_eq_none (by simpa using hi), List.getElem?_eq_none (by simpa using hi)]
  rw [e2, allBlocks, List.flatMap_assoc]
  apply List.flatMap_congr
  intro e he
  have hl : (deviceBytes e).length ≤ 8192 := by rw [deviceBytes, bytesOf_length]; exact (hs e he).1
  generalize deviceBytes e = xs at hl
  unfold blocks
  by_cases h0 : xs.length = 0
  · have : xs = [] := List.eq_nil_of_length_eq_zero h0
    subst this
    rfl
  · rw [show (xs.length + 8191) / 8192 = 1 by omega]
    simp only [List.range_one, List.map_cons, List.map_nil, List.flatMap_cons, List.flatMap_nil, List.append_nil, Nat.mul_zero, List.drop_zero]
    rw [List.take_of_length_le hl]

theorem idx_lost (k k' : Nat) (h : k < k') (h2 : k' ≤ k + 65536) :
    ((headerAt k').idx - (headerAt k).idx - 1).toNat = k' - k - 1 := by
  show (UInt16.ofNat k' - UInt16.ofNat k - 1).toNat = _
  rw [UInt16.toNat_sub, UInt16.toNat_sub, UInt16.toNat_ofNat', UInt16.toNat_ofNat']
  simp only [UInt16.toNat_one]
  omega

/-- C136, counting: of two datagrams read one after the other, in order and at most 65536 apart, the difference of their
sequence numbers tells how many were lost between them.  Missing: larger losses, for which it fails
(`C136_violated_lost`), and buffers other than in `C136_received_partial`. -/
theorem C136_lost_partial (m : Nat → BitVec 8) (base : Nat) (es : List ((Nat → BitVec 8) × Slice)) (hap : ∀ e ∈ es, Apart base e)
    (hs : ∀ e ∈ es, e.2.len ≤ 8192 ∧ e.2.len % 2 = 0) :
    ∃ st, stream (startStream m base) es = some st ∧
      ∀ (net : List Nat), (∀ k ∈ net, k < st.sent.length) →
      ∀ (slices : List (List (Int × Int))) (rest : List Recv), slices.length = net.length → (∀ s ∈ slices, 4096 ≤ s.length) →
      ∃ os, readAll (newPacketReader true) ((delivered st.sent net).map .datagram ++ rest) slices = some os ∧ os.length = net.length ∧
        ∀ (i k k' : Nat) (o o' : Outcome), net[i]? = some k → net[i + 1]? = some k' → os[i]? = some o → os[i + 1]? = some o' →
          k < k' → k' ≤ k + 65536 → (o'.rd.header.idx - o.rd.header.idx - 1).toNat = k' - k - 1 := by
  obtain ⟨st, h1, -, h2⟩ := C136_received_partial m base es hap hs
  refine ⟨st, h1, ?_⟩
  intro net hn slices rest hl hb
  obtain ⟨os, a1, a2, a3⟩ := h2 net hn slices rest hl hb
  refine ⟨os, a1, a2, ?_⟩
  intro i k k' o o' hk hk' ho ho' h h'
  obtain ⟨p, -, -, p1, -, -, -, -, p2⟩ := a3 i k hk
  obtain ⟨q, -, -, q1, -, -, -, -, q2⟩ := a3 (i + 1) k' hk'
  rw [ho] at p1
  rw [ho'] at q1
  rw [Option.some.inj p1, Option.some.inj q1, p2, q2, idx_lost k k' h h']

theorem headerAt_wraps (k n : Nat) (hk : 0 < k) : headerAt (k + 65536 * n) = headerAt k := by
  unfold headerAt
  rw [if_neg (by omega), if_neg (by omega)]
  congr 1
  apply UInt16.toNat_inj.mp
  rw [UInt16.toNat_ofNat', UInt16.toNat_ofNat']
  omega

/-- C136 fails beyond that: when datagram `k + 65537` is read after datagram `k`, the headers are those of a stream
without loss. -/
theorem C136_violated_lost (m : Nat → BitVec 8) (base : Nat) (es : List ((Nat → BitVec 8) × Slice)) (hap : ∀ e ∈ es, Apart base e)
    (hs : ∀ e ∈ es, e.2.len ≤ 8192 ∧ e.2.len % 2 = 0) (k : Nat) (hk : k + 65537 < (allBlocks es).length)
    (s1 s2 : List (Int × Int)) (h1 : 4096 ≤ s1.length) (h2 : 4096 ≤ s2.length) :
    ∃ st, stream (startStream m base) es = some st ∧ ∃ o1 o2 o1' o2',
      readAll (newPacketReader true) ((delivered st.sent [k, k + 1]).map .datagram) [s1, s2] = some [o1, o2] ∧
      readAll (newPacketReader true) ((delivered st.sent [k, k + 65537]).map .datagram) [s1, s2] = some [o1', o2'] ∧
      o1.rd.header = o1'.rd.header ∧ o2.rd.header = o2'.rd.header := by
  obtain ⟨st, g1, g2, g3⟩ := C136_received_partial m base es hap hs
  refine ⟨st, g1, ?_⟩
  have key : ∀ k', k' < st.sent.length → ∃ o1 o2, readAll (newPacketReader true) ((delivered st.sent [k, k']).map .datagram) [s1, s2] = some [o1, o2] ∧
      o1.rd.header = headerAt k ∧ o2.rd.header = headerAt k' := by
    intro k' hk'
    obtain ⟨os, a1, a2, a3⟩ := g3 [k, k'] (by simp only [List.mem_cons, List.not_mem_nil, or_false]; rintro x (rfl | rfl) <;> omega) [s1, s2] [] rfl
      (by simp only [List.mem_cons, List.not_mem_nil, or_false]; rintro x (rfl | rfl) <;> assumption)
    match os, a2 with
    | [o1, o2], _ =>
      obtain ⟨p, -, -, p1, -, -, -, -, p2⟩ := a3 0 k rfl
      obtain ⟨q, -, -, q1, -, -, -, -, q2⟩ := a3 1 k' rfl
      rw [List.append_nil] at a1
      refine ⟨o1, o2, a1, ?_, ?_⟩
      · rw [Option.some.inj p1, p2]
      · rw [Option.some.inj q1, q2]
  obtain ⟨o1, o2, a1, a2, a3⟩ := key (k + 1) (by omega)
  obtain ⟨o1', o2', b1, b2, b3⟩ := key (k + 65537) (by omega)
  refine ⟨o1, o2, o1', o2', a1, b1, by rw [a2, b2], ?_⟩
  rw [a3, b3, show k + 65537 = (k + 1) + 65536 * 1 by omega, headerAt_wraps _ _ (by omega)]

/-! ### Large buffers -/

theorem payloads_large (xs : List (BitVec 8)) (h : xs.length = 32768) :
    payloads xs = (List.replicate 4 (xs.take 8192)).map converted := by
  unfold payloads sizes
  rw [h, show (32768 + 8191) / 8192 = 4 from rfl]
  rfl

theorem heard_append (xs ys : List (BitVec 8)) (h : xs.length % 2 = 0) : heard (xs ++ ys) = heard xs ++ heard ys := by
  induction xs using heard.induct with
  | case1 i q rest ih =>
    simp only [List.length_cons] at h
    rw [List.cons_append, List.cons_append, heard, ih (by omega), heard, List.cons_append]
  | case2 xs hx =>
    match xs, hx with
    | [], _ => rfl
    | [a], _ => simp at h
    | i :: q :: rest, hx => exact absurd rfl (hx i q rest)

theorem widen_inj {a b : BitVec 8} (h : widen a.toNat = widen b.toNat) : a = b := by
  apply BitVec.eq_of_toNat_eq
  unfold widen at h
  split at h <;> split at h <;> omega

theorem heard_inj (xs : List (BitVec 8)) : ∀ (ys : List (BitVec 8)), xs.length = ys.length → xs.length % 2 = 0 → heard xs = heard ys → xs = ys := by
  induction xs using heard.induct with
  | case1 i q rest ih =>
    intro ys hl h2 h
    match ys, hl with
    | j :: r :: ys, hl =>
      simp only [List.length_cons] at hl h2
      rw [heard, heard, List.cons.injEq, Prod.mk.injEq] at h
      rw [widen_inj h.1.1, widen_inj h.1.2, ih ys (by omega) (by omega) h.2]
  | case2 xs hx =>
    intro ys hl h2 _
    match xs, hx with
    | [], _ => exact (List.eq_nil_of_length_eq_zero hl.symm).symm
    | [a], _ => simp at h2
    | i :: q :: rest, hx => exact absurd rfl (hx i q rest)

/-- C136 fails in the configuration of the server: it asks the driver for buffers of 32768 bytes
(boripserver/main.go:31-33, 334), of which four times the first quarter is sent.  With a faultless network the file holds
the first quarter of every buffer four times. -/
theorem C136_violated_large (m : Nat → BitVec 8) (base : Nat) (es : List ((Nat → BitVec 8) × Slice)) (hap : ∀ e ∈ es, Apart base e)
    (hs : ∀ e ∈ es, e.2.len = 32768) :
    ∃ st, stream (startStream m base) es = some st ∧ ∀ rest,
      ∃ r, (Rec.start true (st.sent.map (fun d => .datagram (d.map UInt8.ofBitVec)) ++ rest)).run st.sent.length = some (.ok r) ∧
        readFile r.file = (es.flatMap fun e => (List.replicate 4 (heard ((deviceBytes e).take 8192))).flatten).map (fun p => (exactly p.1, exactly p.2)) ∧
        ∀ e, es = [e] → (readFile r.file = (heard (deviceBytes e)).map (fun p => (exactly p.1, exactly p.2)) ↔
          ∀ i, i < 32768 → e.1 (e.2.base + i) = e.1 (e.2.base + i % 8192)) := by
  have hlen : ∀ e ∈ es, (deviceBytes e).length = 32768 := fun e he => by rw [deviceBytes, bytesOf_length]; exact hs e he
  obtain ⟨st, h1, h2⟩ := sent_pieces m base es hap (fun xs => List.replicate 4 (xs.take 8192)) fun e he => payloads_large _ (hlen e he)
  refine ⟨st, h1, ?_⟩
  intro rest
  have hb : ∀ b ∈ es.flatMap (fun e => List.replicate 4 ((deviceBytes e).take 8192)), b.length ≤ 8192 ∧ b.length % 2 = 0 := by
    intro b hb
    obtain ⟨e, he, hb⟩ := List.mem_flatMap.1 hb
    rw [List.eq_of_mem_replicate hb, List.length_take, hlen e he]
    decide
  generalize hbs : es.flatMap (fun e => List.replicate 4 ((deviceBytes e).take 8192)) = bs at h2 hb
  have hwf : ∀ d ∈ (st.sent.map fun d => d.map UInt8.ofBitVec), WellFormed true d := by
    intro d hd
    obtain ⟨d', hd', rfl⟩ := List.mem_map.1 hd
    rw [h2] at hd'
    obtain ⟨i, hi⟩ := List.mem_iff_getElem?.1 hd'
    rw [framed_get, List.getElem?_map] at hi
    cases hbi : bs[i]? with
    | none => rw [hbi] at hi; cases hi
    | some b =>
      rw [hbi] at hi
      have e := Option.some.inj hi
      rw [← e]
      have := hb b (List.mem_of_getElem? hbi)
      exact piece_wellFormed _ _ this.1 this.2
  obtain ⟨r, a1, -, a3, -⟩ := C107_recorded true _ hwf rest
  rw [List.map_map, List.length_map] at a1
  have hfile : readFile r.file = (es.flatMap fun e => (List.replicate 4 (heard ((deviceBytes e).take 8192))).flatten).map
      (fun p => (exactly p.1, exactly p.2)) := by
    rw [a3]
    congr 1
    rw [h2, List.flatMap_map]
    have e : ∀ (bs : List (List (BitVec 8))) (k : Nat), ((framed k (bs.map converted)).flatMap fun d => iq ((d.map UInt8.ofBitVec).drop (hdr true))) =
        bs.flatMap heard := by
      intro bs
      induction bs with
      | nil => intro k; rfl
      | cons b bs ih =>
        intro k
        rw [List.map_cons, framed_cons, List.flatMap_cons, ih, piece_payload, List.flatMap_cons]
    rw [e, ← hbs, List.flatMap_assoc]
    apply List.flatMap_congr
    intro e he
    rw [List.flatMap_def, List.map_replicate]
  refine ⟨r, a1, hfile, ?_⟩
  intro e he
  subst he
  rw [hfile, List.flatMap_cons, List.flatMap_nil, List.append_nil]
  have hx : (deviceBytes e).length = 32768 := hlen e (by simp)
  have hq : ((deviceBytes e).take 8192).length = 8192 := by rw [List.length_take, hx]; rfl
  have e4 : (List.replicate 4 (heard ((deviceBytes e).take 8192))).flatten = heard ((List.replicate 4 ((deviceBytes e).take 8192)).flatten) := by
    simp only [List.replicate, List.flatten_cons, List.flatten_nil]
    rw [heard_append _ _ (by rw [hq]), heard_append _ _ (by rw [hq]), heard_append _ _ (by rw [hq]), heard_append _ _ (by rw [hq])]
    rfl
  have hinj : Function.Injective fun p : Int × Int => (exactly p.1, exactly p.2) := by
    rintro ⟨a, b⟩ ⟨c, d⟩ h
    simp only [Prod.mk.injEq] at h ⊢
    exact ⟨exactly_injective h.1, exactly_injective h.2⟩
  rw [e4, (List.map_injective_iff.2 hinj).eq_iff]
  have hl4 : (List.replicate 4 ((deviceBytes e).take 8192)).flatten.length = 32768 := by
    simp only [List.replicate, List.flatten_cons, List.flatten_nil, List.length_append, hq, List.length_nil]
  have hg : ∀ i, i < 32768 → (List.replicate 4 ((deviceBytes e).take 8192)).flatten[i]? = some (e.1 (e.2.base + i % 8192)) := by
    intro i hi
    have key : ∀ j, j < 8192 → ((deviceBytes e).take 8192)[j]? = some (e.1 (e.2.base + j)) := by
      intro j hj
      rw [List.getElem?_take_of_lt hj, deviceBytes, bytesOf_get, if_pos (by have := hs e (by simp); omega)]
    have hrep : ∀ n i, i < 8192 * n → (List.replicate n ((deviceBytes e).take 8192)).flatten[i]? = some (e.1 (e.2.base + i % 8192)) := by
      intro n
      induction n with
      | zero => intro i hi; omega
      | succ n ih =>
        intro i hi
        rw [List.replicate_succ, List.flatten_cons]
        by_cases h : i < 8192
        · rw [List.getElem?_append_left (by rw [hq]; exact h), key i h, Nat.mod_eq_of_lt h]
        · rw [List.getElem?_append_right (by rw [hq]; omega), hq, ih (i - 8192) (by omega),
            show (i - 8192) % 8192 = i % 8192 by omega]
    exact hrep 4 i (by omega)
  have hg2 : ∀ i, i < 32768 → (deviceBytes e)[i]? = some (e.1 (e.2.base + i)) := by
    intro i hi
    rw [deviceBytes, bytesOf_get, if_pos (by have := hs e (by simp); omega)]
  constructor
  · intro h
    have := heard_inj _ _ (by rw [hl4, hx]) (by rw [hl4]) h
    intro i hi
    have e1 := hg i hi
    rw [this, hg2 i hi] at e1
    exact Option.some.inj e1
  · intro h
    congr 1
    apply List.ext_getElem?
    intro i
    by_cases hi : i < 32768
    · rw [hg i hi, hg2 i hi, h i hi]
    · rw [List.getElem?_eq_none (by rw [hl4]; omega), List.getElem?_eq_none (by rw [hx]; omega)]

/-! ### Odd buffers, and reading without headers -/

/-- C136 fails for a buffer of an odd number of bytes: the client returns one more sample than the device has, and its
quadrature is what the buffer of the reader held before, here a byte `b` of the buffer sent before it. -/
theorem C136_violated_odd (m : Nat → BitVec 8) (base : Nat) (n : Nat) (hn : 2 * n + 2 ≤ 8192) (b : BitVec 8) (e : (Nat → BitVec 8) × Slice)
    (hl : e.2.len = 2 * n + 1) (hap : Apart base e) (f : Slice) (hf : f.len = 2 * n + 2) (hfa : Apart base (fun _ => b, f))
    (s1 s2 : List (Int × Int)) (h1 : s1.length = n + 1) (h2 : s2.length = n + 1) :
    ∃ st, stream (startStream m base) [(fun _ => b, f), e] = some st ∧ ∃ o1 o2,
      readAll (newPacketReader true) (st.sent.map fun d => .datagram (d.map UInt8.ofBitVec)) [s1, s2] = some [o1, o2] ∧
      o2.result = .ok (n + 1) ∧
      o2.samples = heard (deviceBytes e) ++ [(widen (e.1 (e.2.base + 2 * n)).toNat, widen b.toNat)] := by
  have hfb : ∀ g : Slice, deviceBytes ((fun _ => b), g) = List.replicate g.len b := by
    intro g
    unfold deviceBytes bytesOf
    rw [List.map_const', List.length_range]
  have he : (deviceBytes e).length = 2 * n + 1 := by rw [deviceBytes, bytesOf_length, hl]
  obtain ⟨st, g1, g2⟩ := sent_pieces m base [(fun _ => b, f), e] (by
    intro e' he'
    simp only [List.mem_cons, List.not_mem_nil, or_false] at he'
    rcases he' with rfl | rfl <;> assumption) (fun xs => [xs]) (by
    intro e' he'
    have : 0 < e'.2.len ∧ e'.2.len ≤ 8192 := by
      simp only [List.mem_cons, List.not_mem_nil, or_false] at he'
      rcases he' with rfl | rfl
      · simp only; omega
      · omega
    rw [blocks_short _ (by rw [deviceBytes, bytesOf_length]; exact this.2)]
    congr 1
    unfold blocks
    rw [show ((deviceBytes e').length + 8191) / 8192 = 1 by rw [deviceBytes, bytesOf_length]; omega]
    simp only [List.range_one, List.map_cons, List.map_nil, Nat.mul_zero, List.drop_zero]
    rw [List.take_of_length_le (by rw [deviceBytes, bytesOf_length]; exact this.2)])
  refine ⟨st, g1, ?_⟩
  have hsent : st.sent = [header 0 ++ converted (List.replicate (2 * n + 2) b), header 1 ++ converted (deviceBytes e)] := by
    rw [g2]
    simp only [List.flatMap_cons, List.flatMap_nil, List.append_nil, List.singleton_append, List.map_cons, List.map_nil, framed_cons]
    rw [hfb, hf]
    rfl
  rw [hsent]
  generalize hd1 : (header 0 ++ converted (List.replicate (2 * n + 2) b)).map UInt8.ofBitVec = d1
  generalize hd2 : (header 1 ++ converted (deviceBytes e)).map UInt8.ofBitVec = d2
  have l1 : d1.length = 4 * n + 8 := by
    rw [← hd1, List.length_map, List.length_append, converted_length, List.length_replicate]
    show 4 + _ = _
    omega
  have l2 : d2.length = 4 * n + 6 := by
    rw [← hd2, List.length_map, List.length_append, converted_length, he]
    show 4 + _ = _
    omega
  have c1 : count true d1 = n + 1 := by
    have ht : hdr true = 4 := rfl
    unfold count defaultBufferSize
    omega
  have c2 : count true d2 = n + 1 := by
    have ht : hdr true = 4 := rfl
    unfold count defaultBufferSize
    omega
  have r1 := read_closed (newPacketReader true) (le_refl _) d1 (by show 4 ≤ _; omega) [.datagram d2] s1 (by
    show count true d1 ≤ _; omega)
  rw [show (newPacketReader true).withHeaders = true from rfl, c1] at r1
  generalize hrd : ({ loaded (newPacketReader true) d1 with bufI := hdr true + 4 * (n + 1) } : PacketReader) = rd at r1
  have w : rd.withHeaders = true := by rw [← hrd]; rfl
  have hbuf : rd.buf = received (fun _ => 0) d1 := by rw [← hrd]; rfl
  have r2 := read_closed rd (by
    rw [← hrd]
    show 4 + 4 * (n + 1) ≥ min d1.length defaultBufferSize
    omega) d2 (by rw [w]; show 4 ≤ _; omega) [] s2 (by rw [w]; omega)
  rw [w, c2] at r2
  have hall : ∃ o1, readAll (newPacketReader true) [.datagram d1, .datagram d2] [s1, s2] = some [o1,
      ⟨.ok (n + 1), (List.range (n + 1)).map (fun j => sampleAt (received rd.buf d2) (hdr true + 4 * j)) ++ s2.drop (n + 1),
        { loaded rd d2 with bufI := hdr true + 4 * (n + 1) }, []⟩] := by
    rw [readAll, r1, Option.bind_some]
    simp only
    rw [readAll, r2, Option.bind_some]
    simp only
    rw [readAll, Option.bind_some, Option.bind_some]
    exact ⟨_, rfl⟩
  obtain ⟨o1, hall⟩ := hall
  simp only [List.map_cons, List.map_nil, hd1, hd2]
  refine ⟨o1, _, hall, rfl, ?_⟩
  · simp only
    rw [List.drop_of_length_le (by omega), List.append_nil, List.range_succ, List.map_append]
    have hc := complete_samples rd.buf d2 4 (by omega)
    rw [show (d2.length - 4) / 4 = n by omega] at hc
    rw [show hdr true = 4 from rfl, hc]
    refine congrArg₂ (fun x y => x ++ y) ?_ ?_
    · rw [← hd2]
      exact piece_payload 1 _
    · have conv : ∀ (xs : List (BitVec 8)) (k i : Nat) (v : BitVec 8), xs[i]? = some v →
          ((header k ++ converted xs).map UInt8.ofBitVec).getD (4 + 2 * i) 0 = UInt8.ofBitVec (octet 0 (BitVec.ofInt 16 (widen v.toNat)).toNat) ∧
          ((header k ++ converted xs).map UInt8.ofBitVec).getD (4 + 2 * i + 1) 0 = UInt8.ofBitVec (octet 1 (BitVec.ofInt 16 (widen v.toNat)).toNat) := by
        intro xs k i v hv
        constructor
        · rw [List.getD_eq_getElem?_getD, List.getElem?_map, List.getElem?_append_right (by show 4 ≤ _; omega),
            show 4 + 2 * i - (header k).length = 2 * i by show 4 + 2 * i - 4 = _; omega, converted_get, show 2 * i / 2 = i by omega, hv,
            show 2 * i % 2 = 0 by omega]
          rfl
        · rw [List.getD_eq_getElem?_getD, List.getElem?_map, List.getElem?_append_right (by show 4 ≤ _; omega),
            show 4 + 2 * i + 1 - (header k).length = 2 * i + 1 by show 4 + 2 * i + 1 - 4 = _; omega, converted_get,
            show (2 * i + 1) / 2 = i by omega, hv, show (2 * i + 1) % 2 = 1 by omega]
          rfl
      have k2 := conv (deviceBytes e) 1 (2 * n) (e.1 (e.2.base + 2 * n)) (by rw [deviceBytes, bytesOf_get, if_pos (by omega)])
      have k1 := conv (List.replicate (2 * n + 2) b) 0 (2 * n + 1) b (by rw [List.getElem?_replicate, if_pos (by omega)])
      rw [hd2] at k2
      rw [hd1] at k1
      simp only [List.map_cons, List.map_nil, sampleAt]
      rw [received_in _ _ (i := 4 + 4 * n) (by omega) (by omega), received_in _ _ (i := 4 + 4 * n + 1) (by omega) (by omega),
        received_out _ _ (i := 4 + 4 * n + 2) (by omega), received_out _ _ (i := 4 + 4 * n + 3) (by omega), hbuf,
        received_in _ _ (i := 4 + 4 * n + 2) (by omega) (by omega), received_in _ _ (i := 4 + 4 * n + 3) (by omega) (by omega),
        show 4 + 4 * n = 4 + 2 * (2 * n) by omega, k2.1, k2.2, show 4 + 2 * (2 * n) + 2 = 4 + 2 * (2 * n + 1) by omega, k1.1,
        show 4 + 2 * (2 * n) + 3 = 4 + 2 * (2 * n + 1) + 1 by omega, k1.2, widen_le16, widen_le16]

theorem le16_ofBitVec (x y : BitVec 8) : le16 (UInt8.ofBitVec x) (UInt8.ofBitVec y) =
    if (x.toNat : Int) + 256 * (y.toNat : Int) < 32768 then (x.toNat : Int) + 256 * (y.toNat : Int)
    else (x.toNat : Int) + 256 * (y.toNat : Int) - 65536 := rfl

/-- C136 fails for a reader that expects no headers: the server sends them always, and every datagram begins with a sample
made of its header. -/
theorem C136_violated_headerless (rd : PacketReader) (hw : rd.withHeaders = false) (hidle : rd.bufI ≥ rd.bufN) (k : Nat) (b : List (BitVec 8))
    (hb : b.length ≤ 8192) (h2 : b.length % 2 = 0) (rest : List Recv) (s : List (Int × Int)) (hs : b.length / 2 + 1 ≤ s.length) :
    ∃ o, readSamples rd (.datagram ((header k ++ converted b).map UInt8.ofBitVec) :: rest) s = some o ∧ o.result = .ok (b.length / 2 + 1) ∧
      o.samples = (if k = 0 then 16 else 0, (BitVec.ofNat 16 k).toInt) :: heard b ++ s.drop (b.length / 2 + 1) := by
  generalize hd : (header k ++ converted b).map UInt8.ofBitVec = d
  have l : d.length = 4 + 2 * b.length := by
    rw [← hd, List.length_map, List.length_append, converted_length]
    rfl
  have hh : hdr rd.withHeaders = 0 := by rw [hw]; rfl
  obtain ⟨o, a1, a2, a3, -⟩ := C61_one rd hidle d ⟨by omega, by omega, by omega⟩ rest s (by omega)
  rw [hh, show (d.length - 0) / 4 = b.length / 2 + 1 by omega] at a2 a3
  refine ⟨o, a1, a2, ?_⟩
  rw [a3, List.drop_zero, ← hd]
  refine congrArg (fun l => l ++ s.drop (b.length / 2 + 1)) ?_
  have e : (header k ++ converted b).map UInt8.ofBitVec = UInt8.ofBitVec (if k = 0 then 0x10 else 0) :: UInt8.ofBitVec 0 ::
    UInt8.ofBitVec (BitVec.ofNat 8 (k % 65536 % 256)) :: UInt8.ofBitVec (BitVec.ofNat 8 (k % 65536 / 256)) :: (converted b).map UInt8.ofBitVec := rfl
  rw [e, iq, heard_converted]
  refine congrArg (fun x => x :: heard b) (Prod.ext ?_ ?_)
  · simp only
    by_cases h : k = 0
    · simp only [h, if_true]
      decide
    · simp only [h, if_false]
      decide
  · have h1 : (BitVec.ofNat 8 (k % 65536 % 256)).toNat = k % 256 := by rw [BitVec.toNat_ofNat]; omega
    have h2 : (BitVec.ofNat 8 (k % 65536 / 256)).toNat = k % 65536 / 256 := by rw [BitVec.toNat_ofNat]; omega
    simp only
    rw [le16_ofBitVec]
    rw [h1, h2, BitVec.toInt_eq_toNat_cond, BitVec.toNat_ofNat]
    split <;> split <;> omega

/-! ### Examples -/

/-- Two buffers, of six and two bytes; the second datagram arrives before the first, and once more after it. -/
example : ∃ st, stream (startStream (fun _ => 0) 100) [(fun a => BitVec.ofNat 8 (40 * a), ⟨0, 6⟩), (fun _ => 200, ⟨20, 2⟩)] = some st ∧
    ∃ os, readAll (newPacketReader true) ((delivered st.sent [1, 0, 1]).map .datagram ++ []) (List.replicate 3 (List.replicate 4096 (0, 0))) = some os ∧
      os.length = 3 ∧ ∃ o, os[0]? = some o ∧ o.result = .ok 1 ∧ o.samples.head? = some (18504, 18504) ∧ o.rd.header = ⟨0, 0, 1⟩ := by
  obtain ⟨st, h1, h2, h3⟩ := C136_received_partial (fun _ => 0) 100 [(fun a => BitVec.ofNat 8 (40 * a), ⟨0, 6⟩), (fun _ => 200, ⟨20, 2⟩)]
    (by simp [Apart]) (by simp)
  have hl : st.sent.length = 2 := by rw [h2]; rfl
  obtain ⟨os, a1, a2, a3⟩ := h3 [1, 0, 1] (by rw [hl]; decide) (List.replicate 3 (List.replicate 4096 (0, 0))) [] rfl (by
    intro s hs
    rw [List.eq_of_mem_replicate hs, List.length_replicate])
  refine ⟨st, h1, os, a1, a2, ?_⟩
  obtain ⟨o, s, b, b1, -, b3, b4, b5, b6⟩ := a3 0 1 rfl
  have hb : b = [200, 200] := Option.some.inj (b3.symm.trans rfl)
  subst hb
  refine ⟨o, b1, b4, ?_, b6⟩
  rw [b5]
  rfl

theorem allBlocks_replicate (n : Nat) (e : (Nat → BitVec 8) × Slice) (h : 0 < e.2.len) (h2 : e.2.len ≤ 8192) :
    (allBlocks (List.replicate n e)).length = n := by
  induction n with
  | zero => rfl
  | succ n ih =>
    rw [List.replicate_succ]
    unfold allBlocks at *
    rw [List.flatMap_cons, List.length_append, ih, blocks, List.length_map, List.length_range, deviceBytes, bytesOf_length]
    omega

/-- Seventy thousand buffers of two bytes. -/
example (s1 s2 : List (Int × Int)) (h1 : 4096 ≤ s1.length) (h2 : 4096 ≤ s2.length) :
    ∃ st, stream (startStream (fun _ => 0) 100) (List.replicate 70000 (fun _ => 7, ⟨0, 2⟩)) = some st ∧ ∃ o1 o2 o1' o2',
      readAll (newPacketReader true) ((delivered st.sent [3, 3 + 1]).map .datagram) [s1, s2] = some [o1, o2] ∧
      readAll (newPacketReader true) ((delivered st.sent [3, 3 + 65537]).map .datagram) [s1, s2] = some [o1', o2'] ∧
      o1.rd.header = o1'.rd.header ∧ o2.rd.header = o2'.rd.header :=
  C136_violated_lost (fun _ => 0) 100 _ (by intro e he; rw [List.eq_of_mem_replicate he]; simp [Apart])
    (by intro e he; rw [List.eq_of_mem_replicate he]; simp) 3 (by rw [allBlocks_replicate _ _ (by simp) (by simp)]; decide) s1 s2 h1 h2

/-- Two datagrams, none lost between them. -/
example : ((headerAt 65536).idx - (headerAt 65535).idx - 1).toNat = 0 := idx_lost 65535 65536 (by decide) (by decide)

/-- A buffer as the server asks for it, all of whose second quarter differs from the first: the file is not what was received. -/
example : ∃ st, stream (startStream (fun _ => 0) 40000) [(fun a => if a < 8192 then 1 else 2, ⟨0, 32768⟩)] = some st ∧
    ∃ r, (Rec.start true (st.sent.map (fun d => .datagram (d.map UInt8.ofBitVec)) ++ [])).run st.sent.length = some (.ok r) ∧
      readFile r.file ≠ (heard (deviceBytes (fun a => if a < 8192 then 1 else 2, ⟨0, 32768⟩))).map fun p => (exactly p.1, exactly p.2) := by
  obtain ⟨st, h1, h2⟩ := C136_violated_large (fun _ => 0) 40000 [(fun a => if a < 8192 then 1 else 2, ⟨0, 32768⟩)] (by simp [Apart]) (by simp)
  obtain ⟨r, a1, -, a3⟩ := h2 []
  refine ⟨st, h1, r, a1, ?_⟩
  intro h
  have := (a3 _ rfl).1 h 8192 (by decide)
  exact absurd this (by decide)

/-- The recorder, with the second of three datagrams lost. -/
example : ∃ st, stream (startStream (fun _ => 0) 100) [(fun _ => 128, ⟨0, 2⟩), (fun _ => 5, ⟨20, 2⟩), (fun _ => 255, ⟨20, 2⟩)] = some st ∧
    ∃ r, (Rec.start true ((delivered st.sent [0, 2]).map .datagram ++ [])).run 2 = some (.ok r) ∧
      readFile r.file = [(exactly 0, exactly 0), (exactly 32639, exactly 32639)] := by
  obtain ⟨st, h1, h2, -⟩ := C136_recorder_partial (fun _ => 0) 100 [(fun _ => 128, ⟨0, 2⟩), (fun _ => 5, ⟨20, 2⟩), (fun _ => 255, ⟨20, 2⟩)]
    (by simp [Apart]) (by simp)
  obtain ⟨st', g1, g2, -⟩ := C136_received_partial (fun _ => 0) 100 [(fun _ => 128, ⟨0, 2⟩), (fun _ => 5, ⟨20, 2⟩), (fun _ => 255, ⟨20, 2⟩)]
    (by simp [Apart]) (by simp)
  have hst : st = st' := Option.some.inj (h1.symm.trans g1)
  have hl : st.sent.length = 3 := by rw [hst, g2]; rfl
  obtain ⟨r, a1, -, a3⟩ := h2 [0, 2] (by rw [hl]; decide) []
  refine ⟨st, h1, r, a1, ?_⟩
  rw [a3]
  rfl

/-- A buffer of one byte after one of two. -/
example : ∃ st, stream (startStream (fun _ => 0) 100) [(fun _ => 9, ⟨0, 2⟩), (fun _ => 130, ⟨0, 1⟩)] = some st ∧ ∃ o1 o2,
      readAll (newPacketReader true) (st.sent.map fun d => .datagram (d.map UInt8.ofBitVec)) [[(0, 0)], [(0, 0)]] = some [o1, o2] ∧
      o2.result = .ok 1 ∧ o2.samples = [(514, widen 9)] :=
  C136_violated_odd (fun _ => 0) 100 0 (by decide) 9 (fun _ => 130, ⟨0, 1⟩) rfl (by simp [Apart]) ⟨0, 2⟩ rfl (by simp [Apart]) _ _ rfl rfl

/-- Datagram 40000 read without headers: the first sample is the number, as a negative integer. -/
example : ∃ o, readSamples (newPacketReader false) [.datagram ((header 40000 ++ converted [128, 129]).map UInt8.ofBitVec)] [(0, 0), (0, 0)] = some o ∧
    o.result = .ok 2 ∧ o.samples = [(0, -25536), (0, 257)] :=
  C136_violated_headerless (newPacketReader false) rfl (le_refl _) 40000 [128, 129] (by decide) rfl [] _ (by decide)

end Verif.Borip
