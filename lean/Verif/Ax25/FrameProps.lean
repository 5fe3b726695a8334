import Verif.Ax25.HdlcSound
import Verif.Ax25.FrameSpec

/-!
# Properties C10, C11, C13, C72: the contents of a decoded frame
-/

namespace Verif.Ax25

open Spec

/-- The frame with its header fields filled in. -/
def headerFrame (dst src : Station) (reps : List Station) : Frame :=
  { Frame.init with
    v1 := decide (dst.top = src.top)
    command := decide (dst.top = true ∧ src.top = false)
    destination := ⟨dst.call, dst.ssid⟩
    source := ⟨src.call, src.ssid⟩
    repeaters := reps.map fun s => ⟨s.call, s.ssid⟩ }

/-- A correctly encoded frame with its frame check sequence, followed through `processFrame`. -/
theorem processFrame_encode (dst src : Station) (reps : List Station) (c : Byte) (rest : List Byte)
    (hd : dst.Valid) (hs : src.Valid) (hr : ∀ r ∈ reps, r.Valid) :
    processFrame (encodeFrame dst src reps c rest ++ fcs (encodeFrame dst src reps c rest)) =
      some (some (processControl (headerFrame dst src reps) (c :: rest))) := by
  have hlen : 15 ≤ (encodeFrame dst src reps c rest).length := by
    have ld := encodeStation_length dst false hd.1
    have ls := encodeStation_length src reps.isEmpty hs.1
    simp only [encodeFrame, List.length_append, ld, ls, List.length_cons]
    omega
  have hf : (fcs (encodeFrame dst src reps c rest)).length = 2 := rfl
  unfold processFrame
  have h1 : ¬ ((encodeFrame dst src reps c rest ++ fcs (encodeFrame dst src reps c rest)).length
      < 10) := by rw [List.length_append, hf]; omega
  have h2 := C02_append_fcs_accepted (encodeFrame dst src reps c rest)
  have h3 : (encodeFrame dst src reps c rest ++ fcs (encodeFrame dst src reps c rest)).take
      ((encodeFrame dst src reps c rest ++ fcs (encodeFrame dst src reps c rest)).length - 2) =
      encodeFrame dst src reps c rest := by
    rw [List.length_append, hf, Nat.add_sub_cancel, List.take_left']
    rfl
  simp only [h1, if_false, h2, h3, processHeader_encode dst src reps c rest hd hs hr,
    Bool.true_eq_false]
  rfl

/-- `processControl` changes none of the address fields. -/
theorem processControl_addresses (fr : Frame) (l : List Byte) :
    (processControl fr l).destination = fr.destination ∧ (processControl fr l).source = fr.source ∧
    (processControl fr l).repeaters = fr.repeaters ∧ (processControl fr l).v1 = fr.v1 ∧
    (processControl fr l).command = fr.command := by
  rcases l with _ | ⟨c, _ | ⟨p, info⟩⟩
  · exact ⟨rfl, rfl, rfl, rfl, rfl⟩
  · simp only [processControl]
    repeat' split
    all_goals exact ⟨rfl, rfl, rfl, rfl, rfl⟩
  · simp only [processControl]
    repeat' split
    all_goals exact ⟨rfl, rfl, rfl, rfl, rfl⟩

/-- Frames that carry a protocol identifier and information field: all information frames, and
unnumbered frames of kind UI. -/
def Spec.CarriesInfo : Control → Prop
  | .i _ _ _ => True
  | .s _ _ _ => False
  | .u lo hi _ => lo = 0 ∧ hi = 0

/-! ### C11: control octet -/

/-- **C11.** Every octet is the encoding of exactly one valid control field: classification is
total and exclusive. -/
theorem C11_every_octet_unique (o : Byte) : ∃! c : Control, c.Valid ∧ c.encode = o := by
  have ex : ∀ n < 256, ∃ c : Control, c.Valid ∧ c.toNat = n := by
    intro n hn
    rcases Nat.mod_two_eq_zero_or_one n with h | h
    · refine ⟨.i (n / 2 % 8) (n / 32) (n / 16 % 2 == 1), ⟨by omega, by omega⟩, ?_⟩
      simp only [Control.toNat]
      rcases Nat.mod_two_eq_zero_or_one (n / 16) with h2 | h2 <;> simp [h2] <;> omega
    · rcases Nat.mod_two_eq_zero_or_one (n / 2) with h1 | h1
      · refine ⟨.s (n / 4 % 4) (n / 32) (n / 16 % 2 == 1), ⟨by omega, by omega⟩, ?_⟩
        simp only [Control.toNat]
        rcases Nat.mod_two_eq_zero_or_one (n / 16) with h2 | h2 <;> simp [h2] <;> omega
      · refine ⟨.u (n / 4 % 4) (n / 32) (n / 16 % 2 == 1), ⟨by omega, by omega⟩, ?_⟩
        simp only [Control.toNat]
        rcases Nat.mod_two_eq_zero_or_one (n / 16) with h2 | h2 <;> simp [h2] <;> omega
  have lt : ∀ c : Control, c.Valid → c.toNat < 256 := by
    intro c hc
    rcases c with ⟨a, b, p⟩ | ⟨a, b, p⟩ | ⟨a, b, p⟩ <;>
      simp only [Control.Valid] at hc <;> simp only [Control.toNat] <;> cases p <;> simp <;> omega
  have inj : ∀ c d : Control, c.Valid → d.Valid → c.toNat = d.toNat → c = d := by
    intro c d hc hd h
    rcases c with ⟨a, b, p⟩ | ⟨a, b, p⟩ | ⟨a, b, p⟩ <;>
      rcases d with ⟨a', b', p'⟩ | ⟨a', b', p'⟩ | ⟨a', b', p'⟩ <;>
      simp only [Control.Valid] at hc hd <;> simp only [Control.toNat] at h <;>
      cases p <;> cases p' <;> simp at h ⊢ <;> omega
  obtain ⟨c, hc, hn⟩ := ex o.toNat o.isLt
  refine ⟨c, ⟨hc, ?_⟩, ?_⟩
  · apply BitVec.eq_of_toNat_eq
    simp [Control.encode, hn]
  · rintro d ⟨hd, he⟩
    apply inj d c hd hc
    have := congrArg BitVec.toNat he
    simp only [Control.encode, BitVec.toNat_ofNat, Nat.reducePow] at this
    rw [Nat.mod_eq_of_lt (lt d hd)] at this
    omega

theorem control_bits_i : ∀ ns < 8, ∀ nr < 8, ∀ p : Bool,
    let c := BitVec.ofNat 8 (0 + 2 * ns + 16 * p.toNat + 32 * nr)
    (c &&& 1#8 = 0#8) ∧ ((c >>> 1) &&& 7#8).toNat = ns ∧ ((c >>> 5) &&& 7#8).toNat = nr ∧
      (decide (c &&& 0x10#8 ≠ 0#8) = p) := by decide +kernel

theorem control_bits_s : ∀ k < 4, ∀ nr < 8, ∀ p : Bool,
    let c := BitVec.ofNat 8 (1 + 4 * k + 16 * p.toNat + 32 * nr)
    (c &&& 1#8 ≠ 0#8) ∧ (c &&& 2#8 = 0#8) ∧ (c &&& 0x0f#8).toNat = 1 + 4 * k ∧
      ((c >>> 5) &&& 7#8).toNat = nr ∧ (decide (c &&& 0x10#8 ≠ 0#8) = p) := by decide +kernel

theorem control_bits_u : ∀ lo < 4, ∀ hi < 8, ∀ p : Bool,
    let c := BitVec.ofNat 8 (3 + 4 * lo + 16 * p.toNat + 32 * hi)
    (c &&& 1#8 ≠ 0#8) ∧ (c &&& 2#8 ≠ 0#8) ∧ (c &&& ~~~0x10#8).toNat = 3 + 4 * lo + 32 * hi ∧
      (c &&& ~~~0x10#8 = 0x03#8 ↔ lo = 0 ∧ hi = 0) ∧
      (decide (c &&& 0x10#8 ≠ 0#8) = p) := by decide +kernel

/-- What the frame fields should be for a control field (`fr` is the decoded frame). -/
def Spec.ControlFields (fr : Frame) : Control → Prop
  | .i ns nr p => fr.type = .iFrame ∧ fr.sendSeq = ns ∧ fr.recvSeq = nr ∧ fr.pollFinal = p
  | .s k nr p => fr.type = .sFrame ∧ fr.supervisoryType.toNat = 1 + 4 * k ∧ fr.recvSeq = nr ∧
      fr.pollFinal = p
  | .u lo hi p => fr.type = .uFrame ∧ fr.unnumberedType.toNat = 3 + 4 * lo + 32 * hi ∧
      fr.pollFinal = p

/-- The control part decodes as specified. -/
theorem processControl_fields (fr : Frame) (c : Control) (hc : c.Valid) (rest : List Byte) :
    ControlFields (processControl fr (c.encode :: rest)) c := by
  rcases c with ⟨a, b, p⟩ | ⟨a, b, p⟩ | ⟨a, b, p⟩
  · obtain ⟨h1, h2, h3, h4⟩ := control_bits_i a hc.1 b hc.2 p
    unfold Control.encode Control.toNat
    simp only
    generalize BitVec.ofNat 8 (0 + 2 * a + 16 * p.toNat + 32 * b) = o at *
    cases rest
    · simp only [processControl, if_pos h1]
      exact ⟨rfl, h2, h3, h4⟩
    · simp only [processControl, if_pos h1, true_or, if_true]
      exact ⟨rfl, h2, h3, h4⟩
  · obtain ⟨h1, h2, h3, h4, h5⟩ := control_bits_s a hc.1 b hc.2 p
    unfold Control.encode Control.toNat
    simp only
    generalize BitVec.ofNat 8 (1 + 4 * a + 16 * p.toNat + 32 * b) = o at *
    cases rest
    · simp only [processControl, if_neg h1, if_neg (not_not.2 h2)]
      exact ⟨rfl, h3, h4, h5⟩
    · simp only [processControl, if_neg h1, if_neg (not_not.2 h2), reduceCtorEq, false_and, or_self,
        if_false]
      exact ⟨rfl, h3, h4, h5⟩
  · obtain ⟨h1, h2, h3, h4, h5⟩ := control_bits_u a hc.1 b hc.2 p
    unfold Control.encode Control.toNat
    simp only
    generalize BitVec.ofNat 8 (3 + 4 * a + 16 * p.toNat + 32 * b) = o at *
    cases rest
    · simp only [processControl, if_neg h1, if_pos h2]
      exact ⟨rfl, h3, h5⟩
    · simp only [processControl, if_neg h1, if_pos h2]
      split
      · exact ⟨rfl, h3, h5⟩
      · exact ⟨rfl, h3, h5⟩

/-- The information part: delivered for the frames that carry it. -/
theorem processControl_info (fr : Frame) (c : Control) (hc : c.Valid) (pid : Byte) (info : List Byte)
    (hi : CarriesInfo c) :
    (processControl fr (c.encode :: pid :: info)).pid = pid ∧
      (processControl fr (c.encode :: pid :: info)).info = info := by
  rcases c with ⟨a, b, p⟩ | ⟨a, b, p⟩ | ⟨a, b, p⟩
  · obtain ⟨h1, h2, h3, h4⟩ := control_bits_i a hc.1 b hc.2 p
    simp only [processControl, Control.encode, Control.toNat, h1, if_true, true_or, and_self]
  · exact hi.elim
  · obtain ⟨h1, h2, h3, h4, h5⟩ := control_bits_u a hc.1 b hc.2 p
    have := h4.2 hi
    simp only [processControl, Control.encode, Control.toNat, h1, h2, this,
      if_false, ne_eq, not_false_eq_true, if_true, and_self, or_true]

/-- Other frames deliver no information field. -/
theorem processControl_noinfo (fr : Frame) (c : Control) (hc : c.Valid) (rest : List Byte)
    (hi : ¬ CarriesInfo c) :
    (processControl fr (c.encode :: rest)).pid = fr.pid ∧
      (processControl fr (c.encode :: rest)).info = fr.info := by
  rcases c with ⟨a, b, p⟩ | ⟨a, b, p⟩ | ⟨a, b, p⟩
  · exact absurd trivial hi
  · obtain ⟨h1, h2, h3, h4, h5⟩ := control_bits_s a hc.1 b hc.2 p
    cases rest <;>
    simp only [processControl, Control.encode, Control.toNat, h1, h2, if_false, ne_eq,
      not_true_eq_false, reduceCtorEq, false_and, or_self, and_self]
  · obtain ⟨h1, h2, h3, h4, h5⟩ := control_bits_u a hc.1 b hc.2 p
    have : ¬ (a = 0 ∧ b = 0) := hi
    rw [← h4] at this
    cases rest <;>
    simp only [processControl, Control.encode, Control.toNat, h1, h2, this, if_false, ne_eq,
      not_false_eq_true, if_true, and_false, reduceCtorEq, or_self, and_self]

/-- **C11.** In every frame with a valid header the control octet is classified and split into its
bit fields as the AX.25 specification says, whatever follows it. -/
theorem C11_control_fields (dst src : Station) (reps : List Station) (c : Control) (rest : List Byte)
    (hd : dst.Valid) (hs : src.Valid) (hr : ∀ r ∈ reps, r.Valid) (hc : c.Valid) :
    let p := encodeFrame dst src reps c.encode rest
    ∃ fr, processFrame (p ++ fcs p) = some (some fr) ∧ ControlFields fr c := by
  intro p
  exact ⟨_, processFrame_encode dst src reps c.encode rest hd hs hr, processControl_fields _ c hc rest⟩

/-! ### C10: address round-trip -/

/-- **C10.** From any decoder state: an opening flag, the stuffed bits of an AX.25 frame (with its
frame check sequence) and a closing flag make the last `Feed` call return a frame with the same
destination, source and repeaters (call signs and SSIDs, in order), command/response indication,
control fields, protocol identifier and information bytes; all calls before return `nil`. -/
theorem C10_frame_roundtrip (d : Dec) (dst src : Station) (reps : List Station) (c : Control)
    (pid : Byte) (info : List Byte) (hd : dst.Valid) (hs : src.Valid) (hr : ∀ r ∈ reps, r.Valid)
    (hc : c.Valid) (hi : CarriesInfo c)
    (hlen : (encodeFrame dst src reps c.encode (pid :: info)).length ≤ 510) :
    let p := encodeFrame dst src reps c.encode (pid :: info)
    let line := stuff (bytesBits (p ++ fcs p)) ++ flag
    ∃ d' fr, run (runRaw d (flag.map bitInt)).1 (line.map bitInt) =
        some (d', List.replicate (line.length - 1) none ++ [some fr]) ∧
      fr.destination = ⟨dst.call, dst.ssid⟩ ∧ fr.source = ⟨src.call, src.ssid⟩ ∧
      fr.repeaters = reps.map (fun s => ⟨s.call, s.ssid⟩) ∧
      (fr.v1 = true ↔ dst.top = src.top) ∧ (fr.command = true ↔ dst.top = true ∧ src.top = false) ∧
      ControlFields fr c ∧ fr.pid = pid ∧ fr.info = info := by
  intro p line
  have hl2 : (p ++ fcs p).length ≤ 512 := by
    rw [List.length_append]
    have : (fcs p).length = 2 := rfl
    have : p.length ≤ 510 := hlen
    omega
  have h15 : 15 ≤ p.length := by
    have ld := encodeStation_length dst false hd.1
    have ls := encodeStation_length src reps.isEmpty hs.1
    simp only [p, encodeFrame, List.length_append, ld, ls, List.length_cons]
    omega
  obtain ⟨h1, h2⟩ := C04_decode_encode d (p ++ fcs p) hl2
  have hgt : (p ++ fcs p).length > 2 := by rw [List.length_append]; omega
  rw [if_pos hgt] at h1
  have hpf := processFrame_encode dst src reps c.encode (pid :: info) hd hs hr
  have hfo : frameOf (p ++ fcs p) =
      some (processControl (headerFrame dst src reps) (c.encode :: pid :: info)) := by
    unfold frameOf; rw [hpf]; rfl
  rw [run_eq, h1]
  refine ⟨(runRaw (runRaw d (flag.map bitInt)).1 (line.map bitInt)).1,
    processControl (headerFrame dst src reps) (c.encode :: pid :: info), ?_, ?_⟩
  · have e : ∀ n, (List.replicate n none ++ [some (p ++ fcs p)]).map
        (fun o : Option (List Byte) => o.bind frameOf) =
        (List.replicate n none).map (fun o : Option (List Byte) => o.bind frameOf) ++
          [(some (p ++ fcs p)).bind frameOf] := by
      intro n; rw [List.map_append]; rfl
    rw [e, List.map_replicate]
    simp only [Option.bind_none, Option.bind_some, hfo]
    rfl
  · obtain ⟨a1, a2, a3, a4, a5⟩ := processControl_addresses (headerFrame dst src reps) (c.encode :: pid :: info)
    obtain ⟨b1, b2⟩ := processControl_info (headerFrame dst src reps) c hc pid info hi
    refine ⟨a1, a2, a3, ?_, ?_, processControl_fields _ c hc _, b1, b2⟩
    · rw [a4]; simp [headerFrame]
    · rw [a5]; simp [headerFrame]

/-- Non-vacuity: KA9Q-1 to APRS-0 via two repeaters, a UI frame. -/
example :
    let dst : Station := ⟨[0x41, 0x50, 0x52, 0x53], 0, true⟩
    let src : Station := ⟨[0x4b, 0x41, 0x39, 0x51], 1, false⟩
    let reps : List Station := [⟨[0x57, 0x49, 0x44, 0x45, 0x31], 1, true⟩, ⟨[0x57, 0x49, 0x44, 0x45, 0x32], 2, false⟩]
    dst.Valid ∧ src.Valid ∧ (∀ r ∈ reps, r.Valid) ∧ (Control.u 0 0 false).Valid ∧
      CarriesInfo (.u 0 0 false) ∧
      (encodeFrame dst src reps (Control.u 0 0 false).encode [0xf0, 0x21, 0x22]).length ≤ 510 := by
  simp only [Station.Valid, Control.Valid, CarriesInfo]
  decide

/-! ### C72: information fields of XID, TEST and FRMR frames -/

/-- XID, TEST and FRMR frames (AX.25 2.2, sections 4.3.3.7 to 4.3.3.9) carry an information field
(without protocol identifier). -/
def Spec.CarriesRawInfo : Control → Prop
  | .u lo hi _ => (lo, hi) = (3, 5) ∨ (lo, hi) = (0, 7) ∨ (lo, hi) = (1, 4)
  | _ => False

/-- **C72 is violated.** For *every* XID, TEST or FRMR frame, with any header and any nonempty
information field, the frame is returned with an empty information field. -/
theorem C72_violated_info_dropped (dst src : Station) (reps : List Station) (c : Control)
    (info : List Byte) (hd : dst.Valid) (hs : src.Valid) (hr : ∀ r ∈ reps, r.Valid) (hc : c.Valid)
    (hraw : CarriesRawInfo c) :
    let p := encodeFrame dst src reps c.encode info
    ∃ fr, processFrame (p ++ fcs p) = some (some fr) ∧ ControlFields fr c ∧ fr.info = [] := by
  intro p
  refine ⟨_, processFrame_encode dst src reps c.encode info hd hs hr,
    processControl_fields _ c hc info, ?_⟩
  rw [(processControl_noinfo _ c hc info ?_).2]
  · rfl
  · rcases c with ⟨a, b, p⟩ | ⟨a, b, p⟩ | ⟨a, b, p⟩
    · exact hraw.elim
    · exact hraw.elim
    · rintro ⟨rfl, rfl⟩
      simp [CarriesRawInfo] at hraw

/-- **C72, the part that holds.** Information and UI frames deliver their information field. -/
theorem C72_info_delivered_partial (dst src : Station) (reps : List Station) (c : Control) (pid : Byte)
    (info : List Byte) (hd : dst.Valid) (hs : src.Valid) (hr : ∀ r ∈ reps, r.Valid) (hc : c.Valid)
    (hi : CarriesInfo c) :
    let p := encodeFrame dst src reps c.encode (pid :: info)
    ∃ fr, processFrame (p ++ fcs p) = some (some fr) ∧ fr.pid = pid ∧ fr.info = info := by
  intro p
  exact ⟨_, processFrame_encode dst src reps c.encode (pid :: info) hd hs hr,
    processControl_info _ c hc pid info hi⟩

/-- Non-vacuity: the TEST control field. -/
example : (Control.u 0 7 true).Valid ∧ CarriesRawInfo (.u 0 7 true) ∧
    (Control.u 0 7 false).encode = 0xe3#8 := by
  simp [Control.Valid, CarriesRawInfo]; decide

/-! ### C13: FlexNet compressed call signs -/

/-- The five packed octets, written as concatenations. -/
theorem flexHeader_eq (q r : Byte) (c1 c2 c3 c4 c5 c6 : BitVec 6) (ssid : BitVec 4) :
    flexHeader q r c1 c2 c3 c4 c5 c6 ssid =
      [q, r, c1 ++ c2.extractLsb' 4 2, c2.extractLsb' 0 4 ++ c3.extractLsb' 2 4,
        c3.extractLsb' 0 2 ++ c4, c5 ++ c6.extractLsb' 4 2, c6.extractLsb' 0 4 ++ ssid] := by
  have e1 : ∀ a b : BitVec 6, (a ++ b.extractLsb' 4 2 : BitVec 8).toNat = a.toNat * 4 + b.toNat / 16 := by
    decide +kernel
  have e2 : ∀ a b : BitVec 6, (a.extractLsb' 0 4 ++ b.extractLsb' 2 4 : BitVec 8).toNat =
      a.toNat % 16 * 16 + b.toNat / 4 := by decide +kernel
  have e3 : ∀ a b : BitVec 6, (a.extractLsb' 0 2 ++ b : BitVec 8).toNat =
      a.toNat % 4 * 64 + b.toNat := by decide +kernel
  have e4 : ∀ a : BitVec 6, ∀ b : BitVec 4, (a.extractLsb' 0 4 ++ b : BitVec 8).toNat =
      a.toNat % 16 * 16 + b.toNat := by decide +kernel
  have l1 := c1.isLt
  have l2 := c2.isLt
  have l3 := c3.isLt
  have l4 := c4.isLt
  have l5 := c5.isLt
  have l6 := c6.isLt
  have l7 := ssid.isLt
  unfold flexHeader
  simp only [List.cons.injEq, and_true, true_and]
  refine ⟨?_, ?_, ?_, ?_, ?_⟩ <;> apply BitVec.eq_of_toNat_eq
  · rw [e1, BitVec.toNat_ofNat]; omega
  · rw [e2, BitVec.toNat_ofNat]; omega
  · rw [e3, BitVec.toNat_ofNat]; omega
  · rw [e1, BitVec.toNat_ofNat]; omega
  · rw [e4, BitVec.toNat_ofNat]; omega

/-- What one code should become. -/
def flexOne (c : BitVec 6) : List Byte := if c ≠ 0#6 then [c.setWidth 8 + 0x20#8] else []

theorem flexCall_eq (cs : List (BitVec 6)) : flexCall cs = cs.flatMap flexOne := by
  induction cs with
  | nil => rfl
  | cons c cs ih =>
    simp only [flexCall, List.flatMap_cons] at ih ⊢
    rw [← ih]
    by_cases h : c = 0#6 <;> simp [flexOne, h]

theorem flex1 : ∀ c1 : BitVec 6, ∀ x : BitVec 2,
    (flexChar (((c1 ++ x : BitVec 8) >>> 2) &&& 0x2f#8) = flexOne c1 ↔ c1.getLsbD 4 = false) := by
  decide +kernel

theorem flex2_good : ∀ x : BitVec 6, x &&& 3#6 = 0#6 → ∀ c y : BitVec 6,
    flexChar (((x ++ c.extractLsb' 4 2 : BitVec 8) <<< 4) |||
      ((((c.extractLsb' 0 4 ++ y.extractLsb' 2 4 : BitVec 8) >>> 4) &&& 0xf#8) &&& 0x3f#8)) =
      flexOne c := by
  intro x hx c y
  have e1 : ∀ x c : BitVec 6, (x ++ c.extractLsb' 4 2 : BitVec 8) <<< 4 =
      (((x &&& 3#6) ++ c.extractLsb' 4 2 : BitVec 8) <<< 4) := by decide +kernel
  have e2 : ∀ c : BitVec 6, ∀ z : BitVec 4, ((c.extractLsb' 0 4 ++ z : BitVec 8) >>> 4) =
      ((c.extractLsb' 0 4 ++ 0#4 : BitVec 8) >>> 4) := by decide +kernel
  rw [e1, hx, e2]
  revert c
  decide +kernel

theorem flex2_bad : ∀ x : BitVec 6, x &&& 3#6 ≠ 0#6 → ∀ c y : BitVec 6,
    ∃ b, flexChar (((x ++ c.extractLsb' 4 2 : BitVec 8) <<< 4) |||
      ((((c.extractLsb' 0 4 ++ y.extractLsb' 2 4 : BitVec 8) >>> 4) &&& 0xf#8) &&& 0x3f#8)) = [b] ∧
      (b.toNat < 0x20 ∨ 0x5f < b.toNat) := by
  intro x hx c y
  have e1 : ∀ x c : BitVec 6, (x ++ c.extractLsb' 4 2 : BitVec 8) <<< 4 =
      (((x &&& 3#6) ++ c.extractLsb' 4 2 : BitVec 8) <<< 4) := by decide +kernel
  have e2 : ∀ c : BitVec 6, ∀ z : BitVec 4, ((c.extractLsb' 0 4 ++ z : BitVec 8) >>> 4) =
      ((c.extractLsb' 0 4 ++ 0#4 : BitVec 8) >>> 4) := by decide +kernel
  have key : ∀ x c : BitVec 6, x &&& 3#6 ≠ 0#6 →
      let i := (((x &&& 3#6) ++ c.extractLsb' 4 2 : BitVec 8) <<< 4) |||
        ((((c.extractLsb' 0 4 ++ 0#4 : BitVec 8) >>> 4) &&& 0xf#8) &&& 0x3f#8)
      i ≠ 0#8 ∧ ((i + 0x20#8).toNat < 0x20 ∨ 0x5f < (i + 0x20#8).toNat) := by decide +kernel
  rw [e1, e2]
  obtain ⟨k1, k2⟩ := key x c hx
  exact ⟨_, by rw [flexChar, if_pos k1], k2⟩

theorem flex3_good : ∀ x : BitVec 6, x &&& 3#6 = 0#6 → ∀ c y : BitVec 6,
    flexChar (((x.extractLsb' 0 4 ++ c.extractLsb' 2 4 : BitVec 8) <<< 2) |||
      ((((c.extractLsb' 0 2 ++ y : BitVec 8) >>> 6) &&& 3#8) &&& 0x3f#8)) = flexOne c := by
  intro x hx c y
  have e1 : ∀ x : BitVec 6, ∀ c : BitVec 4, (x.extractLsb' 0 4 ++ c : BitVec 8) <<< 2 =
      (((x &&& 3#6).extractLsb' 0 4 ++ c : BitVec 8) <<< 2) := by decide +kernel
  have e2 : ∀ c : BitVec 2, ∀ z : BitVec 6, ((c ++ z : BitVec 8) >>> 6) =
      ((c ++ 0#6 : BitVec 8) >>> 6) := by decide +kernel
  rw [e1, hx, e2]
  revert c
  decide +kernel

theorem flex3_bad : ∀ x : BitVec 6, x &&& 3#6 ≠ 0#6 → ∀ c y : BitVec 6,
    ∃ b, flexChar (((x.extractLsb' 0 4 ++ c.extractLsb' 2 4 : BitVec 8) <<< 2) |||
      ((((c.extractLsb' 0 2 ++ y : BitVec 8) >>> 6) &&& 3#8) &&& 0x3f#8)) = [b] ∧
      (b.toNat < 0x20 ∨ 0x5f < b.toNat) := by
  intro x hx c y
  have e1 : ∀ x : BitVec 6, ∀ c : BitVec 4, (x.extractLsb' 0 4 ++ c : BitVec 8) <<< 2 =
      (((x &&& 3#6).extractLsb' 0 4 ++ c : BitVec 8) <<< 2) := by decide +kernel
  have e2 : ∀ c : BitVec 2, ∀ z : BitVec 6, ((c ++ z : BitVec 8) >>> 6) =
      ((c ++ 0#6 : BitVec 8) >>> 6) := by decide +kernel
  have key : ∀ x c : BitVec 6, x &&& 3#6 ≠ 0#6 →
      let i := (((x &&& 3#6).extractLsb' 0 4 ++ c.extractLsb' 2 4 : BitVec 8) <<< 2) |||
        ((((c.extractLsb' 0 2 ++ 0#6 : BitVec 8) >>> 6) &&& 3#8) &&& 0x3f#8)
      i ≠ 0#8 ∧ ((i + 0x20#8).toNat < 0x20 ∨ 0x5f < (i + 0x20#8).toNat) := by decide +kernel
  rw [e1, e2]
  obtain ⟨k1, k2⟩ := key x c hx
  exact ⟨_, by rw [flexChar, if_pos k1], k2⟩

theorem flex4 : ∀ x : BitVec 2, ∀ c : BitVec 6,
    flexChar ((x ++ c : BitVec 8) &&& 0x3f#8) = flexOne c := by decide +kernel

theorem flex5 : ∀ x : BitVec 2, ∀ c : BitVec 6,
    flexChar (((c ++ x : BitVec 8) >>> 2) &&& 0x3f#8) = flexOne c := by decide +kernel

theorem flex6 : ∀ x c : BitVec 6, ∀ y : BitVec 4,
    flexChar ((((x ++ c.extractLsb' 4 2 : BitVec 8) <<< 4) |||
      (((c.extractLsb' 0 4 ++ y : BitVec 8) >>> 4) &&& 0xf#8)) &&& 0x3f#8) = flexOne c := by
  intro x c y
  have e1 : ∀ x c : BitVec 6, ((x ++ c.extractLsb' 4 2 : BitVec 8) <<< 4) &&& 0x3f#8 =
      ((0#6 ++ c.extractLsb' 4 2 : BitVec 8) <<< 4) &&& 0x3f#8 := by decide +kernel
  have e2 : ∀ c : BitVec 4, ∀ z : BitVec 4, ((c ++ z : BitVec 8) >>> 4) =
      ((c ++ 0#4 : BitVec 8) >>> 4) := by decide +kernel
  have e3 : ∀ a b c : BitVec 8, (a ||| b) &&& c = (a &&& c) ||| (b &&& c) := by
    intro a b c; ext i; simp; rw [Bool.and_or_distrib_right]
  rw [e3, e1, ← e3, e2]
  revert c
  decide +kernel

theorem flexOne_range (c : BitVec 6) : ∀ b ∈ flexOne c, 0x20 ≤ b.toNat ∧ b.toNat ≤ 0x5f := by
  have : ∀ c : BitVec 6, 0x20 ≤ (c.setWidth 8 + 0x20#8).toNat ∧
    (c.setWidth 8 + 0x20#8).toNat ≤ 0x5f := by decide +kernel
  intro b hb
  unfold flexOne at hb
  split at hb
  · simp only [List.mem_singleton] at hb
    rw [hb]; exact this c
  · simp at hb

/-- The decoded FlexNet call sign is right exactly for some call signs. -/
theorem flexDest_iff (c1 c2 c3 c4 c5 c6 : BitVec 6) (ssid : BitVec 4) :
    flexDest (c1 ++ c2.extractLsb' 4 2) (c2.extractLsb' 0 4 ++ c3.extractLsb' 2 4)
        (c3.extractLsb' 0 2 ++ c4) (c5 ++ c6.extractLsb' 4 2) (c6.extractLsb' 0 4 ++ ssid) =
      flexCall [c1, c2, c3, c4, c5, c6] ↔
    c1.getLsbD 4 = false ∧ c1 &&& 3#6 = 0#6 ∧ c2 &&& 3#6 = 0#6 := by
  rw [flexCall_eq]
  unfold flexDest
  rw [flex4, flex5, flex6]
  simp only [List.flatMap_cons, List.flatMap_nil, List.append_nil, ← List.append_assoc]
  constructor
  · intro h
    have hr : ∀ b ∈ flexOne c1 ++ flexOne c2 ++ flexOne c3 ++ flexOne c4 ++ flexOne c5 ++ flexOne c6,
        0x20 ≤ b.toNat ∧ b.toNat ≤ 0x5f := by
      intro b hb
      simp only [List.mem_append] at hb
      rcases hb with ((((hb | hb) | hb) | hb) | hb) | hb <;> exact flexOne_range _ b hb
    rw [← h] at hr
    have hc1 : c1 &&& 3#6 = 0#6 := by
      by_contra hc
      obtain ⟨b, hb, hb'⟩ := flex2_bad c1 hc c2 c3
      have := hr b (by rw [hb]; simp)
      omega
    have hc2 : c2 &&& 3#6 = 0#6 := by
      by_contra hc
      obtain ⟨b, hb, hb'⟩ := flex3_bad c2 hc c3 c4
      have := hr b (by rw [hb]; simp)
      omega
    rw [flex2_good c1 hc1, flex3_good c2 hc2 c3 c4] at h
    refine ⟨?_, hc1, hc2⟩
    rw [← flex1 c1 (c2.extractLsb' 4 2)]
    simp only [List.append_assoc] at h
    exact List.append_cancel_right h
  · rintro ⟨h4, hc1, hc2⟩
    rw [flex2_good c1 hc1, flex3_good c2 hc2 c3 c4, (flex1 c1 _).2 h4]

/-- A frame with FlexNet header, followed through `processFrame`. -/
theorem processFrame_flex (q r : Byte) (hr : r.getLsbD 0 = true)
    (c1 c2 c3 c4 c5 c6 : BitVec 6) (ssid : BitVec 4) (rest : List Byte) (hrest : rest ≠ []) :
    let p := flexHeader q r c1 c2 c3 c4 c5 c6 ssid ++ rest
    ∃ fr, processFrame (p ++ fcs p) = some (some fr) ∧
      fr.destination.callsign = flexDest (c1 ++ c2.extractLsb' 4 2)
        (c2.extractLsb' 0 4 ++ c3.extractLsb' 2 4)
        (c3.extractLsb' 0 2 ++ c4) (c5 ++ c6.extractLsb' 4 2) (c6.extractLsb' 0 4 ++ ssid) ∧
      (fr.destination.callsign ≠ [] → fr.destination.ssid = ssid.toNat) := by
  intro p
  have hlen : 8 ≤ p.length := by
    have : 0 < rest.length := List.length_pos_of_ne_nil hrest
    simp only [p, flexHeader_eq, List.length_append, List.length_cons, List.length_nil]
    omega
  have hf : (fcs p).length = 2 := rfl
  have h1 : ¬ ((p ++ fcs p).length < 10) := by rw [List.length_append, hf]; omega
  have h2 := C02_append_fcs_accepted p
  have h3 : (p ++ fcs p).take ((p ++ fcs p).length - 2) = p := by
    rw [List.length_append, hf, Nat.add_sub_cancel, List.take_left']
    rfl
  have hb : r &&& 1#8 ≠ 0#8 := by
    have : ∀ r : BitVec 8, r.getLsbD 0 = true → r &&& 1#8 ≠ 0#8 := by decide +kernel
    exact this r hr
  have hss : ∀ (x y : BitVec 4), ((x ++ y : BitVec 8) &&& 0xf#8).toNat = y.toNat := by
    decide +kernel
  have hp : p = [q, r, c1 ++ c2.extractLsb' 4 2, c2.extractLsb' 0 4 ++ c3.extractLsb' 2 4,
        c3.extractLsb' 0 2 ++ c4, c5 ++ c6.extractLsb' 4 2, c6.extractLsb' 0 4 ++ ssid] ++ rest := by
    simp only [p, flexHeader_eq]
  unfold processFrame
  simp only [h1, if_false, h2, h3, Bool.true_eq_false]
  rw [hp]
  simp only [processHeader, List.cons_append, List.getElem?_cons_succ, List.getElem?_cons_zero,
    if_pos hb, List.nil_append]
  refine ⟨_, rfl, ?_, ?_⟩
  · rw [(processControl_addresses _ _).1]
    split
    · rfl
    · rename_i h
      have h' := not_not.1 h
      rw [h']; rfl
  · rw [(processControl_addresses _ _).1]
    split
    · intro _
      exact hss _ _
    · intro h
      exact absurd rfl h

/-- **C13, exact extent.** For every FlexNet header, the decoder returns the packed call sign if and
only if the first character code has bit 4 clear and the first two codes have their two low bits
clear.  For all other call signs the decoded call sign is wrong (hdlc.go:83 uses mask `0x2f` for
`0x3f`; hdlc.go:86 and 89 apply the mask to the right operand of `|` only). -/
theorem C13_flexnet_callsign_iff_partial (q r : Byte) (hr : r.getLsbD 0 = true)
    (c1 c2 c3 c4 c5 c6 : BitVec 6) (ssid : BitVec 4) (rest : List Byte) (hrest : rest ≠ []) :
    let p := flexHeader q r c1 c2 c3 c4 c5 c6 ssid ++ rest
    ∃ fr, processFrame (p ++ fcs p) = some (some fr) ∧
      (fr.destination.callsign = flexCall [c1, c2, c3, c4, c5, c6] ↔
        c1.getLsbD 4 = false ∧ c1 &&& 3#6 = 0#6 ∧ c2 &&& 3#6 = 0#6) ∧
      (fr.destination.callsign ≠ [] → fr.destination.ssid = ssid.toNat) := by
  intro p
  obtain ⟨fr, h1, h2, h3⟩ := processFrame_flex q r hr c1 c2 c3 c4 c5 c6 ssid rest hrest
  exact ⟨fr, h1, by rw [h2]; exact flexDest_iff c1 c2 c3 c4 c5 c6 ssid, h3⟩

/-- **C13 is violated.** The call sign "N0CALL" in a FlexNet header is not decoded as such. -/
theorem C13_violated : ∃ fr,
    let p := flexHeader 0x00 0x01 0x2e 0x10 0x23 0x21 0x2c 0x2c 1 ++ [0x03#8, 0xf0#8]
    processFrame (p ++ fcs p) = some (some fr) ∧
      flexCall [0x2e, 0x10, 0x23, 0x21, 0x2c, 0x2c] = [0x4e, 0x30, 0x43, 0x41, 0x4c, 0x4c] ∧
      fr.destination.callsign ≠ [0x4e, 0x30, 0x43, 0x41, 0x4c, 0x4c] := by
  obtain ⟨fr, h1, h2, _⟩ := C13_flexnet_callsign_iff_partial 0x00 0x01 (by decide) 0x2e 0x10 0x23 0x21
    0x2c 0x2c 1 [0x03#8, 0xf0#8] (by decide)
  refine ⟨fr, h1, by decide, fun h => ?_⟩
  have := (h2.1 (by rw [h]; decide)).2.1
  revert this
  decide

/-- Non-vacuity of the good case: "D0CALL" (codes 0x24, 0x10, …) satisfies the conditions. -/
example : (0x24#6).getLsbD 4 = false ∧ 0x24#6 &&& 3#6 = 0#6 ∧ 0x10#6 &&& 3#6 = 0#6 ∧
    flexCall [0x24, 0x10, 0x23, 0x21, 0x2c, 0x2c] = [0x44, 0x30, 0x43, 0x41, 0x4c, 0x4c] := by
  decide

end Verif.Ax25
