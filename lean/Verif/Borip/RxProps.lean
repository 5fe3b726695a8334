import Verif.Borip.RxModel
import Verif.Borip.PacketProps
import Verif.Borip.DeviceProps
import Verif.Borip.InteropProps
import Verif.Fp.Bits
import Verif.Fp.FpComplex
import Verif.Fp.FpLemmas

/-!
# Property C107: the recorder of borip/example/rx.go
-/

namespace Verif.Borip
open Verif.Fp

variable {F : Type}

/-! ## Specification -/

/-- The complex samples of a file of pairs of little-endian IEEE-754 numbers. -/
def readFile : List UInt8 → List (Val × Val)
  | a :: b :: c :: d :: e :: f :: g :: h :: rest =>
    (ofBits32 (BitVec.ofNat 32 (a.toNat + 2 ^ 8 * b.toNat + 2 ^ 16 * c.toNat + 2 ^ 24 * d.toNat)),
      ofBits32 (BitVec.ofNat 32 (e.toNat + 2 ^ 8 * f.toNat + 2 ^ 16 * g.toNat + 2 ^ 24 * h.toNat))) :: readFile rest
  | _ => []

/-- An integer as a floating-point number; zero is positive. -/
def exactly (v : Int) : Val := .fin (decide (v < 0)) v.natAbs

/-! ## The file -/

theorem le32_read (b : BitVec 32) : ∃ x0 x1 x2 x3 : UInt8, le32 b = [x0, x1, x2, x3] ∧
    BitVec.ofNat 32 (x0.toNat + 2 ^ 8 * x1.toNat + 2 ^ 16 * x2.toNat + 2 ^ 24 * x3.toNat) = b := by
  refine ⟨_, _, _, _, rfl, ?_⟩
  have := b.isLt
  apply BitVec.eq_of_toNat_eq
  simp only [UInt8.toNat_ofNat', BitVec.toNat_ofNat]
  omega

theorem writeComponent_value (v : Int) (h : v.natAbs < 2 ^ 24) : Verif.Filt.narrow (ofInt binary64 v) = exactly v := by
  have h64 : ofInt binary64 v = exactly v := by
    have hr := round_exact binary64 (decide (v < 0)) v.natAbs 0 (h.trans (by decide)) (by decide) (by
      have : (v.natAbs : ℚ) < 2 ^ 24 := by exact_mod_cast h
      have h2 : (2 : ℚ) ^ (24 : ℤ) ≤ 2 ^ (binary64.emax + 1) := zpow_le_zpow_right₀ (by norm_num) (by decide)
      rw [zpow_zero, mul_one]
      exact this.trans_le h2)
    unfold ofInt roundRat exactly
    have e1 : decide ((v : ℚ) < 0) = decide (v < 0) := by
      rw [decide_eq_decide]; exact_mod_cast Iff.rfl
    have e2 : |(v : ℚ)| = (v.natAbs : ℚ) * 2 ^ (0 : ℤ) := by
      rw [zpow_zero, mul_one, ← Int.cast_abs, Int.abs_eq_natAbs, Int.cast_natCast]
    rw [e1, e2, hr, zpow_zero, mul_one]
  have hr := round_exact binary32 (decide (v < 0)) v.natAbs 0 h (by decide) (by
    have : (v.natAbs : ℚ) < 2 ^ 24 := by exact_mod_cast h
    have h2 : (2 : ℚ) ^ (24 : ℤ) ≤ 2 ^ (binary32.emax + 1) := zpow_le_zpow_right₀ (by norm_num) (by decide)
    rw [zpow_zero, mul_one]
    exact this.trans_le h2)
  rw [zpow_zero, mul_one] at hr
  rw [h64]
  exact hr

theorem writeComponent_read (v : Int) (h : v.natAbs < 2 ^ 24) : ∃ x0 x1 x2 x3 : UInt8, writeComponent v = [x0, x1, x2, x3] ∧
    ofBits32 (BitVec.ofNat 32 (x0.toNat + 2 ^ 8 * x1.toNat + 2 ^ 16 * x2.toNat + 2 ^ 24 * x3.toNat)) = exactly v := by
  obtain ⟨x0, x1, x2, x3, h1, h2⟩ := le32_read (toBits32 (exactly v))
  refine ⟨x0, x1, x2, x3, by unfold writeComponent; rw [writeComponent_value v h]; exact h1, ?_⟩
  rw [h2]
  refine ofBits32_toBits32 _ ⟨by positivity, ?_, ?_⟩
  · have : ((v.natAbs : ℕ) : ℚ) < 2 ^ 24 := by exact_mod_cast h
    exact this.trans (by norm_num)
  · have := grid_small (φ := binary32) (by decide) (v.natAbs : ℤ) (by rw [abs_of_nonneg (by positivity)]; exact_mod_cast h)
    rwa [Int.cast_natCast] at this

theorem readFile_append (s : List (Int × Int)) (hs : ∀ p ∈ s, p.1.natAbs < 2 ^ 24 ∧ p.2.natAbs < 2 ^ 24) (rest : List UInt8) :
    readFile (s.flatMap (fun p => writeComponent p.1 ++ writeComponent p.2) ++ rest) = s.map (fun p => (exactly p.1, exactly p.2)) ++ readFile rest := by
  induction s with
  | nil => rfl
  | cons p s ih =>
    obtain ⟨h1, h2⟩ := hs p (by simp)
    obtain ⟨a, b, c, d, e1, e2⟩ := writeComponent_read p.1 h1
    obtain ⟨a', b', c', d', e1', e2'⟩ := writeComponent_read p.2 h2
    simp only [List.flatMap_cons, e1, e1', List.cons_append, List.nil_append, readFile, e2, e2', List.map_cons]
    rw [ih fun p hp => hs p (List.mem_cons_of_mem _ hp)]

theorem writeFrom_eq (samples : List (Int × Int)) (n : Nat) (hn : n ≤ samples.length) (k : Nat) : ∀ (i : Nat) (file : List UInt8), n - i = k → 
    writeFrom samples n i file = some (file ++ ((samples.take n).drop i).flatMap fun p => writeComponent p.1 ++ writeComponent p.2) := by
  induction k with
  | zero =>
    intro i file h
    rw [writeFrom, if_neg (by omega), List.drop_eq_nil_of_le (by rw [List.length_take]; omega)]
    simp
  | succ k ih =>
    intro i file h
    have hi : i < samples.length := by omega
    rw [writeFrom, if_pos (by omega), List.getElem?_eq_getElem hi, Option.bind_some, ih _ _ (by omega),
      List.drop_eq_getElem_cons (i := i) (by rw [List.length_take]; omega), List.flatMap_cons, List.getElem_take]
    simp

theorem le16_small (lo hi : UInt8) : (le16 lo hi).natAbs ≤ 32768 := by
  have h1 := lo.toNat_lt
  have h2 := hi.toNat_lt
  unfold le16
  simp only
  split <;> omega

theorem iq_small (d : List UInt8) : ∀ p ∈ iq d, p.1.natAbs < 2 ^ 24 ∧ p.2.natAbs < 2 ^ 24 := by
  induction d using iq.induct with
  | case1 a b c d rest ih =>
    intro p hp
    rw [iq, List.mem_cons] at hp
    rcases hp with rfl | hp
    · have h1 := le16_small a b
      have h2 := le16_small c d
      simp only
      exact ⟨by omega, by omega⟩
    · exact ih p hp
  | case2 x h =>
    intro p hp
    rw [iq] at hp
    · cases hp
    · exact h

/-- Nothing is left in the reader, and the slice has its length. -/
def Rec.Ready (r : Rec) (headers : Bool) : Prop := r.rd.bufI ≥ r.rd.bufN ∧ r.rd.withHeaders = headers ∧ r.samples.length = 65536

/-- One pass on a well-formed datagram. -/
theorem step_wellFormed (r : Rec) (headers : Bool) (hr : r.Ready headers) (d : List UInt8) (hd : WellFormed headers d) (rest : List Recv)
    (hc : r.conn = .datagram d :: rest) : ∃ r', r.step = some (.ok r') ∧ r'.Ready headers ∧ r'.conn = rest ∧
      r'.file = r.file ++ (iq (d.drop (hdr headers))).flatMap fun p => writeComponent p.1 ++ writeComponent p.2 := by
  obtain ⟨h1, h2, h3⟩ := hr
  subst h2
  have hk : (d.length - hdr r.rd.withHeaders) / 4 ≤ 65536 := by have := hd.2.2; omega
  obtain ⟨o, a1, a2, a3, -, a5, a6, a7⟩ := C61_one r.rd h1 d hd rest r.samples (by rw [h3]; exact hk)
  have hl : (iq (d.drop (hdr r.rd.withHeaders))).length = (d.length - hdr r.rd.withHeaders) / 4 := by
    rw [iq_length, List.length_drop]
  have hlen : o.samples.length = 65536 := by
    rw [a3, List.length_append, hl, List.length_drop, h3]
    omega
  refine ⟨⟨o.rd, o.conn, o.samples, r.file ++ (iq (d.drop (hdr r.rd.withHeaders))).flatMap fun p => writeComponent p.1 ++ writeComponent p.2⟩, ?_,
    ⟨a6, a5, hlen⟩, a7, rfl⟩
  unfold Rec.step
  rw [hc, a1, Option.bind_some]
  simp only [a2]
  rw [writeFrom_eq o.samples _ (by omega) _ 0 r.file rfl, Option.bind_some, List.drop_zero]
  congr 5
  rw [a3, List.take_append_of_le_length (by omega), List.take_of_length_le (by omega)]

theorem run_wellFormed (ds : List (List UInt8)) : ∀ (r : Rec) (headers : Bool), r.Ready headers → (∀ d ∈ ds, WellFormed headers d) →
    ∀ rest, r.conn = ds.map .datagram ++ rest → ∃ r', r.run ds.length = some (.ok r') ∧ r'.Ready headers ∧ r'.conn = rest ∧
      r'.file = r.file ++ (ds.flatMap fun d => iq (d.drop (hdr headers))).flatMap fun p => writeComponent p.1 ++ writeComponent p.2 := by
  induction ds with
  | nil => intro r headers hr _ rest hc; exact ⟨r, rfl, hr, hc, by simp⟩
  | cons d ds ih =>
    intro r headers hr hd rest hc
    obtain ⟨r1, a1, a2, a3, a4⟩ := step_wellFormed r headers hr d (hd d (by simp)) (ds.map .datagram ++ rest) (by rw [hc]; rfl)
    obtain ⟨r2, b1, b2, b3, b4⟩ := ih r1 headers a2 (fun d hd' => hd d (List.mem_cons_of_mem _ hd')) rest a3
    refine ⟨r2, ?_, b2, b3, ?_⟩
    · rw [List.length_cons, Rec.run, a1, Option.bind_some]
      exact b1
    · rw [b4, a4]
      simp

theorem recStart_ready (headers : Bool) (conn : List Recv) : (Rec.start headers conn).Ready headers := by
  refine ⟨le_refl _, rfl, ?_⟩
  exact List.length_replicate

/-- C107: after any number of well-formed datagrams the file holds the samples of all of them, in order, each component exactly,
and nothing else; an error after them ends the program and leaves the file so. -/
theorem C107_recorded (headers : Bool) (ds : List (List UInt8)) (hd : ∀ d ∈ ds, WellFormed headers d) (rest : List Recv) :
    ∃ r, (Rec.start headers (ds.map .datagram ++ rest)).run ds.length = some (.ok r) ∧ r.conn = rest ∧
      readFile r.file = (ds.flatMap fun d => iq (d.drop (hdr headers))).map (fun p => (exactly p.1, exactly p.2)) ∧
      r.file.length = 8 * (ds.flatMap fun d => iq (d.drop (hdr headers))).length ∧
      ∀ e file, r.step = some (.error (e, file)) → file = r.file := by
  obtain ⟨r, h1, -, h3, h4⟩ := run_wellFormed ds _ headers (recStart_ready headers _) hd rest rfl
  have hsmall : ∀ p ∈ ds.flatMap fun d => iq (d.drop (hdr headers)), p.1.natAbs < 2 ^ 24 ∧ p.2.natAbs < 2 ^ 24 := by
    intro p hp
    obtain ⟨d, -, hp⟩ := List.mem_flatMap.1 hp
    exact iq_small _ p hp
  rw [show (Rec.start headers (ds.map .datagram ++ rest)).file = [] from rfl, List.nil_append] at h4
  refine ⟨r, h1, h3, ?_, ?_, ?_⟩
  · rw [h4]
    have := readFile_append _ hsmall []
    rw [List.append_nil] at this
    rw [this]
    simp [readFile]
  · rw [h4]
    generalize (ds.flatMap fun d => iq (d.drop (hdr headers))) = l
    induction l with
    | nil => rfl
    | cons p l ih =>
      rw [List.flatMap_cons, List.length_append, ih]
      simp [writeComponent, le32]
      omega
  · intro e file h
    unfold Rec.step at h
    rw [Option.bind_eq_some_iff] at h
    obtain ⟨o, -, h⟩ := h
    split at h
    · simp only [Option.some.injEq, Except.error.injEq, Prod.mk.injEq] at h
      exact h.2.symm
    · rw [Option.bind_eq_some_iff] at h
      obtain ⟨f, -, h⟩ := h
      cases h

/-- One datagram with one sample. -/
def oneDatagram : List (List UInt8) := [[0, 0, 7, 0, 1, 0, 0xff, 0xff]]

theorem oneDatagram_wellFormed : ∀ d ∈ oneDatagram, WellFormed true d := by
  intro d hd
  rw [oneDatagram, List.mem_singleton] at hd
  subst hd
  exact ⟨by decide, by decide, Nat.le_of_ble_eq_true rfl⟩

example : ∃ r, (Rec.start true (oneDatagram.map .datagram ++ [.error []])).run oneDatagram.length = some (.ok r) ∧
    readFile r.file = [(.fin false 1, .fin true 1)] := by
  obtain ⟨r, h1, -, h3, -⟩ := C107_recorded true oneDatagram oneDatagram_wellFormed [.error []]
  refine ⟨r, h1, ?_⟩
  rw [h3]
  decide +kernel

/-- The exact values determine the samples. -/
theorem exactly_injective {v w : Int} (h : exactly v = exactly w) : v = w := by
  unfold exactly at h
  simp only [Val.fin.injEq, decide_eq_decide, Nat.cast_inj] at h
  omega

/-- C107: from the file one can tell all samples received. -/
theorem C107_lossless (headers : Bool) (ds ds' : List (List UInt8)) (hd : ∀ d ∈ ds, WellFormed headers d) (hd' : ∀ d ∈ ds', WellFormed headers d)
    (r r' : Rec) (h : (Rec.start headers (ds.map .datagram)).run ds.length = some (.ok r))
    (h' : (Rec.start headers (ds'.map .datagram)).run ds'.length = some (.ok r')) (he : r.file = r'.file) :
    (ds.flatMap fun d => iq (d.drop (hdr headers))) = ds'.flatMap fun d => iq (d.drop (hdr headers)) := by
  obtain ⟨q, a1, -, a3, -⟩ := C107_recorded headers ds hd []
  obtain ⟨q', b1, -, b3, -⟩ := C107_recorded headers ds' hd' []
  rw [List.append_nil] at a1 b1
  rw [h] at a1
  rw [h'] at b1
  cases a1
  cases b1
  rw [he, b3] at a3
  refine (List.map_injective_iff.2 ?_ a3).symm
  rintro ⟨a, b⟩ ⟨c, d⟩ h
  simp only [Prod.mk.injEq] at h ⊢
  exact ⟨exactly_injective h.1, exactly_injective h.2⟩

/-- C107: the recorder never panics, whatever it receives: 65536 samples are enough for every datagram that the reader's buffer
holds. -/
theorem C107_no_panic (n : Nat) : ∀ (r : Rec) (headers : Bool), r.Ready headers → (r.run n).isSome := by
  induction n with
  | zero => intro r _ _; rfl
  | succ n ih =>
    intro r headers hr
    obtain ⟨h1, h2, h3⟩ := hr
    rw [Rec.run]
    cases hc : r.conn with
    | nil =>
      unfold Rec.step
      rw [hc, readSamples, if_pos h1]
      rfl
    | cons x rest =>
      cases x with
      | error junk =>
        unfold Rec.step
        rw [hc, readSamples, if_pos h1]
        rfl
      | datagram d =>
        by_cases hd : hdr r.rd.withHeaders ≤ d.length
        · have hcount : count r.rd.withHeaders d ≤ r.samples.length := by
            unfold count defaultBufferSize
            omega
          have h := read_closed r.rd h1 d hd rest r.samples hcount
          unfold Rec.step
          rw [hc, h, Option.bind_some]
          simp only
          have hlen : ((List.range (count r.rd.withHeaders d)).map (fun j => sampleAt (received r.rd.buf d) (hdr r.rd.withHeaders + 4 * j)) ++
              r.samples.drop (count r.rd.withHeaders d)).length = 65536 := by
            simp only [List.length_append, List.length_map, List.length_range, List.length_drop]
            omega
          rw [writeFrom_eq _ _ (by omega) _ 0 r.file rfl, Option.bind_some]
          simp only [Option.bind_some]
          refine ih _ headers ⟨?_, h2, hlen⟩
          show hdr r.rd.withHeaders + 4 * count r.rd.withHeaders d ≥ min d.length defaultBufferSize
          unfold count
          omega
        · have : accept r.rd d = .error { r.rd with buf := received r.rd.buf d, bufI := 0, bufN := min d.length defaultBufferSize } := by
            unfold hdr at hd
            cases hw : r.rd.withHeaders with
            | false => rw [hw] at hd; simp at hd
            | true =>
              rw [hw] at hd
              simp only [if_true] at hd
              unfold accept packetHeaderSize defaultBufferSize
              simp only [hw, if_true]
              rw [if_pos (by omega)]
          unfold Rec.step
          rw [hc, readSamples, if_pos h1]
          simp only [this]
          rfl

example : ((Rec.start true [.datagram [1, 2, 3, 4, 5], .error []]).run 7).isSome := C107_no_panic _ _ true (recStart_ready _ _)

/-! ## The main function -/

/-- The lines of a server that does what the program asks: `text` is what remains of them without the blanks around. -/
structure Cooperates (lib : Lib F) (lines : Fin 10 → Str) (d : Device F) (headers : Bool) (dest : Str) : Prop where
  device : ∃ s, lib.trim (lines 0) = lit "DEVICE " ++ s ∧ s.head? ≠ some '-' ∧ Describes lib s d
  setFreq : Acknowledges (lib.trim (lines 1))
  freq : ∃ v, lib.trim (lines 2) = lit "FREQ " ++ v ∧ v ≠ [] ∧ (lib.parseFloat v).isSome
  antenna : Acknowledges (lib.trim (lines 3))
  rate : ∃ v, lib.trim (lines 4) = lit "RATE OK " ++ v ∧ ' ' ∉ v ∧ (lib.parseFloat v).isSome
  header : lib.trim (lines 5) = lit "HEADER " ++ if headers then lit "ON" else lit "OFF"
  dest : lib.trim (lines 6) = lit "DEST OK " ++ dest ∧ ' ' ∉ dest
  go : Acknowledges (lib.trim (lines 7))
  stop : Acknowledges (lib.trim (lines 8))
  release : lib.trim (lines 9) = lit "DEVICE -"

theorem ack_one {res : Str} (h : Acknowledges res) : parseAndCheck res 1 = some (.ok (split ' ' res)) := by
  rcases parseAndCheck_cases res 1 with ⟨e, -, h1 | h1⟩ | h1
  · exact absurd h h1
  · obtain ⟨w, rest, rfl, hw, hr⟩ := h
    rw [(parseAndCheck_ack w rest 1 hw hr).1] at h1
    simp only [List.length_cons] at h1
    omega
  · exact h1.2.1

theorem ack_value (w v : Str) (n : Nat) (hw : ' ' ∉ w) (hv : ' ' ∉ v) (hn : n ≤ 2) :
    parseAndCheck (w ++ ' ' :: 'O' :: 'K' :: ' ' :: v) n = some (.ok [w, ['O', 'K'], v]) := by
  obtain ⟨h1, h2⟩ := parseAndCheck_ack w (' ' :: v) n hw (.inr ⟨v, rfl⟩)
  rw [h2, h1]
  simp only [split_none _ _ hv, List.length_cons, List.length_nil]
  rw [if_neg (by omega)]

theorem command_line (lib : Lib F) (running : Bool) (device : Option (Device F)) (raw : Str) (rest : List Reply) (log : List (Str × Reply)) (cmd : Str)
    (args : List Str) : (BorIP.mk running device (.line raw :: rest) log).command lib cmd args =
      (.ok (lib.trim raw), ⟨running, device, rest, log ++ [(request cmd args, .line raw)]⟩) := rfl

theorem call_reply (lib : Lib F) (running : Bool) (device : Option (Device F)) (raw : Str) (rest : List Reply) (log : List (Str × Reply)) (cmd : Str)
    (args : List Str) (parse : Str → Option (Except CErr (Value F))) (v : Except CErr (Value F)) (h : parse (lib.trim raw) = some v) :
    (BorIP.mk running device (.line raw :: rest) log).call lib cmd args parse = some (v, ⟨running, device, rest, log ++ [(request cmd args, .line raw)]⟩) := by
  unfold BorIP.call
  rw [command_line]
  simp only [h, Option.bind_some]

theorem select_reply (lib : Lib F) (running : Bool) (device : Option (Device F)) (raw : Str) (rest : List Reply) (log : List (Str × Reply)) (hint : Str)
    (d : Option (Device F)) (h : parseSelect lib (lib.trim raw) = some (.ok d)) :
    (BorIP.mk running device (.line raw :: rest) log).selectDevice lib hint =
      some (.ok (.device d), ⟨running, d, rest, log ++ [(request (lit "DEVICE") [hint], .line raw)]⟩) := by
  unfold BorIP.selectDevice
  rw [command_line]
  simp only [h, Option.bind_some]
  rfl

theorem running_reply (lib : Lib F) (running : Bool) (device : Option (Device F)) (raw : Str) (rest : List Reply) (log : List (Str × Reply)) (cmd : Str)
    (b : Bool) (h : Acknowledges (lib.trim raw)) :
    (BorIP.mk running device (.line raw :: rest) log).setRunning lib cmd b =
      some (.ok .unit, ⟨b, device, rest, log ++ [(request cmd [], .line raw)]⟩) := by
  unfold BorIP.setRunning
  rw [command_line]
  simp only [ack_one h, Option.bind_some]

theorem setFrequency_reply (lib : Lib F) (running : Bool) (device : Option (Device F)) (raw : Str) (rest : List Reply) (log : List (Str × Reply)) (freq : F)
    (h : Acknowledges (lib.trim raw)) : ∃ a b c e, (BorIP.mk running device (.line raw :: rest) log).setFrequency lib freq =
      some (.ok (.freqs a b c e), ⟨running, device, rest, log ++ [(request (lit "FREQ") [lib.formatFloat freq], .line raw)]⟩) := by
  obtain ⟨a, ha⟩ := optFloat_some lib (split ' ' (lib.trim raw)) 2
  obtain ⟨b, hb⟩ := optFloat_some lib (split ' ' (lib.trim raw)) 3
  obtain ⟨c, hc⟩ := optFloat_some lib (split ' ' (lib.trim raw)) 4
  obtain ⟨e, he⟩ := optFloat_some lib (split ' ' (lib.trim raw)) 5
  refine ⟨a, b, c, e, ?_⟩
  unfold BorIP.setFrequency
  refine call_reply lib _ _ _ _ _ _ _ _ _ ?_
  rw [ack_one h, Option.bind_some]
  simp only [ha, hb, hc, he, Option.bind_some]

theorem frequency_reply (lib : Lib F) (running : Bool) (device : Option (Device F)) (raw : Str) (rest : List Reply) (log : List (Str × Reply))
    (h : ∃ v, lib.trim raw = lit "FREQ " ++ v ∧ v ≠ [] ∧ (lib.parseFloat v).isSome) :
    ∃ x, (BorIP.mk running device (.line raw :: rest) log).frequency lib =
      some (.ok (.float x), ⟨running, device, rest, log ++ [(request (lit "FREQ") [], .line raw)]⟩) := by
  obtain ⟨v, hv1, hv2, hv3⟩ := h
  obtain ⟨x, hx⟩ := Option.isSome_iff_exists.1 hv3
  refine ⟨x, ?_⟩
  unfold BorIP.frequency
  refine call_reply lib _ _ _ _ _ _ _ _ _ ?_
  have h5 : (lit "FREQ ").length = 5 := rfl
  unfold parseQuery
  rw [hv1, if_neg (by
    have := List.length_pos_of_ne_nil hv2
    simp only [List.length_append]
    omega)]
  have : sliceFrom (lit "FREQ " ++ v) 5 = some v := by
    unfold sliceFrom
    rw [if_pos (by simp only [List.length_append]; omega)]
    rfl
  rw [this, Option.bind_some, hx]
  rfl

/-- C107: with a server that does what it is asked the program makes exactly ten exchanges: it selects the device, sets
frequency, antenna, rate and destination, starts, stops and releases the device; the deferred second `Close` sends nothing. -/
theorem C107_session (lib : Lib F) (freq rate : F) (listen : Str → Bool) (lines : Fin 10 → Str) (d : Device F) (headers : Bool) (dest : Str)
    (h : Cooperates lib lines d headers dest) (hl : listen dest = true) (more : List Reply) :
    ∃ ant, d.validAntennas.head? = some ant ∧
      rxMain lib freq rate listen ⟨false, none, (List.ofFn fun i => .line (lines i)) ++ more, []⟩ =
        some (.done headers dest, ⟨false, none, [], List.zipWith (fun r l => (r ++ ['\n'], .line l))
          [lit "DEVICE RTL", lit "FREQ " ++ lib.formatFloat freq, lit "FREQ", lit "ANTENNA " ++ ant, lit "RATE " ++ lib.formatFloat rate, lit "HEADER",
            lit "DEST 127.0.0.1:2288", lit "GO", lit "STOP", lit "DEVICE !"] (List.ofFn lines)⟩) := by
  obtain ⟨s, hs, hdash, hdesc⟩ := h.device
  have hant : ∃ ant rest, d.validAntennas = ant :: rest := by
    obtain ⟨_, _, _, _, _, _, _, _, _, -, -, -, -, -, -, -, -, hw⟩ := hdesc
    exact List.exists_cons_of_ne_nil hw.1
  obtain ⟨ant, ants, hant⟩ := hant
  refine ⟨ant, by rw [hant]; rfl, ?_⟩
  have e : ((List.ofFn fun i => Reply.line (lines i)) ++ more) = .line (lines 0) :: .line (lines 1) :: .line (lines 2) :: .line (lines 3) :: .line (lines 4) ::
      .line (lines 5) :: .line (lines 6) :: .line (lines 7) :: .line (lines 8) :: .line (lines 9) :: more := by
    simp [List.ofFn_succ]
  have e' : List.ofFn lines = [lines 0, lines 1, lines 2, lines 3, lines 4, lines 5, lines 6, lines 7, lines 8, lines 9] := by
    simp [List.ofFn_succ]
  rw [e, e']
  unfold rxMain
  rw [select_reply lib _ _ _ _ _ _ (some d) ((parseSelect_ok lib _ _).2 ⟨s, hs, hdash, hdesc⟩)]
  simp only [orFatal, Option.bind_some]
  obtain ⟨a, b, c, e, f1⟩ := setFrequency_reply lib false (some d) (lines 1) (.line (lines 2) :: .line (lines 3) :: .line (lines 4) ::
    .line (lines 5) :: .line (lines 6) :: .line (lines 7) :: .line (lines 8) :: .line (lines 9) :: more) ([] ++ [(request (lit "DEVICE") ["RTL".toList], .line (lines 0))])
    freq h.setFreq
  rw [f1]
  simp only [Option.bind_some]
  obtain ⟨x, f2⟩ := frequency_reply lib false (some d) (lines 2) (.line (lines 3) :: .line (lines 4) ::
    .line (lines 5) :: .line (lines 6) :: .line (lines 7) :: .line (lines 8) :: .line (lines 9) :: more) ([] ++ [(request (lit "DEVICE") ["RTL".toList], .line (lines 0))] ++
    [(request (lit "FREQ") [lib.formatFloat freq], .line (lines 1))]) h.freq
  rw [f2]
  simp only [Option.bind_some, hant, List.getElem?_cons_zero]
  unfold BorIP.setAntenna
  rw [call_reply lib _ _ _ _ _ _ _ _ (.ok .unit) (by
    unfold parseOK
    rw [ack_one h.antenna]
    rfl)]
  simp only [Option.bind_some]
  obtain ⟨v', hr1, hr2, hr3⟩ := h.rate
  obtain ⟨y, hy⟩ := Option.isSome_iff_exists.1 hr3
  unfold BorIP.setRate
  rw [call_reply lib _ _ _ _ _ _ _ _ (.ok (.float y)) (by
    unfold parseRate
    have := ack_value (lit "RATE") v' 1 (by decide) hr2 (by omega)
    rw [hr1]
    rw [show lit "RATE OK " ++ v' = lit "RATE" ++ ' ' :: 'O' :: 'K' :: ' ' :: v' from rfl, this, Option.bind_some]
    simp only [List.getElem?_cons_succ, List.getElem?_cons_zero, Option.bind_some, hy, orNumber])]
  simp only [Option.bind_some]
  unfold BorIP.headerEnabled
  rw [call_reply lib _ _ _ _ _ _ _ _ (.ok (.bool headers)) (by
    rw [h.header]
    cases headers <;> rfl)]
  simp only [Option.bind_some]
  unfold BorIP.setDestination
  rw [call_reply lib _ _ _ _ _ _ _ _ (.ok (.str dest)) (by
    rw [h.dest.1, show lit "DEST OK " ++ dest = lit "DEST" ++ ' ' :: 'O' :: 'K' :: ' ' :: dest from rfl,
      ack_value (lit "DEST") dest 2 (by decide) h.dest.2 (by omega)]
    rfl)]
  simp only [Option.bind_some, hl, if_true]
  unfold BorIP.go
  rw [running_reply lib _ _ _ _ _ _ _ h.go]
  simp only [Option.bind_some]
  unfold BorIP.close BorIP.closeStop BorIP.closeDevice BorIP.stop
  simp only [if_true]
  rw [running_reply lib _ _ _ _ _ _ _ h.stop]
  simp only [Option.bind_some, Option.isSome_some, if_true]
  rw [select_reply lib _ _ _ _ _ _ none ((parseSelect_ok lib _ _).2 h.release)]
  simp only [Option.bind_some, Option.isSome_none, Bool.false_eq_true, if_false]
  rfl

/-- The lines of a server with one device. -/
def testLines : Fin 10 → Str := ![lit "DEVICE RTL|0|9|1|0|4096|a,b|7\n", lit "FREQ OK\n", lit "FREQ 5\n", lit "ANTENNA OK\n", lit "RATE OK 5\n",
  lit "HEADER OFF\n", lit "DEST OK 1.2.3.4:5\n", lit "GO OK\n", lit "STOP OK\n", lit "DEVICE -\n"]

theorem testLines_cooperate : Cooperates testLib testLines ⟨lit "RTL", lit "7", 0, 9, 1, 0, 4096, [lit "a", lit "b"]⟩ false (lit "1.2.3.4:5") where
  device := ⟨lit "RTL|0|9|1|0|4096|a,b|7", by decide, by decide, lit "RTL", lit "0", lit "9", lit "1", lit "0", lit "4096", lit "a,b", lit "7", [],
    (words_iff _ _ _).2 (by decide), rfl, rfl, by decide, by decide, by decide, by decide, by decide, (words_iff _ _ _).2 (by decide)⟩
  setFreq := ⟨lit "FREQ", [], by decide, by decide, .inl rfl⟩
  freq := ⟨lit "5", by decide, by decide, by decide⟩
  antenna := ⟨lit "ANTENNA", [], by decide, by decide, .inl rfl⟩
  rate := ⟨lit "5", by decide, by decide, by decide⟩
  header := by decide
  dest := ⟨by decide, by decide⟩
  go := ⟨lit "GO", [], by decide, by decide, .inl rfl⟩
  stop := ⟨lit "STOP", [], by decide, by decide, .inl rfl⟩
  release := by decide

example : ∃ bor, rxMain testLib 4 6 (fun _ => true) ⟨false, none, (List.ofFn fun i => .line (testLines i)) ++ [], []⟩ =
    some (.done false (lit "1.2.3.4:5"), bor) ∧ bor.log.length = 10 := by
  obtain ⟨ant, -, h⟩ := C107_session testLib 4 6 (fun _ => true) testLines _ _ _ testLines_cooperate rfl []
  exact ⟨_, h, by simp⟩

/-- C107 does not hold for the server of this repository: whatever its state and its receivers, it refuses the very first
request, and the program ends without recording anything. -/
theorem C107_violated_server (lib : SLib F) (r6 : F → F) (hl : lib.Laws r6) (rtl : Rtl F) (s : Srv F) (freq rate : F) (listen : Str → Bool)
    (bor : BorIP F) (more : List Reply) :
    ∃ raw, (serveLine lib rtl s (lit "DEVICE RTL\n")).1 = some raw ∧
      ∃ e bor', rxMain lib.toLib freq rate listen { bor with replies := .line raw :: more } = some (.fatal e, bor') ∧
        bor'.log = bor.log ++ [(lit "DEVICE RTL\n", .line raw)] ∧ bor'.device = bor.device := by
  have h1 := serve1 lib hl rtl s (lit "DEVICE") (lit "RTL") (by decide) (by decide) (by decide)
  rw [handle_device] at h1
  have h2 : (onDevice lib rtl s [lit "RTL"]).1 = lit "DEVICE - unknown hint" ++ ['\n'] := by
    simp only [onDevice]
    rw [if_neg (by decide), if_neg (by decide)]
    rfl
  rw [h2] at h1
  refine ⟨_, h1, .text (lib.trim (lit " unknown hint")), ⟨bor.running, bor.device, more, bor.log ++ [(lit "DEVICE RTL\n", .line (lit "DEVICE - unknown hint" ++ ['\n']))]⟩,
    ?_, rfl, rfl⟩
  have ht : lib.trim (lit "DEVICE - unknown hint" ++ ['\n']) = lit "DEVICE - unknown hint" :=
    hl.trim _ ⟨⟨'D', by decide, by decide⟩, ⟨'t', by decide, by decide⟩⟩
  unfold rxMain BorIP.selectDevice
  rw [command_line]
  simp only [ht]
  rfl

example : ∃ raw, (serveLine testSLib testRtl testSrv (lit "DEVICE RTL\n")).1 = some raw ∧
    ∃ e bor', rxMain testSLib.toLib 4 6 (fun _ => true) { testBor with replies := .line raw :: [] } = some (.fatal e, bor') ∧
      bor'.log = testBor.log ++ [(lit "DEVICE RTL\n", .line raw)] ∧ bor'.device = testBor.device :=
  C107_violated_server testSLib id testSLib_laws testRtl testSrv 4 6 _ testBor []

/-- C107 does not hold for a server that has no device to offer and says so with a dash: `SelectDevice` returns no error and no
device, and the program panics on reading its antennas. -/
theorem C107_violated_nil (lib : Lib F) (freq rate : F) (listen : Str → Bool) (l0 l1 l2 : Str) (more : List Reply)
    (h0 : lib.trim l0 = lit "DEVICE -") (h1 : Acknowledges (lib.trim l1))
    (h2 : ∃ v, lib.trim l2 = lit "FREQ " ++ v ∧ v ≠ [] ∧ (lib.parseFloat v).isSome) :
    rxMain lib freq rate listen ⟨false, none, .line l0 :: .line l1 :: .line l2 :: more, []⟩ = none := by
  unfold rxMain
  rw [select_reply lib _ _ _ _ _ _ none ((parseSelect_ok lib _ _).2 h0)]
  simp only [orFatal, Option.bind_some]
  obtain ⟨a, b, c, e, f1⟩ := setFrequency_reply lib false none l1 (.line l2 :: more) _ freq h1
  rw [f1]
  simp only [Option.bind_some]
  obtain ⟨x, f2⟩ := frequency_reply lib false none l2 more _ h2
  rw [f2]
  rfl

example : rxMain testLib 4 6 (fun _ => true) ⟨false, none, [.line (lit "DEVICE -\n"), .line (lit "FREQ OK\n"), .line (lit "FREQ 5\n")], []⟩ = none :=
  C107_violated_nil testLib 4 6 _ _ _ _ [] (by decide) ⟨lit "FREQ", [], by decide, by decide, .inl rfl⟩ ⟨lit "5", by decide, by decide, by decide⟩

end Verif.Borip
