import Verif.Ax25.HdlcLemmas
import Verif.Ax25.CrcProps

/-! # Helper lemmas about `processFrame` -/

namespace Verif.Ax25

open Spec

/-! ### No index panics -/

theorem parseCall_ok (k : Nat) (buf : List Byte) (h : k ≤ buf.length) :
    ∃ c r, parseCall k buf = some (c, r) ∧ r.length = buf.length ∧ r.drop k = buf.drop k := by
  induction k generalizing buf with
  | zero => exact ⟨[], buf, rfl, rfl, rfl⟩
  | succ k ih =>
    cases buf with
    | nil => simp at h
    | cons b rest =>
      simp only [List.length_cons, Nat.add_le_add_iff_right] at h
      obtain ⟨c, r, h1, h2, h3⟩ := ih rest h
      by_cases hb : b >>> 1 = 0x20#8
      · exact ⟨[], b >>> 1 :: rest, by simp [parseCall, hb], by simp, by simp⟩
      · exact ⟨b >>> 1 :: c, b >>> 1 :: r, by simp [parseCall, hb, h1], by simp [h2], by simpa using h3⟩

theorem parseAddress_ok (buf : List Byte) (h : 7 ≤ buf.length) :
    ∃ a r, parseAddress buf = some (a, r) ∧ r.length = buf.length ∧ r.drop 6 = buf.drop 6 := by
  obtain ⟨c, r, h1, h2, h3⟩ := parseCall_ok 6 buf (by omega)
  have h6 : 6 < r.length := by omega
  refine ⟨⟨c, ((r[6] >>> 1) &&& 0xf#8).toNat⟩, r, ?_, h2, h3⟩
  simp [parseAddress, h1, List.getElem?_eq_getElem h6]

theorem repeaterLoop_ok (fuel : Nat) (prev : Byte) (rest : List Byte) (h : rest.length < fuel * 7) :
    ∃ as r, repeaterLoop fuel prev rest = some (as, r) ∧ r.length ≤ rest.length := by
  induction fuel generalizing prev rest with
  | zero => omega
  | succ fuel ih =>
    unfold repeaterLoop
    split
    · rename_i hc
      obtain ⟨a, r, h1, h2, h3⟩ := parseAddress_ok rest (by omega)
      have h6 : 6 < r.length := by omega
      obtain ⟨as, r', i1, i2⟩ := ih r[6] (r.drop 7) (by simp; omega)
      simp only [h1, List.getElem?_eq_getElem h6, i1]
      exact ⟨_, _, rfl, by simp at i2; omega⟩
    · exact ⟨_, _, rfl, le_refl _⟩

theorem processHeader_ok (buf : List Byte) (h : 8 ≤ buf.length) :
    ∃ r, processHeader buf = some r := by
  have g : ∀ i, (hi : i < 8) → buf[i]? = some (buf[i]'(by omega)) := fun i hi =>
    List.getElem?_eq_getElem (by omega)
  unfold processHeader
  simp only [g 1 (by omega), g 2 (by omega), g 3 (by omega), g 4 (by omega), g 5 (by omega),
    g 6 (by omega)]
  split
  · exact ⟨_, rfl⟩
  · split
    · exact ⟨_, rfl⟩
    · have h13 : 13 < buf.length := by omega
      simp only [List.getElem?_eq_getElem h13]
      obtain ⟨a, r, h1, h2, h3⟩ := parseAddress_ok buf (by omega)
      simp only [h1]
      obtain ⟨a', r', h1', h2', h3'⟩ := parseAddress_ok (r.drop 7) (by simp; omega)
      simp only [h1']
      have h6 : 6 < r'.length := by rw [h2']; simp; omega
      simp only [List.getElem?_eq_getElem h6]
      obtain ⟨as, r'', i1, _⟩ := repeaterLoop_ok buf.length r'[6] (r'.drop 7)
        (by simp only [List.length_drop, h2']; omega)
      simp only [i1]
      exact ⟨_, rfl⟩

/-- `processFrame` never panics. -/
theorem processFrame_ok (buf : List Byte) : ∃ r, processFrame buf = some r := by
  unfold processFrame
  split
  · exact ⟨_, rfl⟩
  · split
    · exact ⟨_, rfl⟩
    · obtain ⟨r, hr⟩ := processHeader_ok (buf.take (buf.length - 2)) (by simp; omega)
      simp only [hr]
      cases r with
      | none => exact ⟨_, rfl⟩
      | some r => exact ⟨_, rfl⟩

/-- The frame returned for a buffer, if any. -/
def frameOf (buf : List Byte) : Option Frame := (processFrame buf).getD none

theorem processFrame_eq (buf : List Byte) : processFrame buf = some (frameOf buf) := by
  obtain ⟨r, hr⟩ := processFrame_ok buf
  simp [frameOf, hr]

theorem feed_eq (d : Dec) (b : Int) :
    feed d b = some ((feedRaw d b).1, (feedRaw d b).2.bind frameOf) := by
  unfold feed
  rcases h : feedRaw d b with ⟨d', o⟩
  cases o with
  | none => rfl
  | some buf => simp [processFrame_eq]

theorem run_eq (d : Dec) (bits : List Int) :
    run d bits = some ((runRaw d bits).1, (runRaw d bits).2.map (fun o => o.bind frameOf)) := by
  induction bits generalizing d with
  | nil => rfl
  | cons b bits ih => simp [run, feed_eq, ih, runRaw]

/-! ### Parsing encoded addresses -/

theorem shift_back : ∀ c : BitVec 8, c.toNat < 128 → (c <<< 1) >>> 1 = c := by decide +kernel

theorem parseCall_encode (k : Nat) (call rest : List Byte) (hl : call.length ≤ k)
    (hc : ∀ c ∈ call, c.toNat < 128 ∧ c ≠ 0x20#8) :
    ∃ r, parseCall k ((call ++ List.replicate (k - call.length) 0x20#8).map
        (fun c : BitVec 8 => c <<< 1) ++ rest) = some (call, r) ∧ r.drop k = rest := by
  induction k generalizing call with
  | zero =>
    have : call = [] := List.length_eq_zero_iff.1 (by omega)
    subst this
    exact ⟨rest, by simp [parseCall], by simp⟩
  | succ k ih =>
    cases call with
    | nil =>
      simp only [List.length_nil, Nat.sub_zero, List.nil_append, List.replicate_succ, List.map_cons,
        List.cons_append, parseCall]
      simp
    | cons c call =>
      simp only [List.length_cons, Nat.add_le_add_iff_right] at hl
      obtain ⟨r, h1, h2⟩ := ih call hl (fun c hc' => hc c (List.mem_cons_of_mem _ hc'))
      obtain ⟨c1, c2⟩ := hc c (List.mem_cons_self)
      have e := shift_back c c1
      refine ⟨c :: r, ?_, by simpa using h2⟩
      simp only [List.length_cons, Nat.reduceSubDiff, List.cons_append, List.map_cons, parseCall, e, c2,
        if_false, h1]

/-- The SSID octet of a station. -/
def ssidOctet (s : Station) (last : Bool) : Byte :=
  (if s.top then 0x80#8 else 0#8) ||| 0x60#8 ||| (BitVec.ofNat 8 s.ssid <<< 1) |||
      (if last then 1#8 else 0#8)

theorem ssidOctet_facts : ∀ (top last : Bool), ∀ n < 16,
    let o := (if top then 0x80#8 else 0#8) ||| 0x60#8 ||| (BitVec.ofNat 8 n <<< 1) |||
      (if last then 1#8 else 0#8)
    ((o >>> 1) &&& 0xf#8).toNat = n ∧ (o &&& 1#8 = 0#8 ↔ last = false) ∧
      (o &&& 0x80#8 = if top then 0x80#8 else 0#8) := by
  decide +kernel

theorem encodeStation_length (s : Station) (last : Bool) (h : s.call.length ≤ 6) :
    (encodeStation s last).length = 7 := by
  simp [encodeStation]; omega

theorem encodeStation_eq (s : Station) (last : Bool) (rest : List Byte) :
    encodeStation s last ++ rest = (s.call ++ List.replicate (6 - s.call.length) 0x20#8).map
        (fun c : BitVec 8 => c <<< 1) ++ ssidOctet s last :: rest := by
  simp [encodeStation, ssidOctet]

theorem parseAddress_encode (s : Station) (last : Bool) (rest : List Byte) (hv : s.Valid) :
    ∃ r, parseAddress (encodeStation s last ++ rest) = some (⟨s.call, s.ssid⟩, r) ∧
      r.drop 6 = ssidOctet s last :: rest := by
  obtain ⟨h1, h2, h3⟩ := hv
  obtain ⟨r, e1, e2⟩ := parseCall_encode 6 s.call (ssidOctet s last :: rest) h1 h2
  refine ⟨r, ?_, e2⟩
  have h6 : r[6]? = some (ssidOctet s last) := by
    have : r[6]? = (r.drop 6)[0]? := by simp
    rw [this, e2]; rfl
  rw [encodeStation_eq]
  have hs := (ssidOctet_facts s.top last s.ssid h3).1
  simp only [parseAddress, e1, h6]
  unfold ssidOctet
  rw [hs]

theorem drop7_of_drop6 {r : List Byte} {x : Byte} {rest : List Byte} (h : r.drop 6 = x :: rest) :
    r.drop 7 = rest ∧ r[6]? = some x := by
  constructor
  · have : r.drop 7 = (r.drop 6).drop 1 := by simp
    rw [this, h]; rfl
  · have : r[6]? = (r.drop 6)[0]? := by simp
    rw [this, h]; rfl

theorem encodeRepeaters_cons (r : Station) (rs : List Station) :
    encodeRepeaters (r :: rs) = encodeStation r rs.isEmpty ++ encodeRepeaters rs := by
  cases rs <;> simp [encodeRepeaters]

theorem repeaterLoop_encode (reps : List Station) (fuel : Nat) (prev : Byte) (c : Byte)
    (rest : List Byte) (hf : reps.length < fuel) (hv : ∀ r ∈ reps, r.Valid)
    (hp : prev &&& 1#8 = 0#8 ↔ reps ≠ []) :
    repeaterLoop fuel prev (encodeRepeaters reps ++ c :: rest) =
      some (reps.map fun s => ⟨s.call, s.ssid⟩, c :: rest) := by
  induction reps generalizing fuel prev with
  | nil =>
    obtain ⟨fuel, rfl⟩ : ∃ n, fuel = n + 1 := ⟨fuel - 1, by simp at hf; omega⟩
    have : ¬ (prev &&& 1#8 = 0#8) := by simpa using hp
    simp [repeaterLoop, this, encodeRepeaters]
  | cons s reps ih =>
    obtain ⟨fuel, rfl⟩ : ∃ n, fuel = n + 1 := ⟨fuel - 1, by simp at hf; omega⟩
    have hs : s.Valid := hv s List.mem_cons_self
    have hp' : prev &&& 1#8 = 0#8 := by simpa using hp
    rw [encodeRepeaters_cons, List.append_assoc]
    obtain ⟨r, h1, h2⟩ := parseAddress_encode s reps.isEmpty (encodeRepeaters reps ++ c :: rest) hs
    obtain ⟨h7, h6⟩ := drop7_of_drop6 h2
    have hlen : (encodeStation s reps.isEmpty ++ (encodeRepeaters reps ++ c :: rest)).length > 7 := by
      have := encodeStation_length s reps.isEmpty hs.1
      rw [List.length_append, this]; simp
    have hfacts := (ssidOctet_facts s.top reps.isEmpty s.ssid hs.2.2).2.1
    have ih' := ih fuel (ssidOctet s reps.isEmpty) (by simp at hf; omega)
      (fun r hr => hv r (List.mem_cons_of_mem _ hr))
      (by unfold ssidOctet; rw [hfacts]; cases reps <;> simp)
    unfold repeaterLoop
    simp only [hp', hlen, and_self, if_true, h1, h6, h7, ih', List.map_cons]

/-- The header of an encoded frame is parsed back. -/
theorem processHeader_encode (dst src : Station) (reps : List Station) (c : Byte) (rest : List Byte)
    (hd : dst.Valid) (hs : src.Valid) (hr : ∀ r ∈ reps, r.Valid) :
    processHeader (encodeFrame dst src reps c rest) =
      some (some ({ Frame.init with
        v1 := decide (dst.top = src.top)
        command := decide (dst.top = true ∧ src.top = false)
        destination := ⟨dst.call, dst.ssid⟩
        source := ⟨src.call, src.ssid⟩
        repeaters := reps.map fun s => ⟨s.call, s.ssid⟩ }, c :: rest)) := by
  set tail2 := encodeRepeaters reps ++ c :: rest with ht2
  have hbuf : encodeFrame dst src reps c rest =
      encodeStation dst false ++ (encodeStation src reps.isEmpty ++ tail2) := by
    simp [encodeFrame, ht2]
  have ld := encodeStation_length dst false hd.1
  have ls := encodeStation_length src reps.isEmpty hs.1
  have hlen : 15 ≤ (encodeFrame dst src reps c rest).length := by
    rw [hbuf, List.length_append, List.length_append, ld, ls, ht2]
    simp; omega
  -- the byte at index 1 is a shifted character
  have h1 : ∃ b1, (encodeFrame dst src reps c rest)[1]? = some b1 ∧ b1 &&& 1#8 = 0#8 := by
    have hmap : ∃ x : Byte, (encodeStation dst false)[1]? = some (x <<< 1) := by
      unfold encodeStation
      have hl : 1 < (dst.call ++ List.replicate (6 - dst.call.length) 0x20#8).length := by
        have := hd.1
        simp; omega
      refine ⟨(dst.call ++ List.replicate (6 - dst.call.length) 0x20#8)[1], ?_⟩
      rw [List.getElem?_append_left (by simpa using hl), List.getElem?_map,
        List.getElem?_eq_getElem hl]
      rfl
    obtain ⟨x, hx⟩ := hmap
    refine ⟨x <<< 1, ?_, ?_⟩
    · rw [hbuf, List.getElem?_append_left (by omega), hx]
    · have : ∀ y : BitVec 8, (y <<< 1) &&& 1#8 = 0#8 := by decide +kernel
      exact this x
  obtain ⟨b1, hb1, hb1'⟩ := h1
  -- the SSID octets at indices 6 and 13
  have h6 : (encodeFrame dst src reps c rest)[6]? = some (ssidOctet dst false) := by
    rw [hbuf, encodeStation_eq, List.getElem?_append_right (by simp; have := hd.1; omega)]
    have : 6 - (List.map (fun c : BitVec 8 => c <<< 1)
      (dst.call ++ List.replicate (6 - dst.call.length) 0x20#8)).length = 0 := by
      have := hd.1
      simp; omega
    rw [this]; rfl
  have h13 : (encodeFrame dst src reps c rest)[13]? = some (ssidOctet src reps.isEmpty) := by
    rw [hbuf, List.getElem?_append_right (by omega), ld, encodeStation_eq,
      List.getElem?_append_right (by simp; have := hs.1; omega)]
    have : 13 - 7 - (List.map (fun c : BitVec 8 => c <<< 1)
      (src.call ++ List.replicate (6 - src.call.length) 0x20#8)).length = 0 := by
      have := hs.1
      simp; omega
    rw [this]; rfl
  obtain ⟨r1, p1, q1⟩ := parseAddress_encode dst false (encodeStation src reps.isEmpty ++ tail2) hd
  obtain ⟨d1, _⟩ := drop7_of_drop6 q1
  obtain ⟨r2, p2, q2⟩ := parseAddress_encode src reps.isEmpty tail2 hs
  obtain ⟨d2, e2⟩ := drop7_of_drop6 q2
  have hfuel : reps.length < (encodeFrame dst src reps c rest).length := by
    have : ∀ rs : List Station, (∀ r ∈ rs, r.Valid) → rs.length ≤ (encodeRepeaters rs).length := by
      intro rs
      induction rs with
      | nil => simp
      | cons r rs ih =>
        intro hv
        rw [encodeRepeaters_cons, List.length_append,
          encodeStation_length r _ (hv r List.mem_cons_self).1]
        have := ih (fun r hr => hv r (List.mem_cons_of_mem _ hr))
        simp; omega
    have h := this reps hr
    rw [hbuf, ht2]
    simp only [List.length_append, List.length_cons]
    omega
  have p3 := repeaterLoop_encode reps (encodeFrame dst src reps c rest).length
    (ssidOctet src reps.isEmpty) c rest hfuel hr
    (by unfold ssidOctet; rw [(ssidOctet_facts src.top reps.isEmpty src.ssid hs.2.2).2.1]; cases reps <;> simp)
  have t6 := (ssidOctet_facts dst.top false dst.ssid hd.2.2).2.2
  have t13 := (ssidOctet_facts src.top reps.isEmpty src.ssid hs.2.2).2.2
  unfold processHeader
  have hnl : ¬ ((encodeFrame dst src reps c rest).length < 15) := by omega
  simp only [hb1, hb1', ne_eq, not_true_eq_false, if_false, hnl, h6, h13]
  rw [← hbuf] at p1
  simp only [p1, d1, p2, e2, d2]
  rw [← ht2] at p3
  simp only [p3]
  have t6' : ssidOctet dst false &&& 0x80#8 = if dst.top then 0x80#8 else 0#8 := t6
  have t13' : ssidOctet src reps.isEmpty &&& 0x80#8 = if src.top then 0x80#8 else 0#8 := t13
  rw [t6', t13']
  cases dst.top <;> cases src.top <;> simp [Frame.init]

end Verif.Ax25
