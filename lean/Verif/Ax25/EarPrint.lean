import Verif.Ax25.EarReceive
import Verif.Ax25.PrintProps

/-!
# C154, continued: from the sound to the text
-/

namespace Verif.Ax25.Ear

open Verif.Ax25 Verif.Ax25.Spec Verif.Ax25.Clock.Spec Verif.Fp Verif.Dft Verif.Dtmf Verif.Filt Verif.Conv Verif.Ax25.Ear.Spec

/-- What `examples/ax25.go` has printed when the calls of `Feed` have returned `out`: something for each frame, at once (lines 106-124). -/
def printed (out : List (Option Frame)) : List Byte := printFrames (out.filterMap id)

/-- The text for a transmission: `SRC-1 to DST-2 via R-3,S-4`, a newline, and the dump of the information. -/
def Spec.announced (dst src : Station) (reps : List Station) (info : List Byte) : List Byte :=
  src.call ++ lit "-" ++ dec src.ssid ++ lit " to " ++ dst.call ++ lit "-" ++ dec dst.ssid ++
    (if reps = [] then [] else lit " via " ++ (List.intersperse (lit ",") (reps.map fun r => r.call ++ lit "-" ++ dec r.ssid)).flatten) ++ lit "\n" ++ hexDump info

theorem via_eq (reps : List Station) : printVia (reps.map fun s => (⟨s.call, s.ssid⟩ : Address)) =
    (List.intersperse (lit ",") (reps.map fun r => r.call ++ lit "-" ++ dec r.ssid)).flatten := by
  cases reps with
  | nil => rfl
  | cons r rs =>
    rw [List.map_cons, printVia, List.map_cons, Address.text, addressString]
    induction rs generalizing r with
    | nil => simp
    | cons s rs ih =>
      rw [List.map_cons, List.flatMap_cons, List.map_cons, List.intersperse_cons_cons, List.flatten_cons, List.flatten_cons, ← ih s, Address.text, addressString]
      simp only [List.append_assoc]

theorem printFrame_sent {fr : Frame} {dst src : Station} {reps : List Station} {info : List Byte} (h1 : fr.destination = ⟨dst.call, dst.ssid⟩)
    (h2 : fr.source = ⟨src.call, src.ssid⟩) (h3 : fr.repeaters = reps.map (fun s => ⟨s.call, s.ssid⟩)) (h4 : fr.info = info) :
    printFrame fr = announced dst src reps info := by
  rw [printFrame, printHead, h1, h2, h3, h4, announced, via_eq, Address.text, Address.text, addressString, addressString]
  have e : (reps.map (fun s => (⟨s.call, s.ssid⟩ : Address)) = []) = (reps = []) := by rw [List.map_eq_nil_iff]
  simp only [e, List.append_assoc]

/-- **C154, from the sound**: under the conditions of C139, no later than 28 samples after the end of the transmission the program prints the addresses and the
information that were sent, as text, and nothing else since the second opening flag. -/
theorem C154_heard {other : Val → Nat} {cos sin : FVal binary64 → FVal binary64} {η : ℝ} (hη0 : 0 ≤ η) (hη : η ≤ 1 / 2 ^ 50)
    (hT : Trig cos sin 9 η) {fuel : ℕ} (hf : 3 ≤ fuel) (dst src : Station) (reps : List Station) (c : Control) (pid : Byte) (info : List Byte)
    (hd : dst.Valid) (hsrc : src.Valid) (hr : ∀ r ∈ reps, r.Valid) (hc : c.Valid)
    (hi : CarriesInfo c) (hlen : (encodeFrame dst src reps c.encode (pid :: info)).length ≤ 510)
    {v : ℕ → Bool} {θ : ℝ → ℝ} {t0 P A : ℝ} (hA1 : 0.81 ≤ A) (hA2 : A ≤ 1) (hP : |1200 * P - 1| ≤ 1 / 800)
    {past now : List (List Byte)} (hpast : ∀ r ∈ past, r.length ≤ 8) (hnow : ∀ r ∈ now, r.length = 8)
    (hstart : 4 * (past.length : ℝ) / 44100 ≤ t0 - P) :
    let p := encodeFrame dst src reps c.encode (pid :: info)
    let line := stuff (bytesBits (p ++ fcs p)) ++ flag
    let bits := flag ++ flag ++ line
    Carries v bits → Afsk θ t0 P v (bits.length + 1) →
    Recorded now.flatten (4 * past.length) A θ (1 / 300) (t0 - P) (t0 + (bits.length + 1) * P) →
    t0 + (bits.length + 1) * P ≤ 4 * (past.length + now.length : ℝ) / 44100 →
    ∀ ds, Diffs other cos sin Front.start (past ++ now) ds →
    ∃ (n : ℕ) (s : Clock.Rx Val) (k : ℕ),
      n ≤ ds.length ∧ (4 * n : ℝ) / 44100 ≤ t0 + bits.length * P + 28 / 44100 ∧
      Clock64.listen fuel Clock64.start (ds.take n) = some s ∧ k + line.length = s.out.length ∧
      printed s.out = printed (s.out.take k) ++ announced dst src reps info := by
  intro p line bits hv hθ hrec hend ds hds
  obtain ⟨n, s, before, fr, n1, n2, n3, n4, f1, f2, f3, -, -, -, -, f4⟩ :=
    C139_received hη0 hη hT hf dst src reps c pid info hd hsrc hr hc hi hlen hA1 hA2 hP hpast hnow hstart hv hθ hrec hend ds hds
  have hl : 1 ≤ line.length := by
    show 1 ≤ (stuff (bytesBits (p ++ fcs p)) ++ flag).length
    rw [List.length_append]
    exact le_trans (by decide : 1 ≤ flag.length) (Nat.le_add_left _ _)
  refine ⟨n, s, before.length, n1, n2, n3, ?_, ?_⟩
  · rw [n4]
    change before.length + line.length = (before ++ List.replicate (line.length - 1) none ++ [some fr]).length
    clear_value line
    rw [List.length_append, List.length_append, List.length_replicate, List.length_singleton]
    omega
  · rw [n4, List.append_assoc, List.take_left', ← printFrame_sent f1 f2 f3 f4]
    · have e : ∀ m, (List.replicate m (none : Option Frame)).filterMap id = [] := by
        intro m
        rw [List.filterMap_eq_nil_iff]
        intro x hx
        rw [List.eq_of_mem_replicate hx]
        rfl
      unfold printed printFrames
      rw [List.filterMap_append, List.filterMap_append, e, List.nil_append, List.map_append, List.flatten_append]
      simp
    · rfl

/-- The hypotheses of `C154_heard` are met by a recording of `KA9Q-1 to CQ-0 via A-2` with the text `hi`, at 0.9 of full scale, from the beginning: there is a
platform on which the program has printed that line and a dump at the end of its output. -/
example (other : Val → Nat) : ∃ (cos sin : FVal binary64 → FVal binary64) (now : List (List Byte)) (ds : List Val) (n : ℕ) (s : Clock.Rx Val) (earlier : List Byte),
    Trig cos sin 9 (1 / 2 ^ 50) ∧ Diffs other cos sin Front.start now ds ∧ Clock64.listen 3 Clock64.start (ds.take n) = some s ∧
    printed s.out = earlier ++ (lit "KA9Q-1 to CQ-0 via A-2\n" ++ hexDump (lit "hi")) := by
  choose co c1 c2 c3 using fun x : FVal binary64 => exists_float (Real.cos (val x)) (Real.abs_cos_le_one _)
  choose si s1 _ s3 using fun x : FVal binary64 => exists_float (Real.sin (val x)) (Real.abs_sin_le_one _)
  have hT : Trig co si 9 (1 / 2 ^ 50) := fun x _ _ => ⟨⟨c1 x, c2 x, c3 x⟩, s1 x, s3 x⟩
  have hv : ∀ s ∈ [(⟨lit "CQ", 0, true⟩ : Station), ⟨lit "KA9Q", 1, false⟩, ⟨lit "A", 2, false⟩], s.Valid := by
    unfold Station.Valid
    decide
  have hc : (Control.u 0 0 false).Valid := by unfold Control.Valid; decide
  have hi : CarriesInfo (Control.u 0 0 false) := by simp [CarriesInfo]
  obtain ⟨bits, hbits⟩ : ∃ bits, bits = flag ++ flag ++ (stuff (bytesBits
      (encodeFrame ⟨lit "CQ", 0, true⟩ ⟨lit "KA9Q", 1, false⟩ [⟨lit "A", 2, false⟩] (Control.u 0 0 false).encode (0xf0#8 :: lit "hi") ++
        fcs (encodeFrame ⟨lit "CQ", 0, true⟩ ⟨lit "KA9Q", 1, false⟩ [⟨lit "A", 2, false⟩] (Control.u 0 0 false).encode (0xf0#8 :: lit "hi")))) ++ flag) := ⟨_, rfl⟩
  obtain ⟨θ, hθ⟩ := exists_afsk (tones bits) (t0 := 1 / 1200) (P := 1 / 1200) (by norm_num)
  obtain ⟨now, n1, n2, n3⟩ := exists_recording θ (A := 0.9) (by norm_num) (by norm_num) 0 (1 / 1200 - 1 / 1200)
    (1 / 1200 + (bits.length + 1) * (1 / 1200)) (10 * (bits.length + 2))
  obtain ⟨ds, hds⟩ := diffs_exist other co si Front.start now
  have hend : (1 / 1200 : ℝ) + (bits.length + 1) * (1 / 1200) ≤ 4 * (([] : List (List Byte)).length + now.length : ℝ) / 44100 := by
    rw [n1, le_div_iff₀ (by norm_num)]
    have : (0 : ℝ) ≤ bits.length := Nat.cast_nonneg _
    push_cast
    norm_num
    linarith
  have hcar := tones_carry bits
  have hθ := hθ (bits.length + 1)
  subst hbits
  obtain ⟨n, s, k, -, -, h3, -, h5⟩ := C154_heard (other := other) (by norm_num) le_rfl hT (le_refl 3) ⟨lit "CQ", 0, true⟩ ⟨lit "KA9Q", 1, false⟩ [⟨lit "A", 2, false⟩]
    (Control.u 0 0 false) 0xf0#8 (lit "hi") (hv _ (by simp)) (hv _ (by simp)) (fun r hr => hv r (by simp at hr; simp [hr])) hc hi (by decide +kernel)
    (t0 := 1 / 1200) (P := 1 / 1200) (A := 0.9) (by norm_num) (by norm_num) (by norm_num) (past := []) (by simp) n2 (by norm_num) hcar hθ n3 hend ds hds
  exact ⟨co, si, now, ds, n, s, _, hT, hds, h3, h5.trans (congrArg _ (by decide +kernel))⟩

end Verif.Ax25.Ear
