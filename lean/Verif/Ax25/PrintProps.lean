import Verif.Ax25.PrintModel
import Verif.Ax25.StringProps

/-!
# C154: what `examples/ax25.go` prints tells what was received
-/

namespace Verif.Ax25
open Verif.Ax25.Spec

/-- What a reader wants to know of a frame: source, destination, repeaters and information. -/
def Spec.seen (f : Frame) : Address × Address × List Address × List Byte := (f.source, f.destination, f.repeaters, f.info)

/-- Call signs that do not contain what the program prints between them: blanks, newlines and, in those of repeaters, commas. -/
def Spec.Clear (f : Frame) : Prop :=
  (32#8 ∉ f.source.callsign ∧ 10#8 ∉ f.source.callsign) ∧ (32#8 ∉ f.destination.callsign ∧ 10#8 ∉ f.destination.callsign) ∧
    ∀ r ∈ f.repeaters, 32#8 ∉ r.callsign ∧ 10#8 ∉ r.callsign ∧ 44#8 ∉ r.callsign

theorem split_first {α : Type} {x : α} {a b c d : List α} (ha : x ∉ a) (hc : x ∉ c) (h : a ++ x :: b = c ++ x :: d) : a = c ∧ b = d := by
  induction a generalizing c with
  | nil =>
    cases c with
    | nil => exact ⟨rfl, by simpa using h⟩
    | cons y c =>
      simp only [List.nil_append, List.cons_append, List.cons.injEq] at h
      exact absurd (h.1 ▸ List.mem_cons_self) hc
  | cons z a ih =>
    cases c with
    | nil =>
      simp only [List.nil_append, List.cons_append, List.cons.injEq] at h
      exact absurd (h.1 ▸ List.mem_cons_self) ha
    | cons y c =>
      simp only [List.cons_append, List.cons.injEq] at h
      obtain ⟨e, f⟩ := ih (fun hx => ha (List.mem_cons_of_mem _ hx)) (fun hx => hc (List.mem_cons_of_mem _ hx)) h.2
      exact ⟨by rw [h.1, e], f⟩

/-! ## The dump -/

theorem all_bytes {P : Byte → Prop} (h : ∀ n < 256, P (BitVec.ofNat 8 n)) (b : Byte) : P b := by
  have := h b.toNat b.isLt
  rwa [BitVec.ofNat_toNat, BitVec.setWidth_eq] at this

theorem hex02_clean (b : Byte) : 10#8 ∉ hex02 b ∧ 32#8 ∉ hex02 b ∧ 45#8 ∉ hex02 b :=
  all_bytes (P := fun b => 10#8 ∉ hex02 b ∧ 32#8 ∉ hex02 b ∧ 45#8 ∉ hex02 b) (by decide +kernel) b

/-- The byte that two digits in base 16 stand for. -/
def unhex (hi lo : Byte) : Byte :=
  let v := fun d : Byte => if d.toNat < 58 then d.toNat - 48 else d.toNat - 87
  BitVec.ofNat 8 (16 * v hi + v lo)

theorem unhex_hex (b : Byte) : unhex (hexDigit (b.toNat / 16)) (hexDigit (b.toNat % 16)) = b :=
  all_bytes (P := fun b => unhex (hexDigit (b.toNat / 16)) (hexDigit (b.toNat % 16)) = b) (by decide +kernel) b

theorem hex02_injective {a b : Byte} (h : hex02 a = hex02 b) : a = b := by
  unfold hex02 at h
  simp only [List.cons.injEq, and_true] at h
  rw [← unhex_hex a, ← unhex_hex b, h.1, h.2]

theorem dumpChar_clean (b : Byte) : dumpChar b ≠ 10#8 := all_bytes (P := fun b => dumpChar b ≠ 10#8) (by decide +kernel) b

theorem dumpCells_length : ∀ (n : Nat) (bs : List Byte), (dumpCells n bs).length = (dumpCells n []).length
  | 0, _ => rfl
  | _ + 1, [] => rfl
  | n + 1, b :: bs => by
    have := dumpCells_length n bs
    have h1 : (hex02 b).length = 2 := rfl
    have h2 : (lit " ").length = 1 := by decide
    have h3 : (lit "   ").length = 3 := by decide
    simp only [dumpCells, List.length_append, this, h1, h2, h3]
    omega

theorem dumpCells_newline : ∀ (n : Nat) (bs : List Byte), 10#8 ∉ dumpCells n bs
  | 0, _ => by simp [dumpCells]
  | n + 1, [] => by
    have h1 : 10#8 ∉ lit "   " := by decide
    have h2 : 10#8 ∉ dumpGap n := by unfold dumpGap; split <;> decide
    simp only [dumpCells, List.mem_append, not_or]
    exact ⟨h1, h2, dumpCells_newline n []⟩
  | n + 1, b :: bs => by
    have h1 : 10#8 ∉ lit " " := by decide
    have h2 : 10#8 ∉ dumpGap n := by unfold dumpGap; split <;> decide
    simp only [dumpCells, List.mem_append, not_or]
    exact ⟨(hex02_clean b).1, h1, h2, dumpCells_newline n bs⟩

theorem dumpCells_injective : ∀ (n : Nat) (a b : List Byte), a.length = b.length → a.length ≤ n → dumpCells n a = dumpCells n b → a = b
  | _, [], [], _, _, _ => rfl
  | 0, _ :: _, _, _, h, _ => by simp at h
  | n + 1, x :: a, y :: b, hl, hn, h => by
    simp only [dumpCells] at h
    obtain ⟨h1, h2⟩ := List.append_inj h rfl
    have h3 := List.append_cancel_left (List.append_cancel_left h2)
    rw [hex02_injective h1, dumpCells_injective n a b (by simpa using hl) (by simpa using hn) h3]

theorem dumpOffset_clean (off : Nat) : 10#8 ∉ dumpOffset off ∧ 32#8 ∉ dumpOffset off ∧ 45#8 ∉ dumpOffset off := by
  have h := hex02_clean
  unfold dumpOffset
  simp only [List.mem_append, not_or]
  exact ⟨⟨⟨⟨(h _).1, (h _).1⟩, (h _).1⟩, (h _).1⟩, ⟨⟨⟨(h _).2.1, (h _).2.1⟩, (h _).2.1⟩, (h _).2.1⟩, ⟨⟨⟨(h _).2.2, (h _).2.2⟩, (h _).2.2⟩, (h _).2.2⟩⟩

theorem dumpRow_newline (off : Nat) (bs : List Byte) : 10#8 ∉ dumpRow off bs := by
  unfold dumpRow
  simp only [List.mem_append, not_or, List.mem_map, not_exists, not_and]
  exact ⟨(dumpOffset_clean off).1, by decide, dumpCells_newline _ _, by decide, fun x _ => dumpChar_clean x, by decide⟩

theorem dumpRow_injective (off : Nat) (a b : List Byte) (ha : a.length ≤ 16) (h : dumpRow off a = dumpRow off b) : a = b := by
  unfold dumpRow at h
  have h := List.append_cancel_left (List.append_cancel_left h)
  obtain ⟨h1, h2⟩ := List.append_inj h (by rw [dumpCells_length, dumpCells_length 16 b])
  have h3 := congrArg List.length h2
  simp only [List.length_append, List.length_map] at h3
  exact dumpCells_injective 16 a b (by omega) ha h1

/-- What comes after a dump: nothing, or a first word with a dash. -/
def NoRow (r : List Byte) : Prop := r = [] ∨ ∃ a b, r = a ++ 32#8 :: b ∧ 32#8 ∉ a ∧ 45#8 ∈ a

theorem not_row {off : Nat} {bs x : List Byte} (h : NoRow (dumpRow off bs ++ x)) : False := by
  have e : dumpRow off bs ++ x = dumpOffset off ++ 32#8 :: (32#8 :: (dumpCells 16 bs ++ (lit "|" ++ (bs.map dumpChar ++ lit "|"))) ++ x) := by
    unfold dumpRow
    rw [show lit "  " = [32#8, 32#8] by decide]
    simp
  rw [e] at h
  rcases h with h | ⟨a, b, h, h1, h2⟩
  · simp at h
  · obtain ⟨rfl, -⟩ := split_first (dumpOffset_clean off).2.1 h1 h
    exact (dumpOffset_clean off).2.2 h2

theorem dump_split : ∀ (n m off : Nat) (a b r r' : List Byte), a.length ≤ n → b.length ≤ m → NoRow r → NoRow r' →
    dumpFrom n off a ++ r = dumpFrom m off b ++ r' → a = b ∧ r = r' := by
  have hnl : lit "\n" = [10#8] := by decide
  intro n
  induction n with
  | zero =>
    intro m off a b r r' ha hb hr hr' h
    have ha : a = [] := by simpa using ha
    subst ha
    rcases m with _ | m
    · have hb : b = [] := by simpa using hb
      subst hb
      exact ⟨rfl, h⟩
    · rcases b with _ | ⟨y, b⟩
      · exact ⟨rfl, h⟩
      · exfalso
        simp only [dumpFrom, List.nil_append, List.append_assoc] at h
        exact not_row (h ▸ hr)
  | succ n ih =>
    intro m off a b r r' ha hb hr hr' h
    rcases a with _ | ⟨x, a⟩
    · rcases m with _ | m
      · have hb : b = [] := by simpa using hb
        subst hb
        exact ⟨rfl, h⟩
      · rcases b with _ | ⟨y, b⟩
        · exact ⟨rfl, h⟩
        · exfalso
          simp only [dumpFrom, List.nil_append, List.append_assoc] at h
          exact not_row (h ▸ hr)
    · rcases b with _ | ⟨y, b⟩
      · exfalso
        have hm : dumpFrom m off [] = [] := by cases m <;> rfl
        simp only [hm, dumpFrom, List.nil_append, List.append_assoc] at h
        exact not_row (h ▸ hr')
      · rcases m with _ | m
        · simp at hb
        · simp only [dumpFrom, List.append_assoc, hnl, List.singleton_append] at h
          obtain ⟨h1, h2⟩ := split_first (dumpRow_newline _ _) (dumpRow_newline _ _) h
          have h3 := dumpRow_injective off _ _ (by simp) h1
          rw [List.length_cons] at ha hb
          obtain ⟨h4, h5⟩ := ih m _ _ _ r r' (by rw [List.length_drop, List.length_cons]; omega) (by rw [List.length_drop, List.length_cons]; omega) hr hr' h2
          refine ⟨?_, h5⟩
          rw [← List.take_append_drop 16 (x :: a), h3, h4, List.take_append_drop]

/-! ## The line with the addresses -/

theorem dec_clean (n : Nat) (x : Byte) (hx : x.toNat < 48) : x ∉ dec n := by
  rw [dec_nat]
  intro h
  obtain ⟨c, hc, he⟩ := List.mem_map.1 h
  have := digit_range (Nat.isDigit_of_mem_toDigits (by norm_num) (by norm_num) hc)
  have := congrArg BitVec.toNat he
  simp at this
  omega

theorem text_clean (a : Address) (x : Byte) (hx : x.toNat < 48) (hd : x ≠ 45#8) (h : x ∉ a.callsign) : x ∉ a.text := by
  unfold Address.text addressString
  rw [show lit "-" = [45#8] by decide]
  simp only [List.mem_append, List.mem_singleton, not_or]
  exact ⟨⟨h, hd⟩, dec_clean _ x hx⟩

theorem text_injective {a b : Address} (h : a.text = b.text) : a = b := by
  obtain ⟨h1, h2⟩ := C104_address _ _ _ _ h
  cases a
  cases b
  cases h1
  cases h2
  rfl

theorem printVia_injective : ∀ (rs rs' : List Address), rs ≠ [] → rs' ≠ [] → (∀ r ∈ rs, 44#8 ∉ r.callsign) → (∀ r ∈ rs', 44#8 ∉ r.callsign) →
    printVia rs = printVia rs' → rs = rs' := by
  have hc : lit "," = [44#8] := by decide
  have hcl : ∀ r : Address, 44#8 ∉ r.callsign → 44#8 ∉ r.text := fun r h => text_clean r _ (by decide) (by decide) h
  have hnext : ∀ r rs, (List.flatMap (fun r : Address => lit "," ++ r.text) (r :: rs)) = 44#8 :: printVia (r :: rs) := by
    intro r rs
    rw [List.flatMap_cons, hc]
    rfl
  intro rs
  induction rs with
  | nil => intro _ h; exact absurd rfl h
  | cons r rs ih =>
    intro rs' _ h' hr hr' h
    rcases rs' with _ | ⟨q, rs'⟩
    · exact absurd rfl h'
    · have h1 := hcl r (hr r (by simp))
      have h2 := hcl q (hr' q (by simp))
      rw [printVia, printVia] at h
      rcases rs with _ | ⟨r1, rs⟩ <;> rcases rs' with _ | ⟨q1, rs'⟩
      · simp only [List.flatMap_nil, List.append_nil] at h
        rw [text_injective h]
      · rw [hnext, List.flatMap_nil, List.append_nil] at h
        exact absurd (h ▸ List.mem_append_right _ List.mem_cons_self) h1
      · rw [hnext, List.flatMap_nil, List.append_nil] at h
        exact absurd (h.symm ▸ List.mem_append_right _ List.mem_cons_self) h2
      · rw [hnext, hnext] at h
        obtain ⟨h3, h4⟩ := split_first h1 h2 h
        rw [text_injective h3, ih (q1 :: rs') (by simp) (by simp) (fun x hx => hr x (List.mem_cons_of_mem _ hx)) (fun x hx => hr' x (List.mem_cons_of_mem _ hx)) h4]

theorem printVia_newline (rs : List Address) (h : ∀ r ∈ rs, 10#8 ∉ r.callsign) : 10#8 ∉ printVia rs := by
  have hcl : ∀ r ∈ rs, 10#8 ∉ r.text := fun r hr => text_clean r _ (by decide) (by decide) (h r hr)
  cases rs with
  | nil => simp [printVia]
  | cons r rs =>
    simp only [printVia, List.mem_append, List.mem_flatMap, not_or, not_exists, not_and]
    exact ⟨hcl r (by simp), fun x hx => ⟨by decide, hcl x (by simp [hx])⟩⟩

theorem printHead_newline (f : Frame) (h : Clear f) : 10#8 ∉ printHead f := by
  unfold printHead
  simp only [List.mem_append, not_or]
  refine ⟨text_clean _ _ (by decide) (by decide) h.1.2, by decide, text_clean _ _ (by decide) (by decide) h.2.1.2, ?_⟩
  split
  · simp
  · simp only [List.mem_append, not_or]
    exact ⟨by decide, printVia_newline _ fun r hr => (h.2.2 r hr).2.1⟩

theorem printHead_injective (f g : Frame) (hf : Clear f) (hg : Clear g) (h : printHead f = printHead g) :
    f.source = g.source ∧ f.destination = g.destination ∧ f.repeaters = g.repeaters := by
  have hto : lit " to " = 32#8 :: lit "to " := by decide
  have hvia : lit " via " = 32#8 :: lit "via " := by decide
  have cl : ∀ a : Address, 32#8 ∉ a.callsign → 32#8 ∉ a.text := fun a h => text_clean a _ (by decide) (by decide) h
  unfold printHead at h
  rw [hto, hvia] at h
  simp only [List.cons_append] at h
  obtain ⟨h1, h2⟩ := split_first (cl _ hf.1.1) (cl _ hg.1.1) h
  have h2 := List.append_cancel_left h2
  have d1 := cl _ hf.2.1.1
  have d2 := cl _ hg.2.1.1
  refine ⟨text_injective h1, ?_⟩
  by_cases e1 : f.repeaters = [] <;> by_cases e2 : g.repeaters = []
  · rw [if_pos e1, if_pos e2, List.append_nil, List.append_nil] at h2
    exact ⟨text_injective h2, by rw [e1, e2]⟩
  · rw [if_pos e1, if_neg e2, List.append_nil] at h2
    exact absurd (h2 ▸ List.mem_append_right _ List.mem_cons_self) d1
  · rw [if_neg e1, if_pos e2, List.append_nil] at h2
    exact absurd (h2.symm ▸ List.mem_append_right _ List.mem_cons_self) d2
  · rw [if_neg e1, if_neg e2] at h2
    obtain ⟨h3, h4⟩ := split_first d1 d2 h2
    exact ⟨text_injective h3, printVia_injective _ _ e1 e2 (fun r hr => (hf.2.2 r hr).2.2) (fun r hr => (hg.2.2 r hr).2.2) (List.append_cancel_left h4)⟩

theorem printFrames_noRow (fs : List Frame) (h : ∀ f ∈ fs, Clear f) : NoRow (printFrames fs) := by
  cases fs with
  | nil => exact Or.inl rfl
  | cons f fs =>
    right
    refine ⟨f.source.text, lit "to " ++ (f.destination.text ++ (if f.repeaters = [] then [] else lit " via " ++ printVia f.repeaters)) ++
      (lit "\n" ++ hexDump f.info) ++ printFrames fs, ?_, text_clean _ _ (by decide) (by decide) (h f (by simp)).1.1, ?_⟩
    · unfold printFrames
      rw [List.map_cons, List.flatten_cons, printFrame, printHead, show lit " to " = 32#8 :: lit "to " by decide]
      simp only [List.append_assoc, List.cons_append]
    · unfold Address.text addressString
      rw [show lit "-" = [45#8] by decide]
      simp

/-- C154, the part that holds: if the call signs contain no blanks, no newlines and, in those of repeaters, no commas, then all that is printed for any number
of frames determines how many they are, and of each the source, the destination, the repeaters and the information. -/
theorem C154_printed_partial (fs gs : List Frame) (hf : ∀ f ∈ fs, Clear f) (hg : ∀ g ∈ gs, Clear g) (h : printFrames fs = printFrames gs) :
    fs.map seen = gs.map seen := by
  have hnl : lit "\n" = [10#8] := by decide
  have hcons : ∀ (f : Frame) (fs : List Frame), printFrames (f :: fs) = printHead f ++ 10#8 :: (dumpFrom f.info.length 0 f.info ++ printFrames fs) := by
    intro f fs
    unfold printFrames
    rw [List.map_cons, List.flatten_cons, printFrame, hexDump, hnl]
    simp
  induction fs generalizing gs with
  | nil =>
    cases gs with
    | nil => rfl
    | cons g gs =>
      rw [hcons] at h
      have := congrArg List.length h
      simp [printFrames] at this
  | cons f fs ih =>
    cases gs with
    | nil =>
      rw [hcons] at h
      have := congrArg List.length h
      simp [printFrames] at this
    | cons g gs =>
      rw [hcons, hcons] at h
      have cf := hf f (by simp)
      have cg := hg g (by simp)
      have hf' : ∀ x ∈ fs, Clear x := fun x hx => hf x (List.mem_cons_of_mem _ hx)
      have hg' : ∀ x ∈ gs, Clear x := fun x hx => hg x (List.mem_cons_of_mem _ hx)
      obtain ⟨h1, h2⟩ := split_first (printHead_newline f cf) (printHead_newline g cg) h
      obtain ⟨h3, h4⟩ := dump_split _ _ _ _ _ _ _ (Nat.le_refl _) (Nat.le_refl _) (printFrames_noRow fs hf') (printFrames_noRow gs hg') h2
      obtain ⟨e1, e2, e3⟩ := printHead_injective f g cf cg h1
      rw [List.map_cons, List.map_cons, ih gs hf' hg' h4, seen, seen, e1, e2, e3, h3]

theorem parseCall_blank : ∀ (k : Nat) (buf c r : List Byte), parseCall k buf = some (c, r) → 32#8 ∉ c
  | 0, _, _, _, h => by
    simp only [parseCall, Option.some.injEq, Prod.mk.injEq] at h
    rw [← h.1]
    simp
  | _ + 1, [], _, _, h => by cases h
  | k + 1, b :: rest, c, r, h => by
    simp only [parseCall] at h
    split at h
    · simp only [Option.some.injEq, Prod.mk.injEq] at h
      rw [← h.1]
      simp
    · rename_i hb
      split at h
      · cases h
      · rename_i c' r' hc
        simp only [Option.some.injEq, Prod.mk.injEq] at h
        rw [← h.1]
        simp only [List.mem_cons, not_or]
        exact ⟨fun e => hb e.symm, parseCall_blank k rest c' r' hc⟩

theorem flexChar_blank (i : Byte) : 32#8 ∉ flexChar i := all_bytes (P := fun i => 32#8 ∉ flexChar i) (by decide +kernel) i

/-- C154: the call signs of a frame that the decoder returns contain no blanks, whatever was received. -/
theorem C154_blanks (buf : List Byte) (fr : Frame) (h : processFrame buf = some (some fr)) :
    32#8 ∉ fr.source.callsign ∧ 32#8 ∉ fr.destination.callsign ∧ ∀ r ∈ fr.repeaters, 32#8 ∉ r.callsign := by
  have key : ∀ buf a b, parseAddress buf = some (a, b) → 32#8 ∉ a.callsign := by
    intro buf a b h
    unfold parseAddress at h
    split at h
    · cases h
    · rename_i cs buf' hc
      split at h
      · cases h
      · simp only [Option.some.injEq, Prod.mk.injEq] at h
        rw [← h.1]
        exact parseCall_blank _ _ _ _ hc
  have loop : ∀ fuel prev buf reps rest, repeaterLoop fuel prev buf = some (reps, rest) → ∀ r ∈ reps, 32#8 ∉ r.callsign := by
    intro fuel
    induction fuel with
    | zero => intro prev buf reps rest h; cases h
    | succ fuel ih =>
      intro prev buf reps rest h
      unfold repeaterLoop at h
      split at h
      · split at h
        · cases h
        · rename_i a buf' ha
          split at h
          · cases h
          · split at h
            · cases h
            · rename_i as r' hl
              simp only [Option.some.injEq, Prod.mk.injEq] at h
              rw [← h.1]
              intro r hr
              rcases List.mem_cons.1 hr with rfl | hr
              · exact key _ _ _ ha
              · exact ih _ _ _ _ hl r hr
      · simp only [Option.some.injEq, Prod.mk.injEq] at h
        rw [← h.1]
        simp
  have head : ∀ buf fr rest, processHeader buf = some (some (fr, rest)) →
      32#8 ∉ fr.source.callsign ∧ 32#8 ∉ fr.destination.callsign ∧ ∀ r ∈ fr.repeaters, 32#8 ∉ r.callsign := by
    intro buf fr rest h
    unfold processHeader at h
    split at h
    · cases h
    · split at h
      · split at h
        · simp only [Option.some.injEq, Prod.mk.injEq] at h
          rw [← h.1]
          split
          · refine ⟨by simp [Frame.init, Address.zero], ?_, by simp [Frame.init]⟩
            simp only [flexDest, List.mem_append, not_or]
            exact ⟨⟨⟨⟨⟨flexChar_blank _, flexChar_blank _⟩, flexChar_blank _⟩, flexChar_blank _⟩, flexChar_blank _⟩, flexChar_blank _⟩
          · exact ⟨by simp [Frame.init, Address.zero], by simp [Frame.init, Address.zero], by simp [Frame.init]⟩
        · cases h
      · split at h
        · cases h
        · split at h
          · rename_i b6 b13 h6 h13
            rcases hd : parseAddress buf with _ | ⟨dst, buf1⟩
            · simp [hd] at h
            rcases hs : parseAddress (buf1.drop 7) with _ | ⟨src, buf2⟩
            · simp [hd, hs] at h
            rcases hp : buf2[6]? with _ | prev
            · simp [hd, hs, hp] at h
            rcases hl : repeaterLoop buf.length prev (buf2.drop 7) with _ | ⟨reps, r⟩
            · simp [hd, hs, hp, hl] at h
            simp only [hd, hs, hp, hl, Option.some.injEq, Prod.mk.injEq] at h
            rw [← h.1]
            exact ⟨key _ _ _ hs, key _ _ _ hd, loop _ _ _ _ _ hl⟩
          · cases h
  unfold processFrame at h
  split at h
  · cases h
  · split at h
    · cases h
    · simp only at h
      split at h
      · cases h
      · cases h
      · rename_i f rest hh
        simp only [Option.some.injEq] at h
        obtain ⟨a1, a2, a3, -, -⟩ := processControl_addresses f rest
        rw [← h, a1, a2, a3]
        exact head _ _ _ hh

/-- C154, the part that holds, of the frames that the decoder returns: their call signs need only be free of newlines and, in those of repeaters, of commas. -/
theorem C154_received_partial (fs gs : List Frame) (hf : ∀ f ∈ fs, ∃ buf, processFrame buf = some (some f)) (hg : ∀ g ∈ gs, ∃ buf, processFrame buf = some (some g))
    (hn : ∀ f ∈ fs ++ gs, 10#8 ∉ f.source.callsign ∧ 10#8 ∉ f.destination.callsign ∧ ∀ r ∈ f.repeaters, 10#8 ∉ r.callsign ∧ 44#8 ∉ r.callsign)
    (h : printFrames fs = printFrames gs) : fs.map seen = gs.map seen := by
  have clear : ∀ f ∈ fs ++ gs, (∃ buf, processFrame buf = some (some f)) → Clear f := by
    intro f hf ⟨buf, hb⟩
    obtain ⟨b1, b2, b3⟩ := C154_blanks buf f hb
    obtain ⟨n1, n2, n3⟩ := hn f hf
    exact ⟨⟨b1, n1⟩, ⟨b2, n2⟩, fun r hr => ⟨b3 r hr, n3 r hr⟩⟩
  exact C154_printed_partial fs gs (fun f h => clear f (List.mem_append_left _ h) (hf f h)) (fun g h => clear g (List.mem_append_right _ h) (hg g h)) h

/-- Frames as the decoder returns them: KA9Q-1 to APRS-0 via two repeaters, and without repeaters. -/
def printSample : List Frame :=
  [{ Frame.init with source := ⟨lit "KA9Q", 1⟩, destination := ⟨lit "APRS", 0⟩, repeaters := [⟨lit "WIDE1", 1⟩, ⟨lit "WIDE2", 2⟩], info := lit "Test\n" },
    { Frame.init with source := ⟨lit "KA9Q", 15⟩, destination := ⟨lit "CQ", 0⟩ }]

/-- Non-vacuity of `C154_printed_partial`. -/
example : ∀ f ∈ printSample, Clear f := by
  unfold Clear
  decide

/-- Non-vacuity of `C154_blanks` and `C154_received_partial`: a frame that the decoder returns, with a repeater. -/
example : ∃ buf fr, processFrame buf = some (some fr) ∧ (10#8 ∉ fr.source.callsign ∧ 10#8 ∉ fr.destination.callsign ∧
    ∀ r ∈ fr.repeaters, 10#8 ∉ r.callsign ∧ 44#8 ∉ r.callsign) ∧ fr.repeaters ≠ [] := by
  have e := processFrame_encode ⟨lit "CQ", 0, true⟩ ⟨lit "KA9Q", 1, false⟩ [⟨lit "WIDE1", 1, false⟩] 3#8 (0xf0#8 :: lit "hello")
    (by unfold Station.Valid; decide) (by unfold Station.Valid; decide) (by unfold Station.Valid; decide)
  refine ⟨_, _, e, ?_⟩
  obtain ⟨a1, a2, a3, -, -⟩ := processControl_addresses (headerFrame ⟨lit "CQ", 0, true⟩ ⟨lit "KA9Q", 1, false⟩ [⟨lit "WIDE1", 1, false⟩]) (3#8 :: 0xf0#8 :: lit "hello")
  rw [a1, a2, a3]
  decide

/-- What is printed for `printSample`. -/
example : printFrames printSample = lit ("KA9Q-1 to APRS-0 via WIDE1-1,WIDE2-2\n" ++
    "00000000  54 65 73 74 0a                                    |Test.|\nKA9Q-15 to CQ-0\n") := by decide +kernel

/-- C154 does not hold of all call signs: two transmissions with different repeaters, both returned by the decoder whatever it received before, are printed
alike. One has the repeater "A-1,B" with the number 2, the other the repeaters "A" with 1 and "B" with 2. -/
theorem C154_violated : ∃ p p' : List Byte, ∀ d : Dec, ∃ d1 d2 fr fr' os os',
    run (runRaw d (flag.map bitInt)).1 ((stuff (bytesBits (p ++ fcs p)) ++ flag).map bitInt) = some (d1, os ++ [some fr]) ∧
    run (runRaw d (flag.map bitInt)).1 ((stuff (bytesBits (p' ++ fcs p')) ++ flag).map bitInt) = some (d2, os' ++ [some fr']) ∧
    fr.repeaters ≠ fr'.repeaters ∧ printFrame fr = printFrame fr' := by
  have hv : ∀ s ∈ [(⟨lit "CQ", 0, true⟩ : Station), ⟨lit "KA9Q", 1, false⟩, ⟨lit "A-1,B", 2, false⟩, ⟨lit "A", 1, false⟩, ⟨lit "B", 2, false⟩], s.Valid := by
    unfold Station.Valid
    decide
  refine ⟨encodeFrame ⟨lit "CQ", 0, true⟩ ⟨lit "KA9Q", 1, false⟩ [⟨lit "A-1,B", 2, false⟩] (Control.u 0 0 false).encode (0xf0#8 :: []),
    encodeFrame ⟨lit "CQ", 0, true⟩ ⟨lit "KA9Q", 1, false⟩ [⟨lit "A", 1, false⟩, ⟨lit "B", 2, false⟩] (Control.u 0 0 false).encode (0xf0#8 :: []), fun d => ?_⟩
  have hc : (Control.u 0 0 false).Valid := by unfold Control.Valid; decide
  have hi : CarriesInfo (Control.u 0 0 false) := by simp [CarriesInfo]
  obtain ⟨d1, fr, h1, h2, h3, h4, -, -, -, -, h5⟩ := C10_frame_roundtrip d ⟨lit "CQ", 0, true⟩ ⟨lit "KA9Q", 1, false⟩ [⟨lit "A-1,B", 2, false⟩] (Control.u 0 0 false)
    0xf0#8 [] (hv _ (by simp)) (hv _ (by simp)) (by simpa using hv _ (by simp)) hc hi (by decide)
  obtain ⟨d2, fr', g1, g2, g3, g4, -, -, -, -, g5⟩ := C10_frame_roundtrip d ⟨lit "CQ", 0, true⟩ ⟨lit "KA9Q", 1, false⟩ [⟨lit "A", 1, false⟩, ⟨lit "B", 2, false⟩]
    (Control.u 0 0 false) 0xf0#8 [] (hv _ (by simp)) (hv _ (by simp)) (by
      intro r hr
      apply hv
      simp only [List.mem_cons, List.not_mem_nil, or_false] at hr ⊢
      tauto) hc hi (by decide)
  refine ⟨d1, d2, fr, fr', _, _, h1, g1, ?_, ?_⟩
  · rw [h4, g4]
    decide
  · unfold printFrame printHead
    rw [h2, h3, h4, h5, g2, g3, g4, g5]
    decide +kernel

/-- C154 does not hold of call signs with newlines either, without any repeaters: two transmissions of two frames each, all accepted by the decoder, that are
printed alike although the addresses differ. One is to "A" with the number 1 and then from "B-2", newline, "C" with 3; the other is to "A-1", newline, "B" with 2
and then from "C" with 3. -/
theorem C154_violated_newline : ∃ (bufs bufs' : List (List Byte)) (fs gs : List Frame), bufs.map processFrame = fs.map (fun f => some (some f)) ∧
    bufs'.map processFrame = gs.map (fun f => some (some f)) ∧ (∀ f ∈ fs ++ gs, f.repeaters = []) ∧ fs.map seen ≠ gs.map seen ∧ printFrames fs = printFrames gs := by
  have v : ∀ s ∈ [(⟨lit "X", 0, true⟩ : Station), ⟨lit "A", 1, false⟩, ⟨lit "B-2\nC", 3, false⟩, ⟨lit "A-1\nB", 2, false⟩, ⟨lit "C", 3, false⟩], s.Valid := by
    unfold Station.Valid
    decide
  have e : ∀ dst src : Station, dst.Valid → src.Valid → ∃ buf, processFrame buf = some (some (processControl (headerFrame dst src []) [3#8, 0xf0#8])) :=
    fun dst src h1 h2 => ⟨_, processFrame_encode dst src [] 3#8 [0xf0#8] h1 h2 (by simp)⟩
  obtain ⟨b1, e1⟩ := e ⟨lit "A", 1, false⟩ ⟨lit "X", 0, true⟩ (v _ (by simp)) (v _ (by simp))
  obtain ⟨b2, e2⟩ := e ⟨lit "X", 0, true⟩ ⟨lit "B-2\nC", 3, false⟩ (v _ (by simp)) (v _ (by simp))
  obtain ⟨b3, e3⟩ := e ⟨lit "A-1\nB", 2, false⟩ ⟨lit "X", 0, true⟩ (v _ (by simp)) (v _ (by simp))
  obtain ⟨b4, e4⟩ := e ⟨lit "X", 0, true⟩ ⟨lit "C", 3, false⟩ (v _ (by simp)) (v _ (by simp))
  refine ⟨[b1, b2], [b3, b4], [processControl (headerFrame ⟨lit "A", 1, false⟩ ⟨lit "X", 0, true⟩ []) [3#8, 0xf0#8],
      processControl (headerFrame ⟨lit "X", 0, true⟩ ⟨lit "B-2\nC", 3, false⟩ []) [3#8, 0xf0#8]],
    [processControl (headerFrame ⟨lit "A-1\nB", 2, false⟩ ⟨lit "X", 0, true⟩ []) [3#8, 0xf0#8],
      processControl (headerFrame ⟨lit "X", 0, true⟩ ⟨lit "C", 3, false⟩ []) [3#8, 0xf0#8]], ?_, ?_, ?_, ?_, ?_⟩
  · rw [List.map_cons, List.map_cons, List.map_nil, e1, e2]
    rfl
  · rw [List.map_cons, List.map_cons, List.map_nil, e3, e4]
    rfl
  · decide +kernel
  · decide +kernel
  · decide +kernel

end Verif.Ax25
