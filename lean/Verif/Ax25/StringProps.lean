import Verif.Ax25.StringModel
import Verif.Ax25.FrameProps

/-!
# C104: printed names identify what was received
-/

namespace Verif.Ax25
open Verif.Ax25.Spec

/-- Names of the supervisory frames, AX.25 2.2, figure 4.3: kind 0 to 3. -/
def Spec.supervisoryNames : List String := ["RR", "RNR", "REJ", "SREJ"]

/-- Names of the unnumbered frames, AX.25 2.2, figure 4.4: bits 5-7, bits 2-3. -/
def Spec.unnumberedNames : List ((Nat × Nat) × String) :=
  [((0b011, 0b11), "SABME"), ((0b001, 0b11), "SABM"), ((0b010, 0b00), "DISC"), ((0b000, 0b11), "DM"), ((0b011, 0b00), "UA"),
   ((0b100, 0b01), "FRMR"), ((0b000, 0b00), "UI"), ((0b101, 0b11), "XID"), ((0b111, 0b00), "TEST")]

/-- What a control field is called. -/
def Spec.kind : Control → String
  | .i _ _ _ => "I"
  | .s _ _ _ => "S"
  | .u _ _ _ => "U"

/-- Reading names back: the byte of the name, or the value of two hexadecimal digits. -/
def readName (names : List (String × Byte)) (s : List Byte) : Byte :=
  match names.find? (lit ·.1 = s) with
  | some p => p.2
  | none =>
    let v (b : Byte) : Nat := if b.toNat < 58 then b.toNat - 48 else b.toNat - 87
    BitVec.ofNat 8 (16 * v (s.getD 0 0) + v (s.getD 1 0))

theorem injective_of_read {f : Byte → List Byte} (names : List (String × Byte))
    (h : ∀ n < 256, readName names (f (BitVec.ofNat 8 n)) = BitVec.ofNat 8 n) : Function.Injective f := by
  intro a b hab
  have e : ∀ x : Byte, BitVec.ofNat 8 x.toNat = x := fun x => BitVec.eq_of_toNat_eq (by simp)
  have ha := h a.toNat a.isLt
  have hb := h b.toNat b.isLt
  rw [e] at ha hb
  rw [← ha, hab, hb]

/-- C104: every byte prints differently, whether it has a name or not. -/
theorem C104_injective : Function.Injective pidString ∧ Function.Injective frameTypeString ∧ Function.Injective unnumberedString ∧
    Function.Injective supervisoryString := by
  refine ⟨injective_of_read (pidToString.map fun p => (p.2, p.1)) ?_, injective_of_read [("I", 0#8), ("S", 1#8), ("U", 2#8)] ?_,
    injective_of_read (unnumberedTypeName.map fun p => (p.2, p.1)) ?_,
    injective_of_read [("RR", 1#8), ("RNR", 5#8), ("REJ", 9#8), ("SREJ", 13#8)] ?_⟩ <;> decide +kernel

example : pidString 0xf0#8 = lit "No Layer 3 Protocol Implemented" ∧ pidString 0x0a#8 = lit "0a" := by decide

/-- C104: the type of every frame prints as I, S or U, according to its control field. -/
theorem C104_type (fr : Frame) (c : Control) (hc : c.Valid) (rest : List Byte) :
    frameTypeString (processControl fr (c.encode :: rest)).type.code = lit (Spec.kind c) := by
  have h := processControl_fields fr c hc rest
  rcases c with _ | _ | _ <;> rw [h.1] <;> simp only [Spec.kind] <;> decide

/-- C104: a supervisory frame prints as the name that the standard gives it. -/
theorem C104_supervisory (fr : Frame) (k nr : Nat) (p : Bool) (hc : (Control.s k nr p).Valid) (rest : List Byte) :
    ∃ s, Spec.supervisoryNames[k]? = some s ∧ supervisoryString (processControl fr ((Control.s k nr p).encode :: rest)).supervisoryType = lit s := by
  have h := (processControl_fields fr _ hc rest).2.1
  have e : (processControl fr ((Control.s k nr p).encode :: rest)).supervisoryType = BitVec.ofNat 8 (1 + 4 * k) := by
    apply BitVec.eq_of_toNat_eq
    rw [h, BitVec.toNat_ofNat, Nat.mod_eq_of_lt (by have := hc.1; omega)]
  rw [e]
  have all : ∀ k < 4, ∃ s, Spec.supervisoryNames[k]? = some s ∧ supervisoryString (BitVec.ofNat 8 (1 + 4 * k)) = lit s := by
    intro k hk
    have : k = 0 ∨ k = 1 ∨ k = 2 ∨ k = 3 := by omega
    rcases this with rfl | rfl | rfl | rfl <;> exact ⟨_, rfl, by decide⟩
  exact all k hc.1

/-- C104: an unnumbered frame prints as the name that the standard gives it, and in hexadecimal if it gives none. -/
theorem C104_unnumbered (fr : Frame) (lo hi : Nat) (p : Bool) (hc : (Control.u lo hi p).Valid) (rest : List Byte) :
    unnumberedString (processControl fr ((Control.u lo hi p).encode :: rest)).unnumberedType =
      match Spec.unnumberedNames.lookup (hi, lo) with
      | some s => lit s
      | none => hex02 (Control.u lo hi false).encode := by
  have h := (processControl_fields fr _ hc rest).2.1
  have e : (processControl fr ((Control.u lo hi p).encode :: rest)).unnumberedType = BitVec.ofNat 8 (3 + 4 * lo + 32 * hi) := by
    apply BitVec.eq_of_toNat_eq
    rw [h, BitVec.toNat_ofNat, Nat.mod_eq_of_lt (by have h1 := hc.1; have h2 := hc.2; omega)]
  rw [e]
  have all : ∀ lo < 4, ∀ hi < 8, unnumberedString (BitVec.ofNat 8 (3 + 4 * lo + 32 * hi)) =
      match Spec.unnumberedNames.lookup (hi, lo) with
      | some s => lit s
      | none => hex02 (Control.u lo hi false).encode := by decide +kernel
  exact all lo hc.1 hi hc.2

example (fr : Frame) : unnumberedString (processControl fr [0x7f#8, 1#8]).unnumberedType = lit "SABME" :=
  C104_unnumbered fr 3 3 true ⟨by decide, by decide⟩ [1#8]

/-! ## Addresses -/

theorem dec_nat (n : Nat) : dec n = (Nat.toDigits 10 n).map fun c => BitVec.ofNat 8 c.toNat := by
  unfold dec
  rw [if_neg (by omega)]
  rfl

theorem digit_range {c : Char} (h : c.isDigit) : 48 ≤ c.toNat ∧ c.toNat ≤ 57 := by
  simp only [Char.isDigit, Bool.and_eq_true, decide_eq_true_eq, ge_iff_le] at h
  exact ⟨UInt32.le_iff_toNat_le.1 h.1, UInt32.le_iff_toNat_le.1 h.2⟩

theorem dec_no_dash (n : Nat) : 45#8 ∉ dec n := by
  rw [dec_nat]
  intro h
  obtain ⟨c, hc, he⟩ := List.mem_map.1 h
  have := digit_range (Nat.isDigit_of_mem_toDigits (by norm_num) (by norm_num) hc)
  have := congrArg BitVec.toNat he
  simp at this
  omega

theorem dec_injective {m n : Nat} (h : dec m = dec n) : m = n := by
  rw [dec_nat, dec_nat] at h
  have e : Nat.toDigits 10 m = Nat.toDigits 10 n := by
    apply List.ext_getElem?
    intro i
    have hi := congrArg (·[i]?) h
    simp only [List.getElem?_map] at hi
    rcases ha : (Nat.toDigits 10 m)[i]? with _ | a <;> rcases hb : (Nat.toDigits 10 n)[i]? with _ | b
    · rfl
    · rw [ha, hb] at hi; cases hi
    · rw [ha, hb] at hi; cases hi
    · rw [ha, hb] at hi
      have h1 := digit_range (Nat.isDigit_of_mem_toDigits (by norm_num) (by norm_num) (List.mem_of_getElem? ha))
      have h2 := digit_range (Nat.isDigit_of_mem_toDigits (by norm_num) (by norm_num) (List.mem_of_getElem? hb))
      have h3 := congrArg BitVec.toNat (Option.some.inj hi)
      simp at h3
      rw [Nat.mod_eq_of_lt (by omega), Nat.mod_eq_of_lt (by omega)] at h3
      rw [Char.ext (UInt32.toNat_inj.1 h3)]
  rw [← Nat.ofDigitChars_ten_toDigits (n := m), e, Nat.ofDigitChars_ten_toDigits]

theorem split_last {α : Type} {x : α} {a b c d : List α} (hb : x ∉ b) (hd : x ∉ d) (h : a ++ x :: b = c ++ x :: d) : a = c ∧ b = d := by
  induction a generalizing c with
  | nil =>
    cases c with
    | nil => exact ⟨rfl, by simpa using h⟩
    | cons y c =>
      simp only [List.nil_append, List.cons_append, List.cons.injEq] at h
      exact absurd (h.2 ▸ List.mem_append_right _ List.mem_cons_self) hb
  | cons z a ih =>
    cases c with
    | nil =>
      simp only [List.nil_append, List.cons_append, List.cons.injEq] at h
      exact absurd (h.2 ▸ List.mem_append_right _ List.mem_cons_self) hd
    | cons y c =>
      simp only [List.cons_append, List.cons.injEq] at h
      obtain ⟨e, f⟩ := ih h.2
      exact ⟨by rw [h.1, e], f⟩

/-- C104: an address is determined by what is printed, if the SSID is not negative. -/
theorem C104_address (c c' : List Byte) (n n' : Nat) (h : addressString c n = addressString c' n') : c = c' ∧ n = n' := by
  have e : lit "-" = [45#8] := by decide
  unfold addressString at h
  rw [e] at h
  simp only [List.append_assoc, List.singleton_append] at h
  obtain ⟨h1, h2⟩ := split_last (dec_no_dash n) (dec_no_dash n') h
  exact ⟨h1, dec_injective h2⟩

/-- C104: what is printed for an address with an SSID in range. -/
theorem C104_ssid (c : List Byte) (n : Nat) (hn : n < 16) :
    addressString c n = c ++ lit "-" ++ if n < 10 then [BitVec.ofNat 8 (48 + n)] else [49#8, BitVec.ofNat 8 (38 + n)] := by
  have all : ∀ n < 16, dec ((n : Nat) : Int) = if n < 10 then [BitVec.ofNat 8 (48 + n)] else [49#8, BitVec.ofNat 8 (38 + n)] := by decide +kernel
  unfold addressString
  rw [all n hn]

/-- C104: the decoder produces no other SSIDs, neither from a plain nor from a compressed header. -/
theorem C104_ssid_range (buf : List Byte) :
    (∀ a b, parseAddress buf = some (a, b) → a.ssid < 16) ∧ (∀ fr rest, processHeader buf = some (some (fr, rest)) →
      fr.destination.ssid < 16 ∧ fr.source.ssid < 16 ∧ ∀ r ∈ fr.repeaters, r.ssid < 16) := by
  have hand : ∀ b : Byte, (b &&& 0xf#8).toNat < 16 := by
    intro b
    have : (b &&& 0xf#8).toNat = b.toNat &&& 15 := by simp
    rw [this]
    exact Nat.lt_of_le_of_lt Nat.and_le_right (by norm_num)
  have key : ∀ buf a b, parseAddress buf = some (a, b) → a.ssid < 16 := by
    intro buf a b h
    unfold parseAddress at h
    split at h
    · cases h
    · split at h
      · cases h
      · simp only [Option.some.injEq, Prod.mk.injEq] at h
        rw [← h.1]
        exact hand _
  have loop : ∀ fuel prev buf reps rest, repeaterLoop fuel prev buf = some (reps, rest) → ∀ r ∈ reps, r.ssid < 16 := by
    intro fuel
    induction fuel with
    | zero => intro prev buf reps rest h; cases h
    | succ fuel ih =>
      intro prev buf reps rest h
      unfold repeaterLoop at h
      split at h
      · split at h
        · cases h
        · rename_i a buf' ha
          split at h
          · cases h
          · split at h
            · cases h
            · rename_i as r' hl
              simp only [Option.some.injEq, Prod.mk.injEq] at h
              rw [← h.1]
              intro r hr
              rcases List.mem_cons.1 hr with rfl | hr
              · exact key _ _ _ ha
              · exact ih _ _ _ _ hl r hr
      · simp only [Option.some.injEq, Prod.mk.injEq] at h
        rw [← h.1]
        simp
  refine ⟨key buf, ?_⟩
  intro fr rest h
  unfold processHeader at h
  split at h
  · cases h
  · split at h
    · split at h
      · simp only [Option.some.injEq, Prod.mk.injEq] at h
        rw [← h.1]
        split
        · exact ⟨hand _, by simp [Frame.init, Address.zero], by simp [Frame.init]⟩
        · exact ⟨by simp [Frame.init, Address.zero], by simp [Frame.init, Address.zero], by simp [Frame.init]⟩
      · cases h
    · split at h
      · cases h
      · split at h
        · rename_i b6 b13 h6 h13
          rcases hd : parseAddress buf with _ | ⟨dst, buf1⟩
          · simp [hd] at h
          rcases hs : parseAddress (buf1.drop 7) with _ | ⟨src, buf2⟩
          · simp [hd, hs] at h
          rcases hp : buf2[6]? with _ | prev
          · simp [hd, hs, hp] at h
          rcases hl : repeaterLoop buf.length prev (buf2.drop 7) with _ | ⟨reps, r⟩
          · simp [hd, hs, hp, hl] at h
          simp only [hd, hs, hp, hl, Option.some.injEq, Prod.mk.injEq] at h
          rw [← h.1]
          exact ⟨key _ _ _ hd, key _ _ _ hs, loop _ _ _ _ _ hl⟩
        · cases h

example : addressString (lit "N0CALL") 11 = lit "N0CALL-11" := by decide

/-- C104 does not extend to negative SSIDs (which the decoder never produces). -/
theorem C104_violated_negative : ∃ c c' : List Byte, ∃ n n' : Int, (c, n) ≠ (c', n') ∧ addressString c n = addressString c' n' :=
  ⟨lit "N0CALL", lit "N0CALL-", -1, 1, by decide, by decide⟩

end Verif.Ax25
