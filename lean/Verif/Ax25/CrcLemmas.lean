import Verif.Ax25.CrcModel
import Verif.Ax25.CrcSpec
import Mathlib.Tactic.Linarith

/-! # Helper lemmas for the CRC properties -/

namespace Verif.Ax25

open Spec

theorem crcTable_length : crcTable.length = 256 := by decide +kernel

theorem crcStep_index_in_range (crc : BitVec 16) (b : Byte) :
    ((crc ^^^ b.zeroExtend 16) &&& 0xff#16).toNat < crcTable.length := by
  rw [crcTable_length, BitVec.toNat_and]
  have := Nat.and_le_right (n := (crc ^^^ b.zeroExtend 16).toNat) (m := (0xff#16).toNat)
  have h : (0xff#16).toNat = 255 := by decide
  omega

/-- The register update is linear over GF(2). -/
theorem crcBit_xor (r s : BitVec 16) (b c : Bool) :
    crcBit (r ^^^ s) (b ^^ c) = crcBit r b ^^^ crcBit s c := by
  unfold crcBit
  rw [BitVec.getLsbD_xor, BitVec.ushiftRight_xor_distrib]
  generalize r.getLsbD 0 = x
  generalize s.getLsbD 0 = y
  generalize r >>> 1 = p
  generalize s >>> 1 = q
  have h1 : ∀ k : BitVec 16, p ^^^ k ^^^ (q ^^^ k) = p ^^^ q := by
    intro k
    rw [BitVec.xor_assoc, ← BitVec.xor_assoc k, BitVec.xor_comm k q, BitVec.xor_assoc q,
      BitVec.xor_self, BitVec.xor_zero]
  cases x <;> cases y <;> cases b <;> cases c <;> simp [h1, BitVec.xor_assoc] <;>
    simp [BitVec.xor_comm _ q]

theorem crcBits_cons (r : BitVec 16) (b : Bool) (l : List Bool) :
    crcBits r (b :: l) = crcBits (crcBit r b) l := rfl

theorem crcBits_nil (r : BitVec 16) : crcBits r [] = r := rfl

theorem crcBits_append (r : BitVec 16) (l k : List Bool) :
    crcBits r (l ++ k) = crcBits (crcBits r l) k := by
  simp [crcBits]

theorem crcBits_xor (m e : List Bool) (h : m.length = e.length) (r s : BitVec 16) :
    crcBits (r ^^^ s) (corrupt m e) = crcBits r m ^^^ crcBits s e := by
  induction m generalizing e r s with
  | nil => cases e <;> simp_all [corrupt, crcBits]
  | cons b m ih =>
    cases e with
    | nil => simp at h
    | cons c e =>
      simp only [List.length_cons, Nat.add_right_cancel_iff] at h
      have := ih e h (crcBit r b) (crcBit s c)
      rw [← crcBit_xor] at this
      simpa [corrupt, crcBits] using this

/-- The eight shifts of a byte, as a function of the register and data byte. -/
theorem crcBits_byte_xor (r s : BitVec 16) (b c : Byte) :
    crcBits (r ^^^ s) (byteBits (b ^^^ c)) = crcBits r (byteBits b) ^^^ crcBits s (byteBits c) := by
  simp only [byteBits, crcBits, List.foldl_cons, List.foldl_nil, BitVec.getLsbD_xor, crcBit_xor]

/-- Shifting zero bytes into a register below 256 looks up the table (all 256 entries). -/
theorem table_ok : ∀ b : BitVec 8,
    crcBits (b.setWidth 16) (byteBits 0#8) = crcTable.getD b.toNat 0#16 := by
  decide +kernel

/-- Shifting a byte equals xoring it into the low half of the register and shifting zeros. -/
theorem byte_as_register : ∀ b : BitVec 8,
    crcBits 0#16 (byteBits b) = crcBits (b.setWidth 16) (byteBits 0#8) := by
  decide +kernel

/-- The high half of the register is only shifted down. -/
theorem high_half : ∀ b : BitVec 8,
    crcBits (b.setWidth 16 <<< 8) (byteBits 0#8) = b.setWidth 16 := by
  decide +kernel

theorem split_register (r : BitVec 16) :
    r = (r.setWidth 8).setWidth 16 ^^^ (((r >>> 8).setWidth 8).setWidth 16 <<< 8) := by
  ext i hi
  have : i = 0 ∨ i = 1 ∨ i = 2 ∨ i = 3 ∨ i = 4 ∨ i = 5 ∨ i = 6 ∨ i = 7 ∨ i = 8 ∨ i = 9 ∨ i = 10 ∨
    i = 11 ∨ i = 12 ∨ i = 13 ∨ i = 14 ∨ i = 15 := by omega
  rcases this with h | h | h | h | h | h | h | h | h | h | h | h | h | h | h | h <;> subst h <;> simp

theorem crcBits_byte_eq_zero_byte (r : BitVec 16) (b : Byte) :
    crcBits r (byteBits b) = crcBits (r ^^^ b.setWidth 16) (byteBits 0#8) := by
  have h1 := crcBits_byte_xor r 0#16 0#8 b
  have h2 := crcBits_byte_xor r (b.setWidth 16) 0#8 0#8
  simp only [BitVec.xor_zero, BitVec.zero_xor] at h1 h2
  rw [h1, h2, byte_as_register]

/-- Eight shifts equal one table step. -/
theorem crcStep_eq (r : BitVec 16) (b : Byte) : crcStep r b = crcBits r (byteBits b) := by
  rw [crcBits_byte_eq_zero_byte]
  set x := r ^^^ b.setWidth 16 with hx
  have h2 := crcBits_byte_xor ((x.setWidth 8).setWidth 16)
    (((x >>> 8).setWidth 8).setWidth 16 <<< 8) 0#8 0#8
  rw [← split_register] at h2
  simp only [BitVec.xor_zero] at h2
  rw [h2, high_half, table_ok]
  have e1 : ((x >>> 8).setWidth 8).setWidth 16 = r >>> 8 := by
    rw [hx]
    ext i hi
    by_cases h8 : i < 8
    · simp [h8]
    · simp [h8, BitVec.getLsbD_of_ge r (8 + i) (by omega)]
  have e2 : (x &&& 0xff#16).toNat = (x.setWidth 8).toNat := by
    rw [BitVec.toNat_and, BitVec.toNat_setWidth]
    exact Nat.and_two_pow_sub_one_eq_mod _ 8
  unfold crcStep
  rw [e1, BitVec.xor_comm]
  congr 2

theorem foldl_crcStep (bs : List Byte) (r : BitVec 16) :
    bs.foldl crcStep r = crcBits r (bytesBits bs) := by
  induction bs generalizing r with
  | nil => rfl
  | cons b bs ih =>
    rw [List.foldl_cons, ih, crcStep_eq]
    show _ = crcBits r (List.flatMap byteBits (b :: bs))
    rw [List.flatMap_cons, crcBits_append]
    rfl

theorem checkCrc_iff (bs : List Byte) : checkCrc bs = true ↔ goodBits (bytesBits bs) := by
  unfold checkCrc goodBits
  rw [foldl_crcStep]
  have : ∀ x : BitVec 16, x &&& 65535#16 = x := fun x => BitVec.and_allOnes (x := x)
  simp [this]

/-! ### Injectivity of the register update -/

theorem crcBit_false_eq_zero (x : BitVec 16) (h : crcBit x false = 0#16) : x = 0#16 := by
  unfold crcBit at h
  simp only [Bool.xor_false] at h
  split at h
  · rename_i hx
    have h2 : x >>> 1 = 0x8408#16 := by
      have := congrArg (· ^^^ 0x8408#16) h
      simpa [BitVec.xor_assoc] using this
    have h3 := congrArg BitVec.toNat h2
    rw [BitVec.toNat_ushiftRight, Nat.shiftRight_eq_div_pow] at h3
    have := x.isLt
    simp at h3
    omega
  · rename_i hx
    have h3 := congrArg BitVec.toNat h
    rw [BitVec.toNat_ushiftRight, Nat.shiftRight_eq_div_pow] at h3
    have hm : x.toNat % 2 = 0 := by
      have : x.getLsbD 0 = false := by simpa using hx
      rw [BitVec.getLsbD, Nat.testBit_zero] at this
      simpa using this
    apply BitVec.eq_of_toNat_eq
    simp at h3 ⊢
    omega

theorem crcBits_zeros_zero (n : Nat) : crcBits 0#16 (List.replicate n false) = 0#16 := by
  induction n with
  | zero => rfl
  | succ n ih =>
    rw [List.replicate_succ, crcBits_cons]
    have : crcBit 0#16 false = 0#16 := by decide
    rw [this, ih]

theorem crcBits_zeros_eq_zero (n : Nat) (x : BitVec 16)
    (h : crcBits x (List.replicate n false) = 0#16) : x = 0#16 := by
  induction n generalizing x with
  | zero => simpa [crcBits] using h
  | succ n ih =>
    rw [List.replicate_succ, crcBits_cons] at h
    exact crcBit_false_eq_zero _ (ih _ h)

theorem corrupt_zeros (n : Nat) :
    corrupt (List.replicate n false) (List.replicate n false) = List.replicate n false := by
  simp [corrupt]

theorem crcBits_zeros_inj (n : Nat) (x y : BitVec 16)
    (h : crcBits x (List.replicate n false) = crcBits y (List.replicate n false)) : x = y := by
  have h2 := crcBits_xor (List.replicate n false) (List.replicate n false) rfl x y
  rw [corrupt_zeros, h, BitVec.xor_self] at h2
  have h3 := crcBits_zeros_eq_zero n _ h2
  have := congrArg (· ^^^ y) h3
  simpa [BitVec.xor_assoc] using this

/-! ### Feeding at most 16 bits is xoring them into the register -/

/-- The bits of a list as a register, first bit least significant. -/
def pack : List Bool → BitVec 16
  | [] => 0#16
  | b :: bs => (if b then 1#16 else 0#16) ^^^ (pack bs <<< 1)

theorem pack_lt (l : List Bool) (h : l.length ≤ 16) : (pack l).toNat < 2 ^ l.length := by
  induction l with
  | nil => simp [pack]
  | cons b l ih =>
    simp only [List.length_cons] at h ⊢
    have := ih (by omega)
    unfold pack
    rw [BitVec.toNat_xor]
    apply Nat.xor_lt_two_pow
    · have : 0 < 2 ^ (l.length + 1) := Nat.two_pow_pos _
      have : 1 < 2 ^ (l.length + 1) := Nat.one_lt_two_pow (by omega)
      cases b <;> simp
    · rw [BitVec.toNat_shiftLeft, Nat.shiftLeft_eq]
      refine lt_of_le_of_lt (Nat.mod_le _ _) ?_
      have e : 2 ^ (l.length + 1) = 2 ^ l.length * 2 := Nat.pow_succ 2 l.length
      rw [e]
      omega

theorem crcBit_shifted (p : BitVec 16) (h : p.toNat < 2 ^ 15) : crcBit (p <<< 1) false = p := by
  unfold crcBit
  have : (p <<< 1).getLsbD 0 = false := by simp
  rw [this]
  simp only [Bool.xor_false, Bool.false_eq_true, if_false]
  apply BitVec.eq_of_toNat_eq
  rw [BitVec.toNat_ushiftRight, BitVec.toNat_shiftLeft, Nat.shiftLeft_eq, Nat.shiftRight_eq_div_pow]
  omega

theorem crcBit_reg (r : BitVec 16) (b : Bool) :
    crcBit r b = crcBit (r ^^^ (if b then 1#16 else 0#16)) false := by
  cases b
  · simp
  · have h1 := crcBit_xor r 0#16 false true
    have h2 := crcBit_xor r 1#16 false false
    have e : crcBit 0#16 true = crcBit 1#16 false := by decide
    simp only [BitVec.xor_zero, Bool.xor_false, Bool.false_xor, if_true] at h1 h2 ⊢
    rw [h1, h2, e]

theorem crcBits_pack (l : List Bool) (h : l.length ≤ 16) (r : BitVec 16) :
    crcBits r l = crcBits (r ^^^ pack l) (List.replicate l.length false) := by
  induction l generalizing r with
  | nil => simp [pack]
  | cons b l ih =>
    simp only [List.length_cons] at h
    have hl := pack_lt l (by omega)
    rw [crcBits_cons, ih (by omega), List.length_cons, List.replicate_succ, crcBits_cons]
    congr 1
    rw [crcBit_reg, pack, ← BitVec.xor_assoc]
    have := crcBit_xor (r ^^^ (if b then 1#16 else 0#16)) (pack l <<< 1) false false
    rw [Bool.xor_false] at this
    rw [this, crcBit_shifted]
    calc (pack l).toNat < 2 ^ l.length := hl
      _ ≤ 2 ^ 15 := Nat.pow_le_pow_right (by omega) (by omega)

theorem pack_eq_zero (l : List Bool) (h : l.length ≤ 16) (h0 : pack l = 0#16) :
    true ∉ l := by
  induction l with
  | nil => simp
  | cons b l ih =>
    simp only [List.length_cons] at h
    have hl := pack_lt l (by omega)
    have hlt : (pack l).toNat < 2 ^ 15 := lt_of_lt_of_le hl (Nat.pow_le_pow_right (by omega) (by omega))
    have hb : b = false := by
      have := congrArg (fun v => BitVec.getLsbD v 0) h0
      unfold pack at this
      cases b
      · rfl
      · simp at this
    subst hb
    have hp : pack l = 0#16 := by
      unfold pack at h0
      simp only [Bool.false_eq_true, if_false, BitVec.zero_xor] at h0
      have := crcBit_shifted (pack l) hlt
      rw [h0] at this
      rw [← this]
      decide
    simp [ih (by omega) hp]

theorem ite_bit (b : Bool) (i : Nat) (h : i < 16) :
    (if b = true then 1#16 else 0#16)[i] = (decide (i = 0) && b) := by
  cases b <;> simp

/-- `pack` of two bytes. -/
theorem pack_bytes (x : BitVec 16) :
    pack (byteBits (x.setWidth 8) ++ byteBits ((x >>> 8).setWidth 8)) = x := by
  ext i hi
  have : i = 0 ∨ i = 1 ∨ i = 2 ∨ i = 3 ∨ i = 4 ∨ i = 5 ∨ i = 6 ∨ i = 7 ∨ i = 8 ∨ i = 9 ∨ i = 10 ∨
    i = 11 ∨ i = 12 ∨ i = 13 ∨ i = 14 ∨ i = 15 := by omega
  rcases this with h | h | h | h | h | h | h | h | h | h | h | h | h | h | h | h <;> subst h <;>
    simp [pack, byteBits, ite_bit]

theorem byteBits_inj (a b : Byte) (h : byteBits a = byteBits b) : a = b := by
  simp only [byteBits, List.cons.injEq, and_true] at h
  obtain ⟨h0, h1, h2, h3, h4, h5, h6, h7⟩ := h
  apply BitVec.eq_of_getLsbD_eq
  intro i hi
  have : i = 0 ∨ i = 1 ∨ i = 2 ∨ i = 3 ∨ i = 4 ∨ i = 5 ∨ i = 6 ∨ i = 7 := by omega
  rcases this with h | h | h | h | h | h | h | h <;> subst h <;> assumption

theorem byteBits_length (b : Byte) : (byteBits b).length = 8 := rfl

theorem bytesBits_length (bs : List Byte) : (bytesBits bs).length = 8 * bs.length := by
  induction bs with
  | nil => rfl
  | cons b bs ih => simp only [bytesBits, List.flatMap_cons, List.length_append, byteBits_length, List.length_cons] at ih ⊢; omega

end Verif.Ax25
