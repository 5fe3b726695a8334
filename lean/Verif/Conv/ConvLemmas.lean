import Verif.Conv.SliceLemmas
import Verif.Conv.ConvModel
import Verif.Conv.ConvSpec

namespace Verif.Conv

theorem widen_word (v : BitVec 8) :
    ((v - 128).zeroExtend 16 <<< 8) ||| (v - 128).zeroExtend 16 = BitVec.ofInt 16 (widen v.toNat) := by
  revert v; decide +kernel

theorem widen_toInt (v : BitVec 8) : (BitVec.ofInt 16 (widen v.toNat)).toInt = widen v.toNat := by
  revert v; decide +kernel

theorem widen_octets (v : BitVec 8) :
    octet 0 (BitVec.ofInt 16 (widen v.toNat)).toNat = v - 128 ∧
    octet 1 (BitVec.ofInt 16 (widen v.toNat)).toNat = v - 128 := by
  revert v; decide +kernel

theorem low_octet (v : BitVec 16) : (v &&& 0xff#16).truncate 8 = octet 0 v.toNat := by
  apply BitVec.eq_of_toNat_eq
  have : v.toNat % 256 &&& 255 = v.toNat % 256 % 256 := Nat.and_two_pow_sub_one_eq_mod _ 8
  simp [octet, this]

theorem high_octet (v : BitVec 16) : (v >>> 8).truncate 8 = octet 1 v.toNat := by
  apply BitVec.eq_of_toNat_eq
  simp [octet, Nat.shiftRight_eq_div_pow]

theorem high_octet_s (v : BitVec 16) : (v.sshiftRight 8).truncate 8 = octet 1 v.toNat := by
  rw [← high_octet]
  apply BitVec.eq_of_getLsbD_eq
  intro i hi
  have h1 : 8 + i < 16 := by omega
  simp [BitVec.getLsbD_sshiftRight, hi, h1]
  omega

theorem or_shift8 (a b : Nat) (ha : a < 256) : a ||| (b <<< 8) = a + 256 * b := by
  rw [Nat.or_comm, ← Nat.shiftLeft_add_eq_or_of_lt (i := 8) ha b, Nat.shiftLeft_eq]; omega

theorem le16_word (lo hi : BitVec 8) :
    (lo.zeroExtend 16 ||| (hi.zeroExtend 16 <<< 8)).toInt = le16 lo.toNat hi.toNat := by
  have h1 := lo.isLt
  have h2 := hi.isLt
  have h : (lo.zeroExtend 16 ||| (hi.zeroExtend 16 <<< 8)).toNat = lo.toNat + 256 * hi.toNat := by
    simp only [BitVec.toNat_or, BitVec.toNat_shiftLeft, BitVec.truncate_eq_setWidth, BitVec.toNat_setWidth]
    rw [Nat.mod_eq_of_lt (show lo.toNat < 2 ^ 16 by omega), Nat.mod_eq_of_lt (show hi.toNat < 2 ^ 16 by omega),
      Nat.mod_eq_of_lt (show hi.toNat <<< 8 < 2 ^ 16 by rw [Nat.shiftLeft_eq]; omega), or_shift8 _ _ h1]
  rw [BitVec.toInt_eq_toNat_cond, h, le16]
  split <;> split <;> omega

theorem le32_word (b0 b1 b2 b3 : BitVec 8) :
    (b0.zeroExtend 32 ||| (b1.zeroExtend 32 <<< 8) ||| (b2.zeroExtend 32 <<< 16)
        ||| (b3.zeroExtend 32 <<< 24)).toInt = le32 b0.toNat b1.toNat b2.toNat b3.toNat := by
  have h0 := b0.isLt
  have h1 := b1.isLt
  have h2 := b2.isLt
  have h3 := b3.isLt
  have h : (b0.zeroExtend 32 ||| (b1.zeroExtend 32 <<< 8) ||| (b2.zeroExtend 32 <<< 16)
        ||| (b3.zeroExtend 32 <<< 24)).toNat
      = b0.toNat + 256 * b1.toNat + 65536 * b2.toNat + 16777216 * b3.toNat := by
    simp only [BitVec.toNat_or, BitVec.toNat_shiftLeft, BitVec.truncate_eq_setWidth, BitVec.toNat_setWidth]
    have m0 := Nat.mod_eq_of_lt (show b0.toNat < 2 ^ 32 by omega)
    have m1 := Nat.mod_eq_of_lt (show b1.toNat < 2 ^ 32 by omega)
    have m2 := Nat.mod_eq_of_lt (show b2.toNat < 2 ^ 32 by omega)
    have m3 := Nat.mod_eq_of_lt (show b3.toNat < 2 ^ 32 by omega)
    rw [m0, m1, m2, m3,
      Nat.mod_eq_of_lt (show b1.toNat <<< 8 < 2 ^ 32 by rw [Nat.shiftLeft_eq]; omega),
      Nat.mod_eq_of_lt (show b2.toNat <<< 16 < 2 ^ 32 by rw [Nat.shiftLeft_eq]; omega),
      Nat.mod_eq_of_lt (show b3.toNat <<< 24 < 2 ^ 32 by rw [Nat.shiftLeft_eq]; omega),
      or_shift8 _ _ h0,
      Nat.or_comm _ (b2.toNat <<< 16),
      ← Nat.shiftLeft_add_eq_or_of_lt (i := 16) (by omega) b2.toNat,
      Nat.or_comm _ (b3.toNat <<< 24),
      ← Nat.shiftLeft_add_eq_or_of_lt (i := 24) (by rw [Nat.shiftLeft_eq]; omega) b3.toNat,
      Nat.shiftLeft_eq, Nat.shiftLeft_eq]
    omega
  rw [BitVec.toInt_eq_toNat_cond, h, le32]
  split <;> split <;> omega

theorem le16_octets (v : BitVec 16) : le16 (octet 0 v.toNat).toNat (octet 1 v.toNat).toNat = v.toInt := by
  have h := v.isLt
  rw [BitVec.toInt_eq_toNat_cond, le16, octet, octet, BitVec.toNat_ofNat, BitVec.toNat_ofNat]
  split <;> split <;> omega

theorem put_octets (v : BitVec 32) :
    v.truncate 8 = octet 0 v.toNat ∧ (v >>> 8).truncate 8 = octet 1 v.toNat ∧
    (v >>> 16).truncate 8 = octet 2 v.toNat ∧ (v >>> 24).truncate 8 = octet 3 v.toNat := by
  refine ⟨?_, ?_, ?_, ?_⟩ <;> apply BitVec.eq_of_toNat_eq <;> simp [octet, Nat.shiftRight_eq_div_pow]

end Verif.Conv
