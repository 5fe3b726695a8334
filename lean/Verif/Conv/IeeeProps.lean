import Verif.Conv.VecProps
import Verif.Fp.FpLemmas

/-!
# Properties C16 and C18: exact round trips through float32 (IEEE-754 model)
-/

namespace Verif.Conv
open Verif.Fp

/-- Binary32/binary64 arithmetic for the conversions.  What Go leaves to the implementation
(out-of-range float to integer conversion) and what is not modelled (bit patterns with NaN
payloads, square root) is arbitrary. -/
def ieee (o16 : Val → BitVec 16) (o8 : Val → BitVec 8) (bits : Val → BitVec 32) (sq : Val → Val) :
    FloatOps Val Val where
  ofInt := ofInt binary32
  ofIntD := ofInt binary64
  mul := mul binary32
  add := add binary32
  sub := sub binary32
  mulD := mul binary64
  toI16 := toSigned 16 o16
  toI8 := toSigned 8 o8
  bits := bits
  sqrt := sq

theorem ofInt_exact (v : ℤ) (h : v.natAbs < 2 ^ 24) : ofInt binary32 v = .fin (decide (v < 0)) v.natAbs := by
  have hr := round_exact binary32 (decide (v < 0)) v.natAbs 0 h (by decide) (by
    have : (v.natAbs : ℚ) < 2 ^ 24 := by exact_mod_cast h
    have h2 : (2 : ℚ) ^ 24 ≤ 2 ^ (binary32.emax + 1) := by
      simp only [binary32]; norm_num
    simpa using lt_of_lt_of_le this h2)
  unfold ofInt roundRat
  have e1 : decide ((v : ℚ) < 0) = decide (v < 0) := by
    rw [decide_eq_decide]; exact_mod_cast Iff.rfl
  have e2 : |(v : ℚ)| = (v.natAbs : ℚ) * 2 ^ (0 : ℤ) := by
    rw [zpow_zero, mul_one, ← Int.cast_abs, Int.abs_eq_natAbs, Int.cast_natCast]
  rw [e1, e2, hr, zpow_zero, mul_one]

theorem trunc_exact (w : Nat) (other : Val → BitVec w) (v : ℤ) (h1 : -2 ^ (w - 1) ≤ v) (h2 : v < 2 ^ (w - 1)) :
    toSigned w other (.fin (decide (v < 0)) v.natAbs) = BitVec.ofInt w v := by
  have hf : ⌊((v.natAbs : ℕ) : ℚ)⌋ = (v.natAbs : ℤ) := by
    rw [← Int.cast_natCast (R := ℚ)]; exact Int.floor_intCast _
  have ht : (if decide (v < 0) = true then -(v.natAbs : ℤ) else (v.natAbs : ℤ)) = v := by
    by_cases hv : v < 0
    · rw [if_pos (by simpa using hv)]; omega
    · rw [if_neg (by simpa using hv)]; omega
  simp only [toSigned, hf, ht]
  rw [if_pos ⟨h1, h2⟩]

theorem scale_roundtrip (v k : ℤ) (h : v.natAbs ≤ 2 ^ 15) (hk : -112 ≤ k) (hk2 : k ≤ 127) :
    mul binary32 (mul binary32 (ofInt binary32 v) (.fin false (2 ^ (-k)))) (.fin false (2 ^ k))
      = .fin (decide (v < 0)) v.natAbs := by
  have hv : (v.natAbs : ℚ) ≤ 2 ^ 15 := by exact_mod_cast h
  rw [ofInt_exact v (by omega)]
  have lt128 : ∀ e : ℤ, e ≤ 112 → (v.natAbs : ℚ) * 2 ^ e < 2 ^ (binary32.emax + 1) := by
    intro e he
    have a1 : (2 : ℚ) ^ e ≤ 2 ^ (112 : ℤ) := zpow_le_zpow_right₀ (by norm_num) he
    have a2 : (0 : ℚ) < 2 ^ e := by positivity
    calc (v.natAbs : ℚ) * 2 ^ e ≤ 2 ^ 15 * 2 ^ e := by nlinarith
      _ ≤ 2 ^ 15 * 2 ^ (112 : ℤ) := by nlinarith
      _ < 2 ^ (binary32.emax + 1) := by simp only [binary32]; norm_num
  have r1 := round_exact binary32 (decide (v < 0)) v.natAbs (-k) (by simp only [binary32]; omega)
    (by simp only [binary32]; norm_num; omega) (lt128 _ (by omega))
  have r2 := round_exact binary32 (decide (v < 0)) v.natAbs 0 (by simp only [binary32]; omega)
    (by decide) (lt128 _ (by omega))
  simp only [Verif.Fp.mul, Bool.bne_false, r1]
  rw [mul_assoc, ← zpow_add₀ (by norm_num : (2 : ℚ) ≠ 0), neg_add_cancel, r2, zpow_zero, mul_one]

theorem le16_bounds (lo hi : BitVec 8) : -32768 ≤ le16 lo.toNat hi.toNat ∧ le16 lo.toNat hi.toNat < 32768 := by
  have h1 := lo.isLt
  have h2 := hi.isLt
  unfold le16; split <;> omega

theorem octets_le16 (lo hi : BitVec 8) :
    octet 0 (BitVec.ofInt 16 (le16 lo.toNat hi.toNat)).toNat = lo ∧
    octet 1 (BitVec.ofInt 16 (le16 lo.toNat hi.toNat)).toNat = hi := by
  have h1 := lo.isLt
  have h2 := hi.isLt
  have e : (BitVec.ofInt 16 (le16 lo.toNat hi.toNat)).toNat = lo.toNat + 256 * hi.toNat := by
    rw [BitVec.toNat_ofInt]
    unfold le16
    split <;> omega
  rw [e]
  constructor <;> apply BitVec.eq_of_toNat_eq <;> rw [octet, BitVec.toNat_ofNat] <;> omega

/-- C16.  Bytes → float32 with scale `2^-k` → bytes with scale `2^k` is the identity, for every
sequence of samples and every `k` from −112 to 127, under binary32 arithmetic. -/
theorem C16_i16_f32_roundtrip (o16 : Val → BitVec 16) (o8 : Val → BitVec 8) (bits : Val → BitVec 32)
    (sq : Val → Val) (k : ℤ) (hk : -112 ≤ k) (hk2 : k ≤ 127) (n is fs os : Nat) (im : Nat → BitVec 8)
    (fm : Nat → Val) (om : Nat → BitVec 8) :
    ∃ fm', i16bleToF32 (ieee o16 o8 bits sq) ⟨is, 2 * n⟩ im ⟨fs, n⟩ fm (.fin false (2 ^ (-k))) = some fm' ∧
      f32toi16ble (ieee o16 o8 bits sq) ⟨fs, n⟩ fm' ⟨os, 2 * n⟩ om (.fin false (2 ^ k))
        = some (fill om os (2 * n) fun j => im (is + j)) := by
  refine ⟨_, C19_i16bleToF32 .., ?_⟩
  rw [C19_f32toi16ble]
  simp only [show 2 * n / 2 = n by omega, Nat.min_self]
  congr 1
  apply fill_congr
  intro j hj
  rw [fill_in (by omega)]
  have hb := le16_bounds (im (is + 2 * (j / 2))) (im (is + 2 * (j / 2) + 1))
  have ho := octets_le16 (im (is + 2 * (j / 2))) (im (is + 2 * (j / 2) + 1))
  have hs := scale_roundtrip (le16 (im (is + 2 * (j / 2))).toNat (im (is + 2 * (j / 2) + 1)).toNat) k
    (by omega) hk hk2
  have ht := trunc_exact 16 o16 _ hb.1 hb.2
  show octet (j % 2) (toSigned 16 o16 (Verif.Fp.mul binary32 (Verif.Fp.mul binary32 (ofInt binary32 _) _) _)).toNat = _
  rw [hs, ht]
  rcases Nat.mod_two_eq_zero_or_one j with h | h
  · rw [h, ho.1]; congr 1; omega
  · rw [h, ho.2]; congr 1; omega

/-- Same with the 16-bit output slice (`F32toi16`). -/
theorem C16_i16_f32_i16 (o16 : Val → BitVec 16) (o8 : Val → BitVec 8) (bits : Val → BitVec 32)
    (sq : Val → Val) (k : ℤ) (hk : -112 ≤ k) (hk2 : k ≤ 127) (n is fs os : Nat) (im : Nat → BitVec 8)
    (fm : Nat → Val) (om : Nat → BitVec 16) :
    ∃ fm', i16bleToF32 (ieee o16 o8 bits sq) ⟨is, 2 * n⟩ im ⟨fs, n⟩ fm (.fin false (2 ^ (-k))) = some fm' ∧
      ∃ om', f32toi16 (ieee o16 o8 bits sq) ⟨fs, n⟩ fm' ⟨os, n⟩ om (.fin false (2 ^ k)) = some om' ∧
        ∀ i, i < n → (om' (os + i)).toInt = le16 (im (is + 2 * i)).toNat (im (is + 2 * i + 1)).toNat := by
  refine ⟨_, C19_i16bleToF32 .., _, C19_f32toi16 .., ?_⟩
  intro i hi
  simp only [show 2 * n / 2 = n by omega, Nat.min_self]
  rw [fill_in hi, fill_in hi]
  have hb := le16_bounds (im (is + 2 * i)) (im (is + 2 * i + 1))
  have hs := scale_roundtrip (le16 (im (is + 2 * i)).toNat (im (is + 2 * i + 1)).toNat) k
    (by omega) hk hk2
  have ht := trunc_exact 16 o16 _ hb.1 hb.2
  show (toSigned 16 o16 (Verif.Fp.mul binary32 (Verif.Fp.mul binary32 (ofInt binary32 _) _) _)).toInt = _
  rw [hs, ht, BitVec.toInt_ofInt]
  rw [Int.bmod_eq_of_le] <;> omega

/-- The scale 1/32768 that callers use is `k = 15`. -/
example : (-112 : ℤ) ≤ 15 ∧ (15 : ℤ) ≤ 127 ∧ (2 : ℚ) ^ (-15 : ℤ) = 1 / 32768 := by norm_num

/-- C18.  Interleaved signed bytes → complex64 → bytes is the identity. -/
theorem C18_i8_c64_roundtrip (o16 : Val → BitVec 16) (o8 : Val → BitVec 8) (bits : Val → BitVec 32)
    (sq : Val → Val) (n is cs os : Nat) (im : Nat → BitVec 8) (cm : Nat → Val × Val) (om : Nat → BitVec 8) :
    ∃ cm', i8toc64 (ieee o16 o8 bits sq) ⟨is, 2 * n⟩ im ⟨cs, n⟩ cm = some cm' ∧
      c64toi8 (ieee o16 o8 bits sq) ⟨cs, n⟩ cm' ⟨os, 2 * n⟩ om
        = some (fill om os (2 * n) fun j => im (is + j)) := by
  have key : ∀ b : BitVec 8, toSigned 8 o8 (ofInt binary32 b.toInt) = b := by
    intro b
    have h := BitVec.toInt_lt (x := b)
    have h' := BitVec.le_toInt (x := b)
    rw [ofInt_exact _ (by omega), trunc_exact 8 o8 _ h' h, BitVec.ofInt_toInt]
  refine ⟨_, C19_i8toc64 .., ?_⟩
  rw [C19_c64toi8]
  simp only [show 2 * n / 2 = n by omega, Nat.min_self]
  congr 1
  apply fill_congr
  intro j hj
  rw [fill_in (by omega)]
  rcases Nat.mod_two_eq_zero_or_one j with h | h
  · rw [if_pos h]; show toSigned 8 o8 (ofInt binary32 _) = _
    rw [key]; congr 1; omega
  · rw [if_neg (by omega)]; show toSigned 8 o8 (ofInt binary32 _) = _
    rw [key]; congr 1; omega

/-- Signed bytes through float32 and truncation, all 256 of them. -/
theorem C18_i8tof32_exact (o16 : Val → BitVec 16) (o8 : Val → BitVec 8) (bits : Val → BitVec 32)
    (sq : Val → Val) (input : Slice) (im : Nat → BitVec 8) (output : Slice) (om : Nat → Val) :
    ∃ om', i8tof32 (ieee o16 o8 bits sq) input im output om = some om' ∧
      ∀ i, i < min input.len output.len → (om' (output.base + i)).toRat = (im (input.base + i)).toInt := by
  refine ⟨_, C19_i8tof32 .., ?_⟩
  intro i hi
  rw [fill_in hi]
  have h := BitVec.toInt_lt (x := im (input.base + i))
  have h' := BitVec.le_toInt (x := im (input.base + i))
  show (ofInt binary32 _).toRat = _
  rw [ofInt_exact _ (by omega)]
  generalize (im (input.base + i)).toInt = v
  simp only [Val.toRat]
  by_cases hv : v < 0
  · rw [if_pos (by simpa using hv)]
    have : ((-(v.natAbs : ℤ) : ℤ) : ℚ) = v := by congr 1; omega
    rwa [Int.cast_neg, Int.cast_natCast] at this
  · rw [if_neg (by simpa using hv)]
    have : (((v.natAbs : ℤ) : ℤ) : ℚ) = v := by congr 1; omega
    rwa [Int.cast_natCast] at this

/-- The most negative sample, −128, survives. -/
example : ofInt binary32 (-128) = .fin true 128 := ofInt_exact (-128) (by decide)

end Verif.Conv
