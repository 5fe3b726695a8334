import Verif.Conv.IeeeProps
import Verif.Fp.Bits

/-!
# Property C17 with the IEEE-754 encoding
-/

namespace Verif.Conv
open Verif.Fp

/-- C17: with the bits that IEEE-754 prescribes, the four bytes written for each float are read back as that float. -/
theorem C17_ieee (o16 : Val → BitVec 16) (o8 : Val → BitVec 8) (sq : Val → Val) (n xs bs : Nat) (x : Nat → Val) (hx : ∀ i < n, Repr32 (x (xs + i)))
    (bm : Nat → BitVec 8) :
    ∃ bm', f32Tof32ble (ieee o16 o8 toBits32 sq) ⟨xs, n⟩ x ⟨bs, 4 * n⟩ bm = some bm' ∧
      ∀ i < n, ofBits32 (BitVec.ofNat 32 ((bm' (bs + 4 * i)).toNat + 256 * (bm' (bs + 4 * i + 1)).toNat
        + 65536 * (bm' (bs + 4 * i + 2)).toNat + 16777216 * (bm' (bs + 4 * i + 3)).toNat)) = x (xs + i) := by
  obtain ⟨bm', h1, h2, -⟩ := C17_bits_roundtrip (ieee o16 o8 toBits32 sq) n xs bs x bm
  refine ⟨bm', h1, fun i hi => ?_⟩
  rw [h2 i hi]
  show ofBits32 (BitVec.ofNat 32 (toBits32 (x (xs + i))).toNat) = x (xs + i)
  rw [BitVec.ofNat_toNat, BitVec.setWidth_eq]
  exact ofBits32_toBits32 _ (hx i hi)

/-- C17: and every pattern that is not one of a NaN is the pattern of the float it stands for, so that writing a float read
from four bytes gives these bytes again. -/
theorem C17_pattern (b : BitVec 32) (h : ofBits32 b ≠ .nan) : Repr32 (ofBits32 b) ∧ toBits32 (ofBits32 b) = b := toBits32_ofBits32 b h

example : Repr32 (.fin true (5 / 2)) ∧ ofBits32 0xc0200000#32 ≠ .nan := by
  refine ⟨⟨by norm_num, by norm_num, ⟨5, -1, by decide, by decide, by norm_num⟩⟩, ?_⟩
  unfold ofBits32
  simp

end Verif.Conv
