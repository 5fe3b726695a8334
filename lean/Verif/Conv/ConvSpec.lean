import Mathlib.Tactic.Common

/-!
# Element-wise specifications of the conversions
-/

namespace Verif.Conv

/-- Full-scale widening of an unsigned 8-bit sample around the mid value 128, as an integer:
`257·(v−128)`, plus 256 for the negative half. -/
def widen (v : Nat) : Int := if v < 128 then 257 * ((v : Int) - 128) + 256 else 257 * ((v : Int) - 128)

/-- The signed value of a little-endian pair of octets. -/
def le16 (lo hi : Nat) : Int := if hi < 128 then (lo : Int) + 256 * hi else (lo : Int) + 256 * hi - 65536

/-- The signed value of four little-endian octets. -/
def le32 (b0 b1 b2 b3 : Nat) : Int :=
  let u : Int := (b0 : Int) + 256 * b1 + 65536 * b2 + 16777216 * b3
  if b3 < 128 then u else u - 4294967296

/-- Octet `k` (0 = least significant) of a number. -/
def octet (k x : Nat) : BitVec 8 := BitVec.ofNat 8 (x / 256 ^ k % 256)

end Verif.Conv
