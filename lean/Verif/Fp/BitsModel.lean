import Verif.Fp.FpModel

/-!
# The bits of a float32

`math.Float32bits` of the Go library for the values of the floating-point model; a not-a-number has no payload in the model and
gets the one that `math.NaN` converted to float32 has.
-/

namespace Verif.Fp

/-- The exponent, at least that of the least normal number, with which the library stores a magnitude. -/
def exponent32 (q : ℚ) : ℤ := max (Int.log 2 q) (-126)

/-- The significand, in units of the last place. -/
def significand32 (q : ℚ) : ℕ := ⌊q / 2 ^ (exponent32 q - 23)⌋.toNat

/-- Exponent and fraction field of a magnitude. -/
def magBits32 (q : ℚ) : ℕ :=
  if significand32 q < 2 ^ 23 then significand32 q else (exponent32 q + 127).toNat * 2 ^ 23 + (significand32 q - 2 ^ 23)

/-- `math.Float32bits`, used at borip/example/rx.go:166-171 through `binary.Write` and at dsp/conversion.go:200. -/
def toBits32 : Val → BitVec 32
  | .nan => 0x7fc00000#32
  | .inf s => BitVec.ofNat 32 ((if s then 2 ^ 31 else 0) + 255 * 2 ^ 23)
  | .fin s q => BitVec.ofNat 32 ((if s then 2 ^ 31 else 0) + magBits32 q)

end Verif.Fp
