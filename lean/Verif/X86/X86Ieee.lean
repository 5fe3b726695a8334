import Verif.X86.X86Model
import Verif.X86.AvoProps
import Verif.Fp.Bits64

/-!
# The floating-point unit of the machine model with IEEE-754 arithmetic

Rounding to nearest even, subnormals not flushed, exceptions masked (the state in which Go runs). All not-a-numbers that are results
have the same bits here, on the processor they have those of an operand; no theorem says which.
-/

namespace Verif.X86
open Verif.Fp

/-- `MULSS`, `MULPS`. -/
def ieeeMul32 (a b : BitVec 32) : BitVec 32 := toBits32 (mul binary32 (ofBits32 a) (ofBits32 b))

/-- `MULSD`, `MULPD`. -/
def ieeeMul64 (a b : BitVec 64) : BitVec 64 := toBits64 (mul binary64 (ofBits64 a) (ofBits64 b))

/-- `CVTTSS2SL`, `CVTTPS2PL`: towards zero; 0x80000000 for not-a-numbers and everything outside of the range of int32. -/
def ieeeTrunc32 (a : BitVec 32) : BitVec 32 := toSigned 32 (fun _ => 0x80000000) (ofBits32 a)

/-- `CVTSL2SD`, `CVTPL2PD`. -/
def ieeeCvt64 (i : Int) : BitVec 64 := toBits64 (ofInt binary64 i)

open Classical in
/-- `MAXPS`: the first operand if it is greater, otherwise the second, also for zeros of opposite sign and not-a-numbers. -/
noncomputable def ieeeMax32 (a b : BitVec 32) : BitVec 32 := if Verif.Fp.lt (ofBits32 b) (ofBits32 a) then a else b

open Classical in
/-- `MINPS`. -/
noncomputable def ieeeMin32 (a b : BitVec 32) : BitVec 32 := if Verif.Fp.lt (ofBits32 a) (ofBits32 b) then a else b

open Classical in
/-- `UCOMISS`: ZF and CF; both when an operand is not a number. -/
noncomputable def ieeeUcom (a b : BitVec 32) : Bool × Bool :=
  if ofBits32 a = .nan ∨ ofBits32 b = .nan then (true, true)
  else (decide (¬ Verif.Fp.lt (ofBits32 a) (ofBits32 b) ∧ ¬ Verif.Fp.lt (ofBits32 b) (ofBits32 a)), decide (Verif.Fp.lt (ofBits32 a) (ofBits32 b)))

/-- The whole unit. -/
noncomputable def ieee : Ops := ⟨Avo.ieeeCvt32, ieeeCvt64, ieeeTrunc32, ieeeMul32, ieeeMul64, ieeeMax32, ieeeMin32, ieeeUcom⟩

/-! ### Values -/

theorem repr32_round (s : Bool) {q : ℚ} (h : 0 ≤ q) : Repr32 (Fp.round binary32 s q) := by
  by_cases c : rd binary32 q < 2 ^ (binary32.emax + 1)
  · rw [round_rd _ _ h c]
    exact ⟨rd_nonneg _ h, by exact_mod_cast c, grid_rd _ (by decide) _⟩
  · have hq : q ≠ 0 := by
      rintro rfl
      rw [rd_zero] at c
      exact c (by positivity)
    have hp : 0 < q := lt_of_le_of_ne h hq.symm
    unfold Fp.round
    rw [if_neg hq]
    simp only [← rd_pos _ hp]
    rw [if_pos (not_lt.1 c)]
    trivial

theorem repr64_round (s : Bool) {q : ℚ} (h : 0 ≤ q) : Repr64 (Fp.round binary64 s q) := by
  by_cases c : rd binary64 q < 2 ^ (binary64.emax + 1)
  · rw [round_rd _ _ h c]
    exact ⟨rd_nonneg _ h, c.trans_eq (zpow_natCast (2 : ℚ) 1024), grid_rd _ (by decide) _⟩
  · have hq : q ≠ 0 := by
      rintro rfl
      rw [rd_zero] at c
      exact c (by positivity)
    have hp : 0 < q := lt_of_le_of_ne h hq.symm
    unfold Fp.round
    rw [if_neg hq]
    simp only [← rd_pos _ hp]
    rw [if_pos (not_lt.1 c)]
    trivial

theorem repr32_ofBits (b : BitVec 32) : Repr32 (ofBits32 b) := by
  by_cases h : ofBits32 b = .nan
  · rw [h]; trivial
  · exact (toBits32_ofBits32 b h).1

theorem repr64_ofBits (b : BitVec 64) : Repr64 (ofBits64 b) := by
  by_cases h : ofBits64 b = .nan
  · rw [h]; trivial
  · exact (toBits64_ofBits64 b h).1

theorem repr32_mul {v w : Val} (hv : Repr32 v) (hw : Repr32 w) : Repr32 (mul binary32 v w) := by
  rcases v with _ | s | ⟨s, q⟩ <;> rcases w with _ | t | ⟨t, r⟩ <;> simp only [mul]
  all_goals first | trivial | skip
  · split <;> trivial
  · split <;> trivial
  · exact repr32_round _ (mul_nonneg hv.1 hw.1)

theorem repr64_mul {v w : Val} (hv : Repr64 v) (hw : Repr64 w) : Repr64 (mul binary64 v w) := by
  rcases v with _ | s | ⟨s, q⟩ <;> rcases w with _ | t | ⟨t, r⟩ <;> simp only [mul]
  all_goals first | trivial | skip
  · split <;> trivial
  · split <;> trivial
  · exact repr64_round _ (mul_nonneg hv.1 hw.1)

/-- The value of a product. -/
theorem ofBits32_mul (a b : BitVec 32) : ofBits32 (ieeeMul32 a b) = mul binary32 (ofBits32 a) (ofBits32 b) :=
  ofBits32_toBits32 _ (repr32_mul (repr32_ofBits a) (repr32_ofBits b))

theorem ofBits64_mul (a b : BitVec 64) : ofBits64 (ieeeMul64 a b) = mul binary64 (ofBits64 a) (ofBits64 b) :=
  ofBits64_toBits64 _ (repr64_mul (repr64_ofBits a) (repr64_ofBits b))

theorem ofBits32_cvt (i : Int) : ofBits32 (Avo.ieeeCvt32 i) = ofInt binary32 i :=
  ofBits32_toBits32 _ (repr32_round _ (abs_nonneg _))

theorem ofBits64_cvt (i : Int) : ofBits64 (ieeeCvt64 i) = ofInt binary64 i :=
  ofBits64_toBits64 _ (repr64_round _ (abs_nonneg _))

/-- The float64 at an address. -/
def f64at (m : BitVec 64 → BitVec 8) (a : BitVec 64) : Val :=
  ofBits64 (m (a + BitVec.ofNat 64 7) ++ m (a + BitVec.ofNat 64 6) ++ m (a + BitVec.ofNat 64 5) ++ m (a + BitVec.ofNat 64 4) ++
    m (a + BitVec.ofNat 64 3) ++ m (a + BitVec.ofNat 64 2) ++ m (a + BitVec.ofNat 64 1) ++ m a)

end Verif.X86
