import Verif.Fp.FpRd

/-!
# Conversion between formats

`float64(x)` and `float32(x)`; the names are those of the namespace of the filters, where they were first used.
-/

namespace Verif.Filt
open Verif.Fp

/-- Conversion of a datum to another format: exact if it is one of that format, rounded otherwise
(`float64(s)` and `float32(v)`, dsp/biquad.go:36-41). -/
def convert (φ : Format) : Val → Val
  | .nan => .nan
  | .inf s => .inf s
  | .fin s q => round φ s q

/-- The conversion of a finite datum that does not overflow. -/
theorem convert_rd {φ : Format} {v : Val} {x : ℚ} (h : Is v x) (hlt : |rd φ x| < 2 ^ (φ.emax + 1)) :
    Is (convert φ v) (rd φ x) := by
  obtain ⟨⟨s, q, rfl, hq⟩, rfl⟩ := h
  have e : (Val.fin s q).toRat = if s then -q else q := rfl
  have habs : |rd φ (Val.fin s q).toRat| = rd φ q := by
    rw [abs_rd, e]
    congr 1
    split
    · rw [abs_neg, abs_of_nonneg hq]
    · rw [abs_of_nonneg hq]
  rw [habs] at hlt
  refine ⟨⟨s, rd φ q, round_rd φ s hq hlt, rd_nonneg φ hq⟩, ?_⟩
  show (round φ s q).toRat = _
  rw [round_rd φ s hq hlt, e]
  cases s
  · rfl
  · simp [Val.toRat, rd_neg]

/-- `float64(s)` of a `float32` (dsp/biquad.go:36, 40). -/
def widen (v : FVal binary32) : FVal binary64 := convert binary64 v

/-- `float32(v)` of a `float64` (dsp/biquad.go:41). -/
def narrow (v : FVal binary64) : FVal binary32 := convert binary32 v

/-- A single-precision datum is a double-precision one. -/
theorem grid_mono {x : ℚ} (h : Grid binary32 x) : Grid binary64 x := by
  obtain ⟨m, e, h1, h2, h3⟩ := h
  refine ⟨m, e, h1.trans (by decide), le_trans (by decide) h2, h3⟩

end Verif.Filt
