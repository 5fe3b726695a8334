import Verif.Filt.DesignRun

/-!
# Property C144: the designed filters on single precision samples

`FilterF32` converts each sample to `float64`, computes as `Filter` does and converts the result to `float32`.
-/

namespace Verif.Filt

open Verif.Conv Verif.Fp Finset

/-- C144: as `RunsNear`, for `FilterF32`: the samples are `float32`, and so are the results. `Y` bounds the output of the real
difference equation; the conversion adds half a unit in the last place. -/
def RunsNear32 (F : BQ (FVal binary64)) (G : BQ ℝ) (E : ℝ) : Prop :=
  ∀ ev : ℕ → Expr binary64 → FVal binary64, (∀ i e, Expr.Eval e (ev i e)) →
  ∀ (m : ℕ → FVal binary32) (input output : Slice), OutputOk input output →
  ∀ (x : ℕ → ℚ) (X : ℚ), 1 / 2 ^ 180 ≤ X → X ≤ 2 ^ 180 →
  (∀ i < input.len, Is (m (input.base + i)) (x i) ∧ Grid binary32 (x i) ∧ |x i| < 2 ^ 128 ∧ |x i| ≤ X) →
  ∀ y : ℕ → ℝ, (∀ n < input.len, G.A0 * delayed y n 0 + G.A1 * delayed y n 1 + G.A2 * delayed y n 2 =
    G.B0 * delayed (fun i => (x i : ℝ)) n 0 + G.B1 * delayed (fun i => (x i : ℝ)) n 1 +
      G.B2 * delayed (fun i => (x i : ℝ)) n 2) →
  ∀ Y : ℝ, (∀ i < input.len, |y i| ≤ Y) → Y + E * X ≤ 2 ^ 127 →
  ∃ m' h, F.filterF32By widen narrow ev m input output = some (m', h) ∧ ∀ i < input.len, ∃ z, Is (m' (output.base + i)) z ∧
    Grid binary32 z ∧ |(z : ℝ) - y i| ≤ E * X + (Y + E * X) / 2 ^ 24 + 1 / 2 ^ 150

/-- C144: what holds of `Filter` in `float64` holds of `FilterF32` up to the last conversion. -/
theorem C144_f32 {F : BQ (FVal binary64)} {G : BQ ℝ} {E : ℝ} (hF : RunsNear F G E) : RunsNear32 F G E := by
  intro ev hev m input output hio x X hX1 hX2 hx y hy Y hY htop
  -- the same stream, widened, with the output apart
  set w : ℕ → FVal binary64 := fun i => widen (m i) with hw
  have hv : ∀ i < input.len, Is (w (input.base + i)) (x i) ∧ |x i| ≤ X := by
    intro i hi
    obtain ⟨h1, h2, h3, h4⟩ := hx i hi
    have e := rd_grid binary64 (by decide) (grid_mono h2)
    have h64 : |x i| < 2 ^ (binary64.emax + 1) := by
      refine h3.trans ?_
      have : (2 : ℚ) ^ (128 : ℤ) < 2 ^ (binary64.emax + 1) := zpow_lt_zpow_right₀ (by norm_num) (by decide)
      exact_mod_cast this
    have := convert_rd (φ := binary64) h1 (by rw [e]; exact h64)
    rw [e] at this
    exact ⟨this, h4⟩
  obtain ⟨m', h', e1, hall⟩ := hF ev hev w input output hio x X hX1 hX2 hv y hy
  refine ⟨_, _, BQ.filterF32By_eq widen narrow ev F m input output hio, fun i hi => ?_⟩
  rw [fill_in hi]
  obtain ⟨z, z1, z2⟩ := hall i hi
  have e2 := BQ.filterF32By_eq (fun s => s) (fun s => s) ev F w input output hio
  have e3 : some (m', h') = _ := e1.symm.trans e2
  rw [Option.some.injEq, Prod.mk.injEq] at e3
  rw [e3.1, fill_in hi] at z1
  have z1 : Is (BQ.afterBy ev F (fun i => widen (m (input.base + i))) (i + 1)).prevOut0 z := z1
  have zb : |(z : ℝ)| ≤ Y + E * X := by
    have := abs_add_le ((z : ℝ) - y i) (y i)
    rw [sub_add_cancel] at this
    linarith [hY i hi]
  have zq : |z| ≤ 2 ^ 127 := by
    have : ((|z| : ℚ) : ℝ) ≤ ((2 ^ 127 : ℚ) : ℝ) := by push_cast; linarith
    exact_mod_cast this
  have htop' : |rd binary32 z| < 2 ^ (binary32.emax + 1) := by
    refine lt_of_le_of_lt (abs_rd_le binary32 (by decide) (grid_pow binary32 (by decide) 127 (by decide)) ?_)
      (by norm_num [binary32])
    have : (2 : ℚ) ^ (127 : ℤ) = 2 ^ 127 := by norm_num
    rw [this]
    exact zq
  refine ⟨rd binary32 z, convert_rd (φ := binary32) z1 htop', grid_rd binary32 (by decide) z, ?_⟩
  have herr := rd_err binary32 z
  have e24 : (2 : ℚ) ^ (-(binary32.p : ℤ)) = 1 / 2 ^ 24 := by norm_num [binary32]
  have e150 : (2 : ℚ) ^ (binary32.emin - binary32.p) = 1 / 2 ^ 150 := by norm_num [binary32]
  rw [e24, e150] at herr
  have herr' : |((rd binary32 z : ℚ) : ℝ) - z| ≤ |(z : ℝ)| * (1 / 2 ^ 24) + 1 / 2 ^ 150 := by
    have : ((|rd binary32 z - z| : ℚ) : ℝ) ≤ ((|z| * (1 / 2 ^ 24) + 1 / 2 ^ 150 : ℚ) : ℝ) := Rat.cast_le.2 herr
    push_cast at this
    exact this
  have := abs_add_le (((rd binary32 z : ℚ) : ℝ) - z) ((z : ℝ) - y i)
  rw [sub_add_sub_cancel] at this
  linarith

/-- C144, for instance the low-pass filter on `float32` samples. -/
theorem C144_low_pass_f32 {sin cos sqrt pow} {η : ℝ} (hη : η ≤ 1 / 2 ^ 50) (hT : Dft.Trig cos sin 4 η)
    {fs f q : FVal binary64} (h : FreqOk64 20 fs f) (hq : QOk q) {s α μ : ℝ} (hs : s = Real.sin (2 * Real.pi * val f / val fs))
    (hα : α = s / (2 * val q)) (hm : μ = min α s) (hs0 : 0 < s) (hμ : (1 + 1 / val q) / 2 ^ 36 ≤ μ ^ 2) :
    RunsNear32 ((lib64 sin cos sqrt pow).lowPass fs f q) (newLowPass (val fs) (val f) (val q))
      ((1 + 1 / val q) * ((1 + α) / μ) ^ 4 / 2 ^ 40) :=
  C144_f32 (C144_low_pass hη hT h hq hs hα hm hs0 hμ)

/-- Samples that meet what `RunsNear32` asks: a unit step of any length, for the filter that returns its input. -/
example (N : ℕ) : (∀ i < N, Is (ofInt binary32 1) 1 ∧ Grid binary32 1 ∧ |(1 : ℚ)| < 2 ^ 128 ∧ |(1 : ℚ)| ≤ 1) ∧
    (∀ i < N, |(1 : ℝ)| ≤ 1) ∧ (1 : ℝ) + 1 / 2 ^ 32 * ((1 : ℚ) : ℝ) ≤ 2 ^ 127 := by
  refine ⟨fun i _ => ⟨?_, ⟨1, 0, by decide, by decide, by norm_num⟩, by norm_num, by norm_num⟩, fun _ _ => by norm_num, by norm_num⟩
  exact ⟨⟨false, 1, by decide +kernel, by norm_num⟩, by decide +kernel⟩

end Verif.Filt
