import Verif.Ax25.EarStream
import Verif.Ax25.ClockFpProps

/-!
# C139: the program `examples/ax25.go` recovers a frame from the sound
-/

namespace Verif.Ax25.Ear

open Verif.Ax25 Verif.Fp Verif.Dft Verif.Dtmf Verif.Filt Verif.Conv

/-! ### Specification -/

namespace Spec

/-- A sample of the recording: 16 bits, two's complement, low byte first. -/
def pcm (lo hi : Byte) : ℤ :=
  if lo.toNat + 256 * hi.toNat < 32768 then lo.toNat + 256 * hi.toNat else (lo.toNat + 256 * hi.toNat : ℤ) - 65536

/-- Sample number `j` of the bytes of a file. -/
def pcmAt (bytes : List Byte) (j : ℕ) : ℤ := pcm (bytes.getD (2 * j) 0) (bytes.getD (2 * j + 1) 0)

/-- The two tones, in Hz. -/
def tone (b : Bool) : ℝ := if b then 1200 else 2200

/-- `θ` is the phase of audio frequency shift keying without jumps: bit number `i` lasts from `t0 + i P` to `t0 + (i + 1) P` seconds and has the
tone `v (i + 1)`; before the first bit, for at least the time of a bit, the tone is `v 0`. -/
def Afsk (θ : ℝ → ℝ) (t0 P : ℝ) (v : ℕ → Bool) (n : ℕ) : Prop :=
  ∀ i ≤ n, ∀ s t, t0 + (i - 1) * P ≤ s → s ≤ t → t ≤ t0 + i * P → θ t = θ s + 2 * Real.pi * tone (v i) * (t - s)

/-- The bytes are a recording at 44100 samples per second of `A sin θ` between two moments, with noise of at most `ε`; the first sample is number
`k`. -/
def Recorded (bytes : List Byte) (k : ℕ) (A : ℝ) (θ : ℝ → ℝ) (ε a b : ℝ) : Prop :=
  ∀ j : ℕ, a ≤ (k + j : ℝ) / 44100 → (k + j : ℝ) / 44100 ≤ b → 2 * j + 1 < bytes.length →
    |(pcmAt bytes j / 32768 : ℝ) - A * Real.sin (θ ((k + j : ℝ) / 44100))| ≤ ε

end Spec

open Spec

/-! ### Helper lemmas -/

theorem word_pcm (lo hi : Byte) : word lo hi = pcm lo hi := by
  have h : (lo.zeroExtend 16 ||| (hi.zeroExtend 16 <<< 8)).toNat = lo.toNat + 256 * hi.toNat := by
    have h1 := lo.isLt
    have h2 := hi.isLt
    rw [BitVec.toNat_or, BitVec.toNat_shiftLeft, BitVec.toNat_setWidth, BitVec.toNat_setWidth, Nat.mod_eq_of_lt (by omega : lo.toNat < 2 ^ 16), Nat.mod_eq_of_lt (by omega : hi.toNat < 2 ^ 16),
      Nat.shiftLeft_eq, Nat.mod_eq_of_lt (by omega), Nat.or_comm, mul_comm hi.toNat, ← Nat.two_pow_add_eq_or_of_lt (by omega : lo.toNat < 2 ^ 8)]
    omega
  unfold word pcm
  rw [BitVec.toInt_eq_toNat_cond, h]
  split <;> split <;> omega

theorem feedRaw_one (d : Dec) : (feedRaw d 1).2 = none := by
  have e : ∀ x : BitVec 8, ((x <<< 1) ||| BitVec.ofInt 8 1) &&& 0xff#8 ≠ 0x7e#8 := by decide +kernel
  unfold feedRaw
  simp only [e, if_false]
  split
  · rfl
  split
  · rfl
  split
  · rfl
  split
  · split <;> rfl
  · rfl

theorem runRaw_ones (d : Dec) (n : ℕ) : (runRaw d (List.replicate n 1)).2 = List.replicate n none := by
  induction n generalizing d with
  | zero => rfl
  | succ n ih => rw [List.replicate_succ, runRaw, List.replicate_succ, ← ih (feedRaw d 1).1, ← feedRaw_one d]

/-! ### Quiet recordings -/

/-- All samples of the buffer are small. -/
def Small (b : List Byte) : Prop := ∀ j, 2 * j + 1 < b.length → |pcmAt b j| ≤ 9100

theorem small_step {r b : List Byte} (he : r.length % 2 = 0) (hr : Small r) (hb : Small b) : Small (r ++ b.drop r.length) := by
  intro j hj
  rcases lt_or_ge (2 * j) r.length with h | h
  · have := hr j (by omega)
    unfold pcmAt at this ⊢
    simp only [List.getD_eq_getElem?_getD] at this ⊢
    rwa [List.getElem?_append_left h, List.getElem?_append_left (by omega)]
  · rw [List.length_append, List.length_drop] at hj
    have := hb j (by omega)
    unfold pcmAt at this ⊢
    simp only [List.getD_eq_getElem?_getD] at this ⊢
    rw [List.getElem?_append_right h, List.getElem?_append_right (by omega), List.getElem?_drop, List.getElem?_drop]
    rw [show r.length + (2 * j - r.length) = 2 * j by omega, show r.length + (2 * j + 1 - r.length) = 2 * j + 1 by omega]
    exact this

/-- **C139, quiet recordings.** When no sample exceeds 9100 (28 % of full scale) the program never returns a frame, whatever was sent, whatever the
reads return (in whole samples) and however long it runs: it feeds only ones to the decoder. -/
theorem C139_deaf {other : Val → Nat} {cos sin : FVal binary64 → FVal binary64} {η : ℝ} (hη0 : 0 ≤ η) (hη : η ≤ 1 / 2 ^ 50)
    (hT : Trig cos sin 9 η) {fuel : ℕ} (hf : 3 ≤ fuel) (rs : List (List Byte)) (h8 : ∀ r ∈ rs, r.length ≤ 8) (h2 : ∀ r ∈ rs, r.length % 2 = 0)
    (hq : ∀ r ∈ rs, ∀ j, 2 * j + 1 < r.length → |pcmAt r j| ≤ 9100) {ds : List Val} (hd : Diffs other cos sin Front.start rs ds) :
    ∃ s n, Clock64.listen fuel Clock64.start ds = some s ∧ s.out = List.replicate n none := by
  obtain ⟨l1, l2⟩ := diffs_spec hd
  have hquiet : ∀ d ∈ ds, Clock64.Spec.Quiet d := by
    intro d hd'
    obtain ⟨n, hn, rfl⟩ := List.getElem_of_mem hd'
    have ht : ∀ r ∈ rs.take (n + 1), r ∈ rs := fun r hr => List.mem_of_mem_take hr
    have hsmall : ∀ x ∈ (after Front.start (rs.take (n + 1))).samples, |val x| ≤ 9100 / 32768 := by
      refine after_all (B := Small) ?_ ?_ ?_ ?_
      · intro b hb x hx
        obtain ⟨j, hj, rfl⟩ := samplesOf_mem hx
        have h1 := hb j hj
        rw [pcmAt, ← word_pcm] at h1
        rw [(sample_val _ _).2.2.2, abs_div, abs_of_pos (by norm_num : (0 : ℝ) < 32768)]
        have h2 : |(word (b.getD (2 * j) 0) (b.getD (2 * j + 1) 0) : ℝ)| ≤ 9100 := by exact_mod_cast h1
        gcongr
      · intro x hx
        rw [start_good x hx]
        simp [val, Val.toRat]
        norm_num
      · intro j hj
        have : ∀ j < 4, |pcmAt Front.start.buf j| ≤ 9100 := by decide
        exact this j (by rw [start_lengths.1] at hj; omega)
      · intro r hr b hb
        exact small_step (h2 r (ht r hr)) (hq r (ht r hr)) hb
    have hlen := after_length fun r hr => h8 r (ht r hr)
    obtain ⟨g1, g2⟩ := diff_err hη0 hη hT hlen (after_good (rs.take (n + 1))) (l2 n hn)
    refine Or.inr ⟨g1, ?_⟩
    generalize (after Front.start (rs.take (n + 1))).samples = xs at *
    have hsum : _ ≤ 18 * ∑ i ∈ Finset.range 36, ((vals xs).getD i 0) ^ 2 := power_sum_le (fun i => (vals xs).getD i 0)
    have hsq : ∑ i ∈ Finset.range 36, ((vals xs).getD i 0) ^ 2 ≤ 36 * (9100 / 32768 : ℝ) ^ 2 := by
      refine (Finset.sum_le_sum fun i hi => ?_ : _ ≤ ∑ _i ∈ Finset.range 36, (9100 / 32768 : ℝ) ^ 2).trans (by simp)
      rw [← sq_abs]
      refine pow_le_pow_left₀ (abs_nonneg _) ?_ 2
      have hi' : i < xs.length := by rw [hlen]; exact Finset.mem_range.1 hi
      have e : (vals xs).getD i 0 = val xs[i] := vals_getD xs i hi'
      rw [e]
      exact hsmall _ (List.getElem_mem hi')
    have n1 := power_nonneg 1 (fun i => (vals xs).getD i 0)
    have n2 := power_nonneg 2 (fun i => (vals xs).getD i 0)
    have : |((ds[n].toRat : ℚ) : ℝ)| ≤ 50 := by
      rw [abs_le] at g2 ⊢
      generalize ∑ i ∈ Finset.range 36, ((vals xs).getD i 0) ^ 2 = S at hsum hsq
      norm_num at hsq
      constructor <;> linarith
    exact_mod_cast this
  obtain ⟨s, n, e1, e2, -⟩ := Clock64.C138_idle hf ds fun d h => Or.inl (hquiet d h)
  refine ⟨s, n, e1, ?_⟩
  rw [run_eq, runRaw_ones] at e2
  have := (Prod.mk.inj (Option.some.inj e2)).2
  rw [← this, List.map_replicate]
  rfl

/-- Two reads, a full one and a short one, with samples up to 9100 and down to -9100. -/
example : ∀ r ∈ ([[0x8c, 0x23, 0x74, 0xdc, 0, 0, 1, 0], [0xff, 0xff]] : List (List Byte)),
    r.length ≤ 8 ∧ r.length % 2 = 0 ∧ (∀ j < 4, 2 * j + 1 < r.length → |pcmAt r j| ≤ 9100) ∧
      (r.length = 8 → pcmAt r 0 = 9100 ∧ pcmAt r 1 = -9100) := by decide

end Verif.Ax25.Ear
