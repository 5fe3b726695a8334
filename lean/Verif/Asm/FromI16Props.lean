import Verif.Asm.FromI16Model
import Verif.Asm.ToF32Lemmas
import Verif.Conv.VecProps

/-!
# Property C23: the amd64 16-bit to float conversions agree with the portable code
-/

namespace Verif.Asm
open Verif.Conv
variable {F D G σ : Type}

theorem whileDo_run {body : σ → Option σ} {cond : σ → Bool} (S : Nat → σ) (k fuel : Nat)
    (hf : k ≤ fuel) (hb : ∀ i, i < k → body (S i) = some (S (i + 1)))
    (hc : ∀ i, i < k → cond (S i) = true) (hl : cond (S k) = false) :
    whileDo body cond fuel (S 0) = some (S k) := by
  unfold whileDo
  by_cases h : k = 0
  · subst h; rw [if_neg (by simp [hl])]
  · rw [if_pos (hc 0 (by omega))]
    exact doWhile_run S k fuel (by omega) hf hb (fun i _ hi => hc i hi) hl

/-- The state after `c` samples. -/
def stLe (om g : Nat → G) (c : Nat) : StLe G := ⟨2 * c, c, c, fill om 0 c g, 2 * c, c⟩

theorem stLe_zero (om g : Nat → G) : stLe om g 0 = ⟨0, 0, 0, om, 0, 0⟩ := by simp [stLe, fill_zero]

/-- Vector loop then scalar loop. -/
theorem stLe_run (w : Nat) (hw : 0 < w) (block step : StLe G → Option (StLe G)) (om g : Nat → G)
    (hb : ∀ c, block (stLe om g c) = some (stLe om g (c + w)))
    (hs : ∀ c, step (stLe om g c) = some (stLe om g (c + 1))) (n : Nat) :
    ((whileDo block (fun s => decide (s.bx < n - n % w)) (n + 1) ⟨0, 0, 0, om, 0, 0⟩).bind
      (whileDo step (fun s => decide (s.bx < n)) (n + 1))) = some (stLe om g n) := by
  have hq : w * (n / w) + n % w = n := Nat.div_add_mod n w
  have hle : n / w ≤ n := Nat.div_le_self n w
  have hr := Nat.mod_lt n hw
  have h1 := whileDo_run (body := block) (cond := fun s => decide (s.bx < n - n % w))
    (fun i => stLe om g (w * i)) (n / w) (n + 1) (by omega) (fun i _ => by rw [hb]; rfl)
    (fun i hi => by
      show decide (w * i < n - n % w) = true
      rw [decide_eq_true_eq]
      have : w * i + w ≤ w * (n / w) := by
        rw [← Nat.mul_succ]; exact Nat.mul_le_mul_left w hi
      omega)
    (by
      show decide (w * (n / w) < n - n % w) = false
      rw [decide_eq_false_iff_not]; omega)
  simp only [Nat.mul_zero] at h1
  rw [← stLe_zero om g, h1, Option.bind_some]
  generalize hc : w * (n / w) = c at *
  have h2 := whileDo_run (body := step) (cond := fun s => decide (s.bx < n))
    (fun i => stLe om g (c + i)) (n - c) (n + 1) (by omega) (fun i _ => by rw [hs]; rfl)
    (fun i hi => by
      show decide (c + i < n) = true
      rw [decide_eq_true_eq]; omega)
    (by
      show decide (c + (n - c) < n) = false
      rw [decide_eq_false_iff_not]; omega)
  simp only [Nat.add_zero] at h2
  rw [h2, show c + (n - c) = n by omega]

theorem store2_fill (om : Nat → G) (c : Nat) (g : Nat → G) (lane : Nat → G)
    (h : ∀ k, k < 2 → lane k = g (c + k)) :
    store2 (fill om 0 c g) c lane = fill om 0 (c + 2) g := by
  have u := fun i v hv => update_fill om 0 i g v hv
  simp only [Nat.zero_add] at u
  unfold store2
  rw [u c _ (h 0 (by omega)), u (c + 1) _ (h 1 (by omega))]

/-- The sample at index `i`. -/
def leSample (im : Nat → BitVec 8) (i : Nat) : Int := le16 (im (2 * i)).toNat (im (2 * i + 1)).toNat

def d16g (o : FloatOps F D) (scale : D) (im : Nat → BitVec 8) (i : Nat) : D :=
  o.mulD (o.ofIntD (leSample im i)) scale
def f16g (o : FloatOps F D) (scale : F) (im : Nat → BitVec 8) (i : Nat) : F :=
  o.mul (o.ofInt (leSample im i)) scale

theorem hi16 (x : Xmm) (k : Nat) (hk : k < 4) :
    (pmovsxwd (movhlps x) k).toInt = le16 (x (2 * (4 + k))).toNat (x (2 * (4 + k) + 1)).toNat := by
  rw [pmovsxwd_toInt]
  simp only [movhlps]
  rw [if_pos (by omega), if_pos (by omega), show 8 + 2 * k = 2 * (4 + k) by omega,
    show 8 + (2 * k + 1) = 2 * (4 + k) + 1 by omega]

theorem lo16s (x : Xmm) (k : Nat) (_ : k < 4) :
    (psral 16 (punpcklwl x) k).toInt = le16 (x (2 * k)).toNat (x (2 * k + 1)).toNat := by
  rw [psral16]; simp only [punpcklwl]
  rw [show 2 * ((4 * k + 2) / 4) + (4 * k + 2) % 2 = 2 * k by omega,
    show 2 * ((4 * k + 3) / 4) + (4 * k + 3) % 2 = 2 * k + 1 by omega]

theorem hi16s (x : Xmm) (k : Nat) (hk : k < 4) :
    (psral 16 (punpcklwl (movhlps x)) k).toInt
      = le16 (x (2 * (4 + k))).toNat (x (2 * (4 + k) + 1)).toNat := by
  rw [lo16s _ _ hk]
  simp only [movhlps]
  rw [if_pos (by omega), if_pos (by omega), show 8 + 2 * k = 2 * (4 + k) by omega,
    show 8 + (2 * k + 1) = 2 * (4 + k) + 1 by omega]

theorem load_sample (im : Nat → BitVec 8) (c k : Nat) :
    le16 (load16 im (2 * c) (2 * k)).toNat (load16 im (2 * c) (2 * k + 1)).toNat
      = leSample im (c + k) := by
  simp only [load16, leSample]
  rw [show 2 * c + 2 * k = 2 * (c + k) by omega, show 2 * c + (2 * k + 1) = 2 * (c + k) + 1 by omega]

theorem d16Step_st (o : FloatOps F D) (scale : D) (im : Nat → BitVec 8) (om : Nat → D) (c : Nat) :
    d16Step o scale im (stLe om (d16g o scale im) c) = some (stLe om (d16g o scale im) (c + 1)) := by
  have u := update_fill om 0 c (d16g o scale im) (d16g o scale im c) rfl
  rw [Nat.zero_add] at u
  have e : max (2 * c) (2 * c + 2) = 2 * c + 2 := by omega
  have e' : max c (c + 1) = c + 1 := by omega
  simp only [d16Step, stLe, e, e', word_toInt]
  rw [← u]
  congr 2

theorem f16Step_st (o : FloatOps F D) (scale : F) (im : Nat → BitVec 8) (om : Nat → F) (c : Nat) :
    f16Step o scale im (stLe om (f16g o scale im) c) = some (stLe om (f16g o scale im) (c + 1)) := by
  have u := update_fill om 0 c (f16g o scale im) (f16g o scale im c) rfl
  rw [Nat.zero_add] at u
  have e : max (2 * c) (2 * c + 2) = 2 * c + 2 := by omega
  have e' : max c (c + 1) = c + 1 := by omega
  simp only [f16Step, stLe, e, e', word_toInt]
  rw [← u]
  congr 2

theorem d16Sse4_st (o : FloatOps F D) (scale : D) (im : Nat → BitVec 8) (om : Nat → D) (c : Nat) :
    d16Sse4 o scale im (stLe om (d16g o scale im) c) = some (stLe om (d16g o scale im) (c + 8)) := by
  have e : max (2 * c) (2 * c + 16) = 2 * c + 16 := by omega
  have e' : max c (c + 8) = c + 8 := by omega
  simp only [d16Sse4, stLe, e, e']
  rw [store2_fill _ _ (d16g o scale im), store2_fill _ _ (d16g o scale im),
    store2_fill _ _ (d16g o scale im), store2_fill _ _ (d16g o scale im)]
  · congr 2
  all_goals intro k hk; simp only [d16g, hiLanes, if_pos hk]
  · rw [hi16 _ _ (by omega), load_sample, show c + (4 + (k + 2)) = c + 6 + k by omega]
  · rw [hi16 _ _ (by omega), load_sample, show c + (4 + k) = c + 4 + k by omega]
  · rw [pmovsxwd_toInt, load_sample, show c + (k + 2) = c + 2 + k by omega]
  · rw [pmovsxwd_toInt, load_sample]

theorem d16Sse2_st (o : FloatOps F D) (scale : D) (im : Nat → BitVec 8) (om : Nat → D) (c : Nat) :
    d16Sse2 o scale im (stLe om (d16g o scale im) c) = some (stLe om (d16g o scale im) (c + 4)) := by
  have e : max (2 * c) (2 * c + 8) = 2 * c + 8 := by omega
  have e' : max c (c + 4) = c + 4 := by omega
  simp only [d16Sse2, stLe, e, e']
  rw [store2_fill _ _ (d16g o scale im), store2_fill _ _ (d16g o scale im)]
  · congr 2
  all_goals intro k hk; simp only [d16g, hiLanes, if_pos hk]
  · rw [lo16s _ _ (by omega), if_pos (by omega), if_pos (by omega), leSample,
      show 2 * c + 2 * (k + 2) = 2 * (c + 2 + k) by omega,
      show 2 * c + (2 * (k + 2) + 1) = 2 * (c + 2 + k) + 1 by omega]
  · rw [lo16s _ _ (by omega), if_pos (by omega), if_pos (by omega), leSample,
      show 2 * c + 2 * k = 2 * (c + k) by omega,
      show 2 * c + (2 * k + 1) = 2 * (c + k) + 1 by omega]

theorem f16Sse4_st (o : FloatOps F D) (scale : F) (im : Nat → BitVec 8) (om : Nat → F) (c : Nat) :
    f16Sse4 o scale im (stLe om (f16g o scale im) c) = some (stLe om (f16g o scale im) (c + 8)) := by
  have e : max (2 * c) (2 * c + 16) = 2 * c + 16 := by omega
  have e' : max c (c + 8) = c + 8 := by omega
  simp only [f16Sse4, stLe, e, e']
  rw [store4_fill _ _ (f16g o scale im), store4_fill _ _ (f16g o scale im)]
  · congr 2
  all_goals intro k hk; simp only [f16g]
  · rw [hi16 _ _ (by omega), load_sample, show c + (4 + k) = c + 4 + k by omega]
  · rw [pmovsxwd_toInt, load_sample]

theorem f16Sse2_st (o : FloatOps F D) (scale : F) (im : Nat → BitVec 8) (om : Nat → F) (c : Nat) :
    f16Sse2 o scale im (stLe om (f16g o scale im) c) = some (stLe om (f16g o scale im) (c + 8)) := by
  have e : max (2 * c) (2 * c + 16) = 2 * c + 16 := by omega
  have e' : max c (c + 8) = c + 8 := by omega
  simp only [f16Sse2, stLe, e, e']
  rw [store4_fill _ _ (f16g o scale im), store4_fill _ _ (f16g o scale im)]
  · congr 2
  all_goals intro k hk; simp only [f16g]
  · rw [hi16s _ _ (by omega), load_sample, show c + (4 + k) = c + 4 + k by omega]
  · rw [lo16s _ _ (by omega), load_sample]

/-- C23 for `I16bleToF64`: with and without SSE4.1, for every length, the samples of the common
prefix are written exactly as by the portable code (`C19_i16bleToF64`), reads end at the last byte
of that prefix and nothing else is written. -/
theorem C23_i16bleToF64 (o : FloatOps F D) (useSSE4 : Bool) (inLen outLen : Nat) (scale : D)
    (im : Nat → BitVec 8) (om : Nat → D) :
    ∃ t, i16bleToF64Amd o useSSE4 inLen outLen scale im om = some t ∧
      t.rEnd = 2 * min (inLen / 2) outLen ∧ t.wEnd = min (inLen / 2) outLen ∧
      t.om = fill om 0 (min (inLen / 2) outLen) fun i =>
        o.mulD (o.ofIntD (le16 (im (2 * i)).toNat (im (2 * i + 1)).toNat)) scale := by
  have hm : (if inLen / 2 < outLen then inLen / 2 else outLen) = min (inLen / 2) outLen := by
    split <;> omega
  refine ⟨stLe om (d16g o scale im) (min (inLen / 2) outLen), ?_, rfl, rfl, rfl⟩
  unfold i16bleToF64Amd
  simp only [hm]
  cases useSSE4
  · exact stLe_run 4 (by omega) _ _ om _ (d16Sse2_st o scale im om) (d16Step_st o scale im om) _
  · exact stLe_run 8 (by omega) _ _ om _ (d16Sse4_st o scale im om) (d16Step_st o scale im om) _

/-- C23 for `I16bleToF32`. -/
theorem C23_i16bleToF32 (o : FloatOps F D) (useSSE4 : Bool) (inLen outLen : Nat) (scale : F)
    (im : Nat → BitVec 8) (om : Nat → F) :
    ∃ t, i16bleToF32Amd o useSSE4 inLen outLen scale im om = some t ∧
      t.rEnd = 2 * min (inLen / 2) outLen ∧ t.wEnd = min (inLen / 2) outLen ∧
      t.om = fill om 0 (min (inLen / 2) outLen) fun i =>
        o.mul (o.ofInt (le16 (im (2 * i)).toNat (im (2 * i + 1)).toNat)) scale := by
  have hm : (if inLen / 2 < outLen then inLen / 2 else outLen) = min (inLen / 2) outLen := by
    split <;> omega
  refine ⟨stLe om (f16g o scale im) (min (inLen / 2) outLen), ?_, rfl, rfl, rfl⟩
  unfold i16bleToF32Amd
  simp only [hm]
  cases useSSE4
  · exact stLe_run 8 (by omega) _ _ om _ (f16Sse2_st o scale im om) (f16Step_st o scale im om) _
  · exact stLe_run 8 (by omega) _ _ om _ (f16Sse4_st o scale im om) (f16Step_st o scale im om) _

/-- Both results are those of the portable routines `i16bleToF64`/`i16bleToF32`. -/
theorem C23_agrees_portable (o : FloatOps F D) (useSSE4 : Bool) (inLen outLen : Nat) (scaleD : D)
    (scale : F) (im : Nat → BitVec 8) (omD : Nat → D) (om : Nat → F) :
    (i16bleToF64Amd o useSSE4 inLen outLen scaleD im omD).map (·.om)
        = i16bleToF64 o ⟨0, inLen⟩ im ⟨0, outLen⟩ omD scaleD ∧
      (i16bleToF32Amd o useSSE4 inLen outLen scale im om).map (·.om)
        = i16bleToF32 o ⟨0, inLen⟩ im ⟨0, outLen⟩ om scale := by
  constructor
  · obtain ⟨t, h, _, _, ht⟩ := C23_i16bleToF64 o useSSE4 inLen outLen scaleD im omD
    rw [h, C19_i16bleToF64, Option.map_some, ht]
    simp only [Nat.zero_add]
  · obtain ⟨t, h, _, _, ht⟩ := C23_i16bleToF32 o useSSE4 inLen outLen scale im om
    rw [h, C19_i16bleToF32, Option.map_some, ht]
    simp only [Nat.zero_add]

/-- Blocks, a tail and an odd byte left over. -/
example : (i16bleToF32Amd intOps true 27 20 3 (fun i => BitVec.ofNat 8 (50 * i)) (fun _ => 7)).map
      (fun s => (s.om 0, s.om 9, s.om 12, s.om 13, s.rEnd, s.wEnd))
      = some (38400, -56436, -22512, 7, 26, 13) := by decide +kernel

end Verif.Asm
