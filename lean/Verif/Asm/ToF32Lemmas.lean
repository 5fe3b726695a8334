import Verif.Asm.AsmLemmas
import Verif.Asm.ToF32Model
import Mathlib.Tactic.Ring

namespace Verif.Asm
open Verif.Conv
variable {F D : Type}

theorem store4_fill (om : Nat → F) (c : Nat) (g : Nat → F) (lane : Nat → F)
    (h : ∀ k, k < 4 → lane k = g (c + k)) :
    store4 (fill om 0 c g) c lane = fill om 0 (c + 4) g := by
  have u := fun i v hv => update_fill om 0 i g v hv
  simp only [Nat.zero_add] at u
  unfold store4
  rw [u c _ (h 0 (by omega)), u (c + 1) _ (h 1 (by omega)), u (c + 1 + 1) _ (h 2 (by omega)),
    u (c + 1 + 1 + 1) _ (h 3 (by omega))]

/-- The state after `c` elements. -/
def stAt (om : Nat → F) (g : Nat → F) (dx c : Nat) : St F := ⟨c, c, c, dx, fill om 0 c g, c, c⟩

theorem stAt_zero (om g : Nat → F) (dx : Nat) : stAt om g dx 0 = ⟨0, 0, 0, dx, om, 0, 0⟩ := by
  simp [stAt, fill_zero]

/-- What the element at position `i` becomes. -/
def u8g (o : FloatOps F D) (im : Nat → BitVec 8) (i : Nat) : F := o.ofInt (((im i).toNat : Int) - 128)
def i8g (o : FloatOps F D) (im : Nat → BitVec 8) (i : Nat) : F := o.ofInt (im i).toInt

theorem u8Step_st (o : FloatOps F D) (im : Nat → BitVec 8) (om : Nat → F) (dx c : Nat) :
    u8Step o im (stAt om (u8g o im) dx c) = some (stAt om (u8g o im) dx (c + 1)) := by
  have u := update_fill om 0 c (u8g o im) (u8g o im c) rfl
  rw [Nat.zero_add] at u
  have e : max c (c + 1) = c + 1 := by omega
  simp only [u8Step, stAt, e]
  congr 2

theorem i8Step_st (o : FloatOps F D) (im : Nat → BitVec 8) (om : Nat → F) (dx c : Nat) :
    i8Step o im (stAt om (i8g o im) dx c) = some (stAt om (i8g o im) dx (c + 1)) := by
  have u := update_fill om 0 c (i8g o im) (i8g o im c) rfl
  rw [Nat.zero_add] at u
  have e : max c (c + 1) = c + 1 := by omega
  simp only [i8Step, stAt, e]
  congr 2

theorem lane_sse4 (x : Xmm) (j k : Nat) (hj : j < 4) (hk : k < 4) :
    (pmovsxbd (pshufl j x) k).toInt = (x (4 * j + k)).toInt := by
  rw [pmovsxbd_toInt]
  simp only [pshufl]
  rw [show k / 4 = 0 by omega, show k % 4 = k by omega, Nat.pow_zero, Nat.div_one, show j % 4 = j by omega]

theorem lane_ll (x : Xmm) (k : Nat) (_ : k < 4) : (psral 24 (punpcklwl (punpcklbw x)) k).toInt = (x k).toInt := by
  rw [psral24]; simp only [punpcklwl, punpcklbw]
  rw [show (2 * ((4 * k + 3) / 4) + (4 * k + 3) % 2) / 2 = k by omega]
theorem lane_lh (x : Xmm) (k : Nat) (_ : k < 4) : (psral 24 (punpckhwl (punpcklbw x)) k).toInt = (x (4 + k)).toInt := by
  rw [psral24]; simp only [punpckhwl, punpcklbw]
  rw [show (8 + 2 * ((4 * k + 3) / 4) + (4 * k + 3) % 2) / 2 = 4 + k by omega]
theorem lane_hl (x : Xmm) (k : Nat) (_ : k < 4) : (psral 24 (punpcklwl (punpckhbw x)) k).toInt = (x (8 + k)).toInt := by
  rw [psral24]; simp only [punpcklwl, punpckhbw]
  rw [show 8 + (2 * ((4 * k + 3) / 4) + (4 * k + 3) % 2) / 2 = 8 + k by omega]
theorem lane_hh (x : Xmm) (k : Nat) (_ : k < 4) : (psral 24 (punpckhwl (punpckhbw x)) k).toInt = (x (12 + k)).toInt := by
  rw [psral24]; simp only [punpckhwl, punpckhbw]
  rw [show 8 + (8 + 2 * ((4 * k + 3) / 4) + (4 * k + 3) % 2) / 2 = 12 + k by omega]

theorem psubb_toInt (im : Nat → BitVec 8) (ip i : Nat) :
    (psubb x80 (load16 im ip) i).toInt = ((im (ip + i)).toNat : Int) - 128 := sub128 _

theorem u8Sse4_st (o : FloatOps F D) (im : Nat → BitVec 8) (om : Nat → F) (dx c addr : Nat)
    (ha : (addr + 4 * c) % 16 = 0) :
    u8Sse4 o addr im (stAt om (u8g o im) dx c) = some (stAt om (u8g o im) dx (c + 16)) := by
  have e : max c (c + 16) = c + 16 := by omega
  simp only [u8Sse4, stAt, e]
  rw [if_neg (by omega), store4_fill, store4_fill, store4_fill, store4_fill]
  all_goals intro k hk
  · rw [lane_sse4 _ _ _ (by omega) hk, psubb_toInt, u8g, show c + (4 * 3 + k) = c + 4 + 4 + 4 + k by omega]
  · rw [lane_sse4 _ _ _ (by omega) hk, psubb_toInt, u8g, show c + (4 * 2 + k) = c + 4 + 4 + k by omega]
  · rw [lane_sse4 _ _ _ (by omega) hk, psubb_toInt, u8g, show c + (4 * 1 + k) = c + 4 + k by omega]
  · rw [pmovsxbd_toInt, psubb_toInt, u8g]

theorem u8Sse2_st (o : FloatOps F D) (im : Nat → BitVec 8) (om : Nat → F) (dx c addr : Nat)
    (ha : (addr + 4 * c) % 16 = 0) :
    u8Sse2 o addr im (stAt om (u8g o im) dx c) = some (stAt om (u8g o im) dx (c + 16)) := by
  have e : max c (c + 16) = c + 16 := by omega
  simp only [u8Sse2, stAt, e]
  rw [if_neg (by omega), store4_fill, store4_fill, store4_fill, store4_fill]
  all_goals intro k hk
  · rw [lane_hh _ _ hk, psubb_toInt, u8g, show c + (12 + k) = c + 4 + 4 + 4 + k by omega]
  · rw [lane_hl _ _ hk, psubb_toInt, u8g, show c + (8 + k) = c + 4 + 4 + k by omega]
  · rw [lane_lh _ _ hk, psubb_toInt, u8g, show c + (4 + k) = c + 4 + k by omega]
  · rw [lane_ll _ _ hk, psubb_toInt, u8g]

theorem i8Sse4_st (o : FloatOps F D) (im : Nat → BitVec 8) (om : Nat → F) (dx c addr : Nat)
    (ha : (addr + 4 * c) % 16 = 0) :
    i8Sse4 o addr im (stAt om (i8g o im) dx c) = some (stAt om (i8g o im) dx (c + 16)) := by
  have e : max c (c + 16) = c + 16 := by omega
  simp only [i8Sse4, stAt, e]
  rw [if_neg (by omega), store4_fill, store4_fill, store4_fill, store4_fill]
  all_goals intro k hk
  · rw [lane_sse4 _ _ _ (by omega) hk, load16, i8g, show c + (4 * 3 + k) = c + 4 + 4 + 4 + k by omega]
  · rw [lane_sse4 _ _ _ (by omega) hk, load16, i8g, show c + (4 * 2 + k) = c + 4 + 4 + k by omega]
  · rw [lane_sse4 _ _ _ (by omega) hk, load16, i8g, show c + (4 * 1 + k) = c + 4 + k by omega]
  · rw [pmovsxbd_toInt, load16, i8g]

theorem i8Sse2_st (o : FloatOps F D) (im : Nat → BitVec 8) (om : Nat → F) (dx c addr : Nat)
    (ha : (addr + 4 * c) % 16 = 0) :
    i8Sse2 o addr im (stAt om (i8g o im) dx c) = some (stAt om (i8g o im) dx (c + 16)) := by
  have e : max c (c + 16) = c + 16 := by omega
  simp only [i8Sse2, stAt, e]
  rw [if_neg (by omega), store4_fill, store4_fill, store4_fill, store4_fill]
  all_goals intro k hk
  · rw [lane_hh _ _ hk, load16, i8g, show c + (12 + k) = c + 4 + 4 + 4 + k by omega]
  · rw [lane_hl _ _ hk, load16, i8g, show c + (8 + k) = c + 4 + 4 + k by omega]
  · rw [lane_lh _ _ hk, load16, i8g, show c + (4 + k) = c + 4 + k by omega]
  · rw [lane_ll _ _ hk, load16, i8g]

/-- A counted loop over elements from `c` up to `lim > c` in steps of `w`. -/
theorem run_loop (om g : Nat → F) (dx c lim w fuel : Nat) (hw : 0 < w) (hc : c < lim)
    (hf : lim ≤ fuel) (body : St F → Option (St F))
    (hb : ∀ i, body (stAt om g dx (c + w * i)) = some (stAt om g dx (c + w * i + w))) :
    ∃ k, lim ≤ c + w * k ∧ c + w * k < lim + w ∧
    doWhile body (fun s => decide (s.bx < lim)) fuel (stAt om g dx c) = some (stAt om g dx (c + w * k)) := by
  refine ⟨(lim - c + w - 1) / w, ?_, ?_, ?_⟩
  · have := Nat.lt_mul_div_succ (lim - c + w - 1) hw
    have e : w * ((lim - c + w - 1) / w + 1) = w * ((lim - c + w - 1) / w) + w := by ring_nf
    omega
  · have := Nat.mul_div_le (lim - c + w - 1) w
    omega
  · have h1 := Nat.lt_mul_div_succ (lim - c + w - 1) hw
    have h2 := Nat.mul_div_le (lim - c + w - 1) w
    have e : w * ((lim - c + w - 1) / w + 1) = w * ((lim - c + w - 1) / w) + w := by ring_nf
    generalize hk : (lim - c + w - 1) / w = k at *
    have hk0 : 0 < k := by
      rcases Nat.eq_zero_or_pos k with h | h
      · subst h; omega
      · exact h
    have hkf : k ≤ fuel := by
      have : k - 1 ≤ w * (k - 1) := Nat.le_mul_of_pos_left _ hw
      have e2 : w * (k - 1) + w = w * k := by
        obtain ⟨j, rfl⟩ : ∃ j, k = j + 1 := ⟨k - 1, by omega⟩
        simp; ring_nf
      omega
    have := doWhile_run (body := body) (cond := fun s => decide (s.bx < lim))
      (fun i => stAt om g dx (c + w * i)) k fuel hk0 hkf ?_ ?_ ?_
    · simpa using this
    · intro i hi
      rw [hb, show c + w * (i + 1) = c + w * i + w by ring_nf]
    · intro i h0 hi
      have : w * i + w ≤ w * k := by
        have := Nat.mul_le_mul_left w (show i + 1 ≤ k by omega)
        rw [Nat.mul_succ] at this; exact this
      show decide (c + w * i < lim) = true
      rw [decide_eq_true_eq]; omega
    · show decide (c + w * k < lim) = false
      rw [decide_eq_false_iff_not]; omega

end Verif.Asm
