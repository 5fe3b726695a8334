import Verif.Asm.ToI16Model
import Verif.Asm.AsmLemmas
import Verif.Conv.ConvProps

/-!
# Property C22: the amd64 widening routines agree with the portable code
-/

namespace Verif.Asm
open Verif.Conv

/-- Byte `j` of the output. -/
def w16g (im : Nat → BitVec 8) (j : Nat) : BitVec 8 := im (j / 2) - 128#8

/-- State after `c` of `n` samples. -/
def st16 (im om : Nat → BitVec 8) (n ax c : Nat) : St16 :=
  ⟨c, 2 * c, n - c, ax, fill om 0 (2 * c) (w16g im), c, 2 * c⟩

theorem w16Step_st (im om : Nat → BitVec 8) (n ax c : Nat) :
    w16Step im (st16 im om n ax c) = some (st16 im om n ax (c + 1)) := by
  have u := fun i v hv => update_fill om 0 i (w16g im) v hv
  simp only [Nat.zero_add] at u
  have e1 : max c (c + 1) = c + 1 := by omega
  have e2 : max (2 * c) (2 * c + 2) = 2 * c + 2 := by omega
  simp only [w16Step, st16, e1, e2]
  rw [u (2 * c) _ (by rw [w16g, show 2 * c / 2 = c by omega]),
    u (2 * c + 1) _ (by rw [w16g, show (2 * c + 1) / 2 = c by omega])]
  congr 2

theorem storeX_fill (om : Nat → BitVec 8) (c : Nat) (g : Nat → BitVec 8) (x : Xmm)
    (h : ∀ k, k < 16 → x k = g (c + k)) :
    storeX (fill om 0 c g) c x = fill om 0 (c + 16) g := by
  funext a
  simp only [storeX, fill]
  by_cases h1 : c ≤ a ∧ a < c + 16
  · rw [if_pos h1, if_pos (by omega), h _ (by omega)]; congr 1; omega
  · rw [if_neg h1]
    by_cases h2 : a < c
    · rw [if_pos (by omega), if_pos (by omega)]
    · rw [if_neg (by omega), if_neg (by omega)]

theorem w16Block_st (aligned : Bool) (addr : Nat) (im om : Nat → BitVec 8) (n ax c : Nat)
    (ha : aligned = true → (addr + 2 * c) % 16 = 0) :
    w16Block aligned addr im (st16 im om n ax c) = some (st16 im om n ax (c + 32)) := by
  have e1 : max c (c + 32) = c + 32 := by omega
  have e2 : max (2 * c) (2 * c + 64) = 2 * c + 64 := by omega
  simp only [w16Block, st16, e1, e2]
  rw [if_neg (by
    cases aligned
    · simp
    · simp [ha rfl])]
  rw [storeX_fill _ _ (w16g im) (punpcklbw _), storeX_fill _ _ (w16g im) (punpckhbw _),
    storeX_fill _ _ (w16g im) (punpcklbw _), storeX_fill _ _ (w16g im) (punpckhbw _)]
  · congr 2
  all_goals intro k hk; simp only [punpcklbw, punpckhbw, psubb, w16g]
  · rw [show c + 16 + (8 + k / 2) = (2 * c + 48 + k) / 2 by omega]
  · rw [show c + 16 + k / 2 = (2 * c + 32 + k) / 2 by omega]
  · rw [show c + (8 + k / 2) = (2 * c + 16 + k) / 2 by omega]
  · rw [show c + k / 2 = (2 * c + k) / 2 by omega]

theorem w16Tail_st (im om : Nat → BitVec 8) (n ax c : Nat) (hc : c ≤ n) :
    w16Tail im (st16 im om n ax c) = some (st16 im om n ax n) := by
  unfold w16Tail
  by_cases h : n - c = 0
  · rw [if_pos (by simpa [st16] using h), show c = n by omega]
  · rw [if_neg (by simpa [st16] using h)]
    have := doWhile_run (body := w16Step im) (cond := fun s => decide (s.bx ≠ 0))
      (fun i => st16 im om n ax (c + i)) (n - c) (n - c + 1) (by omega) (by omega)
      (fun i _ => w16Step_st im om n ax _) ?_ ?_
    · rw [Nat.add_zero, show c + (n - c) = n by omega] at this
      exact this
    · intro i _ hi
      show decide (n - (c + i) ≠ 0) = true
      rw [decide_eq_true_eq]; omega
    · show decide (n - (c + (n - c)) ≠ 0) = false
      rw [decide_eq_false_iff_not]; omega

theorem w16Vec_st (aligned : Bool) (addr : Nat) (im om : Nat → BitVec 8) (n ax c : Nat) (hc : c ≤ n)
    (ha : aligned = true → (addr + 2 * c) % 16 = 0) :
    ∃ ax', w16Vec aligned addr im (st16 im om n ax c) = some (st16 im om n ax' n) := by
  unfold w16Vec
  by_cases h : (n - c) / 32 = 0
  · refine ⟨0, ?_⟩
    dsimp only
    rw [if_pos (by simpa [st16] using h)]
    have := w16Tail_st im om n 0 c hc
    rw [← this]
    simp only [st16, h]
  · refine ⟨0, ?_⟩
    dsimp only
    rw [if_neg (by simpa [st16] using h)]
    have := doWhile_run (body := fun s => (w16Block aligned addr im s).map decAx)
      (cond := fun s => decide (s.ax ≠ 0))
      (fun i => st16 im om n ((n - c) / 32 - i) (c + 32 * i)) ((n - c) / 32) ((n - c) / 32 + 1)
      (by omega) (by omega) ?_ ?_ ?_
    · simp only [Nat.mul_zero, Nat.add_zero, Nat.sub_zero, Nat.sub_self] at this
      have e : ({ st16 im om n ax c with ax := (st16 im om n ax c).bx / 32 } : St16)
          = st16 im om n ((n - c) / 32) c := rfl
      rw [e]
      show (doWhile _ _ ((n - c) / 32 + 1) _).bind _ = _
      rw [this, Option.bind_some, w16Tail_st _ _ _ _ _ (by omega)]
    · intro i hi
      rw [w16Block_st _ _ _ _ _ _ _ (fun h => by have := ha h; omega)]
      rfl
    · intro i _ hi
      show decide ((n - c) / 32 - i ≠ 0) = true
      rw [decide_eq_true_eq]; omega
    · show decide ((n - c) / 32 - (n - c) / 32 ≠ 0) = false
      rw [decide_eq_false_iff_not]; omega

theorem st16_zero (im om : Nat → BitVec 8) (n ax : Nat) : st16 im om n ax 0 = ⟨0, 0, n, ax, om, 0, 0⟩ := by
  simp [st16, fill_zero]

theorem ui8toi16Amd_run (addr inLen outLen : Nat) (im om : Nat → BitVec 8) (ha : addr % 2 = 0) :
    ∃ ax, ui8toi16Amd addr inLen outLen im om
      = some (st16 im om (min outLen inLen) ax (min outLen inLen)) := by
  unfold ui8toi16Amd
  have hm : (if outLen ≥ inLen then inLen else outLen) = min outLen inLen := by split <;> omega
  simp only [hm]
  generalize min outLen inLen = n
  by_cases h : 32 > n
  · rw [if_pos h, ← st16_zero im]
    exact ⟨_, w16Tail_st _ _ _ _ _ (by omega)⟩
  · rw [if_neg h]
    by_cases hz : addr % 16 = 0
    · rw [if_pos hz, ← st16_zero im]
      exact w16Vec_st _ _ _ _ _ _ _ (by omega) (fun _ => by omega)
    · rw [if_neg hz]
      have := doWhile_run (body := fun s => (w16Step im s).map decAx) (cond := fun s => decide (s.ax ≠ 0))
        (fun i => st16 im om n ((16 - addr % 16) / 2 - i) i) ((16 - addr % 16) / 2)
        ((16 - addr % 16) / 2 + 1) (by omega) (by omega) ?_ ?_ ?_
      · rw [Nat.sub_zero, Nat.sub_self] at this
        rw [← st16_zero im, this, Option.bind_some]
        exact w16Vec_st _ _ _ _ _ _ _ (by omega) (fun _ => by omega)
      · intro i hi
        rw [w16Step_st]; rfl
      · intro i _ hi
        show decide ((16 - addr % 16) / 2 - i ≠ 0) = true
        rw [decide_eq_true_eq]; omega
      · show decide ((16 - addr % 16) / 2 - (16 - addr % 16) / 2 ≠ 0) = false
        rw [decide_eq_false_iff_not]; omega

theorem w16g_octet (im : Nat → BitVec 8) (j : Nat) :
    w16g im j = octet (j % 2) (BitVec.ofInt 16 (widen (im (j / 2)).toNat)).toNat := by
  have h := widen_octets (im (j / 2))
  rcases Nat.mod_two_eq_zero_or_one j with e | e
  · rw [e, h.1]; rfl
  · rw [e, h.2]; rfl

/-- C22 for `Ui8toi16`: for every length and every (even) address of the 16-bit output slice, no
fault, accesses end exactly at the common length, and the output bytes are the little-endian bytes
of the portable results (`C14_ui8toi16`); nothing else changes. -/
theorem C22_ui8toi16 (addr inLen outLen : Nat) (im om : Nat → BitVec 8) (ha : addr % 2 = 0) :
    ∃ t, ui8toi16Amd addr inLen outLen im om = some t ∧ t.rEnd = min outLen inLen ∧
      t.wEnd = 2 * min outLen inLen ∧
      t.om = fill om 0 (2 * min outLen inLen)
        fun j => octet (j % 2) (BitVec.ofInt 16 (widen (im (j / 2)).toNat)).toNat := by
  obtain ⟨ax, h⟩ := ui8toi16Amd_run addr inLen outLen im om ha
  exact ⟨_, h, rfl, rfl, fill_congr fun i _ => w16g_octet im i⟩

/-- C22 for `Ui8toi16b`: the same at every address, odd ones included. -/
theorem C22_ui8toi16b (addr inLen outLen : Nat) (im om : Nat → BitVec 8) :
    ∃ t, ui8toi16bAmd addr inLen outLen im om = some t ∧ t.rEnd = min (outLen / 2) inLen ∧
      t.wEnd = 2 * min (outLen / 2) inLen ∧
      t.om = fill om 0 (2 * min (outLen / 2) inLen)
        fun j => octet (j % 2) (BitVec.ofInt 16 (widen (im (j / 2)).toNat)).toNat := by
  unfold ui8toi16bAmd
  by_cases h : addr % 2 = 0
  · simp only [if_pos h]
    exact C22_ui8toi16 addr inLen (outLen / 2) im om h
  · simp only [if_neg h]
    have hm : (if outLen / 2 ≥ inLen then inLen else outLen / 2) = min (outLen / 2) inLen := by
      split <;> omega
    rw [hm, ← st16_zero im]
    obtain ⟨ax, h⟩ := w16Vec_st false addr im om (min (outLen / 2) inLen) 0 0 (by omega) (by simp)
    exact ⟨_, h, rfl, rfl, fill_congr fun i _ => w16g_octet im i⟩

/-- An unaligned output with head, blocks and tail: address 6 modulo 16 and 75 samples. -/
example : (1030 : Nat) % 2 = 0 ∧
    (ui8toi16Amd 1030 75 80 (fun i => BitVec.ofNat 8 (3 * i)) (fun _ => 7)).map
      (fun s => ((s.om 0).toNat, (s.om 11).toNat, (s.om 149).toNat, (s.om 150).toNat, s.wEnd))
      = some (128, 143, 94, 7, 150) := by decide +kernel

end Verif.Asm
