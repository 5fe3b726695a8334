import Verif.Asm.ToF32Lemmas
import Verif.Conv.ConvProps

/-!
# Properties C20 and C21: bounds and results of the amd64 byte-to-float conversions
-/

namespace Verif.Asm
open Verif.Conv
variable {F D : Type}

/-- Number of elements processed by a routine that first aligns with `h` single steps (`h = 0` when
aligned) and then works in blocks of 16 up to the rounded-down length. -/
def touched (n h : Nat) : Nat := if n ≤ 32 ∨ h = 0 then n else max n (16 * (n / 16) + h)

theorem touched_le_iff (n h : Nat) : touched n h ≤ n ↔ ¬ (32 < n ∧ n % 16 < h) := by
  unfold touched
  split <;> omega

theorem touched_ge (n h : Nat) : n ≤ touched n h := by
  unfold touched
  split <;> omega

theorem u8Stepper_st (o : FloatOps F D) (im : Nat → BitVec 8) (om : Nat → F) (dx c cx : Nat) :
    u8Stepper o im cx (stAt om (u8g o im) dx c) = some (stAt om (u8g o im) dx (max c cx)) := by
  unfold u8Stepper
  by_cases h : c ≥ cx
  · rw [if_pos (by simpa [stAt] using h)]; congr 2; omega
  · rw [if_neg (by simpa [stAt] using h)]
    obtain ⟨k, h1, h2, h3⟩ := run_loop om (u8g o im) dx c cx 1 (cx + 1) (by omega) (by omega) (by omega)
      (u8Step o im) (fun i => u8Step_st o im om dx _)
    rw [h3]; congr 2; omega

theorem i8Stepper_st (o : FloatOps F D) (im : Nat → BitVec 8) (om : Nat → F) (dx c cx : Nat) :
    i8Stepper o im cx (stAt om (i8g o im) dx c) = some (stAt om (i8g o im) dx (max c cx)) := by
  unfold i8Stepper
  by_cases h : c ≥ cx
  · rw [if_pos (by simpa [stAt] using h)]; congr 2; omega
  · rw [if_neg (by simpa [stAt] using h)]
    obtain ⟨k, h1, h2, h3⟩ := run_loop om (i8g o im) dx c cx 1 (cx + 1) (by omega) (by omega) (by omega)
      (i8Step o im) (fun i => i8Step_st o im om dx _)
    rw [h3]; congr 2; omega

theorem u8Aligned_st (o : FloatOps F D) (useSSE4 : Bool) (addr : Nat) (im : Nat → BitVec 8) (om : Nat → F)
    (dx c cx : Nat) (ha : (addr + 4 * c) % 16 = 0) (hc : c < 16) (hcx : 32 < cx) :
    u8Aligned o useSSE4 addr im cx (stAt om (u8g o im) dx c)
      = some (stAt om (u8g o im) dx (if c = 0 then cx else max cx (16 * (cx / 16) + c))) := by
  unfold u8Aligned
  rw [if_neg (by simp only [stAt]; omega)]
  obtain ⟨k, h1, h2, h3⟩ := run_loop om (u8g o im) dx c (cx - cx % 16) 16 (cx + 1) (by omega) (by omega)
    (by omega) (if useSSE4 then u8Sse4 o addr im else u8Sse2 o addr im) (fun i => by
      cases useSSE4
      · exact u8Sse2_st o im om dx _ addr (by omega)
      · exact u8Sse4_st o im om dx _ addr (by omega))
  rw [h3, Option.bind_some, u8Stepper_st]
  congr 2
  split <;> omega

theorem i8Aligned_st (o : FloatOps F D) (useSSE4 : Bool) (addr : Nat) (im : Nat → BitVec 8) (om : Nat → F)
    (dx c cx : Nat) (ha : (addr + 4 * c) % 16 = 0) (hc : c < 16) (hcx : 32 < cx) :
    i8Aligned o useSSE4 addr im cx (stAt om (i8g o im) dx c)
      = some (stAt om (i8g o im) dx (if c = 0 then cx else max cx (16 * (cx / 16) + c))) := by
  unfold i8Aligned
  rw [if_neg (by simp only [stAt]; omega)]
  obtain ⟨k, h1, h2, h3⟩ := run_loop om (i8g o im) dx c (cx - cx % 16) 16 (cx + 1) (by omega) (by omega)
    (by omega) (if useSSE4 then i8Sse4 o addr im else i8Sse2 o addr im) (fun i => by
      cases useSSE4
      · exact i8Sse2_st o im om dx _ addr (by omega)
      · exact i8Sse4_st o im om dx _ addr (by omega))
  rw [h3, Option.bind_some, i8Stepper_st]
  congr 2
  split <;> omega

/-- Number of single steps before the first aligned block, `Ui8tof32`. -/
def headU8 (addr : Nat) : Nat := if addr % 16 / 4 = 0 then 0 else 4 - addr % 16 / 4
/-- Number of single steps before the first aligned block, `I8tof32` (the source subtracts from
16 where 4 would be enough). -/
def headI8 (addr : Nat) : Nat := if addr % 16 / 4 = 0 then 0 else 16 - addr % 16 / 4

theorem ui8tof32Amd_run (o : FloatOps F D) (useSSE4 : Bool) (addr inLen outLen : Nat)
    (im : Nat → BitVec 8) (om : Nat → F) (ha : addr % 4 = 0) :
    ui8tof32Amd o useSSE4 addr inLen outLen im om
      = some (stAt om (u8g o im) 0 (touched (min inLen outLen) (headU8 addr))) := by
  unfold ui8tof32Amd
  have hm : (if outLen ≥ inLen then inLen else outLen) = min inLen outLen := by split <;> omega
  simp only [hm]
  generalize min inLen outLen = n
  rw [← stAt_zero om (u8g o im) 0]
  by_cases h32 : 32 ≥ n
  · rw [if_pos h32, u8Stepper_st]
    unfold touched; rw [if_pos (by omega), Nat.zero_max]
  · rw [if_neg h32]
    by_cases hs : addr % 16 / 4 = 0
    · rw [if_pos hs, u8Aligned_st o useSSE4 addr im om 0 0 n (by omega) (by omega) (by omega)]
      simp [touched, headU8, hs]
    · rw [if_neg hs]
      obtain ⟨k, h1, h2, h3⟩ := run_loop om (u8g o im) 0 0 (4 - addr % 16 / 4) 1 (n + 1) (by omega)
        (by omega) (by omega) (u8Step o im) (fun i => u8Step_st o im om 0 _)
      rw [h3, Option.bind_some, u8Aligned_st o useSSE4 addr im om 0 _ n (by omega) (by omega) (by omega)]
      have hh : headU8 addr = 0 + 1 * k := by unfold headU8; rw [if_neg hs]; omega
      rw [if_neg (by omega), hh]
      unfold touched
      rw [if_neg (by omega)]

theorem i8tof32Amd_run (o : FloatOps F D) (useSSE4 : Bool) (addr inLen outLen : Nat)
    (im : Nat → BitVec 8) (om : Nat → F) (ha : addr % 4 = 0) :
    i8tof32Amd o useSSE4 addr inLen outLen im om
      = some (stAt om (i8g o im) 0 (touched (min inLen outLen) (headI8 addr))) := by
  unfold i8tof32Amd
  have hm : (if inLen ≥ outLen then outLen else inLen) = min inLen outLen := by split <;> omega
  simp only [hm]
  generalize min inLen outLen = n
  by_cases h32 : 32 ≥ n
  · rw [if_pos h32, ← stAt_zero om (i8g o im) 0, i8Stepper_st]
    unfold touched; rw [if_pos (by omega), Nat.zero_max]
  · rw [if_neg h32]
    by_cases hs : addr % 16 / 4 = 0
    · rw [if_pos hs, ← stAt_zero om (i8g o im) 0,
        i8Aligned_st o useSSE4 addr im om 0 0 n (by omega) (by omega) (by omega)]
      simp [touched, headI8, hs]
    · rw [if_neg hs]
      have hl := doWhile_run (body := i8AlignStep o im) (cond := fun s => decide (s.dx ≠ 0))
        (fun i => stAt om (i8g o im) (16 - addr % 16 / 4 - i) i) (16 - addr % 16 / 4) (n + 1)
        (by omega) (by omega) ?_ ?_ ?_
      · rw [Nat.sub_zero] at hl
        rw [← stAt_zero om (i8g o im), hl, Option.bind_some, Nat.sub_self,
          i8Aligned_st o useSSE4 addr im om 0 _ n (by omega) (by omega) (by omega)]
        have hh : headI8 addr = 16 - addr % 16 / 4 := by unfold headI8; rw [if_neg hs]
        rw [if_neg (by omega), hh]
        unfold touched
        rw [if_neg (by omega)]
      · intro i hi
        simp only [i8AlignStep]
        rw [i8Step_st]
        rfl
      · intro i h0 hi
        show decide (16 - addr % 16 / 4 - i ≠ 0) = true
        rw [decide_eq_true_eq]; omega
      · simp [stAt]

/-! ## C20: `Ui8tof32` (and `Ui8toc64`) -/

/-- What C20 asks of a finished run: reads and writes stay below `n`, and the output memory is the
portable result. -/
def InBoundsAndPortable (s : Option (St F)) (n : Nat) (om : Nat → F) (g : Nat → F) : Prop :=
  ∃ t, s = some t ∧ t.rEnd ≤ n ∧ t.wEnd ≤ n ∧ t.om = fill om 0 n g

/-- C20, exact characterisation.  For a slice of floats (address a multiple of 4) the routine stays
inside its slices and agrees with the portable code unless the common length `n` exceeds 32, the
output is not aligned to 16 bytes, and `n mod 16` is smaller than the number of alignment steps. -/
theorem C20_ok_iff_partial (o : FloatOps F D) (useSSE4 : Bool) (addr inLen outLen : Nat)
    (im : Nat → BitVec 8) (om : Nat → F) (ha : addr % 4 = 0) :
    InBoundsAndPortable (ui8tof32Amd o useSSE4 addr inLen outLen im om) (min inLen outLen) om
        (fun i => o.ofInt (((im i).toNat : Int) - 128))
      ↔ ¬ (32 < min inLen outLen ∧ min inLen outLen % 16 < headU8 addr) := by
  rw [ui8tof32Amd_run o useSSE4 addr inLen outLen im om ha, ← touched_le_iff]
  constructor
  · rintro ⟨t, ht, _, hw, _⟩
    cases ht
    exact hw
  · intro h
    have e : touched (min inLen outLen) (headU8 addr) = min inLen outLen :=
      Nat.le_antisymm h (touched_ge _ _)
    exact ⟨_, rfl, h, h, by rw [e]; rfl⟩

/-- C20 is violated: in every remaining case the routine overruns both slices, by up to three
elements, and overwrites what follows the output with converted bytes following the input. -/
theorem C20_violated (o : FloatOps F D) (useSSE4 : Bool) (addr inLen outLen : Nat)
    (im : Nat → BitVec 8) (om : Nat → F) (ha : addr % 4 = 0)
    (h : 32 < min inLen outLen ∧ min inLen outLen % 16 < headU8 addr) :
    ∃ t, ui8tof32Amd o useSSE4 addr inLen outLen im om = some t ∧
      t.wEnd = min inLen outLen - min inLen outLen % 16 + headU8 addr ∧ t.rEnd = t.wEnd ∧
      min inLen outLen < t.wEnd ∧
      ∀ i, min inLen outLen ≤ i → i < t.wEnd → t.om i = o.ofInt (((im i).toNat : Int) - 128) := by
  have hT : touched (min inLen outLen) (headU8 addr)
      = min inLen outLen - min inLen outLen % 16 + headU8 addr := by
    unfold touched
    rw [if_neg (by omega)]; omega
  refine ⟨_, ui8tof32Amd_run o useSSE4 addr inLen outLen im om ha, hT, rfl, ?_, ?_⟩
  · show _ < touched _ _
    omega
  · intro i _ hi
    change i < touched _ _ at hi
    show fill om 0 _ (u8g o im) i = _
    have := fill_in (m := om) (b := 0) (g := u8g o im) hi
    rw [Nat.zero_add] at this
    exact this

/-- A slice of 33 floats starting 4 bytes past a 16-byte boundary: the routine writes element 34,
two past the end. -/
example : 1028 % 4 = 0 ∧ 32 < min 33 33 ∧ min 33 33 % 16 < headU8 1028 ∧
    touched (min 33 33) (headU8 1028) = 35 := by decide

/-- The same by running the model: memory after the slice is overwritten. -/
example : (ui8tof32Amd (F := Int) (D := Unit) ⟨id, fun _ => (), (· * ·), (· + ·), (· - ·), fun _ _ => (),
      fun _ => 0, fun _ => 0, fun _ => 0, id⟩ false 1028 33 33 (fun i => BitVec.ofNat 8 i) (fun _ => 999)).map
      (fun s => (s.om 32, s.om 33, s.om 34, s.om 35, s.rEnd)) = some (-96, -95, -94, 999, 35) := by
  decide +kernel

/-- Without the overrun: all lengths up to 32, and all aligned outputs. -/
theorem C20_safe_cases_partial (o : FloatOps F D) (useSSE4 : Bool) (addr inLen outLen : Nat)
    (im : Nat → BitVec 8) (om : Nat → F) (ha : addr % 4 = 0)
    (h : min inLen outLen ≤ 32 ∨ addr % 16 = 0) :
    InBoundsAndPortable (ui8tof32Amd o useSSE4 addr inLen outLen im om) (min inLen outLen) om
        (fun i => o.ofInt (((im i).toNat : Int) - 128)) := by
  rw [C20_ok_iff_partial o useSSE4 addr inLen outLen im om ha]
  rcases h with h | h
  · omega
  · simp [headU8, h]

/-- `Ui8toc64` inherits the overrun: here with `k` complex samples, 16 divides `2k`. -/
theorem C20_violated_ui8toc64 (o : FloatOps F D) (useSSE4 : Bool) (addr k : Nat)
    (im : Nat → BitVec 8) (om : Nat → F) (ha : addr % 4 = 0) (hna : addr % 16 ≠ 0) (hk : 16 < k)
    (hk8 : k % 8 = 0) :
    ∃ t, ui8toc64Amd o useSSE4 addr (2 * k) k im om = some t ∧ 2 * k < t.wEnd ∧ 2 * k < t.rEnd := by
  have hh : 0 < headU8 addr := by unfold headU8; split <;> omega
  have hm : min (2 * k - 2 * k % 2) (k * 2) = 2 * k := by omega
  obtain ⟨t, h1, _, h3, h4, _⟩ := C20_violated o useSSE4 addr (2 * k - 2 * k % 2) (k * 2) im om ha
    (by rw [hm]; omega)
  rw [hm] at h4
  exact ⟨t, h1, h4, by omega⟩

example : 1028 % 4 = 0 ∧ 1028 % 16 ≠ 0 ∧ 16 < 24 ∧ 24 % 8 = 0 := by decide

/-! ## C21: `I8tof32` -/

/-- C21, exact characterisation for `I8tof32`. -/
theorem C21_ok_iff_partial (o : FloatOps F D) (useSSE4 : Bool) (addr inLen outLen : Nat)
    (im : Nat → BitVec 8) (om : Nat → F) (ha : addr % 4 = 0) :
    InBoundsAndPortable (i8tof32Amd o useSSE4 addr inLen outLen im om) (min inLen outLen) om
        (fun i => o.ofInt (im i).toInt)
      ↔ ¬ (32 < min inLen outLen ∧ min inLen outLen % 16 < headI8 addr) := by
  rw [i8tof32Amd_run o useSSE4 addr inLen outLen im om ha, ← touched_le_iff]
  constructor
  · rintro ⟨t, ht, _, hw, _⟩
    cases ht
    exact hw
  · intro h
    have e : touched (min inLen outLen) (headI8 addr) = min inLen outLen :=
      Nat.le_antisymm h (touched_ge _ _)
    exact ⟨_, rfl, h, h, by rw [e]; rfl⟩

/-- C21 is violated: for unaligned outputs longer than 32 it overruns, by up to fifteen elements,
for all but one to three of the sixteen residues of the length. -/
theorem C21_violated (o : FloatOps F D) (useSSE4 : Bool) (addr inLen outLen : Nat)
    (im : Nat → BitVec 8) (om : Nat → F) (ha : addr % 4 = 0)
    (h : 32 < min inLen outLen ∧ min inLen outLen % 16 < headI8 addr) :
    ∃ t, i8tof32Amd o useSSE4 addr inLen outLen im om = some t ∧
      t.wEnd = min inLen outLen - min inLen outLen % 16 + headI8 addr ∧ t.rEnd = t.wEnd ∧
      min inLen outLen < t.wEnd ∧
      ∀ i, min inLen outLen ≤ i → i < t.wEnd → t.om i = o.ofInt (im i).toInt := by
  have hT : touched (min inLen outLen) (headI8 addr)
      = min inLen outLen - min inLen outLen % 16 + headI8 addr := by
    unfold touched
    rw [if_neg (by omega)]; omega
  refine ⟨_, i8tof32Amd_run o useSSE4 addr inLen outLen im om ha, hT, rfl, ?_, ?_⟩
  · show _ < touched _ _
    omega
  · intro i _ hi
    change i < touched _ _ at hi
    show fill om 0 _ (i8g o im) i = _
    have := fill_in (m := om) (b := 0) (g := i8g o im) hi
    rw [Nat.zero_add] at this
    exact this

/-- 64 samples into a slice 4 bytes past a boundary: 15 elements too many. -/
example : 1028 % 4 = 0 ∧ 32 < min 64 64 ∧ min 64 64 % 16 < headI8 1028 ∧
    touched (min 64 64) (headI8 1028) = 79 := by decide

theorem C21_safe_cases_partial (o : FloatOps F D) (useSSE4 : Bool) (addr inLen outLen : Nat)
    (im : Nat → BitVec 8) (om : Nat → F) (ha : addr % 4 = 0)
    (h : min inLen outLen ≤ 32 ∨ addr % 16 = 0) :
    InBoundsAndPortable (i8tof32Amd o useSSE4 addr inLen outLen im om) (min inLen outLen) om
        (fun i => o.ofInt (im i).toInt) := by
  rw [C21_ok_iff_partial o useSSE4 addr inLen outLen im om ha]
  rcases h with h | h
  · omega
  · simp [headI8, h]

example : (1024 : Nat) % 4 = 0 ∧ (1024 : Nat) % 16 = 0 := by decide

end Verif.Asm
