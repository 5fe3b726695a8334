import Verif.Arm.RotArmModel
import Verif.Arm.Arm32Props
import Verif.Rot.RotProps

/-!
# Property C86: the quarter-turn filters on 32-bit ARM, wherever the slice lies
-/

namespace Verif.Arm
open Verif.Rot Verif.Asm Verif.Conv

theorem armTurned_zero (g : (Fin 6 → W) → Fin 6 → W) (m : Nat → W) (p : Nat) : armTurned g m p 0 = m :=
  funext fun a => armTurned_keep g m p 0 a (by omega)

theorem six_armTurned (g : (Fin 6 → W) → Fin 6 → W) (m : Nat → W) (p t : Nat) :
    six g (armTurned g m p t) (p + 8 * t + 2) = armTurned g m p (t + 1) := by
  funext a
  by_cases hc : p + 8 * t + 2 ≤ a ∧ a < p + 8 * t + 2 + 6
  · obtain ⟨k, rfl⟩ := Nat.exists_eq_add_of_le hc.1
    have hk : k < 6 := by omega
    rw [six_in g _ _ ⟨k, hk⟩]
    have e : p + 8 * t + 2 + k = p + (8 * t + (((⟨k, hk⟩ : Fin 6) : Nat) + 2)) := by simp only; omega
    rw [e, armTurned_in g m p _ t ⟨k, hk⟩ (by omega)]
    congr 1
    funext i
    exact armTurned_keep g m p t _ (by omega)
  · rw [six_out g _ _ _ hc]
    unfold armTurned
    by_cases h1 : p ≤ a ∧ a < p + 8 * t
    · rw [if_pos h1, if_pos (by omega)]
    · rw [if_neg h1]
      by_cases h2 : p ≤ a ∧ a < p + 8 * (t + 1)
      · rw [if_pos h2, dif_neg (by omega)]
      · rw [if_neg h2]

/-- The loop turns `reached` groups. -/
theorem rotLoop_run (g : (Fin 6 → W) → Fin 6 → W) (m : Nat → W) (q t fuel : Nat) (ht : 0 < t) (hf : t ≤ fuel) (hp : 4 * q + 32 * t < 2 ^ 32) :
    doWhile (rotStep32 g) (fun s => s.r8.slt (Addr.plus (BitVec.ofNat 32 (4 * q)) (32 * t))) fuel ⟨BitVec.ofNat 32 (4 * q), m⟩ =
      some ⟨BitVec.ofNat 32 (4 * q + 32 * reached (4 * q) 32 0 1 t), armTurned g m q (reached (4 * q) 32 0 1 t)⟩ := by
  let S : Nat → StRot := fun x => ⟨BitVec.ofNat 32 (4 * q + 32 * x), armTurned g m q x⟩
  have h0 : (⟨BitVec.ofNat 32 (4 * q), m⟩ : StRot) = S 0 := by
    show _ = (⟨_, _⟩ : StRot)
    rw [armTurned_zero]
    rfl
  rw [h0]
  refine signedLoop (adr := StRot.r8) S (4 * q) 32 0 1 t fuel (by omega) (fun x => rfl) hp (by omega) ht ⟨t, by omega⟩ (by omega) ?_ _ (plus_ofNat _ _)
  intro x _ hx
  show some _ = some _
  refine congrArg some ?_
  show (⟨_, _⟩ : StRot) = ⟨_, _⟩
  congr 1
  · show Addr.plus (Addr.plus (BitVec.ofNat 32 _) 8) 24 = _
    rw [plus_ofNat, plus_ofNat]
    congr 1
  · show six g (armTurned g m q x) ((Addr.plus (BitVec.ofNat 32 _) 8).toNat / 4) = _
    rw [plus_ofNat, addr_toNat _ (by omega), show (4 * q + 32 * x + 8) / 4 = q + 8 * x + 2 by omega]
    exact six_armTurned g m q x

/-- The groups of four samples that are turned: those the loop reaches. -/
def groups (q len : Nat) : Nat := if len / 4 = 0 then 0 else reached (4 * q) 32 0 1 (len / 4)

theorem rotate90Arm32_eq (m : Nat → W) (q len : Nat) (hp : 4 * q + 8 * len < 2 ^ 32) :
    rotate90Arm32 m (BitVec.ofNat 32 (4 * q)) len = some (armTurned turnF m q (groups q len)) := by
  unfold rotate90Arm32 groups
  by_cases hz : len / 4 = 0
  · rw [if_pos hz, armTurned_zero]
    dsimp only
    rw [if_pos (by omega)]
  · rw [if_neg hz]
    dsimp only
    rw [if_neg (by omega), show 8 * (len - len % 4) = 32 * (len / 4) by omega, rotLoop_run _ _ _ _ _ (by omega) (by omega) (by omega)]
    rfl

/-- Four times `t` samples are turned. -/
theorem armTurned_rot (m : Nat → W) (q t n : Nat) (hn : n < 4 * t) : pairAt (armTurned turnF m q t) q n = @rot W flip n (pairAt m q n) := by
  have e : armTurned turnF m q t = rotate90Arm m q (4 * t) := by
    rw [rotate90Arm]
    rw [if_neg (by omega), show t = (t - 1) + 1 by omega]
    exact (armLoop_eq turnF _ m q _ (by omega) (by omega)).symm
  rw [e]
  exact (C52_complex64_partial m q (4 * t)).1 n (by omega)

/-- C86, `complex64`: wherever the slice lies, sample `n` of the first `4 * groups` is multiplied by `i^n` and no other
word is changed. -/
theorem C86_turned (m : Nat → W) (q len : Nat) (hp : 4 * q + 8 * len < 2 ^ 32) :
    ∃ m', rotate90Arm32 m (BitVec.ofNat 32 (4 * q)) len = some m' ∧
      (∀ n < 4 * groups q len, pairAt m' q n = @rot W flip n (pairAt m q n)) ∧
      ∀ a, ¬(q ≤ a ∧ a < q + 8 * groups q len) → m' a = m a :=
  ⟨_, rotate90Arm32_eq m q len hp, fun n hn => armTurned_rot m q _ n hn, fun _ ha => if_neg ha⟩

/-- C86 (partial: see `C86_violated`): a slice that does not go from the lower half of the address space into the upper
half, except within its first four samples, has its first `len - len % 4` samples turned and nothing else changed. -/
theorem C86_complex64_partial (m : Nat → W) (q len : Nat) (hp : 4 * q + 8 * len < 2 ^ 32)
    (h : 4 * q + 8 * (len - len % 4) < 2 ^ 31 ∨ 2 ^ 31 ≤ 4 * q + 32) :
    ∃ m', rotate90Arm32 m (BitVec.ofNat 32 (4 * q)) len = some m' ∧
      (∀ n < len - len % 4, pairAt m' q n = @rot W flip n (pairAt m q n)) ∧
      ∀ a, ¬(q ≤ a ∧ a < q + 2 * (len - len % 4)) → m' a = m a := by
  have e : groups q len = len / 4 := by
    unfold groups reached
    split
    · omega
    · rw [if_neg (by omega)]
  obtain ⟨m', h1, h2, h3⟩ := C86_turned m q len hp
  rw [e] at h2 h3
  exact ⟨m', h1, fun n hn => h2 n (by omega), fun a ha => h3 a (by omega)⟩

theorem flip_ne (x : W) : x ^^^ 0x80000000#32 ≠ x := by
  intro h
  have := congrArg (fun v : W => v.getLsbD 31) h
  simp at this

/-- C86 does not hold: if the slice goes on into the upper half of the address space and its first four samples do not
reach it, every sample from the fifth on is left as it was; sample 6, for one, is then wrong whatever it is. -/
theorem C86_violated (m : Nat → W) (q len : Nat) (hp : 4 * q + 8 * len < 2 ^ 32) (h1 : 4 * q + 32 < 2 ^ 31)
    (h2 : 2 ^ 31 ≤ 4 * q + 8 * (len - len % 4)) :
    ∃ m', rotate90Arm32 m (BitVec.ofNat 32 (4 * q)) len = some m' ∧ (∀ n, 4 ≤ n → pairAt m' q n = pairAt m q n) ∧
      6 < len ∧ pairAt m' q 6 ≠ @rot W flip 6 (pairAt m q 6) := by
  have e : groups q len = 1 := by
    unfold groups reached
    rw [if_neg (by omega), if_pos (by omega)]
  obtain ⟨m', g1, -, g3⟩ := C86_turned m q len hp
  rw [e] at g3
  have g4 : ∀ n, 4 ≤ n → pairAt m' q n = pairAt m q n := by
    intro n hn
    unfold pairAt
    rw [g3 _ (by omega), g3 _ (by omega)]
  refine ⟨m', g1, g4, by omega, ?_⟩
  rw [g4 6 (by omega), @rot_2 W flip 6 (by omega)]
  intro h
  exact flip_ne _ (congrArg Prod.fst h).symm

/-- C86, `int32`, for lengths the portable code accepts: the words of the groups reached are those of the model with
unbounded addresses (C52), no other word is changed. -/
theorem C86_i32_partial (m : Nat → W) (q len : Nat) (hp : 4 * q + 4 * len < 2 ^ 32) (h8 : len % 8 = 0)
    (h : 4 * q + 4 * len < 2 ^ 31 ∨ 2 ^ 31 ≤ 4 * q + 32) :
    i32Rotate90Arm32 m (BitVec.ofNat 32 (4 * q)) len = some (i32Rotate90Arm m q len) := by
  unfold i32Rotate90Arm32
  by_cases hz : len = 0
  · subst hz
    rfl
  · dsimp only
    rw [if_neg (by omega), i32Arm_eq m q len (by omega), show 4 * (len - len % 4) = 32 * (len / 8) by omega,
      rotLoop_run _ _ _ _ _ (by omega) (by omega) (by omega), reached, if_neg (by omega), show (len - len % 4 + 7) / 8 = len / 8 by omega]
    rfl

/-- C86, `int32`: across the boundary everything after the first eight words is left as it was. -/
theorem C86_violated_i32 (m : Nat → W) (q len : Nat) (hp : 4 * q + 4 * len < 2 ^ 32) (h8 : len % 8 = 0) (h1 : 4 * q + 32 < 2 ^ 31)
    (h2 : 2 ^ 31 ≤ 4 * q + 4 * len) :
    ∃ m', i32Rotate90Arm32 m (BitVec.ofNat 32 (4 * q)) len = some m' ∧ ∀ a, q + 8 ≤ a → m' a = m a := by
  refine ⟨armTurned turnI m q 1, ?_, fun a ha => if_neg (by omega)⟩
  unfold i32Rotate90Arm32
  dsimp only
  rw [if_neg (by omega), show 4 * (len - len % 4) = 32 * (len / 8) by omega,
    rotLoop_run _ _ _ _ _ (by omega) (by omega) (by omega), reached, if_pos (by omega)]
  rfl

/-- A slice of 16 samples at 0x7fffffc0. -/
example (m : Nat → W) : ∃ m', rotate90Arm32 m 0x7fffffc0#32 16 = some m' ∧ pairAt m' 0x1ffffff0 6 = pairAt m 0x1ffffff0 6 := by
  obtain ⟨m', h1, h2, -⟩ := C86_violated m 0x1ffffff0 16 (by norm_num) (by norm_num) (by norm_num)
  exact ⟨m', h1, h2 6 (by omega)⟩
/-- The same slice 32 bytes further on is treated correctly, though it lies in both halves. -/
example (m : Nat → W) : ∃ m', rotate90Arm32 m 0x7fffffe0#32 16 = some m' ∧ pairAt m' 0x1ffffff8 6 = @rot W flip 6 (pairAt m 0x1ffffff8 6) := by
  obtain ⟨m', h1, h2, -⟩ := C86_complex64_partial m 0x1ffffff8 16 (by norm_num) (by norm_num)
  exact ⟨m', h1, h2 6 (by omega)⟩
example (m : Nat → W) : i32Rotate90Arm32 m 0x1000#32 16 = some (i32Rotate90Arm m 0x400 16) :=
  C86_i32_partial m 0x400 16 (by norm_num) (by norm_num) (by norm_num)

end Verif.Arm
