import Verif.Arm.DownArmModel
import Verif.Arm.Arm32Props
import Verif.Down.DownProps
import Mathlib.Algebra.Notation.Prod

/-!
# Property C82: the 32-bit ARM decimating filters
-/

namespace Verif.Arm
open Verif.Conv Verif.Asm Verif.Down

variable {F σ : Type}

theorem whileDo_run {body : σ → Option σ} {cond : σ → Bool} (S : Nat → σ) (k fuel : Nat) (hf : k ≤ fuel)
    (hb : ∀ i, i < k → body (S i) = some (S (i + 1))) (hc : ∀ i, i < k → cond (S i) = true) (hl : cond (S k) = false) :
    whileDo body cond fuel (S 0) = some (S k) := by
  unfold whileDo
  rcases Nat.eq_zero_or_pos k with h | h
  · subst h
    rw [hl]
    rfl
  · rw [if_pos (hc 0 h)]
    exact doWhile_run S k fuel h hf hb (fun i _ hi => hc i hi) hl

theorem word_toInt32 (z : Int) (h1 : -2 ^ 31 ≤ z) (h2 : z < 2 ^ 31) : (BitVec.ofInt 32 z).toInt = z := by
  rw [BitVec.toInt_ofInt, Int.bmod_eq_of_le] <;> omega

/-- The filter as the portable code sees it. -/
def LPD32.portable (fi : LPD32 F) : LPD (F × F) := ⟨fi.downsample.toInt, (fi.re, fi.im), fi.prevIndex.toInt⟩
def LPR32.portable (fi : LPR32 F) : LPR F := ⟨fi.fast.toInt, fi.slow.toInt, fi.sum, fi.prevIndex.toInt⟩

/-- C82, complex filter: for every factor, every state but one (a counter of 2³¹ − 1, which the filter itself never
reaches) and every slice, the memory, the new state and the returned slice are those of the portable code, and the
new state again is not the excepted one. -/
theorem C82_complex [Add F] [Zero F] (fi : LPD32 F) (m : Nat → F × F) (s : Slice) (h : fi.prevIndex.toInt ≠ 2 ^ 31 - 1) :
    ∃ m' fi' out, complexFilterArm fi m s = some (m', fi', out) ∧ fi.portable.filter m s = some (m', fi'.portable, out) ∧
      fi'.prevIndex.toInt ≠ 2 ^ 31 - 1 ∧ fi'.downsample = fi.downsample := by
  let stt := fun i => after fi.downsample.toInt 1 (fun _ => 0) id (fi.re, fi.im) fi.prevIndex.toInt ((contents m s).take i)
  have hlen : ∀ i, (stt i).2.2.length ≤ i := by
    intro i
    refine (push_len _ _ _ _ _ _).trans ?_
    simp
  have hs : ∀ i, i < s.len → stt (i + 1) = push fi.downsample.toInt 1 (fun _ => 0) id (stt i) (m (s.base + i)) := by
    intro i hi
    simp only [stt, after]
    rw [contents_take_succ m s i hi, List.foldl_append]
    rfl
  have hD1 := BitVec.toInt_lt (x := fi.downsample)
  have hD0 := BitVec.le_toInt (x := fi.downsample)
  have hP1 := BitVec.toInt_lt (x := fi.prevIndex)
  have hP0 := BitVec.le_toInt (x := fi.prevIndex)
  have hr : ∀ i, i ≤ s.len → -2 ^ 31 ≤ (stt i).2.1 ∧ (stt i).2.1 < 2 ^ 31 - 1 := by
    intro i; induction i with
    | zero =>
      intro _
      simp only [stt, List.take_zero, after, List.foldl_nil]
      omega
    | succ i ih =>
      intro hi
      have := ih (by omega)
      rw [hs i hi, push]
      split
      · simp only; omega
      · simp
  have hz0 : stt 0 = ((fi.re, fi.im), fi.prevIndex.toInt, []) := by simp [stt, after]
  have hov : overwrite m s.base [] = m := by funext a; simp [overwrite]
  let S : Nat → StD F := fun i => ⟨s.len - i, s.base + i, s.base + (stt i).2.2.length, BitVec.ofInt 32 (stt i).2.1, (stt i).1.1, (stt i).1.2,
    overwrite m s.base (stt i).2.2⟩
  have run := whileDo_run (body := complexBody fi.downsample) (cond := fun s => decide (s.r2 ≠ 0)) S s.len (s.len + 1) (by omega)
    (by
      intro i hi
      have hli := hlen i
      have hri := hr i (by omega)
      simp only [S, complexBody]
      rw [hs i hi, overwrite_beyond _ _ _ _ hli, show BitVec.ofInt 32 (stt i).2.1 + 1#32 = BitVec.ofInt 32 ((stt i).2.1 + 1) by rw [BitVec.ofInt_add]; rfl,
        BitVec.slt, word_toInt32 _ (by omega) (by omega)]
      generalize stt i = q at *
      by_cases hq : q.2.1 + 1 < fi.downsample.toInt
      · rw [if_pos (by simpa using hq), push, if_pos hq]
        rw [Nat.sub_add_eq, Nat.add_assoc]
        rfl
      · rw [if_neg (by simpa using hq), push, if_neg hq, overwrite_snoc, Nat.sub_add_eq, Nat.add_assoc]
        simp only [List.length_append, List.length_singleton, Nat.add_assoc]
        rfl)
    (fun i hi => by simp only [S, ne_eq, decide_not, Bool.not_eq_true', decide_eq_false_iff_not]; omega)
    (by simp [S])
  have hS0 : S 0 = ⟨s.len, s.base, s.base, fi.prevIndex, fi.re, fi.im, m⟩ := by
    simp only [S, hz0, hov]
    simp
  refine ⟨overwrite m s.base (stt s.len).2.2, { fi with re := (stt s.len).1.1, im := (stt s.len).1.2, prevIndex := BitVec.ofInt 32 (stt s.len).2.1 },
    ⟨s.base, (stt s.len).2.2.length⟩, ?_, ?_, ?_, rfl⟩
  · unfold complexFilterArm
    rw [← hS0, run, Option.map_some]
    simp only [S, Nat.add_sub_cancel_left]
  · have e : stt s.len = after fi.downsample.toInt 1 (fun _ => 0) id (fi.re, fi.im) fi.prevIndex.toInt (contents m s) := by
      simp only [stt]
      rw [List.take_of_length_le (by rw [contents_length])]
    have hrl := hr s.len (Nat.le_refl _)
    rw [LPD.filter_eq]
    simp only [LPD32.portable]
    rw [← e, word_toInt32 _ (by omega) (by omega)]
  · have hrl := hr s.len (Nat.le_refl _)
    show (BitVec.ofInt 32 (stt s.len).2.1).toInt ≠ _
    rw [word_toInt32 _ (by omega) (by omega)]
    omega

/-- C82, rational filter (partial: the samples must lie in one half of the address space): at rates
0 ≤ slow ≤ fast, fast + slow ≤ 2³¹, with a phase below `fast`, the memory, the new state and the length of the
returned slice are those of the portable code, and the new phase again is below `fast`. -/
theorem C82_rational_partial [Add F] [Mul F] [Div F] [Zero F] (conv : Int → F) (fi : LPR32 F) (m : Nat → F) (b n : Nat)
    (hb : OneHalf (4 * b) 4 n) (h0 : 0 ≤ fi.slow.toInt) (h1 : fi.slow.toInt ≤ fi.fast.toInt) (h2 : fi.fast.toInt + fi.slow.toInt ≤ 2 ^ 31)
    (hp : fi.prevIndex.toInt < fi.fast.toInt) :
    ∃ m' fi' k, rationalFilterArm conv fi m (BitVec.ofNat 32 (4 * b)) n = some (m', fi', k) ∧
      fi.portable.filter conv m ⟨b, n⟩ = some (m', fi'.portable, ⟨b, k⟩) ∧
      fi'.prevIndex.toInt < fi'.fast.toInt ∧ fi'.fast = fi.fast ∧ fi'.slow = fi.slow := by
  let r := conv fi.slow.toInt / conv fi.fast.toInt
  let stt := fun i => after fi.fast.toInt fi.slow.toInt (· - fi.fast.toInt) (· * r) fi.sum fi.prevIndex.toInt ((contents m ⟨b, n⟩).take i)
  have hlen : ∀ i, (stt i).2.2.length ≤ i := by
    intro i
    refine (push_len _ _ _ _ _ _).trans ?_
    simp
  have hs : ∀ i, i < n → stt (i + 1) = push fi.fast.toInt fi.slow.toInt (· - fi.fast.toInt) (· * r) (stt i) (m (b + i)) := by
    intro i hi
    simp only [stt, after]
    rw [contents_take_succ m ⟨b, n⟩ i hi, List.foldl_append]
    rfl
  have hP0 := BitVec.le_toInt (x := fi.prevIndex)
  have hr : ∀ i, i ≤ n → -2 ^ 31 ≤ (stt i).2.1 ∧ (stt i).2.1 < fi.fast.toInt := by
    intro i; induction i with
    | zero =>
      intro _
      simp only [stt, List.take_zero, after, List.foldl_nil]
      omega
    | succ i ih =>
      intro hi
      have := ih (by omega)
      rw [hs i hi, push]
      split
      · simp only; omega
      · simp only; omega
  have hz0 : stt 0 = (fi.sum, fi.prevIndex.toInt, []) := by simp [stt, after]
  have hov : overwrite m b [] = m := by funext a; simp [overwrite]
  have hbn : 4 * b + 4 * n < 2 ^ 32 := by unfold OneHalf at hb; omega
  let S : Nat → StQ F := fun i => ⟨BitVec.ofNat 32 (4 * b + 4 * i), BitVec.ofNat 32 (4 * b + 4 * (stt i).2.2.length), BitVec.ofInt 32 (stt i).2.1,
    (stt i).1, overwrite m b (stt i).2.2⟩
  have hcond : ∀ i, i ≤ n → (S i).r5.slt (BitVec.ofNat 32 (4 * b + 4 * n)) = decide (i < n) := by
    intro i hi
    show (BitVec.ofNat 32 (4 * b + 4 * i)).slt _ = _
    rw [addr_slt _ _ (by omega) hbn]
    congr 1
    apply propext
    unfold OneHalf at hb
    omega
  have run := whileDo_run (body := rationalBody r fi.slow fi.fast) (cond := fun s => s.r5.slt (BitVec.ofNat 32 (4 * b + 4 * n))) S n (n + 1) (by omega)
    (by
      intro i hi
      have hli := hlen i
      have hri := hr i (by omega)
      simp only [S, rationalBody, plus_ofNat]
      rw [addr_toNat _ (by omega), addr_toNat _ (by omega), show (4 * b + 4 * i) / 4 = b + i by omega,
        show (4 * b + 4 * (stt i).2.2.length) / 4 = b + (stt i).2.2.length by omega, hs i hi, overwrite_beyond _ _ _ _ hli]
      have e1 : BitVec.ofInt 32 (stt i).2.1 + fi.slow = BitVec.ofInt 32 ((stt i).2.1 + fi.slow.toInt) := by
        rw [BitVec.ofInt_add, BitVec.ofInt_toInt]
      have e2 : BitVec.ofInt 32 ((stt i).2.1 + fi.slow.toInt) - fi.fast = BitVec.ofInt 32 ((stt i).2.1 + fi.slow.toInt - fi.fast.toInt) := by
        apply BitVec.eq_of_toInt_eq
        rw [BitVec.toInt_sub, word_toInt32 _ (by omega) (by omega), BitVec.toInt_ofInt]
      rw [e1, e2, BitVec.slt, word_toInt32 _ (by omega) (by omega)]
      generalize stt i = q at *
      by_cases hq : q.2.1 + fi.slow.toInt < fi.fast.toInt
      · rw [if_pos (by simpa using hq), push, if_pos hq, Nat.add_assoc]
        rfl
      · rw [if_neg (by simpa using hq), push, if_neg hq, overwrite_snoc]
        simp only [List.length_append, List.length_singleton, Nat.mul_add, Nat.add_assoc])
    (fun i hi => by rw [hcond i (by omega), decide_eq_true_eq]; exact hi)
    (by rw [hcond n (Nat.le_refl _), decide_eq_false_iff_not]; omega)
  have hS0 : S 0 = ⟨BitVec.ofNat 32 (4 * b), BitVec.ofNat 32 (4 * b), fi.prevIndex, fi.sum, m⟩ := by
    simp only [S, hz0, hov]
    simp
  have hln := hlen n
  have hrn := hr n (Nat.le_refl _)
  refine ⟨overwrite m b (stt n).2.2, { fi with sum := (stt n).1, prevIndex := BitVec.ofInt 32 (stt n).2.1 }, (stt n).2.2.length, ?_, ?_, ?_, rfl, rfl⟩
  · unfold rationalFilterArm
    simp only [plus_ofNat]
    rw [← hS0, run, Option.map_some]
    simp only [S]
    have e : ((BitVec.ofNat 32 (4 * b + 4 * (stt n).2.2.length) - BitVec.ofNat 32 (4 * b)) >>> 2).toNat = (stt n).2.2.length := by
      rw [BitVec.toNat_ushiftRight, BitVec.toNat_sub, addr_toNat _ (by omega), addr_toNat _ (by omega), Nat.shiftRight_eq_div_pow]
      omega
    rw [e]
  · have e : stt n = after fi.fast.toInt fi.slow.toInt (· - fi.fast.toInt) (· * r) fi.sum fi.prevIndex.toInt (contents m ⟨b, n⟩) := by
      simp only [stt]
      rw [List.take_of_length_le (by rw [contents_length])]
    rw [LPR.filter_eq]
    simp only [LPR32.portable]
    rw [← e, word_toInt32 _ (by omega) (by omega)]
  · show (BitVec.ofInt 32 (stt n).2.1).toInt < _
    rw [word_toInt32 _ (by omega) (by omega)]
    exact hrn.2

/-- C82 is violated when the samples go across address 2³¹: no sample is looked at, the state stays as it was and
the returned slice is empty, for all samples and rates. -/
theorem C82_violated_rational [Add F] [Mul F] [Div F] [Zero F] (conv : Int → F) (fi : LPR32 F) (m : Nat → F) (b n : Nat)
    (h1 : 4 * b < 2 ^ 31) (h2 : 2 ^ 31 ≤ 4 * b + 4 * n) (h3 : 4 * b + 4 * n < 2 ^ 32) :
    rationalFilterArm conv fi m (BitVec.ofNat 32 (4 * b)) n = some (m, fi, 0) := by
  unfold rationalFilterArm whileDo
  simp only [plus_ofNat]
  rw [addr_slt _ _ (by omega) h3, if_neg]
  · simp
  · rw [decide_eq_true_eq]
    omega

/-- The portable code on the same samples with `slow = fast` returns all of them, scaled. -/
example : (rationalFilterArm (fun z => (z : Int)) ⟨1, 1, 0, 0⟩ (fun _ => 5) (BitVec.ofNat 32 (4 * 0x1ffffffe)) 4).map (fun r => r.2.2) = some 0 ∧
    ((LPR32.portable ⟨1, 1, (0 : Int), 0⟩).filter (fun z => z) (fun _ => 5) ⟨0x1ffffffe, 4⟩).map (fun r => r.2.2.len) = some 4 := by
  decide +kernel
example : (rationalFilterArm (fun z => (z : Int)) ⟨3, 2, 0, 0⟩ (fun i => (i : Int)) 0x100 5).map (fun r => (r.1 64, r.1 65, r.1 66, r.2.1.prevIndex, r.2.2))
    = some (0, 0, 0, 1, 3) := by decide +kernel
example : OneHalf (4 * 64) 4 5 ∧ (0 : Int) ≤ (2#32).toInt ∧ (2#32).toInt ≤ (3#32).toInt ∧ (3#32).toInt + (2#32).toInt ≤ 2 ^ 31 ∧ (0#32).toInt < (3#32).toInt := by
  unfold OneHalf; decide
example : (complexFilterArm ⟨3, (0 : Int), 0, 1⟩ (fun i => ((i : Int), 1)) ⟨10, 6⟩).map (fun r => ((r.1 10).1, (r.1 11).1, (r.1 12).1, r.2.1.re, r.2.1.prevIndex, r.2.2.len))
    = some (21, 39, 12, 15, 1, 2) := by decide +kernel

end Verif.Arm
