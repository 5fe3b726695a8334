import Verif.A64.VScaleLemmas
import Verif.Arm.Arm64Props

/-!
# What `VMaxF32` and `VMinF32` on arm64 compute

The closed form of the structured model `Arm.vExtremeArm64` (C80), and lemmas for the two runs.
-/

namespace Verif.A64.Math
open Verif.A64 Verif.Mach Verif.Asm Verif.Arm
open Verif.X86 (d32)
open Verif.X86.Conv (u32at)

/-- Number `i` of the slice. -/
def word (m0 : BitVec 64 → BitVec 8) (ib : BitVec 64) (i : Nat) : BitVec 32 := u32at m0 (ib + BitVec.ofNat 64 (4 * i))

/-- Position `k` of `n`. -/
structure At (m0 : BitVec 64 → BitVec 8) (ib : BitVec 64) (n : Nat) (f0 : Nat → BitVec 64) (k : Nat) (s : St) : Prop where
  x0 : s.x 0 = ib + BitVec.ofNat 64 (4 * k)
  x1 : s.x 1 = BitVec.ofNat 64 (n - k)
  fp : s.fp = f0
  mem : s.mem = m0

/-- The four lanes of register `r`. -/
def Lanes (r : Nat) (a : Nat → BitVec 32) (s : St) : Prop := ∀ l < 4, d32 (s.v r) l = a l

theorem load_at {rd : BitVec 64 → Bool} {m0 mem : BitVec 64 → BitVec 8} (hm : mem = m0) {ib : BitVec 64} {n : Nat}
    (hr : ∀ i < 4 * n, rd (ib + BitVec.ofNat 64 i) = true) {a : BitVec 64} {k len : Nat} (ha : a = ib + BitVec.ofNat 64 k) (hk : k + len ≤ 4 * n) :
    load rd mem a len = some (inp m0 ib k len) := by
  unfold Mach.load inp
  rw [ha, if_pos (allBytes_of fun i hi => hr _ (by omega)), hm]
  congr 1
  funext i
  split
  · rw [adv]
  · rfl

variable {F : Type}

/-- Register `v0` after a block. -/
def next0 (op : F → F → F) (im : Nat → F) (k : Nat) (a : Nat → F) : Nat → F := fun l => op (op (a l) (im (k + l))) (im (k + 4 + l))
/-- Register `v7` after a block. -/
def next7 (op : F → F → F) (im : Nat → F) (k : Nat) (a : Nat → F) : Nat → F := fun l => op (op (a l) (im (k + 8 + l))) (im (k + 12 + l))

/-- Both registers after `j` blocks. -/
def accs (op : F → F → F) (im : Nat → F) : Nat → (Nat → F) × (Nat → F)
  | 0 => (fun l => im l, fun l => im (4 + l))
  | j + 1 => (next0 op im (8 + 16 * j) (accs op im j).1, next7 op im (8 + 16 * j) (accs op im j).2)

/-- Both registers at position `k`. -/
def accu (op : F → F → F) (im : Nat → F) (k : Nat) : (Nat → F) × (Nat → F) := accs op im ((k - 8) / 16)

theorem accu_succ (op : F → F → F) (im : Nat → F) {k : Nat} (h8 : k % 16 = 8) :
    accu op im (k + 16) = (next0 op im k (accu op im k).1, next7 op im k (accu op im k).2) := by
  unfold accu
  rw [show (k + 16 - 8) / 16 = (k - 8) / 16 + 1 by omega, accs, show 8 + 16 * ((k - 8) / 16) = k by omega]

/-- The scalar loop: `j` elements from position `c`. -/
def tail (op : F → F → F) (im : Nat → F) (y : F) (c : Nat) : Nat → F
  | 0 => y
  | j + 1 => op (im (c + j)) (tail op im y c j)

/-- Where the vector loop stops. -/
def stop (n : Nat) : Nat := 8 + 16 * ((n - 8) / 16)

/-- The result. -/
def result (op : F → F → F) (init : F) (n : Nat) (im : Nat → F) : F :=
  if n < 24 then tail op im init 0 (n - 0)
  else tail op im (op (Arm.across op (accu op im (stop n)).1) (Arm.across op (accu op im (stop n)).2)) (stop n) (n - stop n)

theorem scalar_eq (op : F → F → F) (im : Nat → F) {n c : Nat} (hc : c ≤ n) (y : F) :
    vxScalar64 op im (n + 1) (y, c, n - c) = some (tail op im y c (n - c)) := by
  unfold vxScalar64
  split
  · rename_i h
    simp only at h
    simp only
    rw [h, tail]
  · rename_i h
    simp only at h
    have := doWhile_steps (body := vxStep64 op im) (cond := fun s => decide (s.2.2 ≠ 0)) (fun x => (tail op im y c (x - c), x, n - x)) 1 c n (n + 1)
      (by omega) (by omega) (by simp) (by omega)
      (fun x h1 h2 => by
        unfold vxStep64
        simp only
        rw [show x + 1 - c = (x - c) + 1 by omega, tail, show c + (x - c) = x by omega, Nat.sub_sub])
      (fun x h1 h2 _ => by
        rw [decide_eq_decide]
        simp only
        omega)
    simp only [Nat.sub_self, tail] at this
    rw [this]
    rfl

theorem result_eq (op : F → F → F) (init : F) (n : Nat) (im : Nat → F) : vExtremeArm64 op init n im = some (result op init n im) := by
  unfold vExtremeArm64 result
  split
  · exact scalar_eq op im (Nat.zero_le n) init
  · have := doWhile_run (body := vxBlock64 op im) (cond := fun s => decide (s.cnt ≥ 16))
      (fun j => ⟨(accs op im j).1, (accs op im j).2, 8 + 16 * j, n - (8 + 16 * j)⟩) ((n - 8) / 16) (n + 1) (by omega) (by omega)
      (fun j _ => by
        unfold vxBlock64
        simp only [Nat.sub_sub]
        rw [show 8 + 16 * (j + 1) = 8 + 16 * j + 16 by omega]
        rfl)
      (fun j _ h => by
        rw [decide_eq_true_eq]
        simp only
        omega)
      (by
        rw [decide_eq_false_iff_not]
        simp only
        omega)
    simp only [Nat.mul_zero, Nat.add_zero] at this
    simp only
    rw [show (⟨fun k => im k, fun k => im (4 + k), 8, n - 8⟩ : StX F) = ⟨(accs op im 0).1, (accs op im 0).2, 8, n - 8⟩ from rfl, this]
    simp only [Option.bind_some]
    rw [scalar_eq op im (by omega), accu, show (stop n - 8) / 16 = (n - 8) / 16 by unfold stop; omega]
    rfl

/-- The result for values from the result for their bits. -/
theorem result_map {G : Type} (f : F → G) {op : F → F → F} {op' : G → G → G} (h : ∀ a b, f (op a b) = op' (f a) (f b)) (init : F) (n : Nat) (im : Nat → F) :
    f (result op init n im) = result op' (f init) n fun i => f (im i) := by
  have ht : ∀ y c j, f (tail op im y c j) = tail op' (fun i => f (im i)) (f y) c j := by
    intro y c j
    induction j with
    | zero => rfl
    | succ j ih => rw [tail, tail, h, ih]
  have ha : ∀ j l, f ((accs op im j).1 l) = (accs op' (fun i => f (im i)) j).1 l ∧ f ((accs op im j).2 l) = (accs op' (fun i => f (im i)) j).2 l := by
    intro j
    induction j with
    | zero => exact fun l => ⟨rfl, rfl⟩
    | succ j ih =>
      intro l
      obtain ⟨i1, i2⟩ := ih l
      constructor
      · simp only [accs, next0, h, i1]
      · simp only [accs, next7, h, i2]
  unfold result
  split
  · exact ht _ _ _
  · rw [ht]
    unfold Arm.across accu
    simp only [h, ha]

end Verif.A64.Math
