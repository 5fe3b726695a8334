import Verif.X86.F16Lemmas
import Verif.X86.VScaleLemmas
import Verif.Asm.MaxClosed

/-!
# Common to the runs of `VMaxF32` and `VMinF32`
-/

namespace Verif.X86.Math.VM
open Verif.X86
open Verif.X86.Conv.F16 (word d32_inp)

/-- After `k` numbers. -/
structure Inv (m0 : BitVec 64 → BitVec 8) (ib : BitVec 64) (n : Nat) (f0 : Nat → BitVec 64) (bp : BitVec 64) (k : Nat) (s : St) : Prop where
  si : s.g.si = ib + BitVec.ofNat 64 (4 * k)
  dx : s.g.dx = BitVec.ofNat 64 k
  cx : s.g.cx = BitVec.ofNat 64 n
  bp : s.g.bp = bp
  fp : s.fp = f0
  mem : s.mem = m0

theorem ld {e : Env} {ib : BitVec 64} {r : Nat} (h : ∀ i < r, e.rd (ib + BitVec.ofNat 64 i) = true) {m0 : BitVec 64 → BitVec 8} {s : St}
    (hm : s.mem = m0) {a : BitVec 64} {k len : Nat} (ha : a = ib + BitVec.ofNat 64 k) (hk : k + len ≤ r) : e.load s a len = some (inp m0 ib k len) := by
  unfold Env.load inp
  rw [ha, if_pos (allBytes_of fun i hi => h _ (by omega))]
  congr 1
  funext i
  rw [adv, hm]

theorem d32_congr {x y : Vec} {k l : Nat} (h : ∀ i < 4, x (4 * k + i) = y (4 * l + i)) : d32 x k = d32 y l := by
  unfold d32
  have h0 := h 0 (by omega)
  rw [Nat.add_zero, Nat.add_zero] at h0
  rw [h 3 (by omega), h 2 (by omega), h 1 (by omega), h0]

theorem low32 (f : Nat → BitVec 32) (y : Vec) {k : Nat} (h : k < 8) : d32 (low 32 (of32 f) y) k = f k := by
  rw [d32_low _ _ _ (by omega), d32_of32]

theorem mask16 (n : Nat) : BitVec.ofNat 64 n &&& imm32 (-16) = BitVec.ofNat 64 (n - n % 16) := and_mask 4 (by decide +kernel)

end Verif.X86.Math.VM
