import Verif.Asm.AsmCore
import Verif.Conv.ConvLemmas

namespace Verif.Asm
open Verif.Conv
variable {σ : Type}

/-- A do-while loop whose successive states are `S 0, S 1, …, S k`. -/
theorem doWhile_states {body : σ → Option σ} {cond : σ → Bool} (S : Nat → σ) (k : Nat) :
    ∀ (fuel j : Nat), j + k ≤ fuel + j → 0 < k →
    (∀ i, i < k → body (S (j + i)) = some (S (j + i + 1))) →
    (∀ i, i + 1 < k → cond (S (j + i + 1)) = true) → cond (S (j + k)) = false →
    doWhile body cond fuel (S j) = some (S (j + k)) := by
  induction k with
  | zero => intro _ _ _ h; omega
  | succ k ih =>
    intro fuel j hf _ hb hc hl
    cases fuel with
    | zero => omega
    | succ fuel =>
      have hb0 := hb 0 (by omega)
      rw [Nat.add_zero] at hb0
      rw [doWhile, hb0]
      simp only [Option.bind_some]
      cases k with
      | zero => rw [if_neg]; simpa using hl
      | succ k =>
        rw [if_pos (by simpa using hc 0 (by omega)),
          ih fuel (j + 1) (by omega) (by omega) (fun i hi => by
            have := hb (i + 1) (by omega)
            rwa [show j + (i + 1) = j + 1 + i by omega] at this)
          (fun i hi => by
            have := hc (i + 1) (by omega)
            rwa [show j + (i + 1) + 1 = j + 1 + i + 1 by omega] at this)
          (by rwa [show j + 1 + (k + 1) = j + (k + 1 + 1) by omega])]
        rw [show j + 1 + (k + 1) = j + (k + 1 + 1) by omega]

theorem doWhile_run {body : σ → Option σ} {cond : σ → Bool} (S : Nat → σ) (k fuel : Nat) (hk : 0 < k)
    (hf : k ≤ fuel) (hb : ∀ i, i < k → body (S i) = some (S (i + 1)))
    (hc : ∀ i, 0 < i → i < k → cond (S i) = true) (hl : cond (S k) = false) :
    doWhile body cond fuel (S 0) = some (S k) := by
  have := doWhile_states (body := body) (cond := cond) S k fuel 0 (by omega) hk
    (fun i hi => by simpa using hb i hi) (fun i hi => by simpa using hc (i + 1) (by omega) (by omega))
    (by simpa using hl)
  simpa using this

theorem sar24 (x : BitVec 32) (b : BitVec 8) (h : x.toNat / 16777216 = b.toNat) :
    (x.sshiftRight 24).toInt = b.toInt := by
  have hx := x.isLt
  have hb := b.isLt
  rw [BitVec.toInt_sshiftRight, BitVec.toInt_eq_toNat_cond, BitVec.toInt_eq_toNat_cond,
    Int.shiftRight_eq_div_pow]
  split <;> split <;> omega

theorem dword_toNat (x : Xmm) (k : Nat) : (dword x k).toNat
    = (x (4 * k)).toNat + 256 * (x (4 * k + 1)).toNat + 65536 * (x (4 * k + 2)).toNat
      + 16777216 * (x (4 * k + 3)).toNat := by
  have h := le32_word (x (4 * k)) (x (4 * k + 1)) (x (4 * k + 2)) (x (4 * k + 3))
  have h0 := (x (4 * k)).isLt
  have h1 := (x (4 * k + 1)).isLt
  have h2 := (x (4 * k + 2)).isLt
  have h3 := (x (4 * k + 3)).isLt
  have hd := (dword x k).isLt
  change (dword x k).toInt = _ at h
  rw [BitVec.toInt_eq_toNat_cond, le32] at h
  split at h <;> split at h <;> omega

/-- Shifting a lane right by 24 keeps its sign-extended top byte. -/
theorem psral24 (x : Xmm) (k : Nat) : (psral 24 x k).toInt = (x (4 * k + 3)).toInt := by
  apply sar24
  have h0 := (x (4 * k)).isLt
  have h1 := (x (4 * k + 1)).isLt
  have h2 := (x (4 * k + 2)).isLt
  rw [dword_toNat]
  omega

theorem pmovsxbd_toInt (x : Xmm) (k : Nat) : (pmovsxbd x k).toInt = (x k).toInt := by
  rw [pmovsxbd, BitVec.toInt_signExtend_of_le (by omega)]

theorem word_toInt (x : Xmm) (k : Nat) : (word x k).toInt = le16 (x (2 * k)).toNat (x (2 * k + 1)).toNat :=
  le16_word _ _

theorem pmovsxwd_toInt (x : Xmm) (k : Nat) :
    (pmovsxwd x k).toInt = le16 (x (2 * k)).toNat (x (2 * k + 1)).toNat := by
  rw [pmovsxwd, BitVec.toInt_signExtend_of_le (by omega), word_toInt]

theorem le16_of_bytes (a b : BitVec 8) : (BitVec.ofInt 16 (le16 a.toNat b.toNat)).toInt = le16 a.toNat b.toNat := by
  have := le16_word a b
  rw [← this, BitVec.ofInt_toInt]

/-- Shifting a lane right by 16 keeps its sign-extended top word. -/
theorem psral16 (x : Xmm) (k : Nat) :
    (psral 16 x k).toInt = le16 (x (4 * k + 2)).toNat (x (4 * k + 3)).toNat := by
  have h0 := (x (4 * k)).isLt
  have h1 := (x (4 * k + 1)).isLt
  have h2 := (x (4 * k + 2)).isLt
  have h3 := (x (4 * k + 3)).isLt
  rw [psral, BitVec.toInt_sshiftRight, BitVec.toInt_eq_toNat_cond, dword_toNat, Int.shiftRight_eq_div_pow, le16]
  split <;> split <;> omega

theorem sub128 (v : BitVec 8) : (v - 128#8).toInt = (v.toNat : Int) - 128 := by
  revert v; decide +kernel

end Verif.Asm
