import Verif.Arm.Arm32Model
import Verif.Arm.Arm32Spec
import Verif.Arm.Arm64Props
import Verif.Asm.ToI16Props

/-!
# Property C81: the 32-bit ARM conversions
-/

namespace Verif.Arm
open Verif.Conv Verif.Asm

variable {F D G σ : Type}

theorem plus_ofNat (a k : Nat) : Addr.plus (BitVec.ofNat 32 a) k = BitVec.ofNat 32 (a + k) := by
  unfold Addr.plus
  rw [BitVec.ofNat_add]

theorem addr_toNat (a : Nat) (h : a < 2 ^ 32) : (BitVec.ofNat 32 a).toNat = a := by
  rw [BitVec.toNat_ofNat, Nat.mod_eq_of_lt h]

theorem addr_slt (a b : Nat) (ha : a < 2 ^ 32) (hb : b < 2 ^ 32) :
    (BitVec.ofNat 32 a).slt (BitVec.ofNat 32 b) = decide ((a < 2 ^ 31 ∧ b < 2 ^ 31 ∧ a < b) ∨ (2 ^ 31 ≤ a ∧ (b < 2 ^ 31 ∨ a < b))) := by
  have t : ∀ c, c < 2 ^ 32 → (BitVec.ofNat 32 c).toInt = if c < 2 ^ 31 then (c : Int) else (c : Int) - 2 ^ 32 := by
    intro c hc
    rw [BitVec.toInt_eq_toNat_cond, addr_toNat c hc]
    split <;> split <;> omega
  rw [BitVec.slt, t a ha, t b hb]
  congr 1
  apply propext
  split <;> split <;> omega

/-- A loop comparing addresses as signed numbers gets to `reached`. -/
theorem signedLoop {body : σ → Option σ} {adr : σ → Addr} (S : Nat → σ) (p size c w e fuel : Nat) (hsz : 0 < size)
    (hadr : ∀ x, adr (S x) = BitVec.ofNat 32 (p + size * x)) (hp : p + size * e < 2 ^ 32)
    (hw : 0 < w) (hce : c < e) (hd : w ∣ e - c) (hf : e - c ≤ fuel)
    (hb : ∀ x, c ≤ x → x + w ≤ e → body (S x) = some (S (x + w))) (r : Addr) (hr : r = BitVec.ofNat 32 (p + size * e)) :
    doWhile body (fun s => (adr s).slt r) fuel (S c) = some (S (reached p size c w e)) := by
  have hcw : c + w ≤ e := by have := Nat.le_of_dvd (by omega) hd; omega
  have mono : ∀ x y, x ≤ y → size * x ≤ size * y := fun x y h => Nat.mul_le_mul_left _ h
  have smono : ∀ x y, x < y → size * x < size * y := fun x y h => Nat.mul_lt_mul_of_pos_left h hsz
  have hcond : ∀ x, x ≤ e → (adr (S x)).slt r = decide ((p + size * x < 2 ^ 31 ∧ p + size * e < 2 ^ 31 ∧ p + size * x < p + size * e)
      ∨ (2 ^ 31 ≤ p + size * x ∧ (p + size * e < 2 ^ 31 ∨ p + size * x < p + size * e))) := by
    intro x hx
    rw [hadr, hr, addr_slt _ _ (by have := mono x e hx; omega) hp]
  unfold reached
  split
  · rename_i h
    refine doWhile_steps S w c (c + w) fuel hw (by omega) ⟨1, by omega⟩ (by omega) (fun x hx hx2 => hb x hx (by omega)) ?_
    intro x hx hx2 hdx
    have hxe : x = c + w := by have := Nat.le_of_dvd (by omega) hdx; omega
    subst hxe
    show (adr (S (c + w))).slt r = _
    rw [hcond _ (by omega)]
    congr 1
    apply propext
    omega
  · rename_i h
    refine doWhile_steps S w c e fuel hw hce hd hf hb ?_
    intro x hx hx2 hdx
    have hxw : c + w ≤ x := by have := Nat.le_of_dvd (by omega) hdx; omega
    show (adr (S x)).slt r = _
    rw [hcond _ hx2]
    have m1 := mono _ _ hxw
    have m2 := mono _ _ hx2
    congr 1
    apply propext
    constructor
    · intro h'
      rcases Nat.lt_or_ge x e with hlt | hge
      · exact hlt
      · have : x = e := by omega
        subst this
        omega
    · intro hlt
      have := smono _ _ hlt
      omega

/-- The two loops together convert `converted` elements. -/
theorem twoLoops_run {block step : StP G → Option (StP G)} (S : Nat → StP G) (p size w m n : Nat) (hsz : 0 < size)
    (hadr : ∀ x, (S x).r1 = BitVec.ofNat 32 (p + size * x)) (hp : p + size * n < 2 ^ 32) (hw : 0 < w) (hm : m ≤ n) (hd : w ∣ m) (hn : 0 < n)
    (hb : ∀ x, x + w ≤ n → block (S x) = some (S (x + w))) (hs : ∀ x, x + 1 ≤ n → step (S x) = some (S (x + 1))) :
    twoLoops block step (size * m) (size * n) (S 0) = some (S (converted p size w m n)) := by
  have mono : ∀ x y, x ≤ y → size * x ≤ size * y := fun x y h => Nat.mul_le_mul_left _ h
  have hge : ∀ x, x ≤ size * x := fun x => Nat.le_mul_of_pos_left x hsz
  have hr : ∀ k, Addr.plus (S 0).r1 (size * k) = BitVec.ofNat 32 (p + size * k) := by
    intro k; rw [hadr, Nat.mul_zero, Nat.add_zero, plus_ofNat]
  unfold twoLoops converted
  simp only
  have h1 : (if size * m = 0 then some (S 0) else doWhile block (fun s => s.r1.slt (Addr.plus (S 0).r1 (size * m))) (size * n + 1) (S 0))
      = some (S (if m = 0 then 0 else reached p size 0 w m)) := by
    by_cases h0 : m = 0
    · subst h0; simp
    · rw [if_neg (by have := hge m; omega), if_neg h0]
      exact signedLoop (adr := StP.r1) S p size 0 w m _ hsz hadr (by have := mono m n hm; omega) hw (by omega) (by simpa using hd)
        (by have := hge n; omega) (fun x _ hx => hb x (by omega)) _ (hr m)
  rw [h1, Option.bind_some]
  have hx : (if m = 0 then 0 else reached p size 0 w m) ≤ n := by
    split
    · omega
    · have := Nat.le_of_dvd (by omega) hd
      unfold reached; split <;> omega
  generalize (if m = 0 then 0 else reached p size 0 w m) = x at hx ⊢
  rw [hr, hadr]
  by_cases hxn : x = n
  · subst hxn; simp
  · have hlt : size * x < size * n := Nat.mul_lt_mul_of_pos_left (by omega) hsz
    rw [if_neg, if_neg hxn]
    · exact signedLoop (adr := StP.r1) S p size x 1 n _ hsz hadr hp (by omega) (by omega) (one_dvd _) (by have := hge n; omega)
        (fun y _ hy => hs y hy) _ rfl
    · intro h
      have := congrArg BitVec.toNat h
      rw [addr_toNat _ hp, addr_toNat _ (by omega)] at this
      omega

/-! ## `Ui8toi16`, `Ui8toi16b` -/

/-- The memory after `k` samples. -/
def widened (a b : Nat) (m : Nat → BitVec 8) : Nat → Nat → BitVec 8
  | 0 => m
  | k + 1 => Function.update (Function.update (widened a b m k) (b + 2 * k) (widened a b m k (a + k) - 128#8))
      (b + 2 * k + 1) (widened a b m k (a + k) - 128#8)

theorem ui8toi16b_widened (input output : Slice) (m : Nat → BitVec 8) :
    ui8toi16b input output m = some (widened input.base output.base m (min input.len (output.len / 2))) := by
  simp only [ui8toi16b, Option.bind_eq_bind]
  have e : (if input.len < output.len / 2 then input.len else output.len / 2) = min input.len (output.len / 2) := by split <;> omega
  rw [e, take_ok (by omega), Option.bind_some]
  refine forRange_states (S := fun k => widened input.base output.base m k) rfl ?_
  intro i hi
  rw [read_ok hi, Option.bind_some, write_ok (by omega), Option.bind_some, write_ok (by omega), Nat.mul_comm i 2]
  rfl

theorem trunc_sub (v : BitVec 8) : ((v.zeroExtend 32 - 128#32).truncate 8 : BitVec 8) = v - 128#8 := by
  apply BitVec.eq_of_toNat_eq
  have := v.isLt
  simp only [BitVec.truncate, BitVec.zeroExtend, BitVec.toNat_setWidth, BitVec.toNat_sub, BitVec.toNat_ofNat]
  omega

theorem ui8toi16Arm_run (a inLen b outLen : Nat) (m : Nat → BitVec 8) (ha : a + inLen < 2 ^ 32) (hb : b + 2 * outLen ≤ 2 ^ 32) :
    ui8toi16Arm (BitVec.ofNat 32 a) inLen (BitVec.ofNat 32 b) outLen m
      = some (widened a b m (if min inLen outLen = 0 then 0 else reached a 1 0 1 (min inLen outLen))) := by
  unfold ui8toi16Arm
  have e : (if outLen < inLen then outLen else inLen) = min inLen outLen := by split <;> omega
  simp only [e]
  generalize hn : min inLen outLen = n
  split
  · rfl
  · rename_i h0
    have := signedLoop (adr := St8.r1) (body := i16Step32) (fun x => ⟨BitVec.ofNat 32 (a + x), BitVec.ofNat 32 (b + 2 * x), widened a b m x⟩)
      a 1 0 1 n (n + 1) (by omega) (fun x => by rw [Nat.one_mul]) (by omega) (by omega) (by omega) (one_dvd _) (by omega)
      (fun x _ hx => by
        unfold i16Step32
        simp only [plus_ofNat, trunc_sub]
        rw [addr_toNat (a + x) (by omega), addr_toNat (b + 2 * x) (by omega), addr_toNat (b + 2 * x + 1) (by omega)]
        rfl) (Addr.plus (BitVec.ofNat 32 a) n) (by rw [plus_ofNat, Nat.one_mul])
    simp only [Nat.add_zero, Nat.mul_zero] at this
    rw [show widened a b m 0 = m from rfl] at this
    rw [this]
    rfl

/-- C81, `Ui8toi16` and `Ui8toi16b` (partial: the input must lie in one half of the address space): on a memory in
which input and output may overlap in any way, both do what the portable `ui8toi16b` does, `Ui8toi16` with a byte
length of twice its output length. -/
theorem C81_ui8toi16_partial (a inLen b outLen : Nat) (m : Nat → BitVec 8) (ha : OneHalf a 1 inLen) (hb : b + 2 * outLen ≤ 2 ^ 32) :
    ui8toi16Arm (BitVec.ofNat 32 a) inLen (BitVec.ofNat 32 b) outLen m = ui8toi16b ⟨a, inLen⟩ ⟨b, 2 * outLen⟩ m ∧
      ∀ outBytes, outBytes / 2 = outLen →
        ui8toi16bArm (BitVec.ofNat 32 a) inLen (BitVec.ofNat 32 b) outBytes m = ui8toi16b ⟨a, inLen⟩ ⟨b, outBytes⟩ m := by
  have main : ui8toi16Arm (BitVec.ofNat 32 a) inLen (BitVec.ofNat 32 b) outLen m = some (widened a b m (min inLen outLen)) := by
    rw [ui8toi16Arm_run a inLen b outLen m (by unfold OneHalf at ha; omega) hb]
    congr 2
    split
    · omega
    · unfold reached
      rw [if_neg]
      unfold OneHalf at ha
      omega
  refine ⟨?_, fun outBytes h => ?_⟩
  · rw [main, ui8toi16b_widened]
    simp only [show 2 * outLen / 2 = outLen by omega]
  · rw [ui8toi16bArm, h, main, ui8toi16b_widened]
    simp only [h]

/-- The two bytes of an output sample are those of the portable `ui8toi16`. -/
theorem C81_ui8toi16_bytes_partial (a inLen b outLen : Nat) (m : Nat → BitVec 8) (ha : OneHalf a 1 inLen) (hb : b + 2 * outLen ≤ 2 ^ 32)
    (hdis : b + 2 * outLen ≤ a ∨ a + inLen ≤ b) :
    ui8toi16Arm (BitVec.ofNat 32 a) inLen (BitVec.ofNat 32 b) outLen m = some (fill m b (2 * min outLen inLen)
        fun j => octet (j % 2) (BitVec.ofInt 16 (widen (m (a + j / 2)).toNat)).toNat) := by
  have main : ui8toi16Arm (BitVec.ofNat 32 a) inLen (BitVec.ofNat 32 b) outLen m = some (widened a b m (min inLen outLen)) := by
    rw [(C81_ui8toi16_partial a inLen b outLen m ha hb).1, ui8toi16b_widened]
    simp only [show 2 * outLen / 2 = outLen by omega]
  rw [main, Nat.min_comm inLen outLen]
  congr 1
  have e : ∀ k, k ≤ min outLen inLen → widened a b m k = fill m b (2 * k) (fun j => m (a + j / 2) - 128#8) := by
    intro k; induction k with
    | zero => intro _; rw [Nat.mul_zero, fill_zero]; rfl
    | succ k ih =>
      intro hk
      have hr : fill m b (2 * k) (fun j => m (a + j / 2) - 128#8) (a + k) = m (a + k) := fill_out (by omega)
      rw [widened, ih (by omega), hr, update_fill m b (2 * k) (fun j => m (a + j / 2) - 128#8) _ (by simp only [show 2 * k / 2 = k by omega]),
        show b + 2 * k + 1 = b + (2 * k + 1) by omega,
        update_fill m b (2 * k + 1) (fun j => m (a + j / 2) - 128#8) _ (by simp only [show (2 * k + 1) / 2 = k by omega])]
      rfl
  rw [e _ (Nat.le_refl _)]
  exact fill_congr fun j _ => w16g_octet (fun i => m (a + i)) j

/-- C81 is violated when the input goes across address 2³¹ and more than its first byte lies below: only the first
sample is converted, all the rest of the memory is left as it was. -/
theorem C81_violated_ui8toi16 (a inLen b outLen : Nat) (m : Nat → BitVec 8) (ha : a + inLen < 2 ^ 32) (hb : b + 2 * outLen ≤ 2 ^ 32)
    (h1 : a + 1 < 2 ^ 31) (h2 : 2 ^ 31 ≤ a + min inLen outLen) :
    ui8toi16Arm (BitVec.ofNat 32 a) inLen (BitVec.ofNat 32 b) outLen m
      = some (Function.update (Function.update m b (m a - 128#8)) (b + 1) (m a - 128#8)) := by
  rw [ui8toi16Arm_run a inLen b outLen m ha hb, if_neg (by omega), reached, if_pos (by omega)]
  rfl

example : OneHalf 0x7fff0000 1 65535 ∧ OneHalf 0x80000000 1 100000 := by unfold OneHalf; omega
example : (0x7ffffff0 : Nat) + 64 < 2 ^ 32 ∧ 0x7ffffff0 + 1 < 2 ^ 31 ∧ 2 ^ 31 ≤ 0x7ffffff0 + min 64 100 := by omega
example : (ui8toi16Arm 0x1000 5 0x1004 9 (fun i => BitVec.ofNat 8 i)).map (fun m => ((m 0x1003).toNat, (m 0x1004).toNat, (m 0x100c).toNat, (m 0x100d).toNat, (m 0x100e).toNat))
    = some (3, 128, 0, 0, 14) := by decide +kernel

/-! ## `Ui8tof32`, `Ui8toc64` -/

/-- The value of the byte at address `a`. -/
def u8Of (o : FloatOps F D) (im : Nat → BitVec 8) (a : Nat) : F := o.ofInt (((im a).toNat : Int) - 128)

/-- The state after `x` elements. -/
def stP (om g : Nat → G) (p size x : Nat) : StP G := ⟨BitVec.ofNat 32 (p + size * x), x, fill om 0 x g⟩

theorem byte_append (b3 b2 b1 b0 : BitVec 8) :
    byte (b3 ++ b2 ++ b1 ++ b0) 0 = b0 ∧ byte (b3 ++ b2 ++ b1 ++ b0) 1 = b1 ∧ byte (b3 ++ b2 ++ b1 ++ b0) 2 = b2 ∧
      byte (b3 ++ b2 ++ b1 ++ b0) 3 = b3 := by
  have h0 := b0.isLt; have h1 := b1.isLt; have h2 := b2.isLt; have h3 := b3.isLt
  have e : (b3 ++ b2 ++ b1 ++ b0).toNat = ((b3.toNat * 256 + b2.toNat) * 256 + b1.toNat) * 256 + b0.toNat := by
    simp only [BitVec.toNat_append]
    rw [← Nat.shiftLeft_add_eq_or_of_lt h2, ← Nat.shiftLeft_add_eq_or_of_lt h1, ← Nat.shiftLeft_add_eq_or_of_lt h0]
    simp only [Nat.shiftLeft_eq]
  refine ⟨?_, ?_, ?_, ?_⟩ <;> apply BitVec.eq_of_toNat_eq <;>
    simp only [byte, BitVec.extractLsb'_toNat, e, Nat.shiftRight_eq_div_pow] <;> omega

theorem sxtb_byte (x : BitVec 32) (k : Nat) (hk : k < 4) : sxtb x (8 * k) = (byte x k).signExtend 32 := by
  unfold sxtb byte
  congr 1
  have hx := x.isLt
  apply BitVec.eq_of_getLsbD_eq
  intro i hi
  simp only [BitVec.truncate, BitVec.getLsbD_setWidth, BitVec.getLsbD_extractLsb', BitVec.getLsbD_rotateRight]
  have h1 : 8 * k % 32 = 8 * k := by omega
  have h2 : i < 32 - 8 * k := by omega
  simp only [h1, hi, h2, decide_true, Bool.true_and, cond_true]

theorem lane8 (v : BitVec 8) : ((v - 0x80#8).signExtend 32).toInt = (v.toNat : Int) - 128 := by
  rw [BitVec.toInt_signExtend_of_le (by omega)]
  exact sub128 v

theorem sub16 (v : BitVec 8) : ((v.zeroExtend 16 - (128#8).zeroExtend 16).signExtend 32).toInt = (v.toNat : Int) - 128 := by
  rw [BitVec.toInt_signExtend_of_le (by omega), BitVec.toInt_eq_toNat_cond]
  have := v.isLt
  simp only [BitVec.zeroExtend, BitVec.toNat_sub, BitVec.toNat_setWidth, BitVec.toNat_ofNat]
  split <;> omega

theorem sub32 (v : BitVec 8) : (v.zeroExtend 32 - 128#32).toInt = (v.toNat : Int) - 128 := by
  rw [BitVec.toInt_eq_toNat_cond]
  have := v.isLt
  simp only [BitVec.zeroExtend, BitVec.toNat_sub, BitVec.toNat_setWidth, BitVec.toNat_ofNat]
  split <;> omega

theorem store4_at0 (om : Nat → G) (c : Nat) (g : Nat → G) (lane : Nat → G) (h : ∀ k, k < 4 → lane k = g (c + k)) :
    store4 (fill om 0 c g) c lane = fill om 0 (c + 4) g := by
  have := store4_fill_at om 0 c g lane h
  rwa [Nat.zero_add] at this

theorem u8Word32_st (o : FloatOps F D) (im : Nat → BitVec 8) (om : Nat → F) (p x : Nat) (h : p + x < 2 ^ 32) :
    u8Word32 o im (stP om (fun i => u8Of o im (p + i)) p 1 x) = some (stP om (fun i => u8Of o im (p + i)) p 1 (x + 4)) := by
  unfold u8Word32 stP
  simp only [plus_ofNat, Nat.one_mul]
  rw [addr_toNat (p + x) h, store4_at0]
  · rw [Nat.add_assoc]
  · intro k hk
    have hb := byte_append (im (p + x + 3)) (im (p + x + 2)) (im (p + x + 1)) (im (p + x))
    have hu := byte_append (im (p + x + 3) - 0x80#8) (im (p + x + 2) - 0x80#8) (im (p + x + 1) - 0x80#8) (im (p + x) - 0x80#8)
    have e : usub8 (loadW im (p + x)) 0x80808080#32
        = (im (p + x + 3) - 0x80#8) ++ (im (p + x + 2) - 0x80#8) ++ (im (p + x + 1) - 0x80#8) ++ (im (p + x) - 0x80#8) := by
      unfold usub8 loadW
      rw [hb.1, hb.2.1, hb.2.2.1, hb.2.2.2]
      rfl
    have s0 := sxtb_byte (usub8 (loadW im (p + x)) 0x80808080#32) 0 (by omega)
    have s1 := sxtb_byte (usub8 (loadW im (p + x)) 0x80808080#32) 1 (by omega)
    have s2 := sxtb_byte (usub8 (loadW im (p + x)) 0x80808080#32) 2 (by omega)
    have s3 := sxtb_byte (usub8 (loadW im (p + x)) 0x80808080#32) 3 (by omega)
    simp only [Nat.mul_zero, Nat.mul_one, show 8 * 2 = 16 from rfl, show 8 * 3 = 24 from rfl] at s0 s1 s2 s3
    rw [s0, s1, s2, s3, e, hu.1, hu.2.1, hu.2.2.1, hu.2.2.2]
    unfold u8Of
    congr 1
    match k, hk with
    | 0, _ => exact lane8 _
    | 1, _ => exact lane8 _
    | 2, _ => exact lane8 _
    | 3, _ => exact lane8 _

theorem u8Neon32_st (o : FloatOps F D) (im : Nat → BitVec 8) (om : Nat → F) (p x : Nat) (h : p + x < 2 ^ 32) :
    u8Neon32 o im (stP om (fun i => u8Of o im (p + i)) p 1 x) = some (stP om (fun i => u8Of o im (p + i)) p 1 (x + 32)) := by
  unfold u8Neon32 stP
  simp only [plus_ofNat, Nat.one_mul]
  rw [addr_toNat (p + x) h, store4_at0, store4_at0, store4_at0, store4_at0, store4_at0, store4_at0, store4_at0, store4_at0]
  · rw [Nat.add_assoc]
  all_goals
    intro k hk
    unfold vcvt vmovlS16 vsublU8 u8Of
    rw [sub16]
    exact congrArg (fun a => o.ofInt (((im a).toNat : Int) - 128)) (by omega)

theorem u8Tail32_st (o : FloatOps F D) (im : Nat → BitVec 8) (om : Nat → F) (p x : Nat) (h : p + x < 2 ^ 32) :
    u8Tail32 o im (stP om (fun i => u8Of o im (p + i)) p 1 x) = some (stP om (fun i => u8Of o im (p + i)) p 1 (x + 1)) := by
  unfold u8Tail32 stP
  simp only [plus_ofNat, Nat.one_mul]
  rw [addr_toNat (p + x) h, sub32]
  have := update_fill om 0 x (fun i => u8Of o im (p + i)) (u8Of o im (p + x)) rfl
  rw [Nat.zero_add] at this
  rw [Nat.add_assoc, ← this]
  rfl

/-- Elements per turn of the first loop, and how many elements it is to convert. -/
def u8Width (neon : Bool) : Nat := if neon then 32 else 4
def u8Blocks (neon : Bool) (n : Nat) : Nat := if neon then n - n % 64 else n - n % 4

theorem ui8tof32Arm_run (o : FloatOps F D) (neon : Bool) (p inLen outLen : Nat) (im : Nat → BitVec 8) (om : Nat → F)
    (hp : p + min inLen outLen < 2 ^ 32) (hn : 0 < min inLen outLen) :
    ui8tof32Arm o neon (BitVec.ofNat 32 p) inLen outLen im om = some (fill om 0
      (converted p 1 (u8Width neon) (u8Blocks neon (min inLen outLen)) (min inLen outLen)) fun i => u8Of o im (p + i)) := by
  unfold ui8tof32Arm
  have e : (if outLen < inLen then outLen else inLen) = min inLen outLen := by split <;> omega
  simp only [e]
  generalize min inLen outLen = n at *
  rw [if_neg (by omega)]
  have s0 : (⟨BitVec.ofNat 32 p, 0, om⟩ : StP F) = stP om (fun i => u8Of o im (p + i)) p 1 0 := by
    simp [stP, fill_zero]
  rw [s0]
  have run := fun (block : StP F → Option (StP F)) w m (hw : 0 < w) (hm : m ≤ n) (hd : w ∣ m) hb =>
    twoLoops_run (block := block) (step := u8Tail32 o im) (stP om (fun i => u8Of o im (p + i)) p 1) p 1 w m n (by omega) (fun _ => rfl)
      (by omega) hw hm hd hn hb (fun x hx => u8Tail32_st o im om p x (by omega))
  simp only [Nat.one_mul] at run
  cases neon
  · rw [if_neg (by simp), run (u8Word32 o im) 4 (n - n % 4) (by omega) (by omega) (Nat.dvd_sub_mod n) (fun x hx => u8Word32_st o im om p x (by omega))]
    rfl
  · rw [if_pos rfl, run (u8Neon32 o im) 32 (n - n % 64) (by omega) (by omega) ((by decide : 32 ∣ 64).trans (Nat.dvd_sub_mod n))
      (fun x hx => u8Neon32_st o im om p x (by omega))]
    rfl

/-- C81, `Ui8tof32` (partial: the input must lie in one half of the address space): with and without NEON, on
non-empty slices the result is that of the portable code; on empty ones nothing is done, where the portable code
panics. -/
theorem C81_ui8tof32_partial (o : FloatOps F D) (neon : Bool) (p inLen outLen : Nat) (im : Nat → BitVec 8) (om : Nat → F)
    (hp : OneHalf p 1 inLen) :
    (0 < min inLen outLen → ui8tof32Arm o neon (BitVec.ofNat 32 p) inLen outLen im om = ui8tof32 o ⟨p, inLen⟩ im ⟨0, outLen⟩ om) ∧
      ui8tof32Arm o neon (BitVec.ofNat 32 p) inLen outLen im om
        = some (fill om 0 (min inLen outLen) fun i => o.ofInt (((im (p + i)).toNat : Int) - 128)) ∧
      (min inLen outLen = 0 → ui8tof32 o ⟨p, inLen⟩ im ⟨0, outLen⟩ om = none) := by
  have main : ui8tof32Arm o neon (BitVec.ofNat 32 p) inLen outLen im om
        = some (fill om 0 (min inLen outLen) fun i => o.ofInt (((im (p + i)).toNat : Int) - 128)) := by
    rcases Nat.eq_zero_or_pos (min inLen outLen) with h0 | h0
    · unfold ui8tof32Arm
      have e : (if outLen < inLen then outLen else inLen) = min inLen outLen := by split <;> omega
      simp only [e]
      rw [if_pos h0, h0, fill_zero]
    · rw [ui8tof32Arm_run o neon p inLen outLen im om (by unfold OneHalf at hp; omega) h0, converted_all]
      · rfl
      · unfold OneHalf at hp ⊢; omega
      · unfold u8Blocks; split <;> omega
  obtain ⟨t, -, ht, -, -, h1, h2⟩ := C79_ui8tof32 o ⟨p, inLen⟩ im ⟨0, outLen⟩ om
  exact ⟨fun h => by rw [main, h1 h, ht], main, fun h => (h2 h).2⟩

/-- C81 is violated when the input goes across address 2³¹: if the first block and one more byte lie below and the
blocks end above, only one block and one element are converted. -/
theorem C81_violated_ui8tof32 (o : FloatOps F D) (neon : Bool) (p inLen outLen : Nat) (im : Nat → BitVec 8) (om : Nat → F)
    (hp : p + inLen < 2 ^ 32) (h1 : p + (u8Width neon + 1) < 2 ^ 31) (h2 : 2 ^ 31 ≤ p + u8Blocks neon (min inLen outLen)) :
    ui8tof32Arm o neon (BitVec.ofNat 32 p) inLen outLen im om
        = some (fill om 0 (if neon then 33 else 5) fun i => o.ofInt (((im (p + i)).toNat : Int) - 128)) ∧
      (if neon then 33 else 5) < min inLen outLen := by
  have hw : 0 < u8Width neon := by unfold u8Width; split <;> omega
  have hm : u8Blocks neon (min inLen outLen) ≤ min inLen outLen := by unfold u8Blocks; split <;> omega
  have e : u8Width neon + 1 = if neon then 33 else 5 := by unfold u8Width; split <;> rfl
  rw [ui8tof32Arm_run o neon p inLen outLen im om (by omega) (by omega),
    converted_short p 1 _ _ _ hw hm (by omega) (by omega), e]
  refine ⟨rfl, ?_⟩
  rw [← e]
  omega

/-- C81, `Ui8toc64` (partial in the same way): the parts of the complex samples, in turn, are those of the portable
code. -/
theorem C81_ui8toc64_partial (o : FloatOps F D) (neon : Bool) (p inLen outLen : Nat) (im : Nat → BitVec 8) (om : Nat → F)
    (hp : OneHalf p 1 inLen) (omc : Nat → F × F) :
    ∃ t r, ui8toc64Arm o neon (BitVec.ofNat 32 p) inLen outLen im om = some t ∧
      ui8toc64 o ⟨p, inLen⟩ im ⟨0, outLen⟩ omc = some r ∧
      (∀ i, i < min (inLen / 2) outLen → (t (2 * i), t (2 * i + 1)) = r i) ∧
      (∀ j, 2 * min (inLen / 2) outLen ≤ j → t j = om j) ∧ ∀ i, min (inLen / 2) outLen ≤ i → r i = omc i := by
  have h := (C81_ui8tof32_partial o neon p (inLen - inLen % 2) (outLen * 2) im om (by unfold OneHalf at hp ⊢; omega)).2.1
  have hm : min (inLen - inLen % 2) (outLen * 2) = 2 * min (inLen / 2) outLen := by omega
  have hr : ui8toc64 o ⟨p, inLen⟩ im ⟨0, outLen⟩ omc = some (fill omc 0 (min (inLen / 2) outLen) fun i =>
      (o.ofInt (((im (p + 2 * i)).toNat : Int) - 128), o.ofInt (((im (p + (2 * i + 1))).toNat : Int) - 128))) := by
    simp only [ui8toc64, minIf, Option.bind_eq_bind]
    refine forRange_states (S := fun i => fill omc 0 i fun i =>
      (o.ofInt (((im (p + 2 * i)).toNat : Int) - 128), o.ofInt (((im (p + (2 * i + 1))).toNat : Int) - 128))) (fill_zero _ _ _) ?_
    intro i hi
    rw [read_ok (by show _ < inLen; omega), Option.bind_some, read_ok (by show _ < inLen; omega), Option.bind_some,
      write_ok (by show _ < outLen; omega), Nat.mul_comm i 2]
    exact congrArg some (update_fill omc 0 i _ _ rfl)
  refine ⟨_, _, h, hr, ?_, ?_, ?_⟩
  · intro i hi
    have f0 : ∀ j, j < 2 * min (inLen / 2) outLen → fill om 0 (min (inLen - inLen % 2) (outLen * 2))
        (fun i => o.ofInt (((im (p + i)).toNat : Int) - 128)) j = o.ofInt (((im (p + j)).toNat : Int) - 128) := by
      intro j hj
      have := fill_in (m := om) (b := 0) (n := min (inLen - inLen % 2) (outLen * 2))
        (g := fun i => o.ofInt (((im (p + i)).toNat : Int) - 128)) (i := j) (by omega)
      rwa [Nat.zero_add] at this
    have f1 := fill_in (m := omc) (b := 0) (n := min (inLen / 2) outLen) (g := fun i =>
      (o.ofInt (((im (p + 2 * i)).toNat : Int) - 128), o.ofInt (((im (p + (2 * i + 1))).toNat : Int) - 128))) (i := i) hi
    rw [Nat.zero_add] at f1
    rw [f0 _ (by omega), f0 _ (by omega), f1]
  · intro j hj
    exact fill_out (by omega)
  · intro i hi
    exact fill_out (by omega)

example : (0x7fffff00 : Nat) + 400 < 2 ^ 32 ∧ 0x7fffff00 + (u8Width true + 1) < 2 ^ 31 ∧ 2 ^ 31 ≤ 0x7fffff00 + u8Blocks true (min 400 400) := by
  decide
example : (ui8tof32Arm intOps true 0x2000 70 67 (fun i => BitVec.ofNat 8 i) (fun _ => 9)).map (fun m => (m 0, m 40, m 66, m 67))
    = some (-128, -88, -62, 9) := by decide +kernel
example : (ui8tof32Arm intOps false 0x7ffffff0 70 67 (fun i => BitVec.ofNat 8 i) (fun _ => 9)).map (fun m => (m 0, m 4, m 5, m 66))
    = some (112, 116, 9, 9) := by decide +kernel

/-! ## `F32toi16`, `F32toi16ble` -/

/-- The 16 bits stored for the float at address `a`. -/
def i16Of (o : CvtOps F) (scale : F) (im : Nat → F) (a : Nat) : BitVec 16 := (o.cvtt (o.mul (im a) scale)).truncate 16

theorem fill_upto (om g : Nat → G) (x w : Nat) :
    (fun a => if x ≤ a ∧ a < x + w then g a else fill om 0 x g a) = fill om 0 (x + w) g := by
  funext a
  unfold fill
  simp only [Nat.sub_zero, Nat.zero_add, Nat.zero_le, true_and]
  by_cases h1 : a < x
  · rw [if_neg (by omega), if_pos h1, if_pos (by omega)]
  · by_cases h2 : a < x + w
    · rw [if_pos (by omega), if_pos h2]
    · rw [if_neg (by omega), if_neg h1, if_neg h2]

theorem i16Block32_st (o : CvtOps F) (scale : F) (w : Nat) (im : Nat → F) (om : Nat → BitVec 16) (p x : Nat) (h : p + 4 * x < 2 ^ 32) :
    i16Block32 o scale w im (stP om (fun i => i16Of o scale im (p + 4 * i)) p 4 x)
      = some (stP om (fun i => i16Of o scale im (p + 4 * i)) p 4 (x + w)) := by
  unfold i16Block32 stP
  simp only [plus_ofNat]
  rw [addr_toNat (p + 4 * x) h, ← fill_upto, Nat.add_assoc p, ← Nat.mul_add]
  congr 2
  funext a
  by_cases ha : x ≤ a ∧ a < x + w
  · rw [if_pos ha, if_pos ha, i16Of, show p + 4 * x + 4 * (a - x) = p + 4 * a by omega]
  · rw [if_neg ha, if_neg ha]

theorem i16Tail32_st (o : CvtOps F) (scale : F) (im : Nat → F) (om : Nat → BitVec 16) (p x : Nat) (h : p + 4 * x < 2 ^ 32) :
    i16Tail32 o scale im (stP om (fun i => i16Of o scale im (p + 4 * i)) p 4 x)
      = some (stP om (fun i => i16Of o scale im (p + 4 * i)) p 4 (x + 1)) := by
  unfold i16Tail32 stP
  simp only [plus_ofNat]
  rw [addr_toNat (p + 4 * x) h]
  have := update_fill om 0 x (fun i => i16Of o scale im (p + 4 * i)) _ rfl
  rw [Nat.zero_add] at this
  rw [← this]
  rfl

/-- Elements per turn of the first loop. -/
def i16Width (vector : Bool) : Nat := if vector then 8 else 4

theorem f32toi16Arm_run (o : CvtOps F) (vector : Bool) (p inLen outLen : Nat) (scale : F) (im : Nat → F) (om : Nat → BitVec 16)
    (hp : p + 4 * min inLen outLen < 2 ^ 32) (hn : 0 < min inLen outLen) :
    f32toi16Arm o vector (BitVec.ofNat 32 p) inLen outLen scale im om = some (fill om 0
      (converted p 4 (i16Width vector) (min inLen outLen - min inLen outLen % i16Width vector) (min inLen outLen))
        fun i => i16Of o scale im (p + 4 * i)) := by
  unfold f32toi16Arm
  have e : (if outLen < inLen then outLen else inLen) = min inLen outLen := by split <;> omega
  simp only [e]
  generalize min inLen outLen = n at *
  rw [if_neg (by omega), show (if vector = true then 8 else 4) = i16Width vector from rfl]
  have hw : 0 < i16Width vector := by unfold i16Width; split <;> omega
  have s0 : (⟨BitVec.ofNat 32 p, 0, om⟩ : StP (BitVec 16)) = stP om (fun i => i16Of o scale im (p + 4 * i)) p 4 0 := by
    simp [stP, fill_zero]
  rw [s0, twoLoops_run (stP om (fun i => i16Of o scale im (p + 4 * i)) p 4) p 4 (i16Width vector) _ n (by omega) (fun _ => rfl)
      (by omega) hw (Nat.sub_le _ _) (Nat.dvd_sub_mod n) hn (fun x hx => i16Block32_st o scale _ im om p x (by omega))
      (fun x hx => i16Tail32_st o scale im om p x (by omega))]
  rfl

/-- C81, `F32toi16` (partial: the input must lie in one half of the address space): in both modes the result is the
portable one, for a compiler that converts to int16 by truncating a conversion to int32. -/
theorem C81_f32toi16_partial (o : FloatOps F D) (cvt : F → BitVec 32) (hcvt : ∀ x, o.toI16 x = (cvt x).truncate 16) (vector : Bool)
    (p inLen outLen : Nat) (scale : F) (im : Nat → F) (om : Nat → BitVec 16) (hp : OneHalf p 4 inLen) :
    f32toi16Arm ⟨o.mul, cvt⟩ vector (BitVec.ofNat 32 p) inLen outLen scale im om
        = f32toi16 o ⟨0, inLen⟩ (fun i => im (p + 4 * i)) ⟨0, outLen⟩ om scale ∧
      f32toi16 o ⟨0, inLen⟩ (fun i => im (p + 4 * i)) ⟨0, outLen⟩ om scale
        = some (fill om 0 (min inLen outLen) fun i => o.toI16 (o.mul (im (p + 4 * i)) scale)) := by
  have main : f32toi16Arm ⟨o.mul, cvt⟩ vector (BitVec.ofNat 32 p) inLen outLen scale im om
        = some (fill om 0 (min inLen outLen) fun i => o.toI16 (o.mul (im (p + 4 * i)) scale)) := by
    rcases Nat.eq_zero_or_pos (min inLen outLen) with h0 | h0
    · unfold f32toi16Arm
      have e : (if outLen < inLen then outLen else inLen) = min inLen outLen := by split <;> omega
      simp only [e]
      rw [if_pos h0, h0, fill_zero]
    · rw [f32toi16Arm_run _ vector p inLen outLen scale im om (by unfold OneHalf at hp; omega) h0, converted_all]
      · exact congrArg some (fill_congr fun i _ => (hcvt _).symm)
      · unfold OneHalf at hp ⊢; omega
      · exact Nat.sub_le _ _
  have port : f32toi16 o ⟨0, inLen⟩ (fun i => im (p + 4 * i)) ⟨0, outLen⟩ om scale
        = some (fill om 0 (min inLen outLen) fun i => o.toI16 (o.mul (im (p + 4 * i)) scale)) := by
    simp only [f32toi16, Option.bind_eq_bind]
    have e : (if inLen < outLen then inLen else outLen) = min inLen outLen := by split <;> omega
    rw [e, take_ok (by show _ ≤ inLen; omega), Option.bind_some]
    refine forRange_states (S := fun i => fill om 0 i fun i => o.toI16 (o.mul (im (p + 4 * i)) scale)) (fill_zero _ _ _) ?_
    intro i hi
    rw [read_ok hi, Option.bind_some, write_ok (by show _ < outLen; omega)]
    simp only [Nat.zero_add]
    exact congrArg some ((congrArg (fun j => Function.update _ j _) (Nat.zero_add i).symm).trans (update_fill om 0 i _ _ rfl))
  exact ⟨by rw [main, port], port⟩

/-- C81 is violated when the input goes across address 2³¹: if the first block and one more float lie below and the
blocks end above, one block and one element are converted. -/
theorem C81_violated_f32toi16 (o : CvtOps F) (vector : Bool) (p inLen outLen : Nat) (scale : F) (im : Nat → F) (om : Nat → BitVec 16)
    (hp : p + 4 * inLen < 2 ^ 32) (h1 : p + 4 * (i16Width vector + 1) < 2 ^ 31)
    (h2 : 2 ^ 31 ≤ p + 4 * (min inLen outLen - min inLen outLen % i16Width vector)) :
    f32toi16Arm o vector (BitVec.ofNat 32 p) inLen outLen scale im om
        = some (fill om 0 (if vector then 9 else 5) fun i => (o.cvtt (o.mul (im (p + 4 * i)) scale)).truncate 16) ∧
      (if vector then 9 else 5) < min inLen outLen := by
  have hw : 0 < i16Width vector := by unfold i16Width; split <;> omega
  have e : i16Width vector + 1 = if vector then 9 else 5 := by unfold i16Width; split <;> rfl
  have hm : min inLen outLen - min inLen outLen % i16Width vector ≤ min inLen outLen := Nat.sub_le _ _
  rw [f32toi16Arm_run o vector p inLen outLen scale im om (by omega) (by omega), converted_short p 4 _ _ _ hw hm h1 h2, e]
  refine ⟨rfl, ?_⟩
  rw [← e]
  omega

/-- C81, `F32toi16ble` (partial in the same way): the bytes of the stored words, low byte first, are the portable
result. -/
theorem C81_f32toi16ble_partial (o : FloatOps F D) (cvt : F → BitVec 32) (hcvt : ∀ x, o.toI16 x = (cvt x).truncate 16) (vector : Bool)
    (p inLen outBytes : Nat) (scale : F) (im : Nat → F) (om : Nat → BitVec 16) (omb : Nat → BitVec 8) (hp : OneHalf p 4 inLen) :
    ∃ t r, f32toi16bleArm ⟨o.mul, cvt⟩ vector (BitVec.ofNat 32 p) inLen outBytes scale im om = some t ∧
      f32toi16ble o ⟨0, inLen⟩ (fun i => im (p + 4 * i)) ⟨0, outBytes⟩ omb scale = some r ∧
      (∀ i, i < min inLen (outBytes / 2) → r (2 * i) = octet 0 (t i).toNat ∧ r (2 * i + 1) = octet 1 (t i).toNat) ∧
      (∀ i, min inLen (outBytes / 2) ≤ i → t i = om i) ∧ ∀ j, 2 * min inLen (outBytes / 2) ≤ j → r j = omb j := by
  have h := C81_f32toi16_partial o cvt hcvt vector p inLen (outBytes / 2) scale im om hp
  have hr := C19_f32toi16ble o ⟨0, inLen⟩ (fun i => im (p + 4 * i)) ⟨0, outBytes⟩ omb scale
  simp only [Nat.zero_add] at hr
  refine ⟨_, _, h.1.trans h.2, hr, ?_, ?_, ?_⟩
  · intro i hi
    have f0 := fill_in (m := om) (b := 0) (n := min inLen (outBytes / 2)) (g := fun i => o.toI16 (o.mul (im (p + 4 * i)) scale)) (i := i) hi
    rw [Nat.zero_add] at f0
    have f1 : ∀ j, j < 2 * min (outBytes / 2) inLen → fill omb 0 (2 * min (outBytes / 2) inLen)
        (fun j => octet (j % 2) (o.toI16 (o.mul (im (p + 4 * (j / 2))) scale)).toNat) j
          = octet (j % 2) (o.toI16 (o.mul (im (p + 4 * (j / 2))) scale)).toNat := by
      intro j hj
      have := fill_in (m := omb) (b := 0) (n := 2 * min (outBytes / 2) inLen)
        (g := fun j => octet (j % 2) (o.toI16 (o.mul (im (p + 4 * (j / 2))) scale)).toNat) (i := j) hj
      rwa [Nat.zero_add] at this
    rw [f0, f1 _ (by omega), f1 _ (by omega), show 2 * i / 2 = i by omega, show (2 * i + 1) / 2 = i by omega,
      show 2 * i % 2 = 0 by omega, show (2 * i + 1) % 2 = 1 by omega]
    exact ⟨rfl, rfl⟩
  · intro i hi
    exact fill_out (by omega)
  · intro j hj
    exact fill_out (by omega)

example : ∀ x : Int, intOps.toI16 x = (BitVec.ofInt 32 x).truncate 16 := by
  intro x
  apply BitVec.eq_of_toNat_eq
  simp only [intOps, BitVec.truncate, BitVec.toNat_setWidth, BitVec.toNat_ofInt]
  omega
example : OneHalf 0x90000000 4 1000000 := by unfold OneHalf; omega
example : (0x7fffffc0 : Nat) + 4 * 100 < 2 ^ 32 ∧ 0x7fffffc0 + 4 * (i16Width true + 1) < 2 ^ 31 ∧
    2 ^ 31 ≤ 0x7fffffc0 + 4 * (min 100 90 - min 100 90 % i16Width true) := by decide
example : (f32toi16Arm ⟨intOps.mul, BitVec.ofInt 32⟩ true 0x3000 21 30 3 (fun a => (a : Int) - 0x3000) (fun _ => 7)).map
    (fun m => ((m 0).toInt, (m 17).toInt, (m 20).toInt, (m 21).toInt)) = some (0, 204, 240, 7) := by decide +kernel

end Verif.Arm
