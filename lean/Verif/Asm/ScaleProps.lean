import Verif.Asm.FromI16Props
import Verif.Fp.FpLemmas
import Verif.Conv.IeeeProps

/-!
# Properties C24 (`F32toi16`, `F32toi16ble`) and C25 (`VScaleF32`) on amd64
-/

namespace Verif.Asm
open Verif.Conv
variable {F D σ : Type}

/-- A do-while loop advancing a position by `w` from `c` as long as it is below `e`. -/
theorem doWhile_stride {body : σ → Option σ} {cond : σ → Bool} (S : Nat → σ) (w c e fuel : Nat)
    (hw : 0 < w) (hce : c < e) (hd : w ∣ e - c) (hf : e - c ≤ fuel)
    (hb : ∀ x, x + w ≤ e → body (S x) = some (S (x + w)))
    (hc : ∀ x, cond (S x) = decide (x < e)) :
    doWhile body cond fuel (S c) = some (S e) := by
  obtain ⟨k, hk⟩ := hd
  have hk0 : 0 < k := by
    rcases Nat.eq_zero_or_pos k with h | h
    · subst h; omega
    · exact h
  have hkle : k ≤ w * k := Nat.le_mul_of_pos_left k hw
  have mono : ∀ i, i < k → w * i + w ≤ w * k := fun i hi => by
    rw [← Nat.mul_succ]; exact Nat.mul_le_mul_left w hi
  have := doWhile_run (body := body) (cond := cond) (fun i => S (c + w * i)) k fuel hk0 (by omega)
    (fun i hi => by
      rw [hb _ (by have := mono i hi; omega), Nat.mul_succ, Nat.add_assoc])
    (fun i _ hi => by
      show cond (S (c + w * i)) = true
      rw [hc, decide_eq_true_eq]; have := mono i hi; omega)
    (by
      show cond (S (c + w * k)) = false
      rw [hc, decide_eq_false_iff_not]; omega)
  simp only [Nat.mul_zero, Nat.add_zero] at this
  rw [this, show c + w * k = e by omega]

/-- Storing `w` consecutive cells extends a filled range. -/
theorem fill_block {α : Type} (m : Nat → α) (b c w : Nat) (g v : Nat → α)
    (h : ∀ k, k < w → v k = g (c + k)) :
    (fun a => if b + c ≤ a ∧ a < b + c + w then v (a - (b + c)) else fill m b c g a)
      = fill m b (c + w) g := by
  funext a
  by_cases h1 : b + c ≤ a ∧ a < b + c + w
  · rw [if_pos h1, h _ (by omega)]
    simp only [fill]
    rw [if_pos (by omega), show c + (a - (b + c)) = a - b by omega]
  · rw [if_neg h1]
    simp only [fill]
    by_cases h2 : b ≤ a ∧ a < b + c
    · rw [if_pos h2, if_pos (by omega)]
    · rw [if_neg h2, if_neg (by omega)]

/-! ## C24 -/

/-- What `F32toi16` stores for element `i` of `n`: saturated in the vector part, wrapped in the
tail. -/
def cvtAt (o : CvtOps F) (scale : F) (im : Nat → F) (n i : Nat) : BitVec 16 :=
  if i < n - n % 32 then packss (o.cvtt (o.mul (im i) scale))
  else (o.cvtt (o.mul (im i) scale)).truncate 16

def stI (om g : Nat → BitVec 16) (c : Nat) : StLe (BitVec 16) := ⟨c, 0, c, fill om 0 c g, c, c⟩

theorem stI_zero (om g : Nat → BitVec 16) : stI om g 0 = ⟨0, 0, 0, om, 0, 0⟩ := by
  simp [stI, fill_zero]

theorem i16Block_st (o : CvtOps F) (scale : F) (im : Nat → F) (om : Nat → BitVec 16) (n c : Nat)
    (h : c + 16 ≤ n - n % 32) :
    i16Block o scale im (stI om (cvtAt o scale im n) c) = some (stI om (cvtAt o scale im n) (c + 16)) := by
  have e : max c (c + 16) = c + 16 := by omega
  have hb := fill_block om 0 c 16 (cvtAt o scale im n)
    (fun k => packss (o.cvtt (o.mul (im (c + k)) scale)))
    (fun k hk => by rw [cvtAt, if_pos (by omega)])
  simp only [Nat.zero_add] at hb
  simp only [i16Block, stI, e]
  rw [← hb]
  rfl

theorem i16Step_st (o : CvtOps F) (scale : F) (im : Nat → F) (om : Nat → BitVec 16) (n c : Nat)
    (h : n - n % 32 ≤ c) :
    i16Step o scale im (stI om (cvtAt o scale im n) c) = some (stI om (cvtAt o scale im n) (c + 1)) := by
  have u := update_fill om 0 c (cvtAt o scale im n) ((o.cvtt (o.mul (im c) scale)).truncate 16)
    (by rw [cvtAt, if_neg (by omega)])
  rw [Nat.zero_add] at u
  have e : max c (c + 1) = c + 1 := by omega
  simp only [i16Step, stI, e]
  rw [u]

theorem f32toi16Amd_run (o : CvtOps F) (inLen outLen : Nat) (scale : F) (im : Nat → F)
    (om : Nat → BitVec 16) : f32toi16Amd o inLen outLen scale im om
      = some (stI om (cvtAt o scale im (min inLen outLen)) (min inLen outLen)) := by
  unfold f32toi16Amd
  have hm : (if inLen ≥ outLen then outLen else inLen) = min inLen outLen := by split <;> omega
  simp only [hm]
  generalize min inLen outLen = n
  have h1 : (if 0 ≥ n - n % 32 then some (⟨0, 0, 0, om, 0, 0⟩ : StLe (BitVec 16))
      else doWhile (i16Block o scale im) (fun s => decide (s.bx < n - n % 32)) (n + 1) ⟨0, 0, 0, om, 0, 0⟩)
      = some (stI om (cvtAt o scale im n) (n - n % 32)) := by
    rw [← stI_zero om (cvtAt o scale im n)]
    by_cases h : 0 ≥ n - n % 32
    · rw [if_pos h, show n - n % 32 = 0 by omega]
    · rw [if_neg h]
      exact doWhile_stride (stI om (cvtAt o scale im n)) 16 0 _ _ (by omega) (by omega)
        (by omega) (by omega) (fun x hx => i16Block_st o scale im om n x hx) (fun _ => rfl)
  rw [h1, Option.bind_some]
  show (if n - n % 32 ≥ n then _ else _) = _
  by_cases h : n - n % 32 ≥ n
  · rw [if_pos h, show n - n % 32 = n by omega]
  · rw [if_neg h]
    have := doWhile_run (body := i16Step o scale im) (cond := fun s => decide (s.bx < n))
      (fun i => stI om (cvtAt o scale im n) (n - n % 32 + i)) (n % 32) (n + 1) (by omega) (by omega)
      (fun i _ => i16Step_st o scale im om n _ (by omega))
      (fun i _ hi => by
        show decide (n - n % 32 + i < n) = true
        rw [decide_eq_true_eq]; omega)
      (by
        show decide (n - n % 32 + n % 32 < n) = false
        rw [decide_eq_false_iff_not]; omega)
    simp only [Nat.add_zero] at this
    rw [this, show n - n % 32 + n % 32 = n by omega]

/-- Exactly what the amd64 `F32toi16` computes, for every length and arithmetic: saturation before
the last multiple of 32, wrap-around after it; no access beyond the common length. -/
theorem f32toi16Amd_exact (o : CvtOps F) (inLen outLen : Nat) (scale : F) (im : Nat → F)
    (om : Nat → BitVec 16) :
    ∃ t, f32toi16Amd o inLen outLen scale im om = some t ∧ t.rEnd = min inLen outLen ∧
      t.wEnd = min inLen outLen ∧
      t.om = fill om 0 (min inLen outLen) (cvtAt o scale im (min inLen outLen)) :=
  ⟨_, f32toi16Amd_run o inLen outLen scale im om, rfl, rfl, rfl⟩

theorem packss_eq (x : BitVec 32) (h1 : -32768 ≤ x.toInt) (h2 : x.toInt ≤ 32767) :
    packss x = x.truncate 16 := by
  rw [packss, if_neg (by omega), if_neg (by omega)]
  apply BitVec.eq_of_toNat_eq
  have hx := x.isLt
  rw [BitVec.toNat_ofInt, BitVec.truncate_eq_setWidth, BitVec.toNat_setWidth, BitVec.toInt_eq_toNat_cond]
  split <;> omega

/-- C24 (partial: only for products whose conversion fits 16 bits; the full claim is false, see
`C24_violated`).  Each stored element is the truncated product of its own input, at every index of
every length, for `F32toi16` and `F32toi16ble`; nothing else is written. -/
theorem C24_in_range_partial (o : CvtOps F) (inLen outLen : Nat) (scale : F) (im : Nat → F)
    (om : Nat → BitVec 16)
    (h : ∀ i, i < min inLen outLen → -32768 ≤ (o.cvtt (o.mul (im i) scale)).toInt ∧
      (o.cvtt (o.mul (im i) scale)).toInt ≤ 32767) :
    ∃ t, f32toi16Amd o inLen outLen scale im om = some t ∧ t.rEnd = min inLen outLen ∧
      t.wEnd = min inLen outLen ∧
      (∀ i, i < min inLen outLen → (t.om i).toInt = (o.cvtt (o.mul (im i) scale)).toInt) ∧
      (∀ i, min inLen outLen ≤ i → t.om i = om i) ∧
      f32toi16bleAmd o inLen (2 * outLen) scale im om = some t ∧
      f32toi16bleAmd o inLen (2 * outLen + 1) scale im om = some t := by
  refine ⟨_, f32toi16Amd_run o inLen outLen scale im om, rfl, rfl, ?_, ?_, ?_, ?_⟩
  · intro i hi
    obtain ⟨h1, h2⟩ := h i hi
    have : fill om 0 (min inLen outLen) (cvtAt o scale im (min inLen outLen)) i
        = (o.cvtt (o.mul (im i) scale)).truncate 16 := by
      have e := fill_in (m := om) (b := 0) (g := cvtAt o scale im (min inLen outLen)) hi
      rw [Nat.zero_add] at e
      rw [e, cvtAt]
      split
      · exact packss_eq _ h1 h2
      · rfl
    show (fill om 0 (min inLen outLen) (cvtAt o scale im (min inLen outLen)) i).toInt = _
    rw [this]
    generalize o.cvtt (o.mul (im i) scale) = x at h1 h2
    have hx := x.isLt
    have := (x.truncate 16).isLt
    rw [BitVec.toInt_eq_toNat_cond] at h1 h2
    rw [BitVec.toInt_eq_toNat_cond, BitVec.toInt_eq_toNat_cond, BitVec.truncate_eq_setWidth, BitVec.toNat_setWidth]
    split at h1 <;> split at h2 <;> split <;> omega
  · intro i hi
    exact fill_out (by omega)
  · rw [f32toi16bleAmd, show 2 * outLen / 2 = outLen by omega]
    exact f32toi16Amd_run o inLen outLen scale im om
  · rw [f32toi16bleAmd, show (2 * outLen + 1) / 2 = outLen by omega]
    exact f32toi16Amd_run o inLen outLen scale im om

/-- The processor's conversions under the IEEE model: `CVTTPS2PL`/`CVTTSS2SL` give 0x80000000 when
the truncated value is not a 32-bit integer. -/
def sseOps : CvtOps Fp.Val := ⟨Fp.mul Fp.binary32, Fp.toSigned 32 fun _ => 0x80000000#32⟩

/-- C24 is violated whenever saturation and wrap-around differ: the same value gets different
results as first element of slices of length 32 and 31, and at indices 0 and 32 of one slice of
length 33. -/
theorem C24_violated (o : CvtOps F) (x scale : F) (om : Nat → BitVec 16)
    (h : packss (o.cvtt (o.mul x scale)) ≠ (o.cvtt (o.mul x scale)).truncate 16) :
    ((f32toi16Amd o 32 32 scale (fun _ => x) om).map (·.om 0)
        ≠ (f32toi16Amd o 31 31 scale (fun _ => x) om).map (·.om 0)) ∧
      (f32toi16Amd o 33 33 scale (fun _ => x) om).map (·.om 0)
        ≠ (f32toi16Amd o 33 33 scale (fun _ => x) om).map (·.om 32) := by
  simp only [f32toi16Amd_run, Option.map_some, ne_eq, Option.some.injEq]
  constructor
  · simpa [stI, fill, cvtAt] using h
  · simpa [stI, fill, cvtAt] using h

/-- 40000 times 1 in binary32 is 40000; it is stored as 32767 or as −25536. -/
theorem C24_violated_witness :
    sseOps.mul (.fin false 40000) (.fin false 1) = .fin false 40000 ∧
      (packss (sseOps.cvtt (.fin false 40000))).toInt = 32767 ∧
      ((sseOps.cvtt (.fin false 40000)).truncate 16).toInt = -25536 := by
  have e : sseOps.cvtt (.fin false 40000) = BitVec.ofInt 32 40000 := by
    have := Conv.trunc_exact 32 (fun _ => 0x80000000#32) 40000 (by decide) (by decide)
    simpa [sseOps] using this
  refine ⟨?_, ?_, ?_⟩
  · have := Fp.round_exact Fp.binary32 false 40000 0 (by decide) (by decide) (by
      simp only [Fp.binary32]; norm_num)
    simpa [sseOps, Fp.mul] using this
  · rw [e]; decide
  · rw [e]; decide

/-- The partial theorem's hypothesis holds for in-range data, here with toy integer arithmetic. -/
example : (f32toi16Amd ⟨fun a b : Int => a * b, fun x => BitVec.ofInt 32 x⟩ 40 36 3
    (fun i => 100 * (i : Int) - 2000) (fun _ => 9)).map
      (fun s => ((s.om 0).toInt, (s.om 33).toInt, (s.om 35).toInt, (s.om 36).toInt, s.wEnd))
      = some (-6000, 3900, 4500, 9, 36) := by decide +kernel

/-! ## C25 -/

def stV (m : Nat → F) (inp out : Nat) (g : Nat → F) (c : Nat) : StV F := ⟨inp + c, out + c, c, fill m out c g⟩

theorem stV_zero (m : Nat → F) (inp out : Nat) (g : Nat → F) : stV m inp out g 0 = ⟨inp, out, 0, m⟩ := by
  simp [stV, fill_zero]

theorem vsBlock_st (mul : F → F → F) (scale : F) (w : Nat) (m : Nat → F) (inp out n c : Nat)
    (h : NoOvertake out inp n) (hc : c + w ≤ n) :
    vsBlock mul scale w (stV m inp out (fun i => mul (m (inp + i)) scale) c)
      = some (stV m inp out (fun i => mul (m (inp + i)) scale) (c + w)) := by
  have hb := fill_block m out c w (fun i => mul (m (inp + i)) scale)
    (fun k => mul (fill m out c (fun i => mul (m (inp + i)) scale) (inp + c + k)) scale)
    (fun k hk => by
      unfold NoOvertake at h
      rw [fill_out (by omega), Nat.add_assoc])
  simp only [vsBlock, stV]
  rw [← hb]
  congr 2 <;> omega

theorem vsStep_st (mul : F → F → F) (scale : F) (m : Nat → F) (inp out n c : Nat)
    (h : NoOvertake out inp n) (hc : c < n) :
    vsStep mul scale (stV m inp out (fun i => mul (m (inp + i)) scale) c)
      = some (stV m inp out (fun i => mul (m (inp + i)) scale) (c + 1)) := by
  simp only [vsStep, stV]
  rw [fill_ahead h hc, update_fill m out c (fun i => mul (m (inp + i)) scale) _ rfl]
  congr 2

/-- How many elements amd64 `VScaleF32` scales for common length `n`. -/
def scaled (useAVX2 useSSE2 : Bool) (n : Nat) : Nat :=
  if useAVX2 then min n (n - n % 64 + 1) else if useSSE2 then min n (n - n % 32 + 1) else n

theorem vscaleF32Amd_run (mul : F → F → F) (useAVX2 useSSE2 : Bool) (input output : Slice) (scale : F)
    (m : Nat → F) (h : NoOvertake output.base input.base (min input.len output.len)) :
    vscaleF32Amd mul useAVX2 useSSE2 input output scale m
      = some (stV m input.base output.base (fun i => mul (m (input.base + i)) scale)
          (scaled useAVX2 useSSE2 (min input.len output.len))) := by
  have hm : (if input.len ≥ output.len then output.len else input.len) = min input.len output.len := by
    split <;> omega
  unfold vscaleF32Amd
  simp only [hm]
  generalize min input.len output.len = n at h
  rw [← stV_zero m input.base output.base (fun i => mul (m (input.base + i)) scale)]
  generalize hS : stV m input.base output.base (fun i => mul (m (input.base + i)) scale) = S
  have hax : ∀ x, (S x).ax = x := by intro x; rw [← hS]; rfl
  have hstep : ∀ x, x < n → vsStep mul scale (S x) = some (S (x + 1)) := by
    intro x hx; rw [← hS]; exact vsStep_st mul scale m _ _ n x h hx
  have hblock : ∀ w x, x + w ≤ n → vsBlock mul scale w (S x) = some (S (x + w)) := by
    intro w x hx; rw [← hS]; exact vsBlock_st mul scale w m _ _ n x h hx
  have one : ∀ c, c < n → doWhile (vsStep mul scale) (fun s => decide (s.ax < c)) (n + 1) (S c)
      = some (S (c + 1)) := by
    intro c hc
    have := doWhile_run (body := vsStep mul scale) (cond := fun s => decide (s.ax < c))
      (fun i => S (c + i)) 1 (n + 1) (by omega) (by omega)
      (fun i hi => by rw [show i = 0 by omega, Nat.add_zero, hstep c hc])
      (fun i hi hi' => by omega)
      (by
        show decide ((S (c + 1)).ax < c) = false
        rw [hax, decide_eq_false_iff_not]; omega)
    exact this
  have vec : ∀ w e, 0 < w → w ∣ e → 0 < e → e ≤ n →
      doWhile (vsBlock mul scale w) (fun s => decide (s.ax < e)) (n + 1) (S 0) = some (S e) := by
    intro w e hw hd he hen
    exact doWhile_stride S w 0 e _ hw he hd (by omega) (fun x hx => hblock w x (by omega))
      (fun x => by rw [hax])
  have fin : ∀ c, c ≤ n → (if (S c).ax ≥ n then some (S c)
      else doWhile (vsStep mul scale) (fun s => decide (s.ax < c)) (n + 1) (S c)) = some (S (min n (c + 1))) := by
    intro c hc
    rw [hax]
    by_cases hcn : c ≥ n
    · rw [if_pos hcn, show min n (c + 1) = c by omega]
    · rw [if_neg hcn, one c (by omega), show min n (c + 1) = c + 1 by omega]
  have fin0 : (if 0 ≥ n then some (S 0)
      else doWhile (vsStep mul scale) (fun s => decide (s.ax < 0)) (n + 1) (S 0)) = some (S (min n (0 + 1))) := by
    have := fin 0 (by omega)
    rwa [hax] at this
  unfold scaled
  cases useAVX2 with
  | true =>
    simp only [if_true]
    by_cases h0 : 0 ≥ n - n % 64
    · rw [if_pos h0, show n - n % 64 = 0 by omega, fin0]
    · rw [if_neg h0, vec 32 _ (by omega) (by omega) (by omega) (by omega), Option.bind_some,
        fin _ (by omega)]
  | false =>
    cases useSSE2 with
    | true =>
      simp only [Bool.false_eq_true, if_true, if_false]
      by_cases h0 : 0 ≥ n - n % 32
      · rw [if_pos h0, show n - n % 32 = 0 by omega, fin0]
      · rw [if_neg h0, vec 16 _ (by omega) (by omega) (by omega) (by omega), Option.bind_some,
          fin _ (by omega)]
    | false =>
      simp only [Bool.false_eq_true, if_false]
      by_cases h0 : 0 ≥ n
      · rw [if_pos h0, show n = 0 by omega]
      · rw [if_neg h0]
        exact doWhile_stride S 1 0 n _ (by omega) (by omega) (by omega) (by omega)
          (fun x hx => hstep x (by omega)) (fun x => by rw [hax])

/-- C25 (partial: the number of elements scaled may be smaller than the common length, see
`C25_violated`).  The first `scaled` elements are scaled exactly as by the portable code and nothing
else is written, for every length, feature setting and non-overtaking overlap; all elements are
scaled iff the features are off or the length is, modulo 64 (AVX2) or 32 (SSE2), 0 or 1. -/
theorem C25_exact_partial (mul : F → F → F) (useAVX2 useSSE2 : Bool) (input output : Slice) (scale : F)
    (m : Nat → F) (h : NoOvertake output.base input.base (min input.len output.len)) :
    ∃ t, vscaleF32Amd mul useAVX2 useSSE2 input output scale m = some t ∧
      t.m = fill m output.base (scaled useAVX2 useSSE2 (min input.len output.len))
        (fun i => mul (m (input.base + i)) scale) ∧
      (scaled useAVX2 useSSE2 (min input.len output.len) = min input.len output.len ↔
        (useAVX2 = true → min input.len output.len % 64 ≤ 1) ∧
        (useAVX2 = false → useSSE2 = true → min input.len output.len % 32 ≤ 1)) := by
  refine ⟨_, vscaleF32Amd_run mul useAVX2 useSSE2 input output scale m h, rfl, ?_⟩
  cases useAVX2 <;> cases useSSE2 <;> simp [scaled] <;> omega

/-- C25 is violated at every other length: the element right after those scaled lies inside both
slices and keeps its old value instead of the product. -/
theorem C25_violated (mul : F → F → F) (useAVX2 useSSE2 : Bool) (input output : Slice) (scale : F)
    (m : Nat → F) (h : NoOvertake output.base input.base (min input.len output.len))
    (hn : (useAVX2 = true ∧ 1 < min input.len output.len % 64) ∨
      (useAVX2 = false ∧ useSSE2 = true ∧ 1 < min input.len output.len % 32)) :
    ∃ t i, vscaleF32Amd mul useAVX2 useSSE2 input output scale m = some t ∧
      i < min input.len output.len ∧ t.m (output.base + i) = m (output.base + i) := by
  refine ⟨_, scaled useAVX2 useSSE2 (min input.len output.len),
    vscaleF32Amd_run mul useAVX2 useSSE2 input output scale m h, ?_, ?_⟩
  · rcases hn with ⟨rfl, hn⟩ | ⟨rfl, rfl, hn⟩ <;> simp [scaled] <;> omega
  · simp only [stV]
    exact fill_out (Or.inr (Nat.le_refl _))

/-- With AVX2 the lengths of the repository's test (256, 257) are scaled completely, 258 is not. -/
example : scaled true true 256 = 256 ∧ scaled true true 257 = 257 ∧ scaled true true 258 = 257 ∧
    scaled false true 40 = 33 ∧
    (vscaleF32Amd (fun a b : Int => a * b) false true ⟨0, 40⟩ ⟨0, 40⟩ 10 (fun i => (i : Int))).map
      (fun s => (s.m 32, s.m 33, s.m 39)) = some (320, 33, 39) := by decide +kernel

end Verif.Asm
