import Verif.Asm.MaxNan
import Verif.X86.VMaxLemmas
import Verif.X86.VMinLemmas
import Verif.X86.VScaleProps

/-!
# Property C117: the instructions of `VMaxF32` and `VMinF32` on amd64

Lines 13–117 and 119–223 of `dsp/math32_amd64.s`, one by one.
-/

namespace Verif.X86.Math
open Verif.X86 Verif.Fp Verif.X86.Conv Verif.Asm Verif.Asm.Closed
open Verif.X86.Conv.F16 (word)

/-- The package variable `useAVX2` is set. -/
def avx2 (e : Env) : Bool := decide (e.sym .useAVX2 = 1)
/-- The package variable `useSSE2` is set. -/
def sse2 (e : Env) : Bool := decide (e.sym .useSSE2 = 1)

/-- Element `i` of the slice of float32 at `ib`. -/
def elem (s : St) (ib : BitVec 64) (i : Nat) : Val := Avo.f32at s.mem (ib + BitVec.ofNat 64 (4 * i))

/-- Without not-a-numbers in the vector part every number counts. -/
theorem counts_all {a b : Bool} {n : Nat} {im : Nat → Val} (hg : ∀ i < vecPart a b n, im i ≠ .nan) {i : Nat} (hi : im i ≠ .nan) :
    Counts (· ≠ Val.nan) im (lanes a) (vecPart a b n) i := by
  by_cases c : vecPart a b n ≤ i
  · exact Or.inl c
  · refine Or.inr ⟨hi, fun u _ h _ => hg u h, fun p hp => hg _ ?_⟩
    have h1 : p < 4 * lanes a := by
      unfold lanes after at *
      cases a <;> simp only [if_true, if_false, Bool.false_eq_true, Nat.reduceMul] at hp ⊢
      all_goals
        simp only [List.mem_append] at hp
        rcases hp with ((((h | h) | h) | h) | h) | h <;> split at h <;> simp only [List.mem_singleton, List.not_mem_nil] at h <;> omega
    have h2 : 4 * lanes a ≤ vecPart a b n := by
      unfold lanes vecPart at *
      cases a <;> cases b <;> simp only [if_true, if_false, Bool.false_eq_true] at c ⊢ <;> omega
    omega

/-- The condition of the jump after `UCOMISS`. -/
theorem ucom_iff (a b : BitVec 32) : ((ieeeUcom a b).2 || (ieeeUcom a b).1) = true ↔ ¬ gtF (ofBits32 a) (ofBits32 b) = true := by
  unfold ieeeUcom gtF
  by_cases c : ofBits32 a = .nan ∨ ofBits32 b = .nan
  · rw [if_pos c]
    simp only [Bool.or_self, decide_eq_true_eq, true_iff, lt_iff]
    tauto
  · rw [if_neg c]
    simp only [Bool.or_eq_true, decide_eq_true_eq, lt_iff]
    push Not at c
    simp only [ne_eq, c.1, c.2, not_false_eq_true, true_and, not_lt]
    constructor
    · rintro (h | h)
      · exact h.le
      · exact h.2
    · intro h
      rcases h.lt_or_eq with h | h
      · exact Or.inl h
      · exact Or.inr ⟨h.ge, h.le⟩

namespace VMax

theorem init_val : ofBits32 0xff800000 = .inf true := by norm_num [ofBits32, show (0xff800000 : BitVec 32).toNat = 0xff800000 from rfl]

theorem op_eq {e : Env} (he : e.o = ieee) : e.o.maxss = maxps fun a b => gtF (ofBits32 a) (ofBits32 b) := by
  funext a b
  rw [he]
  show ieeeMax32 a b = _
  unfold ieeeMax32 maxps gtF
  by_cases c : Verif.Fp.lt (ofBits32 b) (ofBits32 a)
  · rw [if_pos c, if_pos (by simpa using c)]
  · rw [if_neg c, if_neg (by simpa using c)]

theorem st_eq {e : Env} (he : e.o = ieee) : st e = fun x y => if gtF (ofBits32 y) (ofBits32 x) then y else x := by
  funext x y
  unfold st
  rw [he]
  show (if ((ieeeUcom y x).2 || (ieeeUcom y x).1) = true then x else y) = _
  by_cases c : gtF (ofBits32 y) (ofBits32 x) = true
  · rw [if_pos c, if_neg fun h => (ucom_iff y x).1 h c]
  · rw [if_neg c, if_pos ((ucom_iff y x).2 c)]

end VMax

namespace VMin

theorem init_val : ofBits32 0x7f800000 = .inf false := by norm_num [ofBits32, show (0x7f800000 : BitVec 32).toNat = 0x7f800000 from rfl]

theorem op_eq {e : Env} (he : e.o = ieee) : e.o.minss = maxps fun a b => ltF (ofBits32 a) (ofBits32 b) := by
  funext a b
  rw [he]
  show ieeeMin32 a b = _
  unfold ieeeMin32 maxps ltF
  by_cases c : Verif.Fp.lt (ofBits32 a) (ofBits32 b)
  · rw [if_pos c, if_pos (by simpa using c)]
  · rw [if_neg c, if_neg (by simpa using c)]

theorem st_eq {e : Env} (he : e.o = ieee) : st e = fun x y => if ltF (ofBits32 y) (ofBits32 x) then y else x := by
  funext x y
  unfold st
  rw [he]
  show (if ((ieeeUcom x y).2 || (ieeeUcom x y).1) = true then x else y) = _
  by_cases c : ltF (ofBits32 y) (ofBits32 x) = true
  · rw [if_pos c, if_neg fun h => (ucom_iff x y).1 h c]
  · rw [if_neg c, if_pos ((ucom_iff x y).2 c)]

end VMin

/-! ## `VMaxF32` -/

/-- **C117 for `VMaxF32`**, lines 13–117. With IEEE-754 arithmetic, from any state with the slice in the frame, with any setting of the package
variables: the routine returns, memory and the frame pointer have not changed, and of the frame only the result. The result is not a number
exactly if the last element of the vector part is not a number. Otherwise it has the bits of −∞ or of an element that counts, and
is at least every number that counts. -/
theorem C117_VMaxF32 {e : Env} (he : e.o = ieee) {s : St} {ib : BitVec 64} {n : Nat} (hn : n < 2 ^ 61) (h1 : s.fp 0 = ib) (h2 : s.fp 8 = BitVec.ofNat 64 n)
    (hr : ∀ i < 4 * n, e.rd (ib + BitVec.ofNat 64 i) = true) :
    ∃ s' y, Returns e prog 13 s s' ∧ s'.mem = s.mem ∧ s'.g.bp = s.g.bp ∧ s'.fp = Function.update s.fp 24 ((s.fp 24).extractLsb' 32 32 ++ y) ∧
      (ofBits32 y = .nan ↔ 0 < vecPart (avx2 e) (sse2 e) n ∧ elem s ib (vecPart (avx2 e) (sse2 e) n - 1) = .nan) ∧
      (ofBits32 y ≠ .nan →
        (y = 0xff800000 ∨ ∃ i < n, Counts (· ≠ Val.nan) (elem s ib) (lanes (avx2 e)) (vecPart (avx2 e) (sse2 e) n) i ∧
          y = u32at s.mem (ib + BitVec.ofNat 64 (4 * i))) ∧
        ∀ i < n, Counts (· ≠ Val.nan) (elem s ib) (lanes (avx2 e)) (vecPart (avx2 e) (sse2 e) n) i → elem s ib i ≠ .nan →
          key (elem s ib i) ≤ key (ofBits32 y)) := by
  obtain ⟨s', r1, r2, r3, r4⟩ := VMax.routine (e := e) (n := n) (by omega) hr h1 h2
  obtain ⟨y, e1, e2, e3⟩ := vExtremeAmd_exact (good := fun b => ofBits32 b ≠ .nan) (key' := fun b =>  (key (ofBits32 b)))
    (gt := fun a b => gtF (ofBits32 a) (ofBits32 b)) (init := (0xff800000 : BitVec 32)) (fun a b => gtF_iff _ _) (by rw [VMax.init_val]; simp)
    (fun x hx => by rw [VMax.init_val]; exact key_bot _) (avx2 e) (sse2 e) n (word s.mem ib)
  rw [vExtremeAmd_eq] at e1
  have : res e.o.maxss (VMax.st e) 0xff800000 (decide (e.sym .useAVX2 = 1)) (decide (e.sym .useSSE2 = 1)) n (word s.mem ib) = y := by
    rw [← Option.some.inj e1, VMax.op_eq he, VMax.st_eq he]
    rfl
  rw [this] at r4
  have w : ∀ i, ofBits32 (word s.mem ib i) = elem s ib i := fun i => by rw [word_eq]; rfl
  have cw : ∀ i, Counts (fun b => ofBits32 b ≠ .nan) (word s.mem ib) (lanes (avx2 e)) (vecPart (avx2 e) (sse2 e) n) i ↔
      Counts (· ≠ Val.nan) (elem s ib) (lanes (avx2 e)) (vecPart (avx2 e) (sse2 e) n) i := fun i => by simp only [Counts, w]
  simp only [ne_eq, not_not, w] at e2 e3
  have iff : ofBits32 y = .nan ↔ 0 < vecPart (avx2 e) (sse2 e) n ∧ elem s ib (vecPart (avx2 e) (sse2 e) n - 1) = .nan := by
    constructor
    · intro h
      by_contra c
      exact (e3 c).isGood h
    · intro h
      rw [e2 h, w, h.2]
  refine ⟨s', y, r1, r2, r3, r4, iff, fun hy => ?_⟩
  have E := e3 fun c => hy (iff.2 c)
  refine ⟨E.mem.imp_right fun ⟨i, ⟨a, b⟩, c⟩ => ⟨i, a, (cw i).1 b, by rw [c, word_eq]⟩, fun i a b c => ?_⟩
  have := E.ge i ⟨a, (cw i).2 b⟩ (by rw [w]; exact c)
  rw [w] at this
  exact this

/-- **C117, `VMaxF32` without not-a-numbers in the vector part**: the maximum of all numbers. -/
theorem C117_VMaxF32_all {e : Env} (he : e.o = ieee) {s : St} {ib : BitVec 64} {n : Nat} (hn : n < 2 ^ 61) (h1 : s.fp 0 = ib) (h2 : s.fp 8 = BitVec.ofNat 64 n)
    (hr : ∀ i < 4 * n, e.rd (ib + BitVec.ofNat 64 i) = true) (hg : ∀ i < vecPart (avx2 e) (sse2 e) n, elem s ib i ≠ .nan) :
    ∃ s' y, Returns e prog 13 s s' ∧ s'.mem = s.mem ∧ s'.g.bp = s.g.bp ∧ s'.fp = Function.update s.fp 24 ((s.fp 24).extractLsb' 32 32 ++ y) ∧
      ofBits32 y ≠ .nan ∧ (y = 0xff800000 ∨ ∃ i < n, y = u32at s.mem (ib + BitVec.ofNat 64 (4 * i))) ∧
      ∀ i < n, elem s ib i ≠ .nan → key (elem s ib i) ≤ key (ofBits32 y) := by
  obtain ⟨s', y, r1, r2, r3, r4, r5, r6⟩ := C117_VMaxF32 he hn h1 h2 hr
  have hy : ofBits32 y ≠ .nan := fun h => by
    obtain ⟨a, b⟩ := r5.1 h
    exact hg _ (by omega) b
  obtain ⟨a, b⟩ := r6 hy
  exact ⟨s', y, r1, r2, r3, r4, hy, a.imp_right fun ⟨i, h, _, c⟩ => ⟨i, h, c⟩, fun i hi c => b i hi (counts_all hg c) c⟩

/-! ## `VMinF32` -/

/-- **C117 for `VMinF32`**, lines 119–223. With IEEE-754 arithmetic, from any state with the slice in the frame, with any setting of the package
variables: the routine returns, memory and the frame pointer have not changed, and of the frame only the result. The result is not a number
exactly if the last element of the vector part is not a number. Otherwise it has the bits of +∞ or of an element that counts, and
is at most every number that counts. -/
theorem C117_VMinF32 {e : Env} (he : e.o = ieee) {s : St} {ib : BitVec 64} {n : Nat} (hn : n < 2 ^ 61) (h1 : s.fp 0 = ib) (h2 : s.fp 8 = BitVec.ofNat 64 n)
    (hr : ∀ i < 4 * n, e.rd (ib + BitVec.ofNat 64 i) = true) :
    ∃ s' y, Returns e prog 119 s s' ∧ s'.mem = s.mem ∧ s'.g.bp = s.g.bp ∧ s'.fp = Function.update s.fp 24 ((s.fp 24).extractLsb' 32 32 ++ y) ∧
      (ofBits32 y = .nan ↔ 0 < vecPart (avx2 e) (sse2 e) n ∧ elem s ib (vecPart (avx2 e) (sse2 e) n - 1) = .nan) ∧
      (ofBits32 y ≠ .nan →
        (y = 0x7f800000 ∨ ∃ i < n, Counts (· ≠ Val.nan) (elem s ib) (lanes (avx2 e)) (vecPart (avx2 e) (sse2 e) n) i ∧
          y = u32at s.mem (ib + BitVec.ofNat 64 (4 * i))) ∧
        ∀ i < n, Counts (· ≠ Val.nan) (elem s ib) (lanes (avx2 e)) (vecPart (avx2 e) (sse2 e) n) i → elem s ib i ≠ .nan →
          key (ofBits32 y) ≤ key (elem s ib i)) := by
  obtain ⟨s', r1, r2, r3, r4⟩ := VMin.routine (e := e) (n := n) (by omega) hr h1 h2
  obtain ⟨y, e1, e2, e3⟩ := vExtremeAmd_exact (good := fun b => ofBits32 b ≠ .nan) (key' := fun b => OrderDual.toDual (key (ofBits32 b)))
    (gt := fun a b => ltF (ofBits32 a) (ofBits32 b)) (init := (0x7f800000 : BitVec 32)) (fun a b => ltF_iff _ _) (by rw [VMin.init_val]; simp)
    (fun x hx => by rw [VMin.init_val]; exact OrderDual.toDual_le_toDual.2 (key_top _ hx)) (avx2 e) (sse2 e) n (word s.mem ib)
  rw [vExtremeAmd_eq] at e1
  have : res e.o.minss (VMin.st e) 0x7f800000 (decide (e.sym .useAVX2 = 1)) (decide (e.sym .useSSE2 = 1)) n (word s.mem ib) = y := by
    rw [← Option.some.inj e1, VMin.op_eq he, VMin.st_eq he]
    rfl
  rw [this] at r4
  have w : ∀ i, ofBits32 (word s.mem ib i) = elem s ib i := fun i => by rw [word_eq]; rfl
  have cw : ∀ i, Counts (fun b => ofBits32 b ≠ .nan) (word s.mem ib) (lanes (avx2 e)) (vecPart (avx2 e) (sse2 e) n) i ↔
      Counts (· ≠ Val.nan) (elem s ib) (lanes (avx2 e)) (vecPart (avx2 e) (sse2 e) n) i := fun i => by simp only [Counts, w]
  simp only [ne_eq, not_not, w] at e2 e3
  have iff : ofBits32 y = .nan ↔ 0 < vecPart (avx2 e) (sse2 e) n ∧ elem s ib (vecPart (avx2 e) (sse2 e) n - 1) = .nan := by
    constructor
    · intro h
      by_contra c
      exact (e3 c).isGood h
    · intro h
      rw [e2 h, w, h.2]
  refine ⟨s', y, r1, r2, r3, r4, iff, fun hy => ?_⟩
  have E := e3 fun c => hy (iff.2 c)
  refine ⟨E.mem.imp_right fun ⟨i, ⟨a, b⟩, c⟩ => ⟨i, a, (cw i).1 b, by rw [c, word_eq]⟩, fun i a b c => ?_⟩
  have := E.ge i ⟨a, (cw i).2 b⟩ (by rw [w]; exact c)
  rw [w] at this
  exact this

/-- **C117, `VMinF32` without not-a-numbers in the vector part**: the minimum of all numbers. -/
theorem C117_VMinF32_all {e : Env} (he : e.o = ieee) {s : St} {ib : BitVec 64} {n : Nat} (hn : n < 2 ^ 61) (h1 : s.fp 0 = ib) (h2 : s.fp 8 = BitVec.ofNat 64 n)
    (hr : ∀ i < 4 * n, e.rd (ib + BitVec.ofNat 64 i) = true) (hg : ∀ i < vecPart (avx2 e) (sse2 e) n, elem s ib i ≠ .nan) :
    ∃ s' y, Returns e prog 119 s s' ∧ s'.mem = s.mem ∧ s'.g.bp = s.g.bp ∧ s'.fp = Function.update s.fp 24 ((s.fp 24).extractLsb' 32 32 ++ y) ∧
      ofBits32 y ≠ .nan ∧ (y = 0x7f800000 ∨ ∃ i < n, y = u32at s.mem (ib + BitVec.ofNat 64 (4 * i))) ∧
      ∀ i < n, elem s ib i ≠ .nan → key (ofBits32 y) ≤ key (elem s ib i) := by
  obtain ⟨s', y, r1, r2, r3, r4, r5, r6⟩ := C117_VMinF32 he hn h1 h2 hr
  have hy : ofBits32 y ≠ .nan := fun h => by
    obtain ⟨a, b⟩ := r5.1 h
    exact hg _ (by omega) b
  obtain ⟨a, b⟩ := r6 hy
  exact ⟨s', y, r1, r2, r3, r4, hy, a.imp_right fun ⟨i, h, _, c⟩ => ⟨i, h, c⟩, fun i hi c => b i hi (counts_all hg c) c⟩

/-! ## Violated -/

/-- 16 numbers at 0x1000, the last one not a number, the others 1. -/
def lastNan : St where
  g := ⟨0, 0, 0, 0, 0, 0, 0x7fff0000⟩
  x := fun _ _ => 0
  fl := ⟨none, none, none, none⟩
  mem := fun a => byte (if 0x103c ≤ a.toNat then 0x7fc00000 else 0x3f800000 : BitVec 32) (a.toNat % 4)
  fp := fun k => if k = 0 then 0x1000 else if k = 8 then 16 else 0

/-- **C117, violated as a maximum and as a minimum.** With SSE2 (and without AVX2) the result for fifteen ones and one not-a-number at the end
is not a number. -/
theorem C117_violated : ∃ e s, e.o = ieee ∧ s.fp 0 = 0x1000 ∧ s.fp 8 = BitVec.ofNat 64 16 ∧ (∀ i < 15, elem s 0x1000 i = .fin false 1) ∧ elem s 0x1000 15 = .nan ∧
    (∃ s', Returns e prog 13 s s' ∧ ofBits32 ((s'.fp 24).setWidth 32) = .nan) ∧ ∃ s', Returns e prog 119 s s' ∧ ofBits32 ((s'.fp 24).setWidth 32) = .nan := by
  have b1 : ofBits32 0x3f800000 = .fin false 1 := by norm_num [ofBits32, show (0x3f800000 : BitVec 32).toNat = 0x3f800000 from rfl]
  have b2 : ofBits32 0x7fc00000 = .nan := by norm_num [ofBits32, show (0x7fc00000 : BitVec 32).toNat = 0x7fc00000 from rfl]
  have w1 : ∀ i < 15, u32at lastNan.mem (0x1000 + BitVec.ofNat 64 (4 * i)) = 0x3f800000 := by decide +kernel
  have w2 : u32at lastNan.mem (0x1000 + BitVec.ofNat 64 (4 * 15)) = 0x7fc00000 := by decide +kernel
  have e1 : ∀ i < 15, elem lastNan 0x1000 i = .fin false 1 := fun i hi => by
    show ofBits32 (u32at _ _) = _
    rw [w1 i hi, b1]
  have e2 : elem lastNan 0x1000 15 = .nan := by
    rw [show elem lastNan 0x1000 15 = ofBits32 (u32at lastNan.mem (0x1000 + BitVec.ofNat 64 (4 * 15))) from rfl, w2, b2]
  obtain ⟨s1, y1, r1, -, -, f1, n1, -⟩ := C117_VMaxF32 (e := vecMachine false true) rfl (s := lastNan) (ib := 0x1000) (n := 16) (by decide) rfl rfl (fun _ _ => rfl)
  obtain ⟨s2, y2, r2, -, -, f2, n2, -⟩ := C117_VMinF32 (e := vecMachine false true) rfl (s := lastNan) (ib := 0x1000) (n := 16) (by decide) rfl rfl (fun _ _ => rfl)
  have v : vecPart (avx2 (vecMachine false true)) (sse2 (vecMachine false true)) 16 = 16 := rfl
  refine ⟨vecMachine false true, lastNan, rfl, rfl, rfl, e1, e2, ⟨s1, r1, ?_⟩, s2, r2, ?_⟩
  · rw [f1, Function.update_self, BitVec.setWidth_append_eq_right]
    exact n1.2 (by rw [v]; exact ⟨by decide, e2⟩)
  · rw [f2, Function.update_self, BitVec.setWidth_append_eq_right]
    exact n2.2 (by rw [v]; exact ⟨by decide, e2⟩)

/-! ## Examples -/

/-- A call on 35 numbers, all 1.5, without vector features, with SSE2 and with AVX2: the result has the value 1.5. -/
example (a b : Bool) : ∃ s' y, Returns (vecMachine a b) prog 13 (callScaled 0x3FC00000 0x1000 35 0 0) s' ∧
    s'.fp 24 = (0 : BitVec 32) ++ y ∧ (y = 0xff800000 ∨ y = 0x3FC00000) ∧ key (.fin false (3 / 2)) ≤ key (ofBits32 y) := by
  have b1 : ofBits32 0x3FC00000 = .fin false (3 / 2) := by norm_num [ofBits32, show (0x3FC00000 : BitVec 32).toNat = 0x3FC00000 from rfl]
  have el : ∀ i, elem (callScaled 0x3FC00000 0x1000 35 0 0) 0x1000 i = .fin false (3 / 2) := fun i => by
    show ofBits32 (u32at _ _) = _
    rw [scaled_word, b1]
  obtain ⟨s', y, r1, -, -, r4, -, r6, r7⟩ := C117_VMaxF32_all (e := vecMachine a b) rfl (s := callScaled 0x3FC00000 0x1000 35 0 0) (ib := 0x1000) (n := 35)
    (by decide) rfl rfl (fun _ _ => rfl) (fun i _ => by rw [el]; simp)
  refine ⟨s', y, r1, by rw [r4, Function.update_self]; rfl, r6.imp_right fun ⟨i, _, h⟩ => by rw [h, scaled_word], ?_⟩
  have := r7 0 (by decide) (by rw [el]; simp)
  rwa [el] at this

end Verif.X86.Math
