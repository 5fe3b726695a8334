import Mathlib.Tactic.IntervalCases
import Verif.Mach.MachLemmas
import Verif.Cpu.AsmModel
import Verif.Cpu.ArchProps
import Verif.Cpu.CpuidProps

/-!
# C137: the assembly of dsp/internal/cpu returns what the hardware says
-/

namespace Verif.Cpu.Asm
open Verif.Mach

variable {w : Nat} {R : Type} [DecidableEq R]

/-- The first `n` bytes of the frame can be read and written, and the address space is large enough for them to be different. -/
structure FrameOk (s : St w R) (n : Nat) : Prop where
  room : n ≤ 2 ^ w
  rd : ∀ i < n, s.rd (s.fp + BitVec.ofNat w i) = true
  wr : ∀ i < n, s.wr (s.fp + BitVec.ofNat w i) = true

/-! ### Bytes -/

theorem le32_leByte (v : BitVec 32) : le32 (leByte v) = v := by
  unfold le32 leByte
  apply BitVec.eq_of_getLsbD_eq
  intro i hi
  simp only [BitVec.getLsbD_append, BitVec.getLsbD_extractLsb']
  interval_cases i <;> rfl

theorem le64_leByte (v : BitVec 64) : le64 (leByte v) = v := by
  unfold le64 leByte
  apply BitVec.eq_of_getLsbD_eq
  intro i hi
  simp only [BitVec.getLsbD_append, BitVec.getLsbD_extractLsb']
  interval_cases i <;> rfl

theorem le32_congr {u v : Nat → BitVec 8} (h : ∀ i < 4, u i = v i) : le32 u = le32 v := by
  unfold le32
  rw [h 0 (by omega), h 1 (by omega), h 2 (by omega), h 3 (by omega)]

theorem le64_congr {u v : Nat → BitVec 8} (h : ∀ i < 8, u i = v i) : le64 u = le64 v := by
  unfold le64
  rw [h 0 (by omega), h 1 (by omega), h 2 (by omega), h 3 (by omega), h 4 (by omega), h 5 (by omega), h 6 (by omega), h 7 (by omega)]

theorem lo32_of (v : BitVec 32) : lo32 (v.setWidth 64) = v := by
  unfold lo32
  simp

theorem FrameOk.load {s : St w R} {n : Nat} (h : FrameOk s n) (mem : BitVec w → BitVec 8) {off k : Nat} (hk : off + k ≤ n) :
    Mach.load s.rd mem (s.fp + BitVec.ofNat w off) k =
      some fun i => if i < k then mem (s.fp + BitVec.ofNat w off + BitVec.ofNat w i) else 0 := by
  unfold Mach.load
  rw [if_pos (allBytes_of fun i hi => h.rd _ (by omega))]

theorem FrameOk.store {s : St w R} {n : Nat} (h : FrameOk s n) (mem : BitVec w → BitVec 8) {off k : Nat} (hk : off + k ≤ n)
    (v : Nat → BitVec 8) :
    Mach.store s.wr mem (s.fp + BitVec.ofNat w off) k v = some (fill mem (s.fp + BitVec.ofNat w off) k v) := by
  unfold Mach.store
  rw [if_pos (allBytes_of fun i hi => h.wr _ (by omega))]

/-- Stores one behind the other are one store. -/
theorem fill_next (mem : BitVec w → BitVec 8) (b : BitVec w) (o n k : Nat) (g x : Nat → BitVec 8) (h : n + k ≤ 2 ^ w) :
    fill (fill mem (b + BitVec.ofNat w o) n g) (b + BitVec.ofNat w (o + n)) k x =
      fill mem (b + BitVec.ofNat w o) (n + k) fun i => if i < n then g i else x (i - n) := by
  have e : fill mem (b + BitVec.ofNat w o) n g = fill mem (b + BitVec.ofNat w o) n fun i => if i < n then g i else x (i - n) := by
    funext a
    unfold fill
    split
    · rename_i hc; exact (if_pos hc).symm
    · rfl
  rw [e, ← adv, fill_fill _ _ _ _ _ _ h]
  intro i hi
  rw [if_neg (by omega), Nat.add_sub_cancel_left]

/-! ### 386 and amd64 -/

/-- The sixteen bytes of the results of `cpuid`. -/
def cpuidBytes (q : BitVec 32 × BitVec 32 × BitVec 32 × BitVec 32) (i : Nat) : BitVec 8 :=
  if i < 4 then leByte q.1 i else if i < 8 then leByte q.2.1 (i - 4) else if i < 12 then leByte q.2.2.1 (i - 8) else leByte q.2.2.2 (i - 12)

theorem cpuid_run (h : XHard) (s : St w XReg) (hf : FrameOk s 24) :
    ∃ t, run (xSem h) xProg 9 11 s = .done t ∧ t.fp = s.fp ∧ t.mem = fill s.mem (s.fp + BitVec.ofNat w 8) 16
      (cpuidBytes (h.cpuid (le32 (from_ s.mem s.fp)) (le32 (from_ s.mem (s.fp + BitVec.ofNat w 4))))) := by
  have e0 := hf.load s.mem (off := 0) (k := 4) (by omega)
  have e4 := hf.load s.mem (off := 4) (k := 4) (by omega)
  have l0 : le32 (fun i => if i < 4 then s.mem (s.fp + BitVec.ofNat w 0 + BitVec.ofNat w i) else 0) = le32 (from_ s.mem s.fp) :=
    le32_congr fun i hi => by rw [if_pos hi, adv0]; rfl
  have l4 : le32 (fun i => if i < 4 then s.mem (s.fp + BitVec.ofNat w 4 + BitVec.ofNat w i) else 0) =
      le32 (from_ s.mem (s.fp + BitVec.ofNat w 4)) := le32_congr fun i hi => by rw [if_pos hi]; rfl
  have st := fun (m : BitVec w → BitVec 8) (off : Nat) (ho : off + 4 ≤ 24) (v : Nat → BitVec 8) => hf.store m (off := off) (k := 4) ho v
  have hr := hf.room
  generalize hq : h.cpuid (le32 (from_ s.mem s.fp)) (le32 (from_ s.mem (s.fp + BitVec.ofNat w 4))) = q
  have key : ∃ t, run (xSem h) xProg 9 11 s = .done t ∧ t.fp = s.fp ∧ t.mem = fill (fill (fill (fill s.mem (s.fp + BitVec.ofNat w 8) 4 (leByte q.1))
      (s.fp + BitVec.ofNat w 12) 4 (leByte q.2.1)) (s.fp + BitVec.ofNat w 16) 4 (leByte q.2.2.1)) (s.fp + BitVec.ofNat w 20) 4
      (leByte q.2.2.2) := by
    simp only [xProg, run, step, List.getElem?_cons_succ, List.getElem?_cons_zero, xSem, xExec, St.set, e0, e4, l0, l4, Option.map_some,
      Function.update, lo32_of, st _ 8 (by omega), st _ 12 (by omega), st _ 16 (by omega), st _ 20 (by omega), eq_rec_constant, dite_eq_ite, reduceCtorEq, if_true, if_false, hq]
    exact ⟨_, rfl, rfl, rfl⟩
  obtain ⟨t, h1, h3, h2⟩ := key
  refine ⟨t, h1, h3, ?_⟩
  rw [h2, fill_next _ _ 8 4 4 _ _ (by omega), fill_next _ _ 8 8 4 _ _ (by omega), fill_next _ _ 8 12 4 _ _ (by omega)]
  refine congrArg _ (funext fun i => ?_)
  unfold cpuidBytes
  by_cases c1 : i < 4
  · simp [c1, show i < 8 by omega, show i < 12 by omega]
  by_cases c2 : i < 8
  · simp [c1, c2, show i < 12 by omega]
  by_cases c3 : i < 12
  · simp [c1, c2, c3]
  · simp [c1, c2, c3]

theorem from_fill {mem : BitVec w → BitVec 8} {b : BitVec w} {n k i : Nat} {g : Nat → BitVec 8} (h : k + i < n) (hn : n ≤ 2 ^ w) :
    from_ (fill mem b n g) (b + BitVec.ofNat w k) i = g (k + i) := by
  unfold from_
  rw [adv, fill_in h hn]

/-- The word of the frame at offset `off`, least significant byte first. -/
def word (s : St w R) (off : Nat) : BitVec 32 := le32 fun i => s.mem (s.fp + BitVec.ofNat w (off + i))

theorem word_eq (s : St w R) (off : Nat) : word s off = le32 (from_ s.mem (s.fp + BitVec.ofNat w off)) := by
  unfold word from_
  refine congrArg _ (funext fun i => ?_)
  rw [adv]

theorem cpuid_words {mem : BitVec w → BitVec 8} {fp : BitVec w} {q : BitVec 32 × BitVec 32 × BitVec 32 × BitVec 32} (hw : 16 ≤ 2 ^ w) :
    le32 (from_ (fill mem (fp + BitVec.ofNat w 8) 16 (cpuidBytes q)) (fp + BitVec.ofNat w 8)) = q.1 ∧
    le32 (from_ (fill mem (fp + BitVec.ofNat w 8) 16 (cpuidBytes q)) (fp + BitVec.ofNat w 12)) = q.2.1 ∧
    le32 (from_ (fill mem (fp + BitVec.ofNat w 8) 16 (cpuidBytes q)) (fp + BitVec.ofNat w 16)) = q.2.2.1 ∧
    le32 (from_ (fill mem (fp + BitVec.ofNat w 8) 16 (cpuidBytes q)) (fp + BitVec.ofNat w 20)) = q.2.2.2 := by
  refine ⟨?_, ?_, ?_, ?_⟩
  · refine (le32_congr fun i hi => ?_).trans (le32_leByte q.1)
    rw [from_, fill_in (by omega) hw]
    simp [cpuidBytes, hi]
  · refine (le32_congr fun i hi => ?_).trans (le32_leByte q.2.1)
    rw [← adv fp 8 4, from_fill (by omega) hw]
    simp [cpuidBytes, show 4 + i < 8 by omega]
  · refine (le32_congr fun i hi => ?_).trans (le32_leByte q.2.2.1)
    rw [← adv fp 8 8, from_fill (by omega) hw]
    simp [cpuidBytes, show 8 + i < 12 by omega, show ¬ 8 + i < 4 by omega]
  · refine (le32_congr fun i hi => ?_).trans (le32_leByte q.2.2.2)
    rw [← adv fp 8 12, from_fill (by omega) hw]
    simp [cpuidBytes, show ¬ 12 + i < 8 by omega, show ¬ 12 + i < 4 by omega]

/-- C137, `cpuid`: from any state, with any frame, the four results are what the instruction gives for the two arguments, and the rest
of the memory stays as it is.  `w = 32` is 386, `w = 64` is amd64. -/
theorem C137_cpuid (h : XHard) (s : St w XReg) (hf : FrameOk s 24) : ∃ t, Returns (xSem h) xProg 11 s t ∧ t.fp = s.fp ∧
    (word t 8, word t 12, word t 16, word t 20) = h.cpuid (word s 0) (word s 4) ∧
    ∀ a, 16 ≤ (a - (s.fp + BitVec.ofNat w 8)).toNat → t.mem a = s.mem a := by
  obtain ⟨t, h1, h3, h2⟩ := cpuid_run h s hf
  have hr := hf.room
  obtain ⟨a1, a2, a3, a4⟩ := cpuid_words (mem := s.mem) (fp := s.fp)
    (q := h.cpuid (le32 (from_ s.mem s.fp)) (le32 (from_ s.mem (s.fp + BitVec.ofNat w 4)))) (show 16 ≤ 2 ^ w by omega)
  refine ⟨t, ⟨9, h1⟩, h3, ?_, fun a ha => by rw [h2, fill_out ha]⟩
  simp only [word_eq, h3, h2, a1, a2, a3, a4, adv0]

theorem callCpuid_eq (h : XHard) (s : St w XReg) (hf : FrameOk s 24) (a c : BitVec 32) : callCpuid h s a c = some (h.cpuid a c) := by
  have hr := hf.room
  unfold callCpuid
  simp only []
  generalize hm : fill (fill s.mem s.fp 4 (leByte a)) (s.fp + BitVec.ofNat w 4) 4 (leByte c) = m
  obtain ⟨t, h1, -, h2⟩ := cpuid_run h { s with mem := m } ⟨hf.room, hf.rd, hf.wr⟩
  have em : m = fill s.mem (s.fp + BitVec.ofNat w 0) 8 fun i => if i < 4 then leByte a i else leByte c (i - 4) := by
    rw [← hm, ← fill_next _ _ 0 4 4 _ _ (by omega), adv0]
  have ea : le32 (from_ m s.fp) = a := by
    refine (le32_congr fun i hi => ?_).trans (le32_leByte a)
    rw [em, from_, adv0, fill_in (by omega) (by omega), if_pos hi]
  have ec : le32 (from_ m (s.fp + BitVec.ofNat w 4)) = c := by
    refine (le32_congr fun i hi => ?_).trans (le32_leByte c)
    rw [em, adv0, from_fill (by omega) (by omega), if_neg (by omega), Nat.add_sub_cancel_left]
  obtain ⟨a1, a2, a3, a4⟩ := cpuid_words (mem := m) (fp := s.fp) (q := h.cpuid a c) (show 16 ≤ 2 ^ w by omega)
  rw [h1]
  simp only [ea, ec] at h2
  simp only [h2, a1, a2, a3, a4]

theorem xgetbv_run (h : XHard) (s : St w XReg) (hf : FrameOk s 8) (ho : h.osxsave = true) :
    ∃ t, run (xSem h) xProg 6 22 s = .done t ∧ t.fp = s.fp ∧ t.mem = fill s.mem s.fp 8 (leByte h.xcr0) := by
  have st := fun (m : BitVec w → BitVec 8) (off : Nat) (ho : off + 4 ≤ 8) (v : Nat → BitVec 8) => hf.store m (off := off) (k := 4) ho v
  have hr := hf.room
  have key : ∃ t, run (xSem h) xProg 6 22 s = .done t ∧ t.fp = s.fp ∧ t.mem = fill (fill s.mem (s.fp + BitVec.ofNat w 0) 4
      (leByte (lo32 h.xcr0))) (s.fp + BitVec.ofNat w 4) 4 (leByte (lo32 (h.xcr0 >>> 32))) := by
    simp only [xProg, run, step, List.getElem?_cons_succ, List.getElem?_cons_zero, xSem, xExec, St.set, Option.map_some,
      Function.update, lo32_of, st _ 0 (by omega), st _ 4 (by omega), eq_rec_constant, dite_eq_ite, reduceCtorEq, if_true, if_false, ho,
      true_and]
    exact ⟨_, rfl, rfl, rfl⟩
  obtain ⟨t, h1, h3, h2⟩ := key
  refine ⟨t, h1, h3, ?_⟩
  rw [h2, fill_next _ _ 0 4 4 _ _ (by omega), adv0]
  refine congrArg _ (funext fun i => ?_)
  apply BitVec.eq_of_getLsbD_eq
  intro j hj
  by_cases c : i < 4
  · rw [if_pos c]
    simp only [leByte, lo32, BitVec.getLsbD_extractLsb', BitVec.getLsbD_setWidth, hj, decide_true, Bool.true_and,
      show 8 * i + j < 32 by omega]
  · rw [if_neg c]
    simp only [leByte, lo32, BitVec.getLsbD_extractLsb', BitVec.getLsbD_setWidth, BitVec.getLsbD_ushiftRight, hj, decide_true,
      Bool.true_and, show 32 + (8 * (i - 4) + j) = 8 * i + j by omega]
    by_cases c2 : 8 * (i - 4) + j < 32
    · simp only [c2, decide_true, Bool.true_and]
    · simp only [c2, decide_false, Bool.false_and]
      exact (BitVec.getLsbD_of_ge _ _ (by omega)).symm

theorem leByte_words (v : BitVec 64) : le32 (leByte v) = lo32 v ∧ (le32 fun i => leByte v (4 + i)) = lo32 (v >>> 32) := by
  constructor
  · refine (le32_congr fun i hi => ?_).trans (le32_leByte (lo32 v))
    apply BitVec.eq_of_getLsbD_eq
    intro j hj
    simp only [leByte, lo32, BitVec.getLsbD_extractLsb', BitVec.getLsbD_setWidth, hj, decide_true, Bool.true_and,
      show 8 * i + j < 32 by omega]
  · refine (le32_congr fun i hi => ?_).trans (le32_leByte (lo32 (v >>> 32)))
    apply BitVec.eq_of_getLsbD_eq
    intro j hj
    simp only [leByte, lo32, BitVec.getLsbD_extractLsb', BitVec.getLsbD_setWidth, BitVec.getLsbD_ushiftRight, hj, decide_true,
      Bool.true_and, show 32 + (8 * i + j) = 8 * (4 + i) + j by omega, show 8 * i + j < 32 by omega]

theorem xgetbv_words {mem : BitVec w → BitVec 8} {fp : BitVec w} {v : BitVec 64} (hw : 8 ≤ 2 ^ w) :
    le32 (from_ (fill mem fp 8 (leByte v)) fp) = lo32 v ∧
    le32 (from_ (fill mem fp 8 (leByte v)) (fp + BitVec.ofNat w 4)) = lo32 (v >>> 32) := by
  constructor
  · refine (le32_congr fun i hi => ?_).trans (leByte_words v).1
    rw [from_, fill_in (by omega) hw]
  · refine (le32_congr fun i hi => ?_).trans (leByte_words v).2
    rw [from_fill (by omega) hw]

/-- C137, `xgetbv`: the halves of XCR0, and the rest of the memory stays as it is; where the operating system has not set OSXSAVE, a
fault. -/
theorem C137_xgetbv (h : XHard) (s : St w XReg) (hf : FrameOk s 8) :
    (h.osxsave = true → ∃ t, Returns (xSem h) xProg 22 s t ∧ t.fp = s.fp ∧ (word t 0, word t 4) = (lo32 h.xcr0, lo32 (h.xcr0 >>> 32)) ∧
      ∀ a, 8 ≤ (a - s.fp).toNat → t.mem a = s.mem a) ∧
    (h.osxsave = false → Faults (xSem h) xProg 22 s) := by
  have hr := hf.room
  constructor
  · intro ho
    obtain ⟨t, h1, h3, h2⟩ := xgetbv_run h s hf ho
    obtain ⟨a1, a2⟩ := xgetbv_words (mem := s.mem) (fp := s.fp) (v := h.xcr0) hr
    refine ⟨t, ⟨6, h1⟩, h3, ?_, fun a ha => by rw [h2, fill_out ha]⟩
    simp only [word_eq, h3, h2, a1, a2, adv0]
  · intro ho
    refine ⟨6, ?_⟩
    simp only [xProg, run, step, List.getElem?_cons_succ, List.getElem?_cons_zero, xSem, xExec, ho, Bool.false_eq_true, false_and, if_false]

theorem callXgetbv_eq (h : XHard) (s : St w XReg) (hf : FrameOk s 8) (ho : h.osxsave = true) :
    callXgetbv h s = some (lo32 h.xcr0, lo32 (h.xcr0 >>> 32)) := by
  obtain ⟨t, h1, -, h2⟩ := xgetbv_run h s hf ho
  obtain ⟨a1, a2⟩ := xgetbv_words (mem := s.mem) (fp := s.fp) (v := h.xcr0) hf.room
  unfold callXgetbv
  rw [h1]
  simp only [h2, a1, a2]

/-- C137, detection on 386 and amd64: with the assembly underneath, no call faults on a machine whose CPUID tells the truth about
OSXSAVE, and the variables are those that the model of C70 computes from the answers of the instructions. -/
theorem C137_x86 (h : XHard) (s : Nat → St w XReg) (hf : ∀ i, FrameOk (s i) 24)
    (ho : 1#32 ≤ (h.cpuid 0#32 0#32).1 → (h.osxsave = (h.cpuid 1#32 0#32).2.2.1.getLsbD 27)) :
    ∃ e, detectX86 h s = some (doinit ⟨h.cpuid, lo32 h.xcr0⟩ {}, e) ∧
      (1#32 ≤ (h.cpuid 0#32 0#32).1 → e = (h.cpuid 0x80000000#32 0#32).1) := by
  have hf8 : ∀ i, FrameOk (s i) 8 := fun i => ⟨by have := (hf i).room; omega, fun j hj => (hf i).rd j (by omega),
    fun j hj => (hf i).wr j (by omega)⟩
  unfold detectX86 doinit
  simp only [callCpuid_eq h _ (hf _), Option.bind_eq_bind, Option.bind_some]
  by_cases c1 : (h.cpuid 0#32 0#32).1 < 1#32
  · simp only [c1, if_true]
    exact ⟨_, rfl, fun hc => absurd hc (BitVec.not_le.2 c1)⟩
  · simp only [c1, if_false]
    have hos := ho (BitVec.not_lt.1 c1)
    have hb : isSet (h.cpuid 1#32 0#32).2.2.1 (1#32 <<< 27) = h.osxsave := by
      rw [hos, isSet_bit _ 27 (by decide)]
      rfl
    rw [doinit7, doinit1]
    simp only [hb]
    cases hx : h.osxsave with
    | false =>
      simp only [Bool.false_eq_true, if_false, Option.pure_def, Option.bind_some, Bool.and_false, osSupportsAVX]
      by_cases c7 : (h.cpuid 0#32 0#32).1 < 7#32
      · simp only [c7, if_true]
        exact ⟨_, rfl, fun _ => rfl⟩
      · simp only [c7, if_false]
        exact ⟨_, rfl, fun _ => rfl⟩
    | true =>
      simp only [callXgetbv_eq h _ (hf8 _) hx, if_true, Option.pure_def, Option.bind_some, Bool.and_true, osSupportsAVX]
      by_cases c7 : (h.cpuid 0#32 0#32).1 < 7#32
      · simp only [c7, if_true]
        exact ⟨_, rfl, fun _ => rfl⟩
      · simp only [c7, if_false]
        exact ⟨_, rfl, fun _ => rfl⟩

/-- What each variable of `X86` must say: the bits of the Software Developer's Manual, volume 2, CPUID; leaves above the largest one
announce nothing; AVX and AVX2 need the system to save the registers. -/
structure X86Reports (h : XHard) (x : X86) : Prop where
  sse2 : x.hasSSE2 = true ↔ 1 ≤ (h.cpuid 0#32 0#32).1.toNat ∧ (h.cpuid 1#32 0#32).2.2.2.toNat.testBit 26
  sse3 : x.hasSSE3 = true ↔ 1 ≤ (h.cpuid 0#32 0#32).1.toNat ∧ (h.cpuid 1#32 0#32).2.2.1.toNat.testBit 0
  pclmulqdq : x.hasPCLMULQDQ = true ↔ 1 ≤ (h.cpuid 0#32 0#32).1.toNat ∧ (h.cpuid 1#32 0#32).2.2.1.toNat.testBit 1
  ssse3 : x.hasSSSE3 = true ↔ 1 ≤ (h.cpuid 0#32 0#32).1.toNat ∧ (h.cpuid 1#32 0#32).2.2.1.toNat.testBit 9
  fma : x.hasFMA = true ↔ 1 ≤ (h.cpuid 0#32 0#32).1.toNat ∧ (h.cpuid 1#32 0#32).2.2.1.toNat.testBit 12 ∧ h.osxsave = true
  sse41 : x.hasSSE41 = true ↔ 1 ≤ (h.cpuid 0#32 0#32).1.toNat ∧ (h.cpuid 1#32 0#32).2.2.1.toNat.testBit 19
  sse42 : x.hasSSE42 = true ↔ 1 ≤ (h.cpuid 0#32 0#32).1.toNat ∧ (h.cpuid 1#32 0#32).2.2.1.toNat.testBit 20
  popcnt : x.hasPOPCNT = true ↔ 1 ≤ (h.cpuid 0#32 0#32).1.toNat ∧ (h.cpuid 1#32 0#32).2.2.1.toNat.testBit 23
  aes : x.hasAES = true ↔ 1 ≤ (h.cpuid 0#32 0#32).1.toNat ∧ (h.cpuid 1#32 0#32).2.2.1.toNat.testBit 25
  osxsave : x.hasOSXSAVE = true ↔ 1 ≤ (h.cpuid 0#32 0#32).1.toNat ∧ h.osxsave = true
  avx : x.hasAVX = true ↔ 1 ≤ (h.cpuid 0#32 0#32).1.toNat ∧ (h.cpuid 1#32 0#32).2.2.1.toNat.testBit 28 ∧ h.osxsave = true ∧
    h.xcr0.toNat.testBit 1 ∧ h.xcr0.toNat.testBit 2
  bmi1 : x.hasBMI1 = true ↔ 7 ≤ (h.cpuid 0#32 0#32).1.toNat ∧ (h.cpuid 7#32 0#32).2.1.toNat.testBit 3
  avx2 : x.hasAVX2 = true ↔ 7 ≤ (h.cpuid 0#32 0#32).1.toNat ∧ (h.cpuid 7#32 0#32).2.1.toNat.testBit 5 ∧ h.osxsave = true ∧
    h.xcr0.toNat.testBit 1 ∧ h.xcr0.toNat.testBit 2
  bmi2 : x.hasBMI2 = true ↔ 7 ≤ (h.cpuid 0#32 0#32).1.toNat ∧ (h.cpuid 7#32 0#32).2.1.toNat.testBit 8
  erms : x.hasERMS = true ↔ 7 ≤ (h.cpuid 0#32 0#32).1.toNat ∧ (h.cpuid 7#32 0#32).2.1.toNat.testBit 9
  adx : x.hasADX = true ↔ 7 ≤ (h.cpuid 0#32 0#32).1.toNat ∧ (h.cpuid 7#32 0#32).2.1.toNat.testBit 19

/-- C137, the variables on 386 and amd64. -/
theorem C137_x86_reports (h : XHard) (s : Nat → St w XReg) (hf : ∀ i, FrameOk (s i) 24)
    (ho : 1#32 ≤ (h.cpuid 0#32 0#32).1 → (h.osxsave = (h.cpuid 1#32 0#32).2.2.1.getLsbD 27)) :
    ∃ x e, detectX86 h s = some (x, e) ∧ X86Reports h x := by
  obtain ⟨e, he, -⟩ := C137_x86 h s hf ho
  refine ⟨_, e, he, ?_⟩
  have l1 := leaf_iff ⟨h.cpuid, lo32 h.xcr0⟩ 1 (by omega)
  have l7 := leaf_iff ⟨h.cpuid, lo32 h.xcr0⟩ 7 (by omega)
  have hx : ∀ k, k < 32 → (lo32 h.xcr0).toNat.testBit k = h.xcr0.toNat.testBit k := by
    intro k hk
    rw [lo32, BitVec.toNat_setWidth, Nat.testBit_mod_two_pow]
    simp [hk]
  simp only [Machine.Leaf] at l1 l7
  have hle : 7 ≤ (h.cpuid 0#32 0#32).1.toNat → 1 ≤ (h.cpuid 0#32 0#32).1.toNat := fun h => by omega
  unfold doinit
  by_cases c1 : (h.cpuid 0#32 0#32).1 < 1#32
  · have n1 : ¬ 1 ≤ (h.cpuid 0#32 0#32).1.toNat := fun hl => l1.2 hl c1
    have n7 : ¬ 7 ≤ (h.cpuid 0#32 0#32).1.toNat := fun hl => n1 (hle hl)
    simp only [c1, if_true]
    constructor <;> simp only [n1, n7, false_and, Bool.false_eq_true]
  · have p1 := l1.1 c1
    have hos : (h.cpuid 1#32 0#32).2.2.1.toNat.testBit 27 = h.osxsave := (ho (BitVec.not_lt.1 c1)).symm
    simp only [c1, if_false]
    by_cases c7 : (h.cpuid 0#32 0#32).1 < 7#32
    · have n7 : ¬ 7 ≤ (h.cpuid 0#32 0#32).1.toNat := fun hl => l7.2 hl c7
      simp only [c7, if_true]
      constructor <;> simp only [doinit1, p1, n7, false_and, true_and, isSet_bit _ _ (show 0 < 32 by decide),
        isSet_bit _ _ (show 1 < 32 by decide), isSet_bit _ _ (show 9 < 32 by decide), isSet_bit _ _ (show 12 < 32 by decide),
        isSet_bit _ _ (show 19 < 32 by decide), isSet_bit _ _ (show 20 < 32 by decide), isSet_bit _ _ (show 23 < 32 by decide),
        isSet_bit _ _ (show 25 < 32 by decide), isSet_bit _ _ (show 26 < 32 by decide), isSet_bit _ _ (show 27 < 32 by decide),
        isSet_bit _ _ (show 28 < 32 by decide), hos, Bool.and_eq_true, osSupports, hx 1 (by decide), hx 2 (by decide), Bool.false_eq_true]
    · have p7 := l7.1 c7
      simp only [c7, if_false]
      constructor <;> simp only [doinit1, doinit7, p1, p7, true_and, isSet_bit _ _ (show 0 < 32 by decide),
        isSet_bit _ _ (show 1 < 32 by decide), isSet_bit _ _ (show 9 < 32 by decide), isSet_bit _ _ (show 12 < 32 by decide),
        isSet_bit _ _ (show 19 < 32 by decide), isSet_bit _ _ (show 20 < 32 by decide), isSet_bit _ _ (show 23 < 32 by decide),
        isSet_bit _ _ (show 25 < 32 by decide), isSet_bit _ _ (show 26 < 32 by decide), isSet_bit _ _ (show 27 < 32 by decide),
        isSet_bit _ _ (show 28 < 32 by decide), isSet_bit _ _ (show 3 < 32 by decide), isSet_bit _ _ (show 5 < 32 by decide),
        isSet_bit _ _ (show 8 < 32 by decide), hos, Bool.and_eq_true, osSupports, hx 1 (by decide), hx 2 (by decide)]

/-- FMA instructions need what AVX needs, but `HasFMA` asks only for OSXSAVE: a machine whose system does not save the YMM registers has
`HasFMA` without AVX.  Nothing in the repository looks at `HasFMA`. -/
theorem C137_violated_fma : ∃ h : XHard, h.osxsave = (h.cpuid 1#32 0#32).2.2.1.getLsbD 27 ∧ h.xcr0.toNat.testBit 2 = false ∧
    ∀ s : Nat → St w XReg, (∀ i, FrameOk (s i) 24) → ∃ x e, detectX86 h s = some (x, e) ∧ x.hasFMA = true ∧ x.hasAVX = false := by
  let h : XHard := ⟨fun a _ => if a = 0#32 then (7#32, 0#32, 0#32, 0#32) else (0#32, 0#32, 0x18001000#32, 0#32), 3#64, true⟩
  refine ⟨h, by decide, by decide, fun s hf => ?_⟩
  obtain ⟨x, e, h1, h2⟩ := C137_x86_reports h s hf (fun _ => by decide)
  refine ⟨x, e, h1, h2.fma.2 (by decide), ?_⟩
  have := h2.avx
  rw [← Bool.not_eq_true, this]
  decide

/-- A machine with AVX2 whose operating system saves the registers; the frame is at address 2⁶⁴ − 8, so it goes across the end of the
address space, and the memory holds 0xff before. -/
def xExample : XHard where
  cpuid a _ := if a = 0#32 then (7#32, 0#32, 0#32, 0#32) else if a = 1#32 then (0#32, 0#32, 0x18000000#32, 0x04000000#32)
    else if a = 7#32 then (0#32, 0x20#32, 0#32, 0#32) else (0x80000008#32, 0#32, 0#32, 0#32)
  xcr0 := 7#64
  osxsave := true

def xState : St 64 XReg := ⟨fun _ => -1#64, fun _ => 0xff#8, fun _ => true, fun _ => true, -8#64⟩

theorem xState_ok : FrameOk xState 24 := ⟨by decide, fun _ _ => rfl, fun _ _ => rfl⟩

example : ∃ e, detectX86 xExample (fun _ => xState) = some (doinit ⟨xExample.cpuid, lo32 xExample.xcr0⟩ {}, e) ∧
    (1#32 ≤ (xExample.cpuid 0#32 0#32).1 → e = (xExample.cpuid 0x80000000#32 0#32).1) :=
  C137_x86 xExample _ (fun _ => xState_ok) (fun _ => by decide)

example : (detectX86 xExample fun _ => xState).map (fun r => (r.1.hasAVX2, r.1.hasAVX, r.1.hasSSE2, r.1.hasSSE3, r.2)) =
    some (true, true, true, false, 0x80000008#32) := by decide

example : ∃ x e, detectX86 xExample (fun _ => xState) = some (x, e) ∧ X86Reports xExample x :=
  C137_x86_reports xExample _ (fun _ => xState_ok) (fun _ => by decide)

/-! ### arm64 -/

/-- C137, `getisar0` (line 8) and `getMIDR` (line 15): the system register where the kernel permits to read it, and the rest of the
memory stays as it is; a fault where it does not. -/
theorem C137_mrs (mrs : Sys → Option (BitVec 64)) (s : St 64 (Fin 31)) (hf : FrameOk s 8) (x : Sys) (line : Nat)
    (hx : x = .ID_AA64ISAR0_EL1 ∧ line = 8 ∨ x = .MIDR_EL1 ∧ line = 15) :
    (∀ v, mrs x = some v → ∃ t, Returns (aSem mrs) aProg line s t ∧ (le64 fun i => t.mem (s.fp + BitVec.ofNat 64 i)) = v ∧
      ∀ a, 8 ≤ (a - s.fp).toNat → t.mem a = s.mem a) ∧
    (mrs x = none → Faults (aSem mrs) aProg line s) ∧ callMrs mrs line s = mrs x := by
  have st := fun (m : BitVec 64 → BitVec 8) (v : Nat → BitVec 8) => hf.store m (off := 0) (k := 8) (by omega) v
  simp only [adv0] at st
  have key : ∀ v, mrs x = some v → ∃ t, run (aSem mrs) aProg 5 line s = .done t ∧ t.mem = fill s.mem s.fp 8 (leByte v) := by
    intro v hv
    rcases hx with ⟨rfl, rfl⟩ | ⟨rfl, rfl⟩ <;>
    · simp only [aProg, run, step, List.getElem?_cons_succ, List.getElem?_cons_zero, aSem, aExec, St.set, Option.map_some, hv, st,
        Function.update, eq_rec_constant, dite_eq_ite, if_true, adv0]
      exact ⟨_, rfl, rfl⟩
  have key0 : mrs x = none → run (aSem mrs) aProg 5 line s = .fault := by
    intro hv
    rcases hx with ⟨rfl, rfl⟩ | ⟨rfl, rfl⟩ <;>
      simp only [aProg, run, step, List.getElem?_cons_succ, List.getElem?_cons_zero, aSem, aExec, Option.map_none, hv]
  have rdv : ∀ v, le64 (from_ (fill s.mem s.fp 8 (leByte v)) s.fp) = v := by
    intro v
    refine (le64_congr fun i hi => ?_).trans (le64_leByte v)
    rw [from_, fill_in hi hf.room]
  refine ⟨?_, fun hv => ⟨5, key0 hv⟩, ?_⟩
  · intro v hv
    obtain ⟨t, h1, h2⟩ := key v hv
    refine ⟨t, ⟨5, h1⟩, ?_, fun a ha => by rw [h2, fill_out ha]⟩
    rw [h2]
    exact rdv v
  · unfold callMrs
    cases hv : mrs x with
    | none => rw [key0 hv]
    | some v =>
      obtain ⟨t, h1, h2⟩ := key v hv
      rw [h1]
      simp only [h2, rdv]

/-- C137, detection on arm64 Linux and Android: nothing faults where the kernel that announces CPUID permits to read MIDR_EL1, and the
variables are those of the model of C95. -/
theorem C137_arm64 (mrs : Sys → Option (BitVec 64)) (android : Bool) (hwcap : BitVec 64) (s : St 64 (Fin 31)) (hf : FrameOk s 8)
    (hk : hwcap.getLsbD 11 = true → (mrs .MIDR_EL1).isSome) :
    detectHwcap mrs android hwcap s = some (Arch.hwcapInit android hwcap ((mrs .MIDR_EL1).getD 0#64)).1 := by
  have e := (C137_mrs mrs s hf .MIDR_EL1 15 (Or.inr ⟨rfl, rfl⟩)).2.2
  unfold detectHwcap Arch.hwcapInit
  have hb : Arch.isSet hwcap (1#64 <<< 11) = hwcap.getLsbD 11 := by
    rw [show 1#64 <<< 11 = BitVec.twoPow 64 11 from rfl]; exact Arch.isSet_twoPow hwcap 11
  simp only [hb, e]
  cases hc : hwcap.getLsbD 11 with
  | false => rfl
  | true =>
    obtain ⟨v, hv⟩ := Option.isSome_iff_exists.1 (hk hc)
    simp only [hv, if_true, Option.bind_eq_bind, Option.bind_some, Option.getD_some]
    rfl

/-- C137, detection on FreeBSD. -/
theorem C137_freebsd (mrs : Sys → Option (BitVec 64)) (s : St 64 (Fin 31)) (hf : FrameOk s 8) :
    detectFreeBSD mrs s = (mrs .ID_AA64ISAR0_EL1).map fun v => (Arch.osInitFreeBSD v).1 := by
  have e := (C137_mrs mrs s hf .ID_AA64ISAR0_EL1 8 (Or.inl ⟨rfl, rfl⟩)).2.2
  unfold detectFreeBSD
  rw [e]
  cases mrs .ID_AA64ISAR0_EL1 <;> rfl

def aState : St 64 (Fin 31) := ⟨fun _ => 5#64, fun _ => 0xff#8, fun _ => true, fun a => a.toNat < 8, 0#64⟩

theorem aState_ok : FrameOk aState 8 := by
  refine ⟨by decide, fun _ _ => rfl, fun i hi => ?_⟩
  interval_cases i <;> decide

/-- A Neoverse N1. -/
def aExample : Sys → Option (BitVec 64)
  | .MIDR_EL1 => some 0x413fd0c1#64
  | .ID_AA64ISAR0_EL1 => none

example : detectHwcap aExample false 0x800#64 aState = some (Arch.hwcapInit false 0x800#64 ((aExample .MIDR_EL1).getD 0#64)).1 :=
  C137_arm64 aExample false _ aState aState_ok fun _ => rfl

example : (detectHwcap aExample false 0x908#64 aState).map (fun x => (x.isNeoverseN1, x.hasAES, x.hasATOMICS)) = some (true, true, true) := by
  decide

/-! ### s390x -/

theorem xor_self_bytes (mem : BitVec 64 → BitVec 8) (a : BitVec 64) (n : Nat) (hn : n ≤ 2 ^ 64) :
    xorBytes mem a a n = fill mem a n fun _ => 0#8 := by
  induction n with
  | zero => rw [xorBytes, fill_zero]
  | succ n ih =>
    rw [xorBytes, ih (by omega), BitVec.xor_self]
    have := fill_fill mem a n 1 (fun _ => 0#8) (fun _ => 0#8) hn (fun _ _ => rfl)
    rw [← this]
    funext b
    by_cases c : b = a + BitVec.ofNat 64 n
    · subst c
      rw [Function.update_self]
      simp [fill]
    · rw [Function.update_of_ne c, fill_out (b := a + BitVec.ofNat 64 n)]
      by_contra hc
      apply c
      have : (b - (a + BitVec.ofNat 64 n)) = 0#64 := by
        apply BitVec.eq_of_toNat_eq
        simp only [BitVec.toNat_ofNat]
        omega
      rw [← BitVec.sub_add_cancel b (a + BitVec.ofNat 64 n), this, BitVec.zero_add]

/-- The first 32 bytes of the facility list as a program should see them: facilities beyond the list of the machine are absent. -/
def facilityBytes (h : ZHard) (i : Nat) : BitVec 8 := if i < 8 * h.words then h.list i else 0#8

/-- Zeros first, then a part of the list, is the list. -/
theorem fill_list (mem : BitVec 64 → BitVec 8) (a : BitVec 64) (h : ZHard) (n : Nat)
    (hn : n = if h.zeros then 8 * 4 else 8 * min 4 h.words) :
    fill (fill mem a 32 fun _ => 0#8) a n (fun i => if i < 8 * min 4 h.words then h.list i else 0#8) = fill mem a 32 (facilityBytes h) := by
  funext b
  unfold fill facilityBytes
  generalize (b - a).toNat = d
  have h32 : n ≤ 32 := by rw [hn]; split <;> omega
  by_cases c : d < 32
  · by_cases c2 : d < n
    · simp only [c, c2, if_true]
      by_cases c3 : d < 8 * h.words
      · rw [if_pos c3, if_pos (by omega)]
      · rw [if_neg c3, if_neg (by omega)]
    · simp only [c, c2, if_true, if_false]
      rw [if_neg]
      intro c3
      rw [hn] at c2
      split at c2 <;> omega
  · rw [if_neg (show ¬ d < n by omega), if_neg c, if_neg c]

theorem stfle_run (h : ZHard) (s : St 64 (Fin 16)) (hf : FrameOk s 32) (ha : s.fp.toNat % 8 = 0) (hs : h.stfle = true) :
    ∃ t, run (zSem h) zProg 6 8 s = .done t ∧ t.mem = fill s.mem s.fp 32 (facilityBytes h) := by
  have ar : allBytes s.rd s.fp 32 = true := by
    have := allBytes_of (q := s.rd) (b := s.fp) (k := 0) (n := 32) fun i hi => by rw [Nat.zero_add]; exact hf.rd i hi
    rwa [adv0] at this
  have aw : ∀ n ≤ 32, allBytes s.wr s.fp n = true := by
    intro n hn
    have := allBytes_of (q := s.wr) (b := s.fp) (k := 0) (n := n) fun i hi => by rw [Nat.zero_add]; exact hf.wr i (by omega)
    rwa [adv0] at this
  have hd : decode zFormats 0xb2b01000 = some (.stfle, [0, 1]) := by decide
  have hle : (if h.zeros = true then 8 * 4 else 8 * min 4 h.words) ≤ 32 := by split <;> omega
  have hx : ∀ s' : St 64 (Fin 16), s'.reg 0 = 3#64 → s'.reg 1 = s.fp → s'.wr = s.wr → s'.mem = fill s.mem s.fp 32 (fun _ => 0#8) →
      ∃ t, zExec h (.word 0xb2b01000) s' = some t ∧ t.mem = fill s.mem s.fp 32 (facilityBytes h) := by
    intro s' h0 h1 h2 h3
    have h1' : s'.reg (Fin.ofNat 16 1) = s.fp := h1
    have hn : ((3#64).setWidth 8).toNat + 1 = 4 := rfl
    simp only [zExec, hd, h0, h1', h2, h3, hs, hn, if_neg (show ¬ (1 = 0) by decide), adv0, ha, store, aw _ hle, if_true, ne_eq,
      not_true, or_false, Bool.true_eq_false, if_false, Option.map_some, St.set]
    exact ⟨_, rfl, fill_list s.mem s.fp h _ rfl⟩
  have hc : zExec h (.xc 32 1 1) ⟨Function.update (Function.update s.reg 1 s.fp) 0 3#64, s.mem, s.rd, s.wr, s.fp⟩ =
      some ⟨Function.update (Function.update s.reg 1 s.fp) 0 3#64, fill s.mem s.fp 32 (fun _ => 0#8), s.rd, s.wr, s.fp⟩ := by
    have e : Function.update (Function.update s.reg 1 s.fp) 0 3#64 1 = s.fp := rfl
    simp only [zExec, e, ar, aw 32 le_rfl, Bool.and_self, if_true]
    rw [xor_self_bytes _ _ _ (by omega)]
  obtain ⟨t, h1, h2⟩ := hx ⟨Function.update (Function.update s.reg 1 s.fp) 0 3#64, fill s.mem s.fp 32 (fun _ => 0#8), s.rd, s.wr, s.fp⟩
    rfl rfl rfl rfl
  refine ⟨t, ?_, h2⟩
  have e9 : zExec h (.addr 0 1) s = some ⟨Function.update s.reg 1 s.fp, s.mem, s.rd, s.wr, s.fp⟩ := by
    simp only [zExec, St.set, adv0]
  have e10 : zExec h (.imm 3 0) ⟨Function.update s.reg 1 s.fp, s.mem, s.rd, s.wr, s.fp⟩ =
      some ⟨Function.update (Function.update s.reg 1 s.fp) 0 3#64, s.mem, s.rd, s.wr, s.fp⟩ := rfl
  simp only [zProg, run, step, List.getElem?_cons_succ, List.getElem?_cons_zero, zSem, e9, e10, hc, h1]

theorem stfle_fault (h : ZHard) (s : St 64 (Fin 16)) (hs : h.stfle = false) : Faults (zSem h) zProg 8 s := by
  have hd : decode zFormats 0xb2b01000 = some (.stfle, [0, 1]) := by decide
  have hx : ∀ s' : St 64 (Fin 16), zExec h (.word 0xb2b01000) s' = none := by
    intro s'
    simp only [zExec, hd, hs, true_or, if_true]
  have hc : ∀ s' : St 64 (Fin 16), zExec h (.xc 32 1 1) s' = none ∨ ∃ t, zExec h (.xc 32 1 1) s' = some t := by
    intro s'
    cases zExec h (.xc 32 1 1) s' with
    | none => exact Or.inl rfl
    | some t => exact Or.inr ⟨t, rfl⟩
  refine ⟨6, ?_⟩
  have e9 : zExec h (.addr 0 1) s = some (s.set 1 (s.fp + BitVec.ofNat 64 0)) := rfl
  have e10 : ∀ s' : St 64 (Fin 16), zExec h (.imm 3 0) s' = some (s'.set 0 3#64) := fun _ => rfl
  rcases hc ((s.set 1 (s.fp + BitVec.ofNat 64 0)).set 0 3#64) with c | ⟨t, c⟩ <;>
    simp only [zProg, run, step, List.getElem?_cons_succ, List.getElem?_cons_zero, zSem, e9, e10, c, hx]

/-- A program does not both return and fault. -/
theorem fault_not_done {S I C L : Type} [DecidableEq L] [DecidableEq I] [DecidableEq C] {m : Sem S I C} {p : Prog L I C} {n : Nat} :
    ∀ {k pc : Nat} {s t : S}, run m p n pc s = .done t → run m p k pc s ≠ .fault := by
  induction n with
  | zero => intro k pc s t h; simp [run] at h
  | succ n ih =>
    intro k pc s t h
    cases k with
    | zero => simp [run]
    | succ k =>
      rw [run] at h ⊢
      cases e : step m p pc s with
      | more pc' s' =>
        rw [e] at h
        exact ih h
      | done s' => simp
      | fault => rw [e] at h; simp at h
      | tail l s' => simp

/-- C137, `stfle`: on a machine with the instruction the 32 bytes of the result are the facility list, whatever memory contained before
and however long the list of the machine is, and nothing else changes; without the instruction it faults. -/
theorem C137_stfle (h : ZHard) (s : St 64 (Fin 16)) :
    (h.stfle = true → FrameOk s 32 → s.fp.toNat % 8 = 0 → ∃ t, Returns (zSem h) zProg 8 s t ∧
      (∀ i < 32, t.mem (s.fp + BitVec.ofNat 64 i) = if i < 8 * h.words then h.list i else 0#8) ∧
      ∀ a, 32 ≤ (a - s.fp).toNat → t.mem a = s.mem a) ∧
    (h.stfle = false → Faults (zSem h) zProg 8 s) := by
  refine ⟨fun hs hf ha => ?_, stfle_fault h s⟩
  obtain ⟨t, h1, h2⟩ := stfle_run h s hf ha hs
  refine ⟨t, ⟨6, h1⟩, fun i hi => ?_, fun a ha => by rw [h2, fill_out ha]⟩
  rw [h2, fill_in hi hf.room]
  rfl

/-- What the call gives. -/
theorem callStfle_eq (h : ZHard) (s : St 64 (Fin 16)) (hs : h.stfle = true) (hf : FrameOk s 32) (ha : s.fp.toNat % 8 = 0) :
    ∃ b, callStfle h s = some b ∧ ∀ i < 32, b i = facilityBytes h i := by
  obtain ⟨t, h1, h2⟩ := stfle_run h s hf ha hs
  refine ⟨from_ t.mem s.fp, by rw [callStfle, h1], fun i hi => ?_⟩
  rw [from_, h2, fill_in hi hf.room]

/-- The number of each query names registers that the instruction accepts. -/
theorem query_word (q : Arch.Query) : ∃ x fs, decode zFormats x = some (.query q, fs) ∧ regsOk q fs = true ∧
    zProg[textLine q]? = some .nop ∧ zProg[textLine q + 1]? = some (.ins (.imm 0 0)) ∧ zProg[textLine q + 2]? = some (.ins (.addr 0 1)) ∧
    zProg[textLine q + 3]? = some (.ins (.word x)) ∧ zProg[textLine q + 4]? = some .RET := by
  cases q
  · exact ⟨0xb92e0024, [4, 2], by decide, by decide, rfl, rfl, rfl, rfl, rfl⟩
  · exact ⟨0xb92f0024, [4, 2], by decide, by decide, rfl, rfl, rfl, rfl, rfl⟩
  · exact ⟨0xb92d4024, [4, 2, 4], by decide, by decide, rfl, rfl, rfl, rfl, rfl⟩
  · exact ⟨0xb9296024, [4, 2, 6], by decide, by decide, rfl, rfl, rfl, rfl, rfl⟩
  · exact ⟨0xb93e0024, [4, 2], by decide, by decide, rfl, rfl, rfl, rfl, rfl⟩
  · exact ⟨0xb93f0024, [4, 2], by decide, by decide, rfl, rfl, rfl, rfl, rfl⟩
  · exact ⟨0xb93a0008, [8, 0], by decide, by decide, rfl, rfl, rfl, rfl, rfl⟩

theorem query_run (h : ZHard) (q : Arch.Query) (s : St 64 (Fin 16)) :
    (∀ v, h.query q = some v → FrameOk s 16 → ∃ t, run (zSem h) zProg 5 (textLine q) s = .done t ∧ t.mem = fill s.mem s.fp 16 v) ∧
    (h.query q = none → run (zSem h) zProg 5 (textLine q) s = .fault) := by
  obtain ⟨x, fs, hd, hr, e0, e1, e2, e3, e4⟩ := query_word q
  have x1 : zExec h (.imm 0 0) s = some (s.set 0 0#64) := rfl
  have x2 : zExec h (.addr 0 1) (s.set 0 0#64) = some ((s.set 0 0#64).set 1 s.fp) := by
    simp only [zExec, St.set, adv0]
  constructor
  · intro v hv hf
    have st := hf.store s.mem (off := 0) (k := 16) (by omega) v
    rw [adv0] at st
    have x3 : zExec h (.word x) ((s.set 0 0#64).set 1 s.fp) = some { (s.set 0 0#64).set 1 s.fp with mem := fill s.mem s.fp 16 v } := by
      have r0 : (((s.set 0 0#64).set 1 s.fp).reg 0).setWidth 7 = 0#7 := by
        rw [show ((s.set 0 0#64).set 1 s.fp).reg 0 = 0#64 from rfl]; rfl
      have r1 : ((s.set 0 0#64).set 1 s.fp).reg 1 = s.fp := rfl
      simp only [zExec, hd, hv, hr, r0, r1, and_self, if_true]
      rw [show ((s.set 0 0#64).set 1 s.fp).wr = s.wr from rfl, show ((s.set 0 0#64).set 1 s.fp).mem = s.mem from rfl, st]
      rfl
    refine ⟨{ (s.set 0 0#64).set 1 s.fp with mem := fill s.mem s.fp 16 v }, ?_, rfl⟩
    simp only [run, step, e0, e1, e2, e3, e4, zSem, x1, x2, x3]
  · intro hv
    have x3 : zExec h (.word x) ((s.set 0 0#64).set 1 s.fp) = none := by
      simp only [zExec, hd, hv]
    simp only [run, step, e0, e1, e2, e3, e4, zSem, x1, x2, x3]

/-- C137, the queries: where the instruction is there, the 16 bytes of the result are its answer and nothing else changes; where it is
not there, the call faults. -/
theorem C137_query (h : ZHard) (q : Arch.Query) (s : St 64 (Fin 16)) :
    (∀ v, h.query q = some v → FrameOk s 16 → ∃ t, Returns (zSem h) zProg (textLine q) s t ∧
      (∀ i < 16, t.mem (s.fp + BitVec.ofNat 64 i) = v i) ∧ ∀ a, 16 ≤ (a - s.fp).toNat → t.mem a = s.mem a) ∧
    (h.query q = none → Faults (zSem h) zProg (textLine q) s) := by
  refine ⟨fun v hv hf => ?_, fun hv => ⟨5, (query_run h q s).2 hv⟩⟩
  obtain ⟨t, h1, h2⟩ := (query_run h q s).1 v hv hf
  exact ⟨t, ⟨5, h1⟩, fun i hi => by rw [h2, fill_in hi hf.room], fun a ha => by rw [h2, fill_out ha]⟩

theorem callQuery_eq (h : ZHard) (q : Arch.Query) (s : St 64 (Fin 16)) (hf : FrameOk s 16) :
    (∀ v, h.query q = some v → ∃ b, callQuery h q s = some b ∧ ∀ i < 16, b i = v i) ∧ (h.query q = none → callQuery h q s = none) := by
  constructor
  · intro v hv
    obtain ⟨t, h1, h2⟩ := (query_run h q s).1 v hv hf
    exact ⟨from_ t.mem s.fp, by rw [callQuery, h1], fun i hi => by rw [from_, h2, fill_in hi hf.room]⟩
  · intro hv
    rw [callQuery, (query_run h q s).2 hv]

/-- The hardware as C95 describes it. -/
def ZHard.machine (h : ZHard) (hwcap : BitVec 64) : Arch.S390Machine :=
  ⟨hwcap, fun i => if i < 8 * h.words then h.list i else 0#8, fun q => (h.query q).getD fun _ => 0#8⟩

theorem loadBE_congr {u v : Nat → BitVec 8} {n : Nat} (h : ∀ i < n, u i = v i) {j : Nat} (hj : 8 * j + 8 ≤ n) :
    Arch.loadBE u j = Arch.loadBE v j := by
  unfold Arch.loadBE
  rw [h _ (by omega), h _ (by omega), h _ (by omega), h _ (by omega), h _ (by omega), h _ (by omega), h _ (by omega), h _ (by omega)]

/-- The model of the Go code looks at nothing but the words. -/
theorem doinit_congr (m m' : Arch.S390Machine) (h1 : m.hwcap = m'.hwcap) (h2 : m.facilities = m'.facilities)
    (h3 : ∀ q, m.result q = m'.result q) : Arch.doinitS390 m = Arch.doinitS390 m' := by
  simp only [Arch.doinitS390, Arch.doinitMsa, h1, h2, h3]

/-- C137, detection on s390x: on a machine that has `STFLE`, and has each query instruction whose facility it announces, nothing faults
or panics, whatever memory contains at the time of the calls, and every variable says what the facility list, the queries and `HWCap`
say; on a machine without `STFLE` the detection does not get past its first call. -/
theorem C137_s390x (h : ZHard) (hwcap : BitVec 64) (s : St 64 (Fin 16)) (sq : Arch.Query → St 64 (Fin 16)) :
    (h.stfle = true → FrameOk s 32 → s.fp.toNat % 8 = 0 → (∀ q, FrameOk (sq q) 16) →
      (∀ q, (∀ f ∈ q.needs, (h.machine hwcap).fac f = true) → (h.query q).isSome) →
      ∃ x, detectS390 h hwcap s sq = some x ∧ Arch.S390Reports (h.machine hwcap) x) ∧
    (h.stfle = false → detectS390 h hwcap s sq = none) := by
  constructor
  · intro hs hf ha hfq hq
    obtain ⟨b, hb, hb2⟩ := callStfle_eq h s hs hf ha
    obtain ⟨x, t, hx, hr, ht⟩ := Arch.C95_s390x (h.machine hwcap)
    refine ⟨x, ?_, hr⟩
    have e : Arch.doinitS390 ⟨hwcap, b, fun q => (callQuery h q (sq q)).getD fun _ => 0#8⟩ = Arch.doinitS390 (h.machine hwcap) := by
      refine doinit_congr _ _ rfl ?_ fun q => ?_
      · unfold Arch.S390Machine.facilities
        have hb3 : ∀ i < 32, b i = (h.machine hwcap).stfle i := hb2
        simp only [loadBE_congr hb3 (j := 0) (by omega), loadBE_congr hb3 (j := 1) (by omega), loadBE_congr hb3 (j := 2) (by omega),
          loadBE_congr hb3 (j := 3) (by omega)]
      · unfold Arch.S390Machine.result
        have hc : ∀ i < 16, (callQuery h q (sq q)).getD (fun _ => 0#8) i = (h.machine hwcap).query q i := by
          intro i hi
          cases hv : h.query q with
          | none =>
            rw [(callQuery_eq h q (sq q) (hfq q)).2 hv]
            simp [ZHard.machine, hv]
          | some v =>
            obtain ⟨b, h1, h2⟩ := (callQuery_eq h q (sq q) (hfq q)).1 v hv
            rw [h1]
            simp [ZHard.machine, hv, h2 i hi]
        simp only [loadBE_congr hc (j := 0) (by omega), loadBE_congr hc (j := 1) (by omega)]
    unfold detectS390
    rw [hb]
    simp only [Option.bind_eq_bind, Option.bind_some, e, hx]
    rw [if_pos]
    · rfl
    · rw [List.all_eq_true]
      intro q hqt
      have := hq q (ht q hqt)
      obtain ⟨v, hv⟩ := Option.isSome_iff_exists.1 this
      obtain ⟨b, h1, -⟩ := (callQuery_eq h q (sq q) (hfq q)).1 v hv
      rw [h1]; rfl
  · intro hs
    have : callStfle h s = none := by
      unfold callStfle
      obtain ⟨k, hk⟩ := stfle_fault h s hs
      cases e : run (zSem h) zProg 6 8 s with
      | done t => exact absurd hk (fault_not_done e)
      | more a b => rfl
      | fault => rfl
      | tail l b => rfl
    unfold detectS390
    rw [this]
    rfl

/-- A machine with a list of three doublewords, all facilities of them but 152 to 159, and answers of all ones. -/
def zExample : ZHard := ⟨true, 3, fun i => if i = 19 then 0#8 else 255#8, false, fun q => if q = .kdsa then none else some fun _ => 255#8⟩

/-- Memory full of ones, which the result must not show. -/
def zState : St 64 (Fin 16) := ⟨fun _ => 77#64, fun _ => 255#8, fun _ => true, fun _ => true, 4096#64⟩

example : zExample.stfle = true ∧ FrameOk zState 32 ∧ FrameOk zState 16 ∧ zState.fp.toNat % 8 = 0 ∧
    (∀ q : Arch.Query, (∀ f ∈ q.needs, (zExample.machine 0#64).fac f = true) → (zExample.query q).isSome) ∧
    (callStfle zExample zState).map (fun b => (b 23, b 24, b 31)) = some (255#8, 0#8, 0#8) ∧
    (detectS390 zExample 0#64 zState fun _ => zState).map (fun x => (x.hasAESGCM, x.hasKDSA)) = some (true, false) := by
  refine ⟨rfl, ⟨by decide, fun _ _ => rfl, fun _ _ => rfl⟩, ⟨by decide, fun _ _ => rfl, fun _ _ => rfl⟩, by decide, ?_, by decide +kernel,
    by decide +kernel⟩
  intro q
  cases q <;> first | (intro _; rfl) | skip
  intro hq
  exact absurd (hq 155 (by simp [Arch.Query.needs])) (by decide +kernel)

end Verif.Cpu.Asm
