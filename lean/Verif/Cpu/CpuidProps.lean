import Verif.Cpu.CpuidModel
import Mathlib.Tactic.Common

/-!
# Property C70: the SIMD code in use is what the machine supports

The specification follows the processor manuals: a feature is a bit of the answer of CPUID, a leaf may be
asked for only up to the largest one, and AVX code needs the operating system to save the registers, which
it says in XCR0 if OSXSAVE is set.
-/

namespace Verif.Cpu

/-- Leaf `n` may be asked for. -/
def Machine.Leaf (m : Machine) (n : Nat) : Prop := n ≤ (m.cpuid 0#32 0#32).1.toNat

/-- CPUID leaf 1, edx bit 26. -/
def Machine.SSE2 (m : Machine) : Prop := m.Leaf 1 ∧ (m.cpuid 1#32 0#32).2.2.2.toNat.testBit 26

/-- CPUID leaf 1, ecx bit 19. -/
def Machine.SSE41 (m : Machine) : Prop := m.Leaf 1 ∧ (m.cpuid 1#32 0#32).2.2.1.toNat.testBit 19

/-- OSXSAVE, and XCR0 has the XMM and YMM bits. -/
def Machine.SavesYMM (m : Machine) : Prop :=
  m.Leaf 1 ∧ (m.cpuid 1#32 0#32).2.2.1.toNat.testBit 27 ∧ m.xgetbv.toNat.testBit 1 ∧ m.xgetbv.toNat.testBit 2

/-- CPUID leaf 1, ecx bit 28, and support of the system. -/
def Machine.AVX (m : Machine) : Prop := m.SavesYMM ∧ (m.cpuid 1#32 0#32).2.2.1.toNat.testBit 28

/-- CPUID leaf 7, ebx bit 5, and support of the system. -/
def Machine.AVX2 (m : Machine) : Prop := m.SavesYMM ∧ m.Leaf 7 ∧ (m.cpuid 7#32 0#32).2.1.toNat.testBit 5

theorem isSet_bit (x : BitVec 32) (k : Nat) (hk : k < 32) : isSet x (1#32 <<< k) = x.toNat.testBit k := by
  unfold isSet
  rw [← BitVec.getLsbD, Bool.eq_iff_iff, bne_iff_ne]
  have hone : (1#32 <<< k) = BitVec.twoPow 32 k := by rw [BitVec.twoPow]
  rw [hone]
  constructor
  · intro h
    by_contra hb
    apply h
    rw [BitVec.and_twoPow, if_neg hb]
  · intro h hz
    rw [BitVec.and_twoPow, if_pos h] at hz
    have := congrArg (fun v : BitVec 32 => v.getLsbD k) hz
    simp [hk] at this

theorem osSupports (m : Machine) (b : Bool) : osSupportsAVX m b = true ↔ b = true ∧ m.xgetbv.toNat.testBit 1 ∧ m.xgetbv.toNat.testBit 2 := by
  unfold osSupportsAVX
  cases b
  · simp
  · simp only [if_true, isSet_bit _ 1 (by omega), isSet_bit _ 2 (by omega), Bool.and_eq_true, true_and]

theorem leaf_iff (m : Machine) (n : Nat) (hn : n < 2 ^ 32) : ¬((m.cpuid 0#32 0#32).1 < BitVec.ofNat 32 n) ↔ m.Leaf n := by
  rw [BitVec.lt_def, BitVec.toNat_ofNat, Nat.mod_eq_of_lt hn, Machine.Leaf]
  omega

theorem doinit_eq (m : Machine) :
    ((doinit m {}).hasSSE2 = true ↔ m.SSE2) ∧ ((doinit m {}).hasSSE41 = true ↔ m.SSE41) ∧ ((doinit m {}).hasAVX = true ↔ m.AVX) ∧
    ((doinit m {}).hasAVX2 = true ↔ m.AVX2) := by
  have l1 := leaf_iff m 1 (by omega)
  have l7 := leaf_iff m 7 (by omega)
  have h17 : m.Leaf 7 → m.Leaf 1 := fun h => Nat.le_trans (by omega) h
  unfold doinit
  simp only [Machine.SSE2, Machine.SSE41, Machine.AVX, Machine.AVX2, Machine.SavesYMM]
  split
  · rename_i h
    have : ¬ m.Leaf 1 := fun hl => l1.mpr hl h
    simp [this]
  · rename_i h
    have hl1 := l1.mp h
    split
    · rename_i h'
      have : ¬ m.Leaf 7 := fun hl => l7.mpr hl h'
      simp only [doinit1, isSet_bit _ 26 (by omega), isSet_bit _ 19 (by omega), isSet_bit _ 28 (by omega), isSet_bit _ 27 (by omega),
        Bool.and_eq_true, osSupports, hl1, this, true_and, false_and, and_false, Bool.false_eq_true, and_true]
      exact and_comm
    · rename_i h'
      have hl7 := l7.mp h'
      simp only [doinit7, doinit1, isSet_bit _ 26 (by omega), isSet_bit _ 19 (by omega), isSet_bit _ 28 (by omega), isSet_bit _ 27 (by omega),
        isSet_bit _ 5 (by omega), Bool.and_eq_true, osSupports, hl1, hl7, true_and]
      exact ⟨and_comm, and_comm⟩

/-! ## C70 -/

/-- The three flags say what the machine supports. -/
def Exact (m : Machine) (u : Use) : Prop := (u.sse2 = true ↔ m.SSE2) ∧ (u.sse4 = true ↔ m.SSE41) ∧ (u.avx2 = true ↔ m.AVX2)

/-- C70 does not hold on any machine that has one of the features; all amd64 machines have SSE2. -/
theorem C70_violated (m : Machine) (h : m.SSE2 ∨ m.SSE41 ∨ m.AVX2) : ¬ Exact m (start m inits).use := by
  rintro ⟨h1, h2, h3⟩
  rcases h with h | h | h
  · exact absurd (h1.mpr h) (by simp [start, inits, Init.run, useOf, Vars.zero])
  · exact absurd (h2.mpr h) (by simp [start, inits, Init.run, useOf, Vars.zero])
  · exact absurd (h3.mpr h) (by simp [start, inits, Init.run, useOf, Vars.zero])

/-- A machine with AVX2, SSE4.1 and SSE2. -/
def modern : Machine where
  cpuid := fun a _ => if a = 0#32 then (22#32, 0#32, 0#32, 0#32) else (0xffffffff#32, 0xffffffff#32, 0xffffffff#32, 0xffffffff#32)
  xgetbv := 7#32

/-- A machine with AVX and without AVX2. -/
def older : Machine where
  cpuid := fun a _ => if a = 0#32 then (13#32, 0#32, 0#32, 0#32) else if a = 7#32 then (0#32, 0#32, 0#32, 0#32) else
    (0xffffffff#32, 0xffffffff#32, 0xffffffff#32, 0xffffffff#32)
  xgetbv := 7#32

example : modern.SSE2 ∧ modern.SSE41 ∧ modern.AVX2 := by
  refine ⟨?_, ?_, ?_⟩ <;> simp only [Machine.SSE2, Machine.SSE41, Machine.AVX2, Machine.SavesYMM, Machine.Leaf] <;> decide

/-- C70 would not hold either if the features were initialised: the AVX2 code is used on machines that
have only AVX. -/
theorem C70_violated_avx (m : Machine) (h1 : m.AVX) (h2 : ¬ m.AVX2) : ¬ Exact m (start m [.cpuInitialize, .dspInit]).use := by
  rintro ⟨-, -, h⟩
  exact h2 (h.mp ((doinit_eq m).2.2.1.mpr h1))

example : older.AVX ∧ ¬ older.AVX2 := by
  simp only [Machine.AVX, Machine.AVX2, Machine.SavesYMM, Machine.Leaf]
  decide

/-- C70, the part that holds: no code is used that the machine does not support. -/
theorem C70_safe_partial (m : Machine) :
    ((start m inits).use.sse2 = true → m.SSE2) ∧ ((start m inits).use.sse4 = true → m.SSE41) ∧ ((start m inits).use.avx2 = true → m.AVX2) := by
  simp [start, inits, Init.run, useOf, Vars.zero]

/-- C70, the part that holds of the detection: after `Initialize("")` the SSE2 and SSE4 flags are exact
and the AVX2 flag says that there is AVX; the feature variable for AVX2, which is not looked at, is
exact. -/
theorem C70_detection_partial (m : Machine) :
    ((start m [.cpuInitialize, .dspInit]).use.sse2 = true ↔ m.SSE2) ∧ ((start m [.cpuInitialize, .dspInit]).use.sse4 = true ↔ m.SSE41) ∧
    ((start m [.cpuInitialize, .dspInit]).use.avx2 = true ↔ m.AVX) ∧ ((start m [.cpuInitialize, .dspInit]).x86.hasAVX2 = true ↔ m.AVX2) := by
  obtain ⟨h1, h2, h3, h4⟩ := doinit_eq m
  exact ⟨h1, h2, h3, h4⟩

example : (start modern [.cpuInitialize, .dspInit]).use.avx2 = true ∧ (start older [.cpuInitialize, .dspInit]).use.avx2 = true := by
  decide

end Verif.Cpu
