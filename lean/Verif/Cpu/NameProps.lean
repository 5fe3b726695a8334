import Verif.Cpu.NameModel
import Mathlib.Tactic.Common

/-!
# Property C78: the CPU name
-/

namespace Verif.Cpu

/-- Byte `k` of the brand string: the manuals put it into leaves 0x80000002 to 0x80000004, registers eax,
ebx, ecx, edx, lowest byte first. -/
def brandByte (m : Machine) (k : Nat) : BitVec 8 :=
  let r := m.cpuid (BitVec.ofNat 32 (0x80000002 + k / 16)) 0#32
  let reg := match k / 4 % 4 with
    | 0 => r.1
    | 1 => r.2.1
    | 2 => r.2.2.1
    | _ => r.2.2.2
  BitVec.ofNat 8 (reg.toNat / 256 ^ (k % 4))

/-- The 48 bytes of the brand string. -/
def brand (m : Machine) : List (BitVec 8) := (List.range 48).map (brandByte m)

theorem regByte (r : BitVec 32) (j : Nat) : (r >>> (8 * j)).setWidth 8 = BitVec.ofNat 8 (r.toNat / 256 ^ j) := by
  apply BitVec.eq_of_toNat_eq
  simp only [BitVec.toNat_setWidth, BitVec.toNat_ushiftRight, BitVec.toNat_ofNat, Nat.shiftRight_eq_div_pow]
  rw [Nat.pow_mul]

theorem regBytes_eq (r : BitVec 32) : regBytes r = [BitVec.ofNat 8 (r.toNat / 256 ^ 0), BitVec.ofNat 8 (r.toNat / 256 ^ 1),
    BitVec.ofNat 8 (r.toNat / 256 ^ 2), BitVec.ofNat 8 (r.toNat / 256 ^ 3)] := by
  rw [← regByte, ← regByte, ← regByte, ← regByte]
  rfl

theorem brand_eq (m : Machine) :
    appendBytes (appendBytes (appendBytes [] (m.cpuid 0x80000002#32 0#32)) (m.cpuid 0x80000003#32 0#32)) (m.cpuid 0x80000004#32 0#32) = brand m := by
  simp only [appendBytes, regBytes_eq]
  rfl

theorem trimSpaces_spec (l : List (BitVec 8)) : ∃ n, l = List.replicate n 32#8 ++ trimSpaces l ∧ (trimSpaces l).head? ≠ some 32#8 := by
  induction l with
  | nil => exact ⟨0, rfl, by simp [trimSpaces]⟩
  | cons c cs ih =>
    rw [trimSpaces]
    split
    · rename_i h
      obtain ⟨n, h1, h2⟩ := ih
      refine ⟨n + 1, ?_, h2⟩
      rw [List.replicate_succ, List.cons_append, ← h1, h]
    · rename_i h
      exact ⟨0, rfl, by simpa using h⟩

theorem cutNull_spec (pre l : List (BitVec 8)) (hp : 0#8 ∉ pre) :
    ∃ rest, pre ++ l = cutNull (pre ++ l) pre.length l ++ rest ∧ 0#8 ∉ cutNull (pre ++ l) pre.length l ∧ (rest = [] ∨ ∃ t, rest = 0#8 :: t) := by
  induction l generalizing pre with
  | nil =>
    rw [cutNull, List.append_nil]
    exact ⟨[], by simp, hp, .inl rfl⟩
  | cons c cs ih =>
    rw [cutNull]
    split
    · rename_i h
      subst h
      rw [List.take_left]
      exact ⟨_, rfl, hp, .inr ⟨cs, rfl⟩⟩
    · rename_i h
      have := ih (pre ++ [c]) (by
        rw [List.mem_append, List.mem_singleton, not_or]
        exact ⟨hp, fun he => h he.symm⟩)
      rw [List.append_assoc, List.length_append] at this
      exact this

/-- C78: the name is the brand string without leading blanks and up to its first null byte. -/
theorem C78_name (m : Machine) (maxExt : BitVec 32) (h : 0x80000004 ≤ maxExt.toNat) :
    ∃ n rest, brand m = List.replicate n 32#8 ++ cpuName m maxExt ++ rest ∧ (cpuName m maxExt).head? ≠ some 32#8 ∧ 0#8 ∉ cpuName m maxExt ∧
      (rest = [] ∨ ∃ t, rest = 0#8 :: t) := by
  unfold cpuName
  have hlt : ¬ maxExt < 0x80000004#32 := by
    rw [BitVec.lt_def, show (0x80000004#32).toNat = 0x80000004 from rfl]
    omega
  rw [if_neg hlt]
  simp only [brand_eq]
  obtain ⟨n, h1, h2⟩ := trimSpaces_spec (brand m)
  obtain ⟨rest, h3, h4, h5⟩ := cutNull_spec [] (trimSpaces (brand m)) (by simp)
  simp only [List.nil_append, List.length_nil] at h3 h4
  refine ⟨n, rest, ?_, ?_, h4, h5⟩
  · rw [List.append_assoc, ← h3]
    exact h1
  · cases hc : cutNull (trimSpaces (brand m)) 0 (trimSpaces (brand m)) with
    | nil => simp
    | cons c cs =>
      rw [hc] at h3
      rw [h3] at h2
      simpa using h2

/-- C78: without the leaves there is no name; in any case it has at most 48 bytes. -/
theorem C78_short (m : Machine) (maxExt : BitVec 32) : (maxExt.toNat < 0x80000004 → cpuName m maxExt = []) ∧ (cpuName m maxExt).length ≤ 48 := by
  constructor
  · intro h
    unfold cpuName
    rw [if_pos]
    rw [BitVec.lt_def, show (0x80000004#32).toNat = 0x80000004 from rfl]
    exact h
  · by_cases h : 0x80000004 ≤ maxExt.toNat
    · obtain ⟨n, rest, h1, -⟩ := C78_name m maxExt h
      have := congrArg List.length h1
      simp only [brand, List.length_map, List.length_range, List.length_append] at this
      omega
    · unfold cpuName
      rw [if_pos]
      · simp
      · rw [BitVec.lt_def, show (0x80000004#32).toNat = 0x80000004 from rfl]
        omega

/-- Blanks, then "Go", then zeros. -/
def brandMachine : Machine where
  cpuid := fun a _ => if a = 0x80000002#32 then (0x20202020#32, 0x6f4720#32, 0#32, 0x41#32) else (0#32, 0#32, 0#32, 0#32)
  xgetbv := 0#32

example : cpuName brandMachine 0x80000008#32 = [0x47#8, 0x6f#8] := by decide

end Verif.Cpu
