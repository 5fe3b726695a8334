import Verif.Cpu.ArchModel
import Verif.Cpu.OptionsProps
import Mathlib.Tactic.IntervalCases

/-!
# Property C95: what the feature detection reports on arm, arm64, mips64x, ppc64x and s390x
-/

namespace Verif.Cpu.Arch

/-! ## Specification -/

/-- Bit `i` of a string of bytes counted from the left, as the manual of s390x numbers facilities and
function codes. -/
def bitFromLeft (mem : Nat → BitVec 8) (i : Nat) : Bool := (mem (i / 8)).getLsbD (7 - i % 8)

/-- The field of bits `lo` to `lo + 3` of a register, as the manual of arm64 gives the fields of
ID_AA64ISAR0_EL1. -/
def field (r : BitVec 64) (lo : Nat) : Nat := r.toNat / 2 ^ lo % 16

/-! ## Bits -/

theorem isSet_twoPow {n : Nat} (h : BitVec n) (i : Nat) : isSet h (BitVec.twoPow n i) = h.getLsbD i := by
  unfold isSet
  rw [BitVec.and_twoPow]
  by_cases hi : i < n
  · cases h.getLsbD i
    · simp
    · simp only [if_true, bne_iff_ne, ne_eq]
      intro h0
      have := congrArg (fun v => v.getLsbD i) h0
      simp [hi] at this
  · have hz : h.getLsbD i = false := BitVec.getLsbD_of_ge _ _ (by omega)
    simp [hz]

theorem bit_word (w : BitVec 64) (k : Nat) (hk : k < 64) :
    (w &&& ((1#64 <<< 63) >>> k) != 0#64) = w.getLsbD (63 - k) := by
  have h : (1#64 <<< 63) >>> k = BitVec.twoPow 64 (63 - k) := by
    interval_cases k <;> decide
  rw [h]
  exact isSet_twoPow w (63 - k)

theorem loadBE_bit (mem : Nat → BitVec 8) (j k : Nat) (hk : k < 64) :
    (loadBE mem j).getLsbD (63 - k) = (mem (8 * j + k / 8)).getLsbD (7 - k % 8) := by
  unfold loadBE
  simp only [BitVec.getLsbD_append]
  interval_cases k <;> rfl

theorem bitIsSet_mem (mem : Nat → BitVec 8) (bits : List (BitVec 64)) (n i : Nat)
    (hb : ∀ j < n, bits[j]? = some (loadBE mem j)) (hi : i < 64 * n) :
    bitIsSet bits i = some (bitFromLeft mem i) := by
  have hj : i / 64 < n := by omega
  have hm : i % 64 < 64 := Nat.mod_lt _ (by decide)
  unfold bitIsSet bitFromLeft
  rw [hb _ hj, Option.map_some, bit_word _ _ hm, loadBE_bit _ _ _ hm]
  have h1 : 8 * (i / 64) + i % 64 / 8 = i / 8 := by omega
  have h2 : i % 64 % 8 = i % 8 := by omega
  rw [h1, h2]

theorem has_mem (mem : Nat → BitVec 8) (bits : List (BitVec 64)) (n : Nat) (fs : List Nat)
    (hb : ∀ j < n, bits[j]? = some (loadBE mem j)) (hf : ∀ f ∈ fs, f < 64 * n) (hne : fs ≠ []) :
    has bits fs = some (fs.all (bitFromLeft mem)) := by
  unfold has
  rw [if_neg hne]
  clear hne
  induction fs with
  | nil => rfl
  | cons f fs ih =>
    unfold hasLoop
    rw [bitIsSet_mem mem bits n f hb (hf f (by simp))]
    cases hbit : bitFromLeft mem f
    · simp [hbit]
    · simp only [List.all_cons, hbit, Bool.true_and]
      exact ih fun g hg => hf g (List.mem_cons_of_mem _ hg)

/-- A facility of the machine, and a function of one of its query instructions. -/
def S390Machine.fac (m : S390Machine) (i : Nat) : Bool := bitFromLeft m.stfle i

def S390Machine.fn (m : S390Machine) (q : Query) (i : Nat) : Bool := bitFromLeft (m.query q) i

theorem has_fac (m : S390Machine) (fs : List Nat) (hf : ∀ f ∈ fs, f < 256) (hne : fs ≠ []) :
    has m.facilities fs = some (fs.all m.fac) :=
  has_mem m.stfle _ 4 fs (by intro j hj; interval_cases j <;> rfl) hf hne

theorem has_fn (m : S390Machine) (q : Query) (fs : List Nat) (hf : ∀ f ∈ fs, f < 128) (hne : fs ≠ []) :
    has (m.result q) fs = some (fs.all (m.fn q)) :=
  has_mem (m.query q) _ 2 fs (by intro j hj; interval_cases j <;> rfl) hf hne

/-! ## s390x -/

/-- C95, `Has`: for the type `facility`, a `uint8`, the lookup stays within the four words, so `Has` panics
only without arguments; for a query the two words hold the codes below 128. -/
theorem C95_has (m : S390Machine) (q : Query) (fs : List Nat) :
    ((∀ f ∈ fs, f < 256) → (has m.facilities fs = none ↔ fs = [])) ∧
    ((∀ f ∈ fs, f < 256) → has m.facilities fs = some true → ∀ f ∈ fs, m.fac f = true) ∧
    ((∀ f ∈ fs, f < 128) → fs ≠ [] → has (m.result q) fs = some (fs.all (m.fn q))) := by
  refine ⟨fun hf => ⟨fun h => ?_, fun h => by rw [h]; rfl⟩, fun hf h => ?_, fun hf hne => has_fn m q fs hf hne⟩
  · by_contra hne
    rw [has_fac m fs hf hne] at h
    cases h
  · by_cases hne : fs = []
    · subst hne; simp
    · rw [has_fac m fs hf hne] at h
      simpa using h

/-- A machine whose query of `km` reports every function. -/
def allOnes : S390Machine := ⟨BitVec.allOnes 64, fun _ => 255, fun _ _ => 255⟩

/-- `Has` of a query does panic for a code from 128 on, which the type `function` allows. -/
theorem C95_has_violated : has (allOnes.result .km) [128] = none := by decide

/-- What each variable of `S390X` must say. -/
structure S390Reports (m : S390Machine) (x : S390X) : Prop where
  zarch : x.hasZARCH = m.fac 1
  stfle : x.hasSTFLE = m.fac 7
  ldisp : x.hasLDISP = m.fac 18
  eimm : x.hasEIMM = m.fac 21
  dfp : x.hasDFP = m.fac 42
  etf3eh : x.hasETF3EH = m.fac 30
  msa : x.hasMSA = m.fac 17
  aes : x.hasAES = (m.fac 17 && (m.fn .km 18 && m.fn .km 19 && m.fn .km 20))
  aescbc : x.hasAESCBC = (m.fac 17 && (m.fn .kmc 18 && m.fn .kmc 19 && m.fn .kmc 20))
  aesctr : x.hasAESCTR = (m.fac 17 && m.fac 77 && (m.fn .kmctr 18 && m.fn .kmctr 19 && m.fn .kmctr 20))
  aesgcm : x.hasAESGCM = (m.fac 17 && m.fac 146 && (m.fn .kma 18 && m.fn .kma 19 && m.fn .kma 20))
  ghash : x.hasGHASH = (m.fac 17 && m.fn .kimd 65)
  sha1 : x.hasSHA1 = (m.fac 17 && (m.fn .kimd 1 && m.fn .klmd 1))
  sha256 : x.hasSHA256 = (m.fac 17 && (m.fn .kimd 2 && m.fn .klmd 2))
  sha512 : x.hasSHA512 = (m.fac 17 && (m.fn .kimd 3 && m.fn .klmd 3))
  sha3 : x.hasSHA3 = true ↔ m.fac 17 = true ∧ ∀ i, 32 ≤ i → i ≤ 37 → m.fn .kimd i = true ∧ m.fn .klmd i = true
  vx : x.hasVX = m.hwcap.getLsbD 11
  vxe : x.hasVXE = (m.hwcap.getLsbD 11 && m.fac 135)
  kdsa : x.hasKDSA = (m.fac 17 && m.fac 155)
  ecdsa : x.hasECDSA = true ↔ m.fac 17 = true ∧ m.fac 155 = true ∧
    ∀ i, (1 ≤ i ∧ i ≤ 3 ∨ 9 ≤ i ∧ i ≤ 11) → m.fn .kdsa i = true
  eddsa : x.hasEDDSA = true ↔ m.fac 17 = true ∧ m.fac 155 = true ∧
    ∀ i, (i = 32 ∨ i = 36 ∨ i = 40 ∨ i = 44) → m.fn .kdsa i = true

/-- The facility that a query instruction belongs to, besides the message-security assist itself. -/
def Query.needs : Query → List Nat
  | .km | .kmc | .kimd | .klmd => [17]
  | .kmctr => [17, 77]
  | .kma => [17, 146]
  | .kdsa => [17, 155]

theorem all_sha3 (p : Nat → Bool) : sha3.all p = true ↔ ∀ i, 32 ≤ i → i ≤ 37 → p i = true := by
  simp only [sha3, List.all_cons, List.all_nil, Bool.and_true, Bool.and_eq_true]
  constructor
  · rintro ⟨h1, h2, h3, h4, h5, h6⟩ i hi hj
    interval_cases i <;> assumption
  · intro h
    exact ⟨h 32 (by omega) (by omega), h 33 (by omega) (by omega), h 34 (by omega) (by omega),
      h 35 (by omega) (by omega), h 36 (by omega) (by omega), h 37 (by omega) (by omega)⟩

theorem all_ecdsa (p : Nat → Bool) : List.all [1, 9, 2, 10, 3, 11] p = true ↔
    ∀ i, (1 ≤ i ∧ i ≤ 3 ∨ 9 ≤ i ∧ i ≤ 11) → p i = true := by
  simp only [List.all_cons, List.all_nil, Bool.and_true, Bool.and_eq_true]
  constructor
  · rintro ⟨h1, h2, h3, h4, h5, h6⟩ i (⟨hi, hj⟩ | ⟨hi, hj⟩) <;> interval_cases i <;> assumption
  · intro h
    exact ⟨h 1 (by omega), h 9 (by omega), h 2 (by omega), h 10 (by omega), h 3 (by omega), h 11 (by omega)⟩

theorem all_eddsa (p : Nat → Bool) : List.all [32, 40, 36, 44] p = true ↔
    ∀ i, (i = 32 ∨ i = 36 ∨ i = 40 ∨ i = 44) → p i = true := by
  simp only [List.all_cons, List.all_nil, Bool.and_true, Bool.and_eq_true]
  constructor
  · rintro ⟨h1, h2, h3, h4⟩ i (rfl | rfl | rfl | rfl) <;> assumption
  · intro h
    exact ⟨h 32 (by omega), h 40 (by omega), h 36 (by omega), h 44 (by omega)⟩

/-- C95, s390x: on every machine the detection ends without a panic, every variable says what the facility
list, the queries and `HWCap` say, and a query instruction is executed only if the machine has the facility
that it belongs to. -/
theorem C95_s390x (m : S390Machine) : ∃ x t, doinitS390 m = some (x, t) ∧ S390Reports m x ∧
    ∀ q ∈ t, ∀ f ∈ q.needs, m.fac f = true := by
  have hvx : isSet m.hwcap (1#64 <<< 11) = m.hwcap.getLsbD 11 := by
    rw [show 1#64 <<< 11 = BitVec.twoPow 64 11 from rfl]; exact isSet_twoPow m.hwcap 11
  have e1 : ∀ f, f < 256 → has m.facilities [f] = some (m.fac f) := fun f hf => by
    rw [has_fac m [f] (by simpa using hf) (by simp)]; simp
  have e2 : ∀ q f, f < 128 → has (m.result q) [f] = some (m.fn q f) := fun q f hf => by
    rw [has_fn m q [f] (by simpa using hf) (by simp)]; simp
  have e3 : ∀ q, has (m.result q) aes = some (m.fn q 18 && m.fn q 19 && m.fn q 20) := fun q => by
    rw [has_fn m q aes (by decide) (by decide)]; simp [aes, Bool.and_assoc]
  have e4 : ∀ q, has (m.result q) sha3 = some (sha3.all (m.fn q)) := fun q => by
    rw [has_fn m q sha3 (by decide) (by decide)]
  have e5 : has (m.result .kdsa) [1, 9, 2, 10, 3, 11] = some (List.all [1, 9, 2, 10, 3, 11] (m.fn .kdsa)) := by
    rw [has_fn m _ _ (by decide) (by decide)]
  have e6 : has (m.result .kdsa) [32, 40, 36, 44] = some (List.all [32, 40, 36, 44] (m.fn .kdsa)) := by
    rw [has_fn m _ _ (by decide) (by decide)]
  have hand : ∀ a b : Bool, andThen (some a) (some b) = some (a && b) := by
    intro a b; cases a <;> rfl
  have hs3 : ∀ a, (sha3.all (m.fn .kimd) && sha3.all (m.fn .klmd)) = a → (a = true ↔
      ∀ i, 32 ≤ i → i ≤ 37 → m.fn .kimd i = true ∧ m.fn .klmd i = true) := by
    rintro a rfl
    rw [Bool.and_eq_true, all_sha3, all_sha3]
    exact ⟨fun h i h1 h2 => ⟨h.1 i h1 h2, h.2 i h1 h2⟩,
      fun h => ⟨fun i h1 h2 => (h i h1 h2).1, fun i h1 h2 => (h i h1 h2).2⟩⟩
  have hs3' := hs3 _ rfl
  have hec := all_ecdsa (m.fn .kdsa)
  have hed := all_eddsa (m.fn .kdsa)
  generalize he3 : (sha3.all (m.fn .kimd) && sha3.all (m.fn .klmd)) = b3 at hs3'
  generalize hee : List.all [1, 9, 2, 10, 3, 11] (m.fn .kdsa) = bec at hec e5
  generalize hed' : List.all [32, 40, 36, 44] (m.fn .kdsa) = bed at hed e6
  unfold doinitS390 doinitMsa
  simp only [e1 _ (by decide : (1 : Nat) < 256), e1 _ (by decide : (7 : Nat) < 256),
    e1 _ (by decide : (18 : Nat) < 256), e1 _ (by decide : (21 : Nat) < 256),
    e1 _ (by decide : (42 : Nat) < 256), e1 _ (by decide : (30 : Nat) < 256),
    e1 _ (by decide : (17 : Nat) < 256), e1 _ (by decide : (77 : Nat) < 256),
    e1 _ (by decide : (146 : Nat) < 256), e1 _ (by decide : (155 : Nat) < 256),
    e1 _ (by decide : (135 : Nat) < 256), e2 _ _ (by decide : (1 : Nat) < 128),
    e2 _ _ (by decide : (2 : Nat) < 128), e2 _ _ (by decide : (3 : Nat) < 128),
    e2 _ _ (by decide : (65 : Nat) < 128), e3, e4, e5, e6, hand, he3, hvx,
    Option.bind_eq_bind, Option.bind_some, Option.pure_def]
  cases h17 : m.fac 17 <;> cases hv : m.hwcap.getLsbD 11 <;> cases h77 : m.fac 77 <;>
    cases h146 : m.fac 146 <;> cases h155 : m.fac 155 <;>
    refine ⟨_, _, rfl, ?_, ?_⟩ <;>
    first
    | (constructor <;> simp [-BitVec.getLsbD_eq_getElem, h17, hv, h77, h146, h155, hs3', hec, hed])
    | simp [Query.needs, h17, h77, h146, h155]

/-- A machine with the message-security assist and nothing else: four queries are executed. -/
example : (doinitS390 ⟨0, fun i => if i = 2 then 0x40 else 0, fun _ _ => 0⟩).map Prod.snd =
    some [.km, .kmc, .kimd, .klmd] := by decide

example : (doinitS390 allOnes).map (fun r => (r.1.hasSHA3, r.1.hasEDDSA, r.1.hasVXE, r.2.length)) =
    some (true, true, true, 7) := by decide

/-! ## arm, arm64, mips64x, ppc64x -/

/-- C95, arm: the two variables are bits 16 and 17 of `HWCap`. -/
theorem C95_arm (hwcap : BitVec 32) :
    (doinitArm hwcap).hasVFPv4 = hwcap.getLsbD 16 ∧ (doinitArm hwcap).hasIDIVA = hwcap.getLsbD 17 :=
  ⟨isSet_twoPow hwcap 16, isSet_twoPow hwcap 17⟩

theorem midr_part (midr : BitVec 64) (c : BitVec 16) :
    (((midr >>> 4) &&& 0xfff).setWidth 16 = c) ↔ midr.toNat / 2 ^ 4 % 4096 = c.toNat := by
  rw [← BitVec.toNat_inj]
  simp only [BitVec.toNat_setWidth, BitVec.toNat_and, BitVec.toNat_ushiftRight, Nat.shiftRight_eq_div_pow]
  rw [show (0xfff : BitVec 64).toNat = 2 ^ 12 - 1 from rfl, Nat.and_two_pow_sub_one_eq_mod]
  have : midr.toNat / 2 ^ 4 % 2 ^ 12 < 2 ^ 16 := by omega
  rw [Nat.mod_eq_of_lt this]
  rfl

theorem midr_impl (midr : BitVec 64) (c : BitVec 8) :
    (((midr >>> 24) &&& 0xff).setWidth 8 = c) ↔ midr.toNat / 2 ^ 24 % 256 = c.toNat := by
  rw [← BitVec.toNat_inj]
  simp only [BitVec.toNat_setWidth, BitVec.toNat_and, BitVec.toNat_ushiftRight, Nat.shiftRight_eq_div_pow]
  rw [show (0xff : BitVec 64).toNat = 2 ^ 8 - 1 from rfl, Nat.and_two_pow_sub_one_eq_mod]
  have : midr.toNat / 2 ^ 24 % 2 ^ 8 < 2 ^ 8 := by omega
  rw [Nat.mod_eq_of_lt this]
  rfl

/-- The implementer field (bits 24 to 31) and the part number (bits 4 to 15) of MIDR_EL1. -/
def midrIs (midr : BitVec 64) (impl part : Nat) : Prop :=
  midr.toNat / 2 ^ 24 % 256 = impl ∧ midr.toNat / 2 ^ 4 % 4096 = part

theorem isPart_iff (midr : BitVec 64) (c : BitVec 16) :
    isPart midr c = true ↔ midrIs midr 0x41 c.toNat := by
  unfold isPart
  dsimp only
  rw [Bool.and_eq_true, decide_eq_true_iff, decide_eq_true_iff]
  exact and_congr (midr_impl midr 0x41) (midr_part midr c)

/-- C95, arm64 on Linux and Android: the variables are the bits of `HWCap`, atomics never on Android; the
register MIDR_EL1 is read exactly if `HWCap` says that the kernel permits it, and then the two processors are
told by its fields. -/
theorem C95_arm64_hwcap (android : Bool) (hwcap midr : BitVec 64) :
    let x := (hwcapInit android hwcap midr).1
    x.hasAES = hwcap.getLsbD 3 ∧ x.hasPMULL = hwcap.getLsbD 4 ∧ x.hasSHA1 = hwcap.getLsbD 5 ∧
    x.hasSHA2 = hwcap.getLsbD 6 ∧ x.hasCRC32 = hwcap.getLsbD 7 ∧ x.hasCPUID = hwcap.getLsbD 11 ∧
    (x.hasATOMICS = true ↔ hwcap.getLsbD 8 = true ∧ android = false) ∧
    (x.isNeoverseN1 = true ↔ hwcap.getLsbD 11 = true ∧ midrIs midr 0x41 0xd0c) ∧
    (x.isZeus = true ↔ hwcap.getLsbD 11 = true ∧ midrIs midr 0x41 0xd40) ∧
    (hwcapInit android hwcap midr).2 = if hwcap.getLsbD 11 then [.midr] else [] := by
  have b : ∀ i, isSet hwcap (1#64 <<< i) = hwcap.getLsbD i := fun i => isSet_twoPow hwcap i
  have hN := isPart_iff midr 0xd0c
  have hZ := isPart_iff midr 0xd40
  unfold hwcapInit
  simp only [b]
  generalize isPart midr 0xd0c = n at *
  generalize isPart midr 0xd40 = z at *
  have hN' : n = true ↔ midrIs midr 0x41 0xd0c := hN
  have hZ' : z = true ↔ midrIs midr 0x41 0xd40 := hZ
  rw [← hN', ← hZ']
  cases h11 : hwcap.getLsbD 11
  · simp
  · cases n <;> cases z <;> simp

/-- A Neoverse N1 (implementer `A`, part 0xd0c) with `HWCap` bit 11. -/
example : (osInitLinux 0x800 0x413fd0c1).1.isNeoverseN1 = true ∧ (osInitLinux 0 0x413fd0c1).2 = [] := by decide

theorem extract_field (r : BitVec 64) (lo c : Nat) (hc : c < 16) :
    extractBits r lo (lo + 3) = BitVec.ofNat 64 c ↔ field r lo = c := by
  unfold extractBits field
  rw [show lo + 3 - lo + 1 = 4 by omega, show (1#64 <<< 4 - 1#64) = 15 from rfl, ← BitVec.toNat_inj]
  rw [BitVec.toNat_and, BitVec.toNat_ushiftRight, Nat.shiftRight_eq_div_pow,
    show (15 : BitVec 64).toNat = 2 ^ 4 - 1 from rfl, Nat.and_two_pow_sub_one_eq_mod, BitVec.toNat_ofNat,
    Nat.mod_eq_of_lt (show c < 2 ^ 64 by omega)]

/-- C95, arm64: on Linux the atomics are bit 8 of `HWCap`, on Android they are never reported; all else is the same. -/
theorem C95_android (hwcap midr : BitVec 64) :
    (osInitLinux hwcap midr).1.hasATOMICS = hwcap.getLsbD 8 ∧ (osInitAndroid hwcap midr).1.hasATOMICS = false ∧
    osInitAndroid hwcap midr = ({ (osInitLinux hwcap midr).1 with hasATOMICS := false }, (osInitLinux hwcap midr).2) := by
  have h1 := (C95_arm64_hwcap false hwcap midr).2.2.2.2.2.2.1
  have h2 := (C95_arm64_hwcap true hwcap midr).2.2.2.2.2.2.1
  refine ⟨?_, ?_, ?_⟩
  · rw [Bool.eq_iff_iff]
    exact h1.trans (and_iff_left rfl)
  · rw [Bool.eq_false_iff]
    intro h
    have := (h2.1 h).2
    cases this
  · unfold osInitAndroid osInitLinux hwcapInit
    cases isSet hwcap (1#64 <<< 11)
    · simp
    · simp only [if_true]
      split <;> split <;> simp_all

/-- C95, arm64 on FreeBSD: what is reported, by the fields of ID_AA64ISAR0_EL1.  A reported feature is there
(fields of this register grow with the features); `C95_freebsd_violated` shows that the converse fails. -/
theorem C95_freebsd_partial (r : BitVec 64) :
    let x := (osInitFreeBSD r).1
    (x.hasAES = true ↔ field r 4 = 1 ∨ field r 4 = 2) ∧ (x.hasPMULL = true ↔ field r 4 = 2) ∧
    (x.hasSHA1 = true ↔ field r 8 = 1) ∧ (x.hasSHA2 = true ↔ field r 12 = 1 ∨ field r 12 = 2) ∧
    (x.hasCRC32 = true ↔ field r 16 = 1) ∧ (x.hasATOMICS = true ↔ field r 20 = 2) ∧
    x.hasCPUID = false ∧ x.isNeoverseN1 = false ∧ x.isZeus = false := by
  have e1 := extract_field r 4 1 (by decide)
  have e2 := extract_field r 4 2 (by decide)
  have e3 := extract_field r 8 1 (by decide)
  have e4 := extract_field r 12 1 (by decide)
  have e5 := extract_field r 12 2 (by decide)
  have e6 := extract_field r 16 1 (by decide)
  have e7 := extract_field r 20 2 (by decide)
  norm_num at e1 e2 e3 e4 e5 e6 e7
  unfold osInitFreeBSD
  simp only [e1, e2, e3, e4, e5, e6, e7]
  by_cases h1 : field r 4 = 1
  · by_cases h3 : field r 8 = 1 <;> by_cases h4 : (field r 12 = 1 ∨ field r 12 = 2) <;>
      by_cases h6 : field r 16 = 1 <;> by_cases h7 : field r 20 = 2 <;> simp [h1, h3, h4, h6, h7]
  · by_cases h2 : field r 4 = 2 <;> by_cases h3 : field r 8 = 1 <;>
      by_cases h4 : (field r 12 = 1 ∨ field r 12 = 2) <;>
      by_cases h6 : field r 16 = 1 <;> by_cases h7 : field r 20 = 2 <;> simp [h1, h2, h3, h4, h6, h7]

/-- The rule of the architecture for the field of the atomic instructions: 2 or more. -/
def HasLSE (r : BitVec 64) : Prop := 2 ≤ field r 20

/-- C95, violated on FreeBSD: with 3 in the field (the atomic instructions and their 128-bit forms) the
atomics are reported missing. -/
theorem C95_freebsd_violated : ¬ ∀ r, HasLSE r → (osInitFreeBSD r).1.hasATOMICS = true := by
  intro h
  have := h 0x300000 (by unfold HasLSE; decide)
  revert this
  decide

/-- C95, arm64 on Darwin and elsewhere. -/
theorem C95_darwin (a c : Int × Int) :
    ((osInitDarwin a c).hasATOMICS = true ↔ 0 ≤ a.1 ∧ 0 < a.2) ∧
    ((osInitDarwin a c).hasCRC32 = true ↔ 0 ≤ c.1 ∧ 0 < c.2) ∧ osInitOther = {} := by
  have h : ∀ b : Int × Int, sysctlEnabled b = true ↔ 0 ≤ b.1 ∧ 0 < b.2 := by
    intro b
    unfold sysctlEnabled
    split <;> simp <;> omega
  exact ⟨h a, h c, rfl⟩

/-- C95, mips64x and ppc64x: the variables are the bits of the words read. -/
theorem C95_mips_ppc (w : BitVec 64) :
    doinitMips w = w.getLsbD 1 ∧
    (osinitPpcLinux w).isPOWER9 = w.getLsbD 23 ∧ (osinitPpcLinux w).hasDARN = w.getLsbD 21 ∧
    (osinitPpcLinux w).hasSCV = w.getLsbD 20 ∧ (osinitPpcAix w).isPOWER9 = w.getLsbD 17 :=
  ⟨isSet_twoPow w 1, isSet_twoPow w 23, isSet_twoPow w 21, isSet_twoPow w 20, isSet_twoPow w 17⟩

/-- C95, violated on ppc64x: `IsPOWER8` is documented as "ISA v2.07 (POWER8)", the minimum that Go needs, but
nothing sets it: it is false on every machine. -/
theorem C95_power8_violated (w : BitVec 64) :
    (osinitPpcLinux w).isPOWER8 = false ∧ (osinitPpcAix w).isPOWER8 = false := ⟨rfl, rfl⟩

/-- C95, violated in this package: the words `HWCap` and `HWCap2` are set by the runtime in its own copy of
this package; nothing in this repository assigns to them.  With the zero they then hold, no feature is
reported on arm, arm64 Linux, mips64x and ppc64x Linux, whatever the machine. -/
theorem C95_hwcap_violated (midr : BitVec 64) :
    doinitArm 0 = {} ∧ osInitLinux 0 midr = ({}, []) ∧ osInitAndroid 0 midr = ({}, []) ∧
    doinitMips 0 = false ∧ osinitPpcLinux 0 = {} := by
  refine ⟨by decide, ?_, ?_, by decide, by decide⟩ <;>
    simp [osInitLinux, osInitAndroid, hwcapInit, isSet]

/-! ## Options -/

/-- C95, options: the tables are as C69 needs them: all names different, all variables different, nothing
specified; so C69 holds for every architecture. -/
theorem C95_options : Fresh optionsArm ∧ Fresh optionsArm64 ∧ Fresh optionsMips ∧ Fresh optionsPpc ∧
    Fresh optionsS390 := by
  unfold Fresh
  refine ⟨?_, ?_, ?_, ?_, ?_⟩ <;> exact ⟨by decide, by decide, by decide⟩

/-- What an option is called: as the variable number `o.feature` of the structure, without `Has` or `Is` in front of it or with it, in any letters. -/
def Named (fields : List String) (o : Opt) : Prop :=
  ∃ f ∈ fields[o.feature]?, f.toList.map Char.toLower ∈ [o.name.map Char.toLower, "has".toList ++ o.name.map Char.toLower, "is".toList ++ o.name.map Char.toLower]

instance (fields : List String) (o : Opt) : Decidable (Named fields o) := by
  unfold Named
  exact match fields[o.feature]? with
    | none => isFalse (by rintro ⟨f, hf, -⟩; cases hf)
    | some f => decidable_of_iff (f.toList.map Char.toLower ∈ [o.name.map Char.toLower, "has".toList ++ o.name.map Char.toLower, "is".toList ++ o.name.map Char.toLower])
        ⟨fun h => ⟨f, rfl, h⟩, by rintro ⟨g, hg, h⟩; cases hg; exact h⟩

/-- C95, options: every option switches the variable that it is named after; the variables are listed as in cpu.go:49-54, 58-70, 74-76, 83-88 and
93-118. -/
theorem C95_named :
    (∀ o ∈ optionsArm, Named ["HasVFPv4", "HasIDIVA"] o) ∧
    (∀ o ∈ optionsArm64, Named ["HasAES", "HasPMULL", "HasSHA1", "HasSHA2", "HasCRC32", "HasATOMICS", "HasCPUID", "IsNeoverseN1", "IsZeus"] o) ∧
    (∀ o ∈ optionsMips, Named ["HasMSA"] o) ∧
    (∀ o ∈ optionsPpc, Named ["HasDARN", "HasSCV", "IsPOWER8", "IsPOWER9"] o) ∧
    (∀ o ∈ optionsS390, Named ["HasZARCH", "HasSTFLE", "HasLDISP", "HasEIMM", "HasDFP", "HasETF3EH", "HasMSA", "HasAES", "HasAESCBC", "HasAESCTR",
      "HasAESGCM", "HasGHASH", "HasSHA1", "HasSHA256", "HasSHA512", "HasSHA3", "HasVX", "HasVXE", "HasKDSA", "HasECDSA", "HasEDDSA"] o) ∧
    optionsArm.length = 2 ∧ optionsArm64.length = 9 ∧ optionsMips.length = 1 ∧ optionsPpc.length = 3 ∧ optionsS390.length = 10 := by
  decide +kernel

/-- The variables of `S390X` that cpu.go:94-97 calls mandatory. -/
def mandatoryS390 : List Nat := [0, 1, 2, 3]

/-- C95, violated on s390x: cpu.go:129-130 says that mandatory features should not be options, but the four
mandatory ones are, and not as required: a string switches the first off. -/
theorem C95_mandatory_violated :
    (∀ v ∈ mandatoryS390, ∃ o ∈ optionsS390, o.feature = v ∧ o.required = false) ∧
    ∃ env mem', processOptions optionsS390 (fun _ => true) env = some mem' ∧ mem' 0 = false := by
  refine ⟨by decide, "cpu.zarch=off".toList, ?_⟩
  have h : ((processOptions optionsS390 (fun _ => true) "cpu.zarch=off".toList).map fun f => f 0) = some false := by
    decide
  rw [Option.map_eq_some_iff] at h
  obtain ⟨f, h1, h2⟩ := h
  exact ⟨f, h1, h2⟩

end Verif.Cpu.Arch
