import Verif.Cpu.OptionsModel

/-!
# Model of the feature detection in dsp/internal/cpu for arm, arm64, mips64x, ppc64x and s390x

What the detection reads is a parameter: the words `HWCap` and `HWCap2`, the system registers, and the
memory that the query instructions of s390x fill.  The special instructions that are executed are recorded
in order, since executing one that the machine does not have ends the process.  A panic is `none`.
-/

namespace Verif.Cpu.Arch

/-- The functions `isSet`: dsp/internal/cpu/cpu_arm.go:32-34, cpu_arm64_hwcap.go:61-63, cpu_mips64x.go:31-33,
cpu_ppc64x.go:22-24, cpu_s390x.go:203-205; `n` is the size of `uint`. -/
def isSet {n : Nat} (hwc value : BitVec n) : Bool := hwc &&& value != 0

/-! ## arm -/

/-- dsp/internal/cpu/cpu.go:49-54 `ARM` -/
structure ARM where
  hasVFPv4 : Bool := false
  hasIDIVA : Bool := false
  deriving DecidableEq

/-- dsp/internal/cpu/cpu_arm.go:21-30 `doinit` -/
def doinitArm (hwcap : BitVec 32) : ARM :=
  { hasVFPv4 := isSet hwcap (1#32 <<< 16), hasIDIVA := isSet hwcap (1#32 <<< 17) }

/-! ## arm64 -/

/-- dsp/internal/cpu/cpu.go:58-70 `ARM64` -/
structure ARM64 where
  hasAES : Bool := false
  hasPMULL : Bool := false
  hasSHA1 : Bool := false
  hasSHA2 : Bool := false
  hasCRC32 : Bool := false
  hasATOMICS : Bool := false
  hasCPUID : Bool := false
  isNeoverseN1 : Bool := false
  isZeus : Bool := false
  deriving DecidableEq

/-- The special instructions of arm64: `MRS MIDR_EL1` and `MRS ID_AA64ISAR0_EL1`, cpu_arm64.s:8-18. -/
inductive Mrs | midr | isar0
  deriving DecidableEq

/-- dsp/internal/cpu/cpu_arm64_hwcap.go:48-49 and the conditions of 51 and 54: the implementor is 'A' and the
part number is `code` -/
def isPart (midr : BitVec 64) (code : BitVec 16) : Bool :=
  let part : BitVec 16 := ((midr >>> 4) &&& 0xfff).setWidth 16
  let implementor : BitVec 8 := ((midr >>> 24) &&& 0xff).setWidth 8
  decide (implementor = 0x41) && decide (part = code)

/-- dsp/internal/cpu/cpu_arm64_hwcap.go:25-59 `hwcapInit`; `android` says whether the parameter `os` is
"android".  The variables are `false` before. -/
def hwcapInit (android : Bool) (hwcap : BitVec 64) (midr : BitVec 64) : ARM64 × List Mrs :=
  let x : ARM64 :=
    { hasAES := isSet hwcap (1#64 <<< 3)
      hasPMULL := isSet hwcap (1#64 <<< 4)
      hasSHA1 := isSet hwcap (1#64 <<< 5)
      hasSHA2 := isSet hwcap (1#64 <<< 6)
      hasCRC32 := isSet hwcap (1#64 <<< 7)
      hasCPUID := isSet hwcap (1#64 <<< 11)
      hasATOMICS := isSet hwcap (1#64 <<< 8) && !android }
  if x.hasCPUID then
    let x := if isPart midr 0xd0c then { x with isNeoverseN1 := true } else x
    let x := if isPart midr 0xd40 then { x with isZeus := true } else x
    (x, [.midr])
  else (x, [])

/-- dsp/internal/cpu/cpu_arm64_linux.go:10-12 -/
def osInitLinux := hwcapInit false

/-- dsp/internal/cpu/cpu_arm64_android.go:10-12 -/
def osInitAndroid := hwcapInit true

/-- dsp/internal/cpu/cpu_arm64_freebsd.go:44-46 `extractBits` -/
def extractBits (data : BitVec 64) (start stop : Nat) : BitVec 64 :=
  (data >>> start) &&& ((1#64 <<< (stop - start + 1)) - 1#64)

/-- dsp/internal/cpu/cpu_arm64_freebsd.go:10-42 `osInit` -/
def osInitFreeBSD (isar0 : BitVec 64) : ARM64 × List Mrs :=
  let x : ARM64 := {}
  let x :=
    if extractBits isar0 4 7 = 1#64 then { x with hasAES := true }
    else if extractBits isar0 4 7 = 2#64 then { x with hasAES := true, hasPMULL := true }
    else x
  let x := if extractBits isar0 8 11 = 1#64 then { x with hasSHA1 := true } else x
  let x := if extractBits isar0 12 15 = 1#64 ∨ extractBits isar0 12 15 = 2#64 then { x with hasSHA2 := true } else x
  let x := if extractBits isar0 16 19 = 1#64 then { x with hasCRC32 := true } else x
  let x := if extractBits isar0 20 23 = 2#64 then { x with hasATOMICS := true } else x
  (x, [.isar0])

/-- dsp/internal/cpu/cpu_arm64_darwin.go:27-33 `sysctlEnabled`, of the answer of `getsysctlbyname` -/
def sysctlEnabled (a : Int × Int) : Bool := if a.1 < 0 then false else decide (0 < a.2)

/-- dsp/internal/cpu/cpu_arm64_darwin.go:10-22 `osInit`, of the answers for the two names -/
def osInitDarwin (atomics crc32 : Int × Int) : ARM64 :=
  { hasATOMICS := sysctlEnabled atomics, hasCRC32 := sysctlEnabled crc32
    hasAES := true, hasPMULL := true, hasSHA1 := true, hasSHA2 := true }

/-- dsp/internal/cpu/cpu_arm64_other.go:14-18 `osInit` -/
def osInitOther : ARM64 := {}

/-! ## mips64x and ppc64x -/

/-- dsp/internal/cpu/cpu_mips64x.go:22-29 `doinit`: `MIPS64X.HasMSA` -/
def doinitMips (hwcap : BitVec 64) : Bool := isSet hwcap (1#64 <<< 1)

/-- dsp/internal/cpu/cpu.go:83-90 `PPC64` -/
structure PPC64 where
  hasDARN : Bool := false
  hasSCV : Bool := false
  isPOWER8 : Bool := false
  isPOWER9 : Bool := false
  deriving DecidableEq

/-- dsp/internal/cpu/cpu_ppc64x_linux.go:26-30 `osinit` -/
def osinitPpcLinux (hwcap2 : BitVec 64) : PPC64 :=
  { isPOWER9 := isSet hwcap2 0x00800000, hasDARN := isSet hwcap2 0x00200000, hasSCV := isSet hwcap2 0x00100000 }

/-- dsp/internal/cpu/cpu_ppc64x_aix.go:16-19 `osinit`, of the answer of `getsystemcfg(_SC_IMPL)` -/
def osinitPpcAix (impl : BitVec 64) : PPC64 := { isPOWER9 := isSet impl 0x20000 }

/-! ## s390x -/

/-- The query instructions, dsp/internal/cpu/cpu_s390x.s:16-62. -/
inductive Query | km | kmc | kmctr | kma | kimd | klmd | kdsa
  deriving DecidableEq

/-- What the detection reads on s390x: `HWCap`; the 32 bytes that `stfle` (cpu_s390x.s:8-13) clears and the
instruction STFLE fills; and the 16 bytes that each query fills.  The routines and their
instructions are modelled in `AsmModel`. -/
structure S390Machine where
  hwcap : BitVec 64
  stfle : Nat → BitVec 8
  query : Query → Nat → BitVec 8

/-- The machine is big endian: the 64-bit word at byte `8 * j`. -/
def loadBE (mem : Nat → BitVec 8) (j : Nat) : BitVec 64 :=
  mem (8 * j) ++ mem (8 * j + 1) ++ mem (8 * j + 2) ++ mem (8 * j + 3) ++
    mem (8 * j + 4) ++ mem (8 * j + 5) ++ mem (8 * j + 6) ++ mem (8 * j + 7)

/-- dsp/internal/cpu/cpu_s390x.go:13-15 `bitIsSet`; `none` when the index is out of range -/
def bitIsSet (bits : List (BitVec 64)) (index : Nat) : Option Bool :=
  (bits[index / 64]?).map fun w => w &&& ((1#64 <<< 63) >>> (index % 64)) != 0#64

/-- The loops of dsp/internal/cpu/cpu_s390x.go:67-72 and 118-123 -/
def hasLoop (bits : List (BitVec 64)) : List Nat → Option Bool
  | [] => some true
  | f :: fs =>
    match bitIsSet bits f with
    | none => none
    | some false => some false
    | some true => hasLoop bits fs

/-- dsp/internal/cpu/cpu_s390x.go:63-73 `(*queryResult).Has` and 114-124 `(*facilityList).Has` -/
def has (bits : List (BitVec 64)) (fs : List Nat) : Option Bool :=
  if fs = [] then none else hasLoop bits fs

/-- dsp/internal/cpu/cpu_s390x.go:128 `stfle`: `facilityList` has four words, line 110. -/
def S390Machine.facilities (m : S390Machine) : List (BitVec 64) :=
  [loadBE m.stfle 0, loadBE m.stfle 1, loadBE m.stfle 2, loadBE m.stfle 3]

/-- dsp/internal/cpu/cpu_s390x.go:129-135, the queries: `queryResult` has two words, line 59. -/
def S390Machine.result (m : S390Machine) (q : Query) : List (BitVec 64) :=
  [loadBE (m.query q) 0, loadBE (m.query q) 1]

/-- dsp/internal/cpu/cpu.go:92-116 `S390X` -/
structure S390X where
  hasZARCH : Bool := false
  hasSTFLE : Bool := false
  hasLDISP : Bool := false
  hasEIMM : Bool := false
  hasDFP : Bool := false
  hasETF3EH : Bool := false
  hasMSA : Bool := false
  hasAES : Bool := false
  hasAESCBC : Bool := false
  hasAESCTR : Bool := false
  hasAESGCM : Bool := false
  hasGHASH : Bool := false
  hasSHA1 : Bool := false
  hasSHA256 : Bool := false
  hasSHA512 : Bool := false
  hasSHA3 : Bool := false
  hasVX : Bool := false
  hasVXE : Bool := false
  hasKDSA : Bool := false
  hasECDSA : Bool := false
  hasEDDSA : Bool := false
  deriving DecidableEq

/-- dsp/internal/cpu/cpu_s390x.go:151, the function codes of lines 22-24 -/
def aes : List Nat := [18, 19, 20]

/-- dsp/internal/cpu/cpu_s390x.go:183-186, the function codes of lines 30-35 -/
def sha3 : List Nat := [32, 33, 34, 35, 36, 37]

/-- `a && b` where the right side may panic and is evaluated only if the left is true. -/
def andThen (a b : Option Bool) : Option Bool := a.bind fun x => if x then b else some false

/-- dsp/internal/cpu/cpu_s390x.go:163-193, the body of `if S390X.HasMSA` -/
def doinitMsa (m : S390Machine) (x : S390X) : Option (S390X × List Query) := do
  let hasAES ← has (m.result .km) aes
  let hasAESCBC ← has (m.result .kmc) aes
  let x := { x with hasAES := hasAES, hasAESCBC := hasAESCBC }
  let msa4 ← has m.facilities [77]
  let (x, t1) ← if msa4 then do
      let b ← has (m.result .kmctr) aes
      pure ({ x with hasAESCTR := b }, [Query.kmctr])
    else pure (x, [])
  let msa8 ← has m.facilities [146]
  let (x, t2) ← if msa8 then do
      let b ← has (m.result .kma) aes
      pure ({ x with hasAESGCM := b }, [Query.kma])
    else pure (x, [])
  let hasSHA1 ← andThen (has (m.result .kimd) [1]) (has (m.result .klmd) [1])
  let hasSHA256 ← andThen (has (m.result .kimd) [2]) (has (m.result .klmd) [2])
  let hasSHA512 ← andThen (has (m.result .kimd) [3]) (has (m.result .klmd) [3])
  let hasGHASH ← has (m.result .kimd) [65]
  let hasSHA3 ← andThen (has (m.result .kimd) sha3) (has (m.result .klmd) sha3)
  let hasKDSA ← has m.facilities [155]
  let x := { x with hasSHA1 := hasSHA1, hasSHA256 := hasSHA256, hasSHA512 := hasSHA512,
                    hasGHASH := hasGHASH, hasSHA3 := hasSHA3, hasKDSA := hasKDSA }
  let (x, t3) ← if hasKDSA then do
      let hasECDSA ← has (m.result .kdsa) [1, 9, 2, 10, 3, 11]
      let hasEDDSA ← has (m.result .kdsa) [32, 40, 36, 44]
      pure ({ x with hasECDSA := hasECDSA, hasEDDSA := hasEDDSA }, [Query.kdsa])
    else pure (x, [])
  pure (x, [.km, .kmc] ++ t1 ++ t2 ++ [.kimd, .klmd] ++ t3)

/-- dsp/internal/cpu/cpu_s390x.go:137-201 `doinit`, without the table of options -/
def doinitS390 (m : S390Machine) : Option (S390X × List Query) := do
  let hasZARCH ← has m.facilities [1]
  let hasSTFLE ← has m.facilities [7]
  let hasLDISP ← has m.facilities [18]
  let hasEIMM ← has m.facilities [21]
  let hasDFP ← has m.facilities [42]
  let hasETF3EH ← has m.facilities [30]
  let hasMSA ← has m.facilities [17]
  let x : S390X := { hasZARCH, hasSTFLE, hasLDISP, hasEIMM, hasDFP, hasETF3EH, hasMSA }
  let (x, t) ← if hasMSA then doinitMsa m x else pure (x, [])
  let x := { x with hasVX := isSet m.hwcap (1#64 <<< 11) }
  if x.hasVX then do
    let hasVXE ← has m.facilities [135]
    pure ({ x with hasVXE := hasVXE }, t)
  else pure (x, t)

/-! ## The tables of options -/

/-- The names of a table with the numbers of the variables, in their order in the structure. -/
def table (l : List (String × Nat)) : List Opt := l.map fun p => ⟨p.1.toList, p.2, false, false, false⟩

/-- dsp/internal/cpu/cpu_arm.go:22-25 -/
def optionsArm : List Opt := table [("vfpv4", 0), ("idiva", 1)]

/-- dsp/internal/cpu/cpu_arm64.go:10-20 -/
def optionsArm64 : List Opt := table [("aes", 0), ("pmull", 1), ("sha1", 2), ("sha2", 3), ("crc32", 4),
  ("atomics", 5), ("cpuid", 6), ("isNeoverseN1", 7), ("isZeus", 8)]

/-- dsp/internal/cpu/cpu_mips64x.go:23-25 -/
def optionsMips : List Opt := table [("msa", 0)]

/-- dsp/internal/cpu/cpu_ppc64x.go:13-17 -/
def optionsPpc : List Opt := table [("darn", 0), ("scv", 1), ("power9", 3)]

/-- dsp/internal/cpu/cpu_s390x.go:138-149; the numbers are the places in `S390X` -/
def optionsS390 : List Opt := table [("zarch", 0), ("stfle", 1), ("ldisp", 2), ("msa", 6), ("eimm", 3),
  ("dfp", 4), ("etf3eh", 5), ("vx", 16), ("vxe", 17), ("kdsa", 18)]

end Verif.Cpu.Arch
