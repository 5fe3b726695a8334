/-!
# Which files are built for which target

The go command chooses the files of a package by their names and by the constraints at their heads. This file models that choice (as documented for package
go/build, which is not part of the repository) and lists, for packages dsp and dsp/internal/cpu, what each file declares, leaves without a body, uses, and
defines in assembly. Test files are left out. Of the compiler only this is modelled: names.
-/

namespace Verif.Link.Build

/-- The expression after `//go:build`. -/
inductive Cond where
  | tag (n : String)
  | not (c : Cond)
  | and (c d : Cond)
  | or (c d : Cond)

/-- Whether an expression holds, where `h` tells which tags hold. -/
def Cond.eval (h : String → Bool) : Cond → Bool
  | .tag n => h n
  | .not c => !c.eval h
  | .and c d => c.eval h && d.eval h
  | .or c d => c.eval h || d.eval h

/-- The lines `// +build` of a file: all lines must hold, of a line one of the options that are separated by spaces, of an option all terms that are
separated by commas; `false` marks a term after an exclamation mark. -/
abbrev Plus := List (List (List (Bool × String)))

/-- Whether the lines hold. -/
def Plus.eval (h : String → Bool) (p : Plus) : Bool :=
  p.all fun line => line.any fun option => option.all fun t => h t.2 == t.1

/-- Go source or assembly. -/
inductive Ext where
  | go
  | s

/-- A file: its name without extension, cut at the underscores; its extension; its constraints in the two notations; the names it declares in the block of the
package, but for `init`; those that are functions without a body; the names of the package that it uses and does not declare; the functions it defines in
assembly. -/
structure Source where
  parts : List String
  ext : Ext
  cond : Option Cond
  plus : Plus
  decls : List String
  bodiless : List String
  uses : List String
  texts : List String

/-- The names of operating systems that package go/build knows. -/
def knownOS : List String :=
  ["aix", "android", "darwin", "dragonfly", "freebsd", "hurd", "illumos", "ios", "js", "linux", "nacl", "netbsd", "openbsd", "plan9", "solaris", "wasip1",
   "windows", "zos"]

/-- The names of architectures that package go/build knows. -/
def knownArch : List String :=
  ["386", "amd64", "amd64p32", "arm", "armbe", "arm64", "arm64be", "loong64", "mips", "mipsle", "mips64", "mips64le", "mips64p32", "mips64p32le", "ppc", "ppc64",
   "ppc64le", "riscv", "riscv64", "s390", "s390x", "sparc", "sparc64", "wasm"]

/-- What a program is built for: GOOS, GOARCH, and all other tags in force. -/
structure Target where
  os : String
  arch : String
  tags : List String

/-- Which tags hold for a target. -/
def Target.holds (t : Target) (n : String) : Bool :=
  n == t.os || n == t.arch || (n == "linux" && t.os == "android") || (n == "solaris" && t.os == "illumos") || (n == "darwin" && t.os == "ios") ||
    t.tags.contains n

/-- Whether the last parts of a name, in reverse order and without the first, permit the target. -/
def endOk (h : String → Bool) : List String → Bool
  | a :: o :: _ => if knownArch.contains a && knownOS.contains o then h a && h o else if knownArch.contains a || knownOS.contains a then h a else true
  | [a] => if knownArch.contains a || knownOS.contains a then h a else true
  | [] => true

/-- Whether a file is built. -/
def Source.selected (h : String → Bool) (f : Source) : Bool :=
  endOk h f.parts.tail.reverse && (match f.cond with | some c => c.eval h | none => f.plus.eval h)

/-- The files of /repo/dsp/internal/cpu; for each the lines of its constraint and of what it declares. -/
def cpuFiles : List Source :=
  [
   -- dsp/internal/cpu/cpu.go: declarations 12-219
   ⟨["cpu"], .go, none, [],
    ["DebugOptions", "CacheLinePad", "CacheLineSize", "X86", "ARM", "ARM64", "MIPS64X", "PPC64", "S390X", "Initialize", "options", "option",
     "processOptions", "indexByte"],
    [], ["CacheLinePadSize", "doinit"],
    []⟩,
   -- dsp/internal/cpu/cpu.s
   ⟨["cpu"], .s, none, [],
    [],
    [], [],
    []⟩,
   -- dsp/internal/cpu/cpu_386.go: declarations 7-7
   ⟨["cpu", "386"], .go, none, [],
    ["GOARCH"],
    [], [],
    []⟩,
   -- dsp/internal/cpu/cpu_amd64.go: declarations 7-7
   ⟨["cpu", "amd64"], .go, none, [],
    ["GOARCH"],
    [], [],
    []⟩,
   -- dsp/internal/cpu/cpu_arm.go: declarations 7-32
   ⟨["cpu", "arm"], .go, none, [],
    ["CacheLinePadSize", "HWCap", "HWCap2", "hwcap_VFPv4", "hwcap_IDIVA", "doinit", "isSet"],
    [], ["ARM", "option", "options"],
    []⟩,
   -- dsp/internal/cpu/cpu_arm64.go: declarations 7-28
   ⟨["cpu", "arm64"], .go, none, [],
    ["CacheLinePadSize", "doinit", "getisar0", "getMIDR"],
    ["getisar0", "getMIDR"], ["ARM64", "option", "options", "osInit"],
    []⟩,
   -- dsp/internal/cpu/cpu_arm64.s: TEXT 8-15
   ⟨["cpu", "arm64"], .s, none, [],
    [],
    [], [],
    ["getisar0", "getMIDR"]⟩,
   -- dsp/internal/cpu/cpu_arm64_android.go: constraint 5-6; declarations 10-10
   ⟨["cpu", "arm64", "android"], .go, some (.tag "arm64"), [[[(true, "arm64")]]],
    ["osInit"],
    [], ["hwcapInit"],
    []⟩,
   -- dsp/internal/cpu/cpu_arm64_darwin.go: constraint 5-6; declarations 10-27
   ⟨["cpu", "arm64", "darwin"], .go, some (.and (.and (.tag "arm64") (.tag "darwin")) (.not (.tag "ios"))), [[[(true, "arm64"), (true, "darwin"),
     (false, "ios")]]],
    ["osInit", "getsysctlbyname", "sysctlEnabled"],
    ["getsysctlbyname"], ["ARM64"],
    []⟩,
   -- dsp/internal/cpu/cpu_arm64_freebsd.go: constraint 5-6; declarations 10-44
   ⟨["cpu", "arm64", "freebsd"], .go, some (.tag "arm64"), [[[(true, "arm64")]]],
    ["osInit", "extractBits"],
    [], ["ARM64", "getisar0"],
    []⟩,
   -- dsp/internal/cpu/cpu_arm64_hwcap.go: constraint 5-6; declarations 12-61
   ⟨["cpu", "arm64", "hwcap"], .go, some (.and (.tag "arm64") (.tag "linux")), [[[(true, "arm64"), (true, "linux")]]],
    ["HWCap", "hwcap_AES", "hwcap_PMULL", "hwcap_SHA1", "hwcap_SHA2", "hwcap_CRC32", "hwcap_ATOMICS", "hwcap_CPUID", "hwcapInit", "isSet"],
    [], ["ARM64", "getMIDR"],
    []⟩,
   -- dsp/internal/cpu/cpu_arm64_linux.go: constraint 5-6; declarations 10-10
   ⟨["cpu", "arm64", "linux"], .go, some (.and (.and (.tag "arm64") (.tag "linux")) (.not (.tag "android"))), [[[(true, "arm64"), (true, "linux"),
     (false, "android")]]],
    ["osInit"],
    [], ["hwcapInit"],
    []⟩,
   -- dsp/internal/cpu/cpu_arm64_other.go: constraint 5-10; declarations 14-14
   ⟨["cpu", "arm64", "other"], .go,
     some (.and (.and (.and (.and (.tag "arm64") (.not (.tag "linux"))) (.not (.tag "freebsd"))) (.not (.tag "android"))) (.or (.not (.tag "darwin")) (.tag "ios"))), [[[(true, "arm64")]], [[(false, "linux")]], [[(false, "freebsd")]], [[(false, "android")]], [[(false, "darwin")], [(true, "ios")]]],
    ["osInit"],
    [], [],
    []⟩,
   -- dsp/internal/cpu/cpu_mips.go: declarations 7-9
   ⟨["cpu", "mips"], .go, none, [],
    ["CacheLinePadSize", "doinit"],
    [], [],
    []⟩,
   -- dsp/internal/cpu/cpu_mips64x.go: constraint 5-6; declarations 10-31
   ⟨["cpu", "mips64x"], .go, some (.or (.tag "mips64") (.tag "mips64le")), [[[(true, "mips64")], [(true, "mips64le")]]],
    ["CacheLinePadSize", "HWCap", "hwcap_MIPS_MSA", "doinit", "isSet"],
    [], ["MIPS64X", "option", "options"],
    []⟩,
   -- dsp/internal/cpu/cpu_mipsle.go: declarations 7-9
   ⟨["cpu", "mipsle"], .go, none, [],
    ["CacheLinePadSize", "doinit"],
    [], [],
    []⟩,
   -- dsp/internal/cpu/cpu_no_name.go: constraint 5-6; declarations 16-16
   ⟨["cpu", "no", "name"], .go, some (.and (.not (.tag "386")) (.not (.tag "amd64"))), [[[(false, "386"), (false, "amd64")]]],
    ["Name"],
    [], [],
    []⟩,
   -- dsp/internal/cpu/cpu_ppc64x.go: constraint 5-6; declarations 10-22
   ⟨["cpu", "ppc64x"], .go, some (.or (.tag "ppc64") (.tag "ppc64le")), [[[(true, "ppc64")], [(true, "ppc64le")]]],
    ["CacheLinePadSize", "doinit", "isSet"],
    [], ["PPC64", "option", "options", "osinit"],
    []⟩,
   -- dsp/internal/cpu/cpu_ppc64x_aix.go: constraint 5-6; declarations 12-22
   ⟨["cpu", "ppc64x", "aix"], .go, some (.or (.tag "ppc64") (.tag "ppc64le")), [[[(true, "ppc64")], [(true, "ppc64le")]]],
    ["_SC_IMPL", "_IMPL_POWER9", "osinit", "getsystemcfg"],
    ["getsystemcfg"], ["PPC64", "isSet"],
    []⟩,
   -- dsp/internal/cpu/cpu_ppc64x_linux.go: constraint 5-6; declarations 13-26
   ⟨["cpu", "ppc64x", "linux"], .go, some (.or (.tag "ppc64") (.tag "ppc64le")), [[[(true, "ppc64")], [(true, "ppc64le")]]],
    ["HWCap", "HWCap2", "hwcap2_ARCH_3_00", "hwcap2_DARN", "hwcap2_SCV", "osinit"],
    [], ["PPC64", "isSet"],
    []⟩,
   -- dsp/internal/cpu/cpu_riscv64.go: declarations 7-9
   ⟨["cpu", "riscv64"], .go, none, [],
    ["CacheLinePadSize", "doinit"],
    [], [],
    []⟩,
   -- dsp/internal/cpu/cpu_s390x.go: declarations 7-203
   ⟨["cpu", "s390x"], .go, none, [],
    ["CacheLinePadSize", "HWCap", "bitIsSet", "function", "aes128", "aes192", "aes256", "sha1", "sha256", "sha512", "sha3_224", "sha3_256",
     "sha3_384", "sha3_512", "shake128", "shake256", "ghash", "ecdsaVerifyP256", "ecdsaVerifyP384", "ecdsaVerifyP521", "ecdsaSignP256",
     "ecdsaSignP384", "ecdsaSignP521", "eddsaVerifyEd25519", "eddsaVerifyEd448", "eddsaSignEd25519", "eddsaSignEd448", "queryResult", "facility",
     "zarch", "stflef", "ldisp", "eimm", "dfp", "etf3eh", "msa", "msa3", "msa4", "msa5", "msa8", "msa9", "vxe", "hwcap_VX", "facilityList", "stfle",
     "kmQuery", "kmcQuery", "kmctrQuery", "kmaQuery", "kimdQuery", "klmdQuery", "kdsaQuery", "doinit", "isSet"],
    ["stfle", "kmQuery", "kmcQuery", "kmctrQuery", "kmaQuery", "kimdQuery", "klmdQuery", "kdsaQuery"], ["S390X", "option", "options"],
    []⟩,
   -- dsp/internal/cpu/cpu_s390x.s: TEXT 8-58
   ⟨["cpu", "s390x"], .s, none, [],
    [],
    [], [],
    ["stfle", "kmQuery", "kmcQuery", "kmctrQuery", "kmaQuery", "kimdQuery", "klmdQuery", "kdsaQuery"]⟩,
   -- dsp/internal/cpu/cpu_wasm.go: declarations 7-9
   ⟨["cpu", "wasm"], .go, none, [],
    ["CacheLinePadSize", "doinit"],
    [], [],
    []⟩,
   -- dsp/internal/cpu/cpu_x86.go: constraint 5-6; declarations 10-155
   ⟨["cpu", "x86"], .go, some (.or (.tag "386") (.tag "amd64")), [[[(true, "386")], [(true, "amd64")]]],
    ["CacheLinePadSize", "cpuid", "xgetbv", "cpuid_SSE2", "cpuid_SSE3", "cpuid_PCLMULQDQ", "cpuid_SSSE3", "cpuid_FMA", "cpuid_SSE41", "cpuid_SSE42",
     "cpuid_POPCNT", "cpuid_AES", "cpuid_OSXSAVE", "cpuid_AVX", "cpuid_BMI1", "cpuid_AVX2", "cpuid_BMI2", "cpuid_ERMS", "cpuid_ADX",
     "maxExtendedFunctionInformation", "doinit", "isSet", "Name", "appendBytes"],
    ["cpuid", "xgetbv"], ["GOARCH", "X86", "option", "options"],
    []⟩,
   -- dsp/internal/cpu/cpu_x86.s: constraint 5-6; TEXT 11-22
   ⟨["cpu", "x86"], .s, some (.or (.tag "386") (.tag "amd64")), [[[(true, "386")], [(true, "amd64")]]],
    [],
    [], [],
    ["cpuid", "xgetbv"]⟩]

/-- The files of /repo/dsp. Simplified: of the names in use only those that cpu_*.go, stub_windows.go and fuzz.go declare; the other names are
declared in files without constraints. The file conversion_avo_amd64.go belongs to another package, main. -/
def dspFiles : List Source :=
  [
   -- dsp/biquad.go: declarations 7-182
   ⟨["biquad"], .go, none, [],
    ["BiQuadFilter", "NewLowPassBiQuadFilter", "NewHighPassBiQuadFilter", "NewBandPassConstantSkirtGainBiQuadFilter",
     "NewBandPassConstantPeakGainBiQuadFilter", "NotchBiQuadFilter", "AllPassBiQuadFilter", "PeakingEQBiQuadFilter", "LowShelfBiQuadFilter",
     "HighShelfBiQuadFilter"],
    [], [],
    []⟩,
   -- dsp/conversion.go: declarations 11-193
   ⟨["conversion"], .go, none, [],
    ["Ui8toi16", "ui8toi16", "Ui8toi16b", "ui8toi16b", "Ui8tof32", "ui8tof32", "I8tof32", "i8tof32", "Ui8toc64", "ui8toc64", "I8toc64", "C64toi8",
     "F32toi16", "f32toi16", "F32toi16ble", "f32toi16ble", "I16ToBLE", "i16ToBLE", "I16bleToF64", "i16bleToF64", "I16bleToF32", "i16bleToF32",
     "I32bleToF32", "F32Tof32ble"],
    ["Ui8toi16", "Ui8toi16b", "Ui8tof32", "I8tof32", "Ui8toc64", "F32toi16", "F32toi16ble", "I16ToBLE", "I16bleToF64", "I16bleToF32"], [],
    []⟩,
   -- dsp/conversion_386.s: TEXT 1-25
   ⟨["conversion", "386"], .s, none, [],
    [],
    [], [],
    ["Ui8toi16", "Ui8toi16b", "Ui8tof32", "I8tof32", "Ui8toc64", "F32toi16", "F32toi16ble", "I16bleToF64", "I16bleToF32"]⟩,
   -- dsp/conversion_amd64.s: TEXT 4-633
   ⟨["conversion", "amd64"], .s, none, [],
    [],
    [], ["useSSE4"],
    ["Ui8toi16", "Ui8toi16b", "I8tof32", "Ui8toc64", "F32toi16", "F32toi16ble", "I16ToBLE", "I16bleToF64", "I16bleToF32"]⟩,
   -- dsp/conversion_arm.s: TEXT 3-307
   ⟨["conversion", "arm"], .s, none, [],
    [],
    [], [],
    ["Ui8toi16", "Ui8toi16b", "Ui8tof32", "I8tof32", "Ui8toc64", "F32toi16", "F32toi16ble", "I16bleToF64", "I16bleToF32"]⟩,
   -- dsp/conversion_arm64.s: TEXT 3-98
   ⟨["conversion", "arm64"], .s, none, [],
    [],
    [], [],
    ["Ui8toi16", "Ui8toi16b", "Ui8tof32", "I8tof32", "Ui8toc64", "F32toi16", "F32toi16ble", "I16bleToF64", "I16bleToF32"]⟩,
   -- dsp/conversion_avo_amd64.go: constraint 1-2; declarations 12-145
   ⟨["conversion", "avo", "amd64"], .go, some (.tag "ignore"), [[[(true, "ignore")]]],
    ["main", "ui8tof32Step", "ui8tof32SSE4", "ui8tof32SSE2"],
    [], [],
    []⟩,
   -- dsp/conversion_avo_amd64.s: TEXT 7-7
   ⟨["conversion", "avo", "amd64"], .s, none, [],
    [],
    [], [],
    ["Ui8tof32"]⟩,
   -- dsp/cpu_amd64.go: declarations 8-10
   ⟨["cpu", "amd64"], .go, none, [],
    ["useSSE4", "useAVX2", "useSSE2"],
    [], [],
    []⟩,
   -- dsp/cpu_arm.go: declarations 14-23
   ⟨["cpu", "arm"], .go, none, [],
    ["HaveNEON", "UseVector", "neonRE", "rpi1RE"],
    [], [],
    []⟩,
   -- dsp/cpu_arm64.go: declarations 3-3
   ⟨["cpu", "arm64"], .go, none, [],
    ["HaveNEON"],
    [], [],
    []⟩,
   -- dsp/demod.go: declarations 7-34
   ⟨["demod"], .go, none, [],
    ["PolarDiscriminator", "PolarDiscriminator32", "FMDemodFilter", "fmDemodulateAsm", "fmDemodulate"],
    ["fmDemodulateAsm"], [],
    []⟩,
   -- dsp/demod_386.s: TEXT 1-1
   ⟨["demod", "386"], .s, none, [],
    [],
    [], [],
    ["fmDemodulateAsm"]⟩,
   -- dsp/demod_amd64.s: TEXT 3-3
   ⟨["demod", "amd64"], .s, none, [],
    [],
    [], [],
    ["fmDemodulateAsm"]⟩,
   -- dsp/demod_arm.s: TEXT 3-3
   ⟨["demod", "arm"], .s, none, [],
    [],
    [], [],
    ["fmDemodulateAsm"]⟩,
   -- dsp/demod_arm64.s: TEXT 3-3
   ⟨["demod", "arm64"], .s, none, [],
    [],
    [], [],
    ["fmDemodulateAsm"]⟩,
   -- dsp/downsample.go: declarations 3-46
   ⟨["downsample"], .go, none, [],
    ["LowPassDownsampleComplexFilter", "lowPassDownsampleComplexFilterAsm", "lowPassDownsampleComplexFilter", "LowPassDownsampleRationalFilter",
     "lowPassDownsampleRationalFilterAsm", "lowPassDownsampleRationalFilter"],
    ["lowPassDownsampleComplexFilterAsm", "lowPassDownsampleRationalFilterAsm"], [],
    []⟩,
   -- dsp/downsample_386.s: TEXT 1-4
   ⟨["downsample", "386"], .s, none, [],
    [],
    [], [],
    ["lowPassDownsampleComplexFilterAsm", "lowPassDownsampleRationalFilterAsm"]⟩,
   -- dsp/downsample_amd64.s: TEXT 3-6
   ⟨["downsample", "amd64"], .s, none, [],
    [],
    [], [],
    ["lowPassDownsampleComplexFilterAsm", "lowPassDownsampleRationalFilterAsm"]⟩,
   -- dsp/downsample_arm.s: TEXT 3-66
   ⟨["downsample", "arm"], .s, none, [],
    [],
    [], [],
    ["lowPassDownsampleComplexFilterAsm", "lowPassDownsampleRationalFilterAsm"]⟩,
   -- dsp/downsample_arm64.s: TEXT 3-6
   ⟨["downsample", "arm64"], .s, none, [],
    [],
    [], [],
    ["lowPassDownsampleComplexFilterAsm", "lowPassDownsampleRationalFilterAsm"]⟩,
   -- dsp/filter.go: declarations 3-151
   ⟨["filter"], .go, none, [],
    ["IIRFilter", "ComplexIIRFilter32", "ComplexIIRFilter", "NewIIRFilter", "NewComplexIIRFilter32", "NewComplexIIRFilter", "DCFilter",
     "NewDCFilter", "DCFilter32", "NewDCFilter32"],
    [], [],
    []⟩,
   -- dsp/fuzz.go: constraint 1; declarations 5-5
   ⟨["fuzz"], .go, none, [[[(true, "gofuzz")]]],
    ["Fuzz"],
    [], [],
    []⟩,
   -- dsp/goertzel.go: declarations 5-134
   ⟨["goertzel"], .go, none, [],
    ["Goertzel", "Goertzel32", "ComplexGoertzel", "goertzel", "NewGoertzel32", "NewGoertzel", "NewComplexGoertzel"],
    [], [],
    []⟩,
   -- dsp/interpolate.go: declarations 6-166
   ⟨["interpolate"], .go, none, [],
    ["Linear", "LinearF32", "Hermite4p3o", "Hermite4p3oF32", "Optimal2x4p4o", "Optimal2x4p4oF32", "Optimal2x6p5o", "Optimal2x6p5oF32"],
    [], [],
    []⟩,
   -- dsp/math32.go: declarations 12-156
   ⟨["math32"], .go, none, [],
    ["VMulC64xF32", "vMulC64xF32", "VMulC64", "VAddF32", "VAddC64", "VScaleC64", "VScaleF32", "vscaleF32", "VAbsC64", "vAbsC64", "VMaxF32",
     "vMaxF32", "VMinF32", "vMinF32", "Conj32", "FastPhase32", "Phase32", "pi2", "pi4", "pi34", "FastAtan2", "fastAtan2", "FastAtan2_2",
     "fastAtan2_2"],
    ["VMulC64xF32", "VScaleF32", "VAbsC64", "VMaxF32", "VMinF32", "FastAtan2", "FastAtan2_2"], [],
    []⟩,
   -- dsp/math32_386.s: TEXT 1-16
   ⟨["math32", "386"], .s, none, [],
    [],
    [], [],
    ["FastAtan2", "FastAtan2_2", "VScaleF32", "VAbsC64", "VMaxF32", "VMulC64xF32"]⟩,
   -- dsp/math32_amd64.s: TEXT 4-228
   ⟨["math32", "amd64"], .s, none, [],
    [],
    [], ["useAVX2", "useSSE2"],
    ["FastAtan2", "FastAtan2_2", "VAbsC64", "VMaxF32", "VMinF32", "VMulC64xF32", "VScaleF32"]⟩,
   -- dsp/math32_arm.s: TEXT 10-271
   ⟨["math32", "arm"], .s, none, [],
    [],
    [], [],
    ["FastAtan2", "FastAtan2_2", "VScaleF32", "VMulC64xF32", "VAbsC64", "VMaxF32"]⟩,
   -- dsp/math32_arm64.s: TEXT 6-131
   ⟨["math32", "arm64"], .s, none, [],
    [],
    [], [],
    ["FastAtan2", "FastAtan2_2", "VScaleF32", "VMulC64xF32", "VAbsC64", "VMaxF32", "VMinF32"]⟩,
   -- dsp/mathfixed.go: declarations 6-66
   ⟨["mathfixed"], .go, none, [],
    ["fixedPi", "fixedPi4", "fixedPi34", "atanLUTSize", "atanLUTCoef", "atanLUT", "Atan2LUT", "FastAtan2Fixed"],
    [], [],
    []⟩,
   -- dsp/mathfixed_arm.s
   ⟨["mathfixed", "arm"], .s, none, [],
    [],
    [], [],
    []⟩,
   -- dsp/sdft.go: declarations 11-71
   ⟨["sdft"], .go, none, [],
    ["SDFT", "NewSDFT", "SDFT32", "NewSDFT32"],
    [], [],
    []⟩,
   -- dsp/stub_windows.go: declarations 6-6
   ⟨["stub", "windows"], .go, none, [],
    ["Ui8tof32"],
    ["Ui8tof32"], [],
    []⟩,
   -- dsp/util.go: declarations 3-64
   ⟨["util"], .go, none, [],
    ["ComplexSource", "RealSink", "ComplexFilter", "Demodulator", "Rotate90Filter", "rotate90FilterAsm", "rotate90Filter", "I32Rotate90Filter",
     "i32Rotate90FilterAsm", "i32Rotate90Filter", "rtoc", "rtoc32"],
    ["rotate90FilterAsm", "i32Rotate90FilterAsm"], [],
    []⟩,
   -- dsp/util_386.s: TEXT 1-4
   ⟨["util", "386"], .s, none, [],
    [],
    [], [],
    ["rotate90FilterAsm", "i32Rotate90FilterAsm"]⟩,
   -- dsp/util_amd64.s: TEXT 3-6
   ⟨["util", "amd64"], .s, none, [],
    [],
    [], [],
    ["rotate90FilterAsm", "i32Rotate90FilterAsm"]⟩,
   -- dsp/util_arm.s: TEXT 3-46
   ⟨["util", "arm"], .s, none, [],
    [],
    [], [],
    ["rotate90FilterAsm", "i32Rotate90FilterAsm"]⟩,
   -- dsp/util_arm64.s: TEXT 3-6
   ⟨["util", "arm64"], .s, none, [],
    [],
    [], [],
    ["rotate90FilterAsm", "i32Rotate90FilterAsm"]⟩,
   -- dsp/window.go: declarations 9-89
   ⟨["window"], .go, none, [],
    ["BlackmanFreqCoeff", "HammingFreqCoeff", "HanningFreqCoeff", "BlackmanFreqCoeff32", "HammingFreqCoeff32", "HanningFreqCoeff32",
     "TriangleWindow", "TriangleWindowF32", "HammingWindow", "HammingWindowF32", "HanningWindow", "HanningWindowF32", "BlackmanWindow",
     "BlackmanWindowF32", "NuttallWindow", "NuttallWindowF32", "window", "windowF32"],
    [], [],
    []⟩]

end Verif.Link.Build
