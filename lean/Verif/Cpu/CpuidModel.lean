import Verif.Cpu.OptionsModel

/-!
# Model of dsp/internal/cpu/cpu_x86.go and dsp/cpu_amd64.go

`Machine` is what the CPUID and XGETBV instructions return (dsp/internal/cpu/cpu_x86.s). Package variables
start as false.
-/

namespace Verif.Cpu

/-- What the instructions return: `cpuid(eax, ecx)` gives eax, ebx, ecx, edx; `xgetbv()` gives eax. -/
structure Machine where
  cpuid : BitVec 32 → BitVec 32 → BitVec 32 × BitVec 32 × BitVec 32 × BitVec 32
  xgetbv : BitVec 32

/-- dsp/internal/cpu/cpu.go:26-45 -/
structure X86 where
  hasAES : Bool := false
  hasADX : Bool := false
  hasAVX : Bool := false
  hasAVX2 : Bool := false
  hasBMI1 : Bool := false
  hasBMI2 : Bool := false
  hasERMS : Bool := false
  hasFMA : Bool := false
  hasOSXSAVE : Bool := false
  hasPCLMULQDQ : Bool := false
  hasPOPCNT : Bool := false
  hasSSE2 : Bool := false
  hasSSE3 : Bool := false
  hasSSSE3 : Bool := false
  hasSSE41 : Bool := false
  hasSSE42 : Bool := false

/-- dsp/internal/cpu/cpu_x86.go:117-119 `isSet` -/
def isSet (hwc value : BitVec 32) : Bool := hwc &&& value != 0#32

/-- dsp/internal/cpu/cpu_x86.go:95-101 -/
def osSupportsAVX (m : Machine) (osxsave : Bool) : Bool :=
  if osxsave then isSet m.xgetbv (1#32 <<< 1) && isSet m.xgetbv (1#32 <<< 2) else false

/-- dsp/internal/cpu/cpu_x86.go:73-103 -/
def doinit1 (m : Machine) : X86 :=
  let r := m.cpuid 1#32 0#32
  let ecx1 := r.2.2.1
  let edx1 := r.2.2.2
  let osxsave := isSet ecx1 (1#32 <<< 27)
  { hasSSE2 := isSet edx1 (1#32 <<< 26)
    hasSSE3 := isSet ecx1 (1#32 <<< 0)
    hasPCLMULQDQ := isSet ecx1 (1#32 <<< 1)
    hasSSSE3 := isSet ecx1 (1#32 <<< 9)
    hasSSE41 := isSet ecx1 (1#32 <<< 19)
    hasSSE42 := isSet ecx1 (1#32 <<< 20)
    hasPOPCNT := isSet ecx1 (1#32 <<< 23)
    hasAES := isSet ecx1 (1#32 <<< 25)
    hasOSXSAVE := osxsave
    hasFMA := isSet ecx1 (1#32 <<< 12) && osxsave
    hasAVX := isSet ecx1 (1#32 <<< 28) && osSupportsAVX m osxsave }

/-- dsp/internal/cpu/cpu_x86.go:109-114 -/
def doinit7 (m : Machine) (x : X86) : X86 :=
  let ebx7 := (m.cpuid 7#32 0#32).2.1
  { x with
    hasBMI1 := isSet ebx7 (1#32 <<< 3)
    hasAVX2 := isSet ebx7 (1#32 <<< 5) && osSupportsAVX m x.hasOSXSAVE
    hasBMI2 := isSet ebx7 (1#32 <<< 8)
    hasERMS := isSet ebx7 (1#32 <<< 9)
    hasADX := isSet ebx7 (1#32 <<< 19) }

/-- dsp/internal/cpu/cpu_x86.go:44-115 `doinit`, without the table of options -/
def doinit (m : Machine) (x : X86) : X86 :=
  let maxID := (m.cpuid 0#32 0#32).1
  if maxID < 1#32 then x
  else if maxID < 7#32 then doinit1 m
  else doinit7 m (doinit1 m)

/-- dsp/cpu_amd64.go:7-11 -/
structure Use where
  sse4 : Bool
  avx2 : Bool
  sse2 : Bool

/-- dsp/cpu_amd64.go:13-17 `init` -/
def useOf (x : X86) : Use := ⟨x.hasSSE41, x.hasAVX, x.hasSSE2⟩

/-- What runs before `main`. -/
inductive Init where
  /-- a call of `Initialize("")`, dsp/internal/cpu/cpu.go:122-125; an empty string changes no feature -/
  | cpuInitialize
  /-- dsp/cpu_amd64.go:13-17 -/
  | dspInit

/-- The package variables `X86` and `useSSE4`, `useAVX2`, `useSSE2`. -/
structure Vars where
  x86 : X86
  use : Use

def Init.run (m : Machine) (v : Vars) : Init → Vars
  | .cpuInitialize => { v with x86 := doinit m v.x86 }
  | .dspInit => { v with use := useOf v.x86 }

/-- Package variables before any initialisation. -/
def Vars.zero : Vars := ⟨{}, ⟨false, false, false⟩⟩

/-- The state of a program on machine `m` after the given initialisation. -/
def start (m : Machine) (inits : List Init) : Vars := inits.foldl (Init.run m) .zero

/-- What this repository runs: package `cpu` has no `init` function and nothing calls `Initialize` (the
copy in the Go runtime initialises its own variables). -/
def inits : List Init := [.dspInit]

end Verif.Cpu
