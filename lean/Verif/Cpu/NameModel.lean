import Verif.Cpu.CpuidModel

/-!
# Model of `Name` in dsp/internal/cpu/cpu_x86.go
-/

namespace Verif.Cpu

/-- The bytes appended for one register, dsp/internal/cpu/cpu_x86.go:157-161 -/
def regBytes (r : BitVec 32) : List (BitVec 8) :=
  [(r >>> 0).setWidth 8, (r >>> 8).setWidth 8, (r >>> 16).setWidth 8, (r >>> 24).setWidth 8]

/-- dsp/internal/cpu/cpu_x86.go:155-164 `appendBytes` with four registers -/
def appendBytes (b : List (BitVec 8)) (r : BitVec 32 × BitVec 32 × BitVec 32 × BitVec 32) : List (BitVec 8) :=
  b ++ regBytes r.1 ++ regBytes r.2.1 ++ regBytes r.2.2.1 ++ regBytes r.2.2.2

/-- dsp/internal/cpu/cpu_x86.go:140-142 -/
def trimSpaces : List (BitVec 8) → List (BitVec 8)
  | [] => []
  | c :: cs => if c = 32#8 then trimSpaces cs else c :: cs

/-- dsp/internal/cpu/cpu_x86.go:145-150: the loop from index `i` on; `data` is the whole slice -/
def cutNull (data : List (BitVec 8)) : Nat → List (BitVec 8) → List (BitVec 8)
  | _, [] => data
  | i, c :: cs => if c = 0#8 then data.take i else cutNull data (i + 1) cs

/-- dsp/internal/cpu/cpu_x86.go:124-153 `Name` -/
def cpuName (m : Machine) (maxExt : BitVec 32) : List (BitVec 8) :=
  if maxExt < 0x80000004#32 then []
  else
    let data := appendBytes [] (m.cpuid 0x80000002#32 0#32)
    let data := appendBytes data (m.cpuid 0x80000003#32 0#32)
    let data := appendBytes data (m.cpuid 0x80000004#32 0#32)
    let data := trimSpaces data
    cutNull data 0 data

end Verif.Cpu
