/-!
# How the assembly is joined to the Go code

Package dsp declares functions without a body; the linker takes each from the `.s` files of the platform.
An assembly function finds its arguments and results in the frame of the caller, at the offsets written
`name+off(FP)`.  This file models the layout of that frame (Go's stack calling convention, "ABI0") and
lists what the `.s` files define, access and jump to.
-/

namespace Verif.Link

/-- The architectures with `.s` files in /repo/dsp: the suffixes `_amd64.s`, `_386.s`, `_arm.s`, `_arm64.s`. -/
inductive Arch | amd64 | i386 | arm | arm64
  deriving DecidableEq, Repr

/-- Size of a pointer and of `int` in bytes. -/
def Arch.word : Arch → Nat
  | .amd64 | .arm64 => 8
  | .i386 | .arm => 4

/-- The types of the parameters and results of the functions in question.  Simplified: the element type of a
slice and the target of a pointer do not matter for the frame. -/
inductive Ty | slice | f32 | f64 | ptr | int
  deriving DecidableEq, Repr

/-- The parts of a value that have names in assembly: `x_base` (or `x`), `x_len`, `x_cap`. -/
inductive Part | base | len | cap
  deriving DecidableEq, Repr

/-- The parts of a value of a type with their sizes, in the order of the memory. -/
def Ty.parts (a : Arch) : Ty → List (Part × Nat)
  | .slice => [(.base, a.word), (.len, a.word), (.cap, a.word)]
  | .f32 => [(.base, 4)]
  | .f64 => [(.base, 8)]
  | .ptr | .int => [(.base, a.word)]

/-- The alignment of a type; `float64` is aligned to 4 on the 32-bit architectures. -/
def Ty.align (a : Arch) : Ty → Nat
  | .f32 => 4
  | .slice | .f64 | .ptr | .int => a.word

/-- A signature: parameters and results; a result without name is called `ret`. -/
structure Sig where
  params : List (String × Ty)
  results : List (String × Ty)
  deriving DecidableEq, Repr

/-- One word or number in the frame of the caller. -/
structure Field where
  result : Bool
  name : String
  part : Part
  off : Nat
  width : Nat
  deriving DecidableEq, Repr

/-- The next multiple of `n`. -/
def alignUp (x n : Nat) : Nat := (x + n - 1) / n * n

/-- The parts of one value, one after the other. -/
def placeParts (res : Bool) (n : String) : Nat → List (Part × Nat) → List Field × Nat
  | o, [] => ([], o)
  | o, (p, w) :: r =>
      let q := placeParts res n (o + w) r
      (⟨res, n, p, o, w⟩ :: q.1, q.2)

/-- Values one after the other, each at the next multiple of its alignment. -/
def place (a : Arch) (res : Bool) : Nat → List (String × Ty) → List Field × Nat
  | o, [] => ([], o)
  | o, (n, t) :: r =>
      let p := placeParts res n (alignUp o (t.align a)) (t.parts a)
      let q := place a res p.2 r
      (p.1 ++ q.1, q.2)

/-- The frame of a signature and its size: the parameters from 0, the results from the next multiple of the
word. -/
def frame (a : Arch) (s : Sig) : List Field × Nat :=
  let p := place a false 0 s.params
  let q := place a true (if s.results = [] then p.2 else alignUp p.2 a.word) s.results
  (p.1 ++ q.1, q.2)

/-- An access `name+off(FP)` of an instruction: its line, whether it stores, the name and part (`_data` and
`_ptr` are written for `_base`, `res` for `ret`), the offset, and the bytes the instruction moves. -/
structure Ref where
  line : Nat
  store : Bool
  name : String
  part : Part
  off : Nat
  width : Nat
  deriving DecidableEq, Repr

/-- A `TEXT` symbol. -/
structure Text where
  name : String
  argSize : Option Nat
  jump : Option String
  refs : List Ref
  deriving DecidableEq, Repr

/-- The functions of package dsp declared without a body: conversion.go:11,25,40,54,67,112,125,139,152,164;
demod.go:32; downsample.go:14,44; math32.go:12,69,80,93,105,127,155; util.go:26,44. -/
def declared : List (String × Sig) :=
  [("Ui8toi16", ⟨[("input", .slice), ("output", .slice)], []⟩),
   ("Ui8toi16b", ⟨[("input", .slice), ("output", .slice)], []⟩),
   ("Ui8tof32", ⟨[("input", .slice), ("output", .slice)], []⟩),
   ("I8tof32", ⟨[("input", .slice), ("output", .slice)], []⟩),
   ("Ui8toc64", ⟨[("input", .slice), ("output", .slice)], []⟩),
   ("F32toi16", ⟨[("input", .slice), ("output", .slice), ("scale", .f32)], []⟩),
   ("F32toi16ble", ⟨[("input", .slice), ("output", .slice), ("scale", .f32)], []⟩),
   ("I16ToBLE", ⟨[("input", .slice), ("output", .slice)], []⟩),
   ("I16bleToF64", ⟨[("input", .slice), ("output", .slice), ("scale", .f64)], []⟩),
   ("I16bleToF32", ⟨[("input", .slice), ("output", .slice), ("scale", .f32)], []⟩),
   ("fmDemodulateAsm", ⟨[("fi", .ptr), ("input", .slice), ("output", .slice)], [("ret", .int)]⟩),
   ("lowPassDownsampleComplexFilterAsm", ⟨[("fi", .ptr), ("samples", .slice)], [("ret", .slice)]⟩),
   ("lowPassDownsampleRationalFilterAsm", ⟨[("fi", .ptr), ("samples", .slice)], [("ret", .slice)]⟩),
   ("VMulC64xF32", ⟨[("input", .slice), ("output", .slice), ("mul", .slice)], []⟩),
   ("VScaleF32", ⟨[("input", .slice), ("output", .slice), ("scale", .f32)], []⟩),
   ("VAbsC64", ⟨[("input", .slice), ("output", .slice)], []⟩),
   ("VMaxF32", ⟨[("input", .slice)], [("ret", .f32)]⟩),
   ("VMinF32", ⟨[("input", .slice)], [("ret", .f32)]⟩),
   ("FastAtan2", ⟨[("y", .f32), ("x", .f32)], [("ret", .f32)]⟩),
   ("FastAtan2_2", ⟨[("y", .f32), ("x", .f32)], [("ret", .f32)]⟩),
   ("rotate90FilterAsm", ⟨[("fi", .ptr), ("samples", .slice)], [("ret", .slice)]⟩),
   ("i32Rotate90FilterAsm", ⟨[("fi", .ptr), ("samples", .slice)], [("ret", .slice)]⟩)]

/-- The Go functions with a body that assembly jumps to: conversion.go:12,26,41,55,68,113,126,140,153,165;
demod.go:34; downsample.go:16,46; math32.go:13,70,81,94,128,156; util.go:28,46. -/
def portable : List (String × Sig) :=
  [("ui8toi16", ⟨[("input", .slice), ("output", .slice)], []⟩),
   ("ui8toi16b", ⟨[("input", .slice), ("output", .slice)], []⟩),
   ("ui8tof32", ⟨[("input", .slice), ("output", .slice)], []⟩),
   ("i8tof32", ⟨[("input", .slice), ("output", .slice)], []⟩),
   ("ui8toc64", ⟨[("input", .slice), ("output", .slice)], []⟩),
   ("f32toi16", ⟨[("input", .slice), ("output", .slice), ("scale", .f32)], []⟩),
   ("f32toi16ble", ⟨[("input", .slice), ("output", .slice), ("scale", .f32)], []⟩),
   ("i16ToBLE", ⟨[("input", .slice), ("output", .slice)], []⟩),
   ("i16bleToF64", ⟨[("input", .slice), ("output", .slice), ("scale", .f64)], []⟩),
   ("i16bleToF32", ⟨[("input", .slice), ("output", .slice), ("scale", .f32)], []⟩),
   ("fmDemodulate", ⟨[("fi", .ptr), ("input", .slice), ("output", .slice)], [("ret", .int)]⟩),
   ("lowPassDownsampleComplexFilter", ⟨[("fi", .ptr), ("samples", .slice)], [("ret", .slice)]⟩),
   ("lowPassDownsampleRationalFilter", ⟨[("fi", .ptr), ("samples", .slice)], [("ret", .slice)]⟩),
   ("vMulC64xF32", ⟨[("input", .slice), ("output", .slice), ("mul", .slice)], []⟩),
   ("vscaleF32", ⟨[("input", .slice), ("output", .slice), ("scale", .f32)], []⟩),
   ("vAbsC64", ⟨[("input", .slice), ("output", .slice)], []⟩),
   ("vMaxF32", ⟨[("input", .slice)], [("ret", .f32)]⟩),
   ("fastAtan2", ⟨[("y", .f32), ("x", .f32)], [("ret", .f32)]⟩),
   ("fastAtan2_2", ⟨[("y", .f32), ("x", .f32)], [("ret", .f32)]⟩),
   ("rotate90Filter", ⟨[("fi", .ptr), ("samples", .slice)], [("ret", .slice)]⟩),
   ("i32Rotate90Filter", ⟨[("fi", .ptr), ("samples", .slice)], [("ret", .slice)]⟩)]

/-- The `TEXT` symbols of package dsp on amd64: conversion_amd64.s:4,91,317,463,472,534,540,543,633;
conversion_avo_amd64.s:7; demod_amd64.s:3; downsample_amd64.s:3,6; math32_amd64.s:4,7,10,13,119,225,228;
util_amd64.s:3,6.  For each: the
argument size written after the frame size, if any, the accesses `name+off(FP)` in the order of the text,
and the function jumped to by a `JMP ·f(SB)` or `B ·f(SB)`. -/
def textAmd64 : List Text :=
  [⟨"Ui8toi16", some 48, none,
     [⟨5, false, "input", .base, 0, 8⟩,
      ⟨6, false, "input", .len, 8, 8⟩,
      ⟨7, false, "output", .base, 24, 8⟩,
      ⟨8, false, "output", .len, 32, 8⟩]⟩,
   ⟨"Ui8toi16b", some 48, some "Ui8toi16",
     [⟨92, false, "output", .len, 32, 8⟩,
      ⟨94, false, "output", .base, 24, 8⟩,
      ⟨100, true, "output", .len, 32, 8⟩,
      ⟨105, false, "input", .base, 0, 8⟩,
      ⟨106, false, "input", .len, 8, 8⟩]⟩,
   ⟨"I8tof32", some 48, none,
     [⟨318, false, "input", .base, 0, 8⟩,
      ⟨319, false, "input", .len, 8, 8⟩,
      ⟨320, false, "output", .base, 24, 8⟩,
      ⟨321, false, "output", .len, 32, 8⟩]⟩,
   ⟨"Ui8toc64", some 48, some "Ui8tof32",
     [⟨464, false, "input", .len, 8, 8⟩,
      ⟨466, true, "input", .len, 8, 8⟩,
      ⟨467, false, "output", .len, 32, 8⟩,
      ⟨469, true, "output", .len, 32, 8⟩]⟩,
   ⟨"F32toi16", some 52, none,
     [⟨473, false, "input", .base, 0, 8⟩,
      ⟨474, false, "input", .len, 8, 8⟩,
      ⟨475, false, "output", .base, 24, 8⟩,
      ⟨476, false, "output", .len, 32, 8⟩,
      ⟨477, false, "scale", .base, 48, 4⟩]⟩,
   ⟨"F32toi16ble", some 52, some "F32toi16",
     [⟨535, false, "output", .len, 32, 8⟩,
      ⟨537, true, "output", .len, 32, 8⟩]⟩,
   ⟨"I16ToBLE", some 48, some "i16ToBLE",
     []⟩,
   ⟨"I16bleToF64", some 56, none,
     [⟨544, false, "input", .base, 0, 8⟩,
      ⟨545, false, "input", .len, 8, 8⟩,
      ⟨546, false, "output", .base, 24, 8⟩,
      ⟨547, false, "output", .len, 32, 8⟩,
      ⟨550, false, "scale", .base, 48, 8⟩]⟩,
   ⟨"I16bleToF32", some 52, none,
     [⟨634, false, "input", .base, 0, 8⟩,
      ⟨635, false, "input", .len, 8, 8⟩,
      ⟨636, false, "output", .base, 24, 8⟩,
      ⟨637, false, "output", .len, 32, 8⟩,
      ⟨638, false, "scale", .base, 48, 4⟩]⟩,
   ⟨"Ui8tof32", some 48, none,
     [⟨8, false, "input", .base, 0, 8⟩,
      ⟨9, false, "input", .len, 8, 8⟩,
      ⟨10, false, "output", .base, 24, 8⟩,
      ⟨11, false, "output", .len, 32, 8⟩]⟩,
   ⟨"fmDemodulateAsm", none, some "fmDemodulate",
     []⟩,
   ⟨"lowPassDownsampleComplexFilterAsm", none, some "lowPassDownsampleComplexFilter",
     []⟩,
   ⟨"lowPassDownsampleRationalFilterAsm", none, some "lowPassDownsampleRationalFilter",
     []⟩,
   ⟨"FastAtan2", none, some "fastAtan2",
     []⟩,
   ⟨"FastAtan2_2", none, some "fastAtan2_2",
     []⟩,
   ⟨"VAbsC64", none, some "vAbsC64",
     []⟩,
   ⟨"VMaxF32", some 28, none,
     [⟨14, false, "input", .base, 0, 8⟩,
      ⟨15, false, "input", .len, 8, 8⟩,
      ⟨116, true, "ret", .base, 24, 4⟩]⟩,
   ⟨"VMinF32", some 28, none,
     [⟨120, false, "input", .base, 0, 8⟩,
      ⟨121, false, "input", .len, 8, 8⟩,
      ⟨222, true, "ret", .base, 24, 4⟩]⟩,
   ⟨"VMulC64xF32", none, some "vMulC64xF32",
     []⟩,
   ⟨"VScaleF32", none, none,
     [⟨229, false, "input", .base, 0, 8⟩,
      ⟨230, false, "input", .len, 8, 8⟩,
      ⟨231, false, "output", .base, 24, 8⟩,
      ⟨232, false, "output", .len, 32, 8⟩,
      ⟨233, false, "scale", .base, 48, 4⟩]⟩,
   ⟨"rotate90FilterAsm", none, some "rotate90Filter",
     []⟩,
   ⟨"i32Rotate90FilterAsm", none, some "i32Rotate90Filter",
     []⟩]

/-- The `TEXT` symbols of package dsp on 386: conversion_386.s:1,4,7,10,13,16,19,22,25; demod_386.s:1;
downsample_386.s:1,4; math32_386.s:1,4,7,10,13,16; util_386.s:1,4.  For each: the
argument size written after the frame size, if any, the accesses `name+off(FP)` in the order of the text,
and the function jumped to by a `JMP ·f(SB)` or `B ·f(SB)`. -/
def text386 : List Text :=
  [⟨"Ui8toi16", none, some "ui8toi16",
     []⟩,
   ⟨"Ui8toi16b", none, some "ui8toi16b",
     []⟩,
   ⟨"Ui8tof32", none, some "ui8tof32",
     []⟩,
   ⟨"I8tof32", none, some "i8tof32",
     []⟩,
   ⟨"Ui8toc64", none, some "ui8toc64",
     []⟩,
   ⟨"F32toi16", none, some "f32toi16",
     []⟩,
   ⟨"F32toi16ble", none, some "f32toi16ble",
     []⟩,
   ⟨"I16bleToF64", none, some "i16bleToF64",
     []⟩,
   ⟨"I16bleToF32", none, some "i16bleToF32",
     []⟩,
   ⟨"fmDemodulateAsm", none, some "fmDemodulate",
     []⟩,
   ⟨"lowPassDownsampleComplexFilterAsm", none, some "lowPassDownsampleComplexFilter",
     []⟩,
   ⟨"lowPassDownsampleRationalFilterAsm", none, some "lowPassDownsampleRationalFilter",
     []⟩,
   ⟨"FastAtan2", none, some "fastAtan2",
     []⟩,
   ⟨"FastAtan2_2", none, some "fastAtan2_2",
     []⟩,
   ⟨"VScaleF32", none, some "vscaleF32",
     []⟩,
   ⟨"VAbsC64", none, some "vAbsC64",
     []⟩,
   ⟨"VMaxF32", none, some "vMaxF32",
     []⟩,
   ⟨"VMulC64xF32", none, some "vMulC64xF32",
     []⟩,
   ⟨"rotate90FilterAsm", none, some "rotate90Filter",
     []⟩,
   ⟨"i32Rotate90FilterAsm", none, some "i32Rotate90Filter",
     []⟩]

/-- The `TEXT` symbols of package dsp on arm: conversion_arm.s:3,31,37,158,161,170,298,304,307;
demod_arm.s:3; downsample_arm.s:3,66; math32_arm.s:10,70,142,194,197,271; util_arm.s:3,46.  For each: the
argument size written after the frame size, if any, the accesses `name+off(FP)` in the order of the text,
and the function jumped to by a `JMP ·f(SB)` or `B ·f(SB)`. -/
def textArm : List Text :=
  [⟨"Ui8toi16", none, none,
     [⟨4, false, "input", .base, 0, 4⟩,
      ⟨5, false, "input", .len, 4, 4⟩,
      ⟨6, false, "output", .base, 12, 4⟩,
      ⟨7, false, "output", .len, 16, 4⟩]⟩,
   ⟨"Ui8toi16b", none, some "Ui8toi16",
     [⟨32, false, "output", .len, 16, 4⟩,
      ⟨34, true, "output", .len, 16, 4⟩]⟩,
   ⟨"Ui8tof32", none, none,
     [⟨38, false, "input", .base, 0, 4⟩,
      ⟨39, false, "input", .len, 4, 4⟩,
      ⟨40, false, "output", .base, 12, 4⟩,
      ⟨41, false, "output", .len, 16, 4⟩]⟩,
   ⟨"I8tof32", none, some "i8tof32",
     []⟩,
   ⟨"Ui8toc64", none, some "Ui8tof32",
     [⟨162, false, "input", .len, 4, 4⟩,
      ⟨164, true, "input", .len, 4, 4⟩,
      ⟨165, false, "output", .len, 16, 4⟩,
      ⟨167, true, "output", .len, 16, 4⟩]⟩,
   ⟨"F32toi16", none, none,
     [⟨171, false, "input", .base, 0, 4⟩,
      ⟨172, false, "input", .len, 4, 4⟩,
      ⟨173, false, "output", .base, 12, 4⟩,
      ⟨174, false, "output", .len, 16, 4⟩,
      ⟨175, false, "scale", .base, 24, 4⟩]⟩,
   ⟨"F32toi16ble", none, some "F32toi16",
     [⟨299, false, "output", .len, 16, 4⟩,
      ⟨301, true, "output", .len, 16, 4⟩]⟩,
   ⟨"I16bleToF64", none, some "i16bleToF64",
     []⟩,
   ⟨"I16bleToF32", none, some "i16bleToF32",
     []⟩,
   ⟨"fmDemodulateAsm", none, none,
     [⟨4, false, "input", .base, 4, 4⟩,
      ⟨5, false, "input", .len, 8, 4⟩,
      ⟨6, false, "output", .base, 16, 4⟩,
      ⟨7, false, "output", .len, 20, 4⟩,
      ⟨17, false, "fi", .base, 0, 4⟩,
      ⟨91, false, "input", .len, 8, 4⟩,
      ⟨92, true, "output", .len, 28, 4⟩]⟩,
   ⟨"lowPassDownsampleComplexFilterAsm", none, none,
     [⟨4, false, "fi", .base, 0, 4⟩,
      ⟨7, false, "samples", .len, 8, 4⟩,
      ⟨8, false, "samples", .base, 4, 4⟩,
      ⟨56, false, "samples", .base, 4, 4⟩,
      ⟨59, true, "ret", .len, 20, 4⟩,
      ⟨60, false, "samples", .cap, 12, 4⟩,
      ⟨61, true, "ret", .cap, 24, 4⟩,
      ⟨62, false, "samples", .base, 4, 4⟩,
      ⟨63, true, "ret", .base, 16, 4⟩]⟩,
   ⟨"lowPassDownsampleRationalFilterAsm", none, none,
     [⟨67, false, "fi", .base, 0, 4⟩,
      ⟨82, false, "samples", .base, 4, 4⟩,
      ⟨84, false, "samples", .len, 8, 4⟩,
      ⟨114, false, "samples", .base, 4, 4⟩,
      ⟨117, true, "ret", .len, 20, 4⟩,
      ⟨118, false, "samples", .cap, 12, 4⟩,
      ⟨119, true, "ret", .cap, 24, 4⟩,
      ⟨120, false, "samples", .base, 4, 4⟩,
      ⟨121, true, "ret", .base, 16, 4⟩]⟩,
   ⟨"FastAtan2", none, none,
     [⟨11, false, "y", .base, 0, 4⟩,
      ⟨12, false, "x", .base, 4, 4⟩,
      ⟨48, true, "ret", .base, 8, 4⟩,
      ⟨56, true, "ret", .base, 8, 4⟩,
      ⟨61, true, "ret", .base, 8, 4⟩,
      ⟨66, true, "ret", .base, 8, 4⟩]⟩,
   ⟨"FastAtan2_2", none, none,
     [⟨71, false, "x", .base, 4, 4⟩,
      ⟨72, false, "y", .base, 0, 4⟩,
      ⟨102, true, "ret", .base, 8, 4⟩,
      ⟨116, true, "ret", .base, 8, 4⟩,
      ⟨129, true, "ret", .base, 8, 4⟩,
      ⟨134, true, "ret", .base, 8, 4⟩,
      ⟨139, true, "ret", .base, 8, 4⟩]⟩,
   ⟨"VScaleF32", none, none,
     [⟨143, false, "input", .base, 0, 4⟩,
      ⟨144, false, "input", .len, 4, 4⟩,
      ⟨145, false, "output", .base, 12, 4⟩,
      ⟨146, false, "output", .len, 16, 4⟩,
      ⟨147, false, "scale", .base, 24, 4⟩]⟩,
   ⟨"VMulC64xF32", none, some "vMulC64xF32",
     []⟩,
   ⟨"VAbsC64", none, none,
     [⟨198, false, "input", .base, 0, 4⟩,
      ⟨199, false, "output", .base, 12, 4⟩,
      ⟨200, false, "input", .len, 4, 4⟩,
      ⟨201, false, "output", .len, 16, 4⟩]⟩,
   ⟨"VMaxF32", none, none,
     [⟨272, false, "input", .base, 0, 4⟩,
      ⟨273, false, "input", .len, 4, 4⟩,
      ⟨351, true, "ret", .base, 12, 4⟩]⟩,
   ⟨"rotate90FilterAsm", none, none,
     [⟨4, false, "samples", .len, 8, 4⟩,
      ⟨5, false, "samples", .base, 4, 4⟩,
      ⟨38, false, "samples", .base, 4, 4⟩,
      ⟨39, true, "ret", .base, 16, 4⟩,
      ⟨40, false, "samples", .len, 8, 4⟩,
      ⟨41, true, "ret", .len, 20, 4⟩,
      ⟨42, false, "samples", .cap, 12, 4⟩,
      ⟨43, true, "ret", .cap, 24, 4⟩]⟩,
   ⟨"i32Rotate90FilterAsm", none, none,
     [⟨47, false, "samples", .len, 8, 4⟩,
      ⟨48, false, "samples", .base, 4, 4⟩,
      ⟨81, false, "samples", .base, 4, 4⟩,
      ⟨82, true, "ret", .base, 16, 4⟩,
      ⟨83, false, "samples", .len, 8, 4⟩,
      ⟨84, true, "ret", .len, 20, 4⟩,
      ⟨85, false, "samples", .cap, 12, 4⟩,
      ⟨86, true, "ret", .cap, 24, 4⟩]⟩]

/-- The `TEXT` symbols of package dsp on arm64: conversion_arm64.s:3,6,9,83,86,89,92,95,98; demod_arm64.s:3;
downsample_arm64.s:3,6; math32_arm64.s:6,9,12,78,81,84,131; util_arm64.s:3,6.  For each: the
argument size written after the frame size, if any, the accesses `name+off(FP)` in the order of the text,
and the function jumped to by a `JMP ·f(SB)` or `B ·f(SB)`. -/
def textArm64 : List Text :=
  [⟨"Ui8toi16", none, some "ui8toi16",
     []⟩,
   ⟨"Ui8toi16b", none, some "ui8toi16b",
     []⟩,
   ⟨"Ui8tof32", none, none,
     [⟨10, false, "input", .base, 0, 8⟩,
      ⟨11, false, "input", .len, 8, 8⟩,
      ⟨12, false, "output", .base, 24, 8⟩,
      ⟨13, false, "output", .len, 32, 8⟩]⟩,
   ⟨"I8tof32", none, some "i8tof32",
     []⟩,
   ⟨"Ui8toc64", none, some "ui8toc64",
     []⟩,
   ⟨"F32toi16", none, some "f32toi16",
     []⟩,
   ⟨"F32toi16ble", none, some "f32toi16ble",
     []⟩,
   ⟨"I16bleToF64", none, some "i16bleToF64",
     []⟩,
   ⟨"I16bleToF32", none, some "i16bleToF32",
     []⟩,
   ⟨"fmDemodulateAsm", none, some "fmDemodulate",
     []⟩,
   ⟨"lowPassDownsampleComplexFilterAsm", none, some "lowPassDownsampleComplexFilter",
     []⟩,
   ⟨"lowPassDownsampleRationalFilterAsm", none, some "lowPassDownsampleRationalFilter",
     []⟩,
   ⟨"FastAtan2", none, some "fastAtan2",
     []⟩,
   ⟨"FastAtan2_2", none, some "fastAtan2_2",
     []⟩,
   ⟨"VScaleF32", none, none,
     [⟨13, false, "input", .base, 0, 8⟩,
      ⟨14, false, "input", .len, 8, 8⟩,
      ⟨15, false, "output", .base, 24, 8⟩,
      ⟨16, false, "output", .len, 32, 8⟩,
      ⟨17, false, "scale", .base, 48, 4⟩]⟩,
   ⟨"VMulC64xF32", none, some "vMulC64xF32",
     []⟩,
   ⟨"VAbsC64", none, some "vAbsC64",
     []⟩,
   ⟨"VMaxF32", none, none,
     [⟨85, false, "input", .base, 0, 8⟩,
      ⟨86, false, "input", .len, 8, 8⟩,
      ⟨128, true, "ret", .base, 24, 4⟩]⟩,
   ⟨"VMinF32", none, none,
     [⟨132, false, "input", .base, 0, 8⟩,
      ⟨133, false, "input", .len, 8, 8⟩,
      ⟨175, true, "ret", .base, 24, 4⟩]⟩,
   ⟨"rotate90FilterAsm", none, some "rotate90Filter",
     []⟩,
   ⟨"i32Rotate90FilterAsm", none, some "i32Rotate90Filter",
     []⟩]

/-- The symbols of an architecture. -/
def texts : Arch → List Text
  | .amd64 => textAmd64
  | .i386 => text386
  | .arm => textArm
  | .arm64 => textArm64

/-- The declarations without a body that the files of package dsp for Windows add: stub_windows.go:6. -/
def windowsDeclared : List (String × Sig) :=
  [("Ui8tof32", ⟨[("input", .slice), ("output", .slice)], []⟩)]

end Verif.Link
