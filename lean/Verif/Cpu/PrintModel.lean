import Verif.Cpu.OptionsModel

/-!
# Model of what `processOptions` in dsp/internal/cpu/cpu.go prints

As in `OptionsModel`, with the text handed to `print` beside the result. Strings are lists of characters
standing for bytes.
-/

namespace Verif.Cpu

/-- dsp/internal/cpu/cpu.go:163 -/
def noValueText (field : Str) : Str := "GODEBUG: no value specified for \"".toList ++ field ++ "\"\n".toList

/-- dsp/internal/cpu/cpu.go:175 -/
def badValueText (value key : Str) : Str :=
  "GODEBUG: value \"".toList ++ value ++ "\" not supported for cpu option \"".toList ++ key ++ "\"\n".toList

/-- dsp/internal/cpu/cpu.go:195 -/
def unknownText (key : Str) : Str := "GODEBUG: unknown cpu feature \"".toList ++ key ++ "\"\n".toList

/-- dsp/internal/cpu/cpu.go:204 -/
def missingText (name : Str) : Str := "GODEBUG: can not enable \"".toList ++ name ++ "\", missing CPU support\n".toList

/-- dsp/internal/cpu/cpu.go:209 -/
def requiredText (name : Str) : Str := "GODEBUG: can not disable \"".toList ++ name ++ "\", required CPU feature\n".toList

/-- dsp/internal/cpu/cpu.go:187-195: the first option of the name is set; without one the text is printed -/
def setFirstP (key : Str) (enable : Bool) : List Opt → List Opt × Str
  | [] => ([], unknownText key)
  | o :: os =>
    if o.name = key then ({ o with specified := true, enable := enable } :: os, [])
    else
      let r := setFirstP key enable os
      (o :: r.1, r.2)

/-- dsp/internal/cpu/cpu.go:179-195 -/
def setOptionsP (opts : List Opt) (key : Str) (enable : Bool) : List Opt × Str :=
  if key = ['a', 'l', 'l'] then (opts.map fun o => { o with specified := true, enable := enable || o.required }, [])
  else setFirstP key enable opts

/-- dsp/internal/cpu/cpu.go:166-195, once the equals sign is found -/
def onFieldP (opts : List Opt) (field : Str) (i : Nat) : Option (List Opt × Str) :=
  (slice field 4 i).bind fun key => (sliceFrom field (i + 1)).bind fun value =>
    match onOff value with
    | none => some (opts, badValueText value key)
    | some enable => some (setOptionsP opts key enable)

/-- dsp/internal/cpu/cpu.go:158-195, the body of the loop on one field -/
def processFieldP (opts : List Opt) (field : Str) : Option (List Opt × Str) :=
  if field.length < 4 ∨ field.take 4 ≠ ['c', 'p', 'u', '.'] then some (opts, [])
  else
    match indexByte field '=' with
    | none => some (opts, noValueText field)
    | some i => onFieldP opts field i

/-- dsp/internal/cpu/cpu.go:149-196, the first loop; `fuel` bounds the number of turns -/
def loopP : Nat → List Opt → Str → Option (List Opt × Str)
  | 0, opts, _ => some (opts, [])
  | fuel + 1, opts, env =>
    if env = [] then some (opts, [])
    else
      match indexByte env ',' with
      | none => processFieldP opts env
      | some i => (slice env 0 i).bind fun field => (sliceFrom env (i + 1)).bind fun rest =>
          (processFieldP opts field).bind fun r => (loopP fuel r.1 rest).bind fun q => some (q.1, r.2 ++ q.2)

/-- dsp/internal/cpu/cpu.go:199-213, the body of the second loop -/
def applyOptionP (r : (Nat → Bool) × Str) (o : Opt) : (Nat → Bool) × Str :=
  if !o.specified then r
  else if o.enable && !r.1 o.feature then (r.1, r.2 ++ missingText o.name)
  else if !o.enable && o.required then (r.1, r.2 ++ requiredText o.name)
  else (Function.update r.1 o.feature o.enable, r.2)

/-- dsp/internal/cpu/cpu.go:148-215 `processOptions`: the features and the text printed -/
def processOptionsP (opts : List Opt) (mem : Nat → Bool) (env : Str) : Option ((Nat → Bool) × Str) :=
  (loopP env.length opts env).bind fun r => some (r.1.foldl applyOptionP (mem, r.2))

end Verif.Cpu
