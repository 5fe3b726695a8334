import Mathlib.Logic.Function.Basic

/-!
# Model of `processOptions` in dsp/internal/cpu/cpu.go

Strings are lists of characters standing for bytes. A feature is a Boolean variable; the pointers
`Feature` are numbers and the variables a function from numbers to Booleans. The warnings printed are left
out. A slice expression out of range is `none`.
-/

namespace Verif.Cpu

abbrev Str := List Char

/-- dsp/internal/cpu/cpu.go:134-140 `option` -/
structure Opt where
  name : Str
  feature : Nat
  specified : Bool
  enable : Bool
  required : Bool

/-- dsp/internal/cpu/cpu.go:219-226 `indexByte`; `none` for -1 -/
def indexByte : Str → Char → Option Nat
  | [], _ => none
  | x :: xs, c => if x = c then some 0 else (indexByte xs c).map (· + 1)

/-- The slice expression `s[lo:hi]`. -/
def slice (s : Str) (lo hi : Nat) : Option Str := if lo ≤ hi ∧ hi ≤ s.length then some ((s.take hi).drop lo) else none

/-- The slice expression `s[lo:]`. -/
def sliceFrom (s : Str) (lo : Nat) : Option Str := if lo ≤ s.length then some (s.drop lo) else none

/-- dsp/internal/cpu/cpu.go:168-177: the value, `none` for `continue field` -/
def onOff (value : Str) : Option Bool :=
  if value = ['o', 'n'] then some true
  else if value = ['o', 'f', 'f'] then some false
  else none

/-- dsp/internal/cpu/cpu.go:187-193: the first option of the name -/
def setFirst (key : Str) (enable : Bool) : List Opt → List Opt
  | [] => []
  | o :: os => if o.name = key then { o with specified := true, enable := enable } :: os else o :: setFirst key enable os

/-- dsp/internal/cpu/cpu.go:179-193 -/
def setOptions (opts : List Opt) (key : Str) (enable : Bool) : List Opt :=
  if key = ['a', 'l', 'l'] then opts.map fun o => { o with specified := true, enable := enable || o.required }
  else setFirst key enable opts

/-- dsp/internal/cpu/cpu.go:166-196, once the equals sign is found -/
def onField (opts : List Opt) (field : Str) (i : Nat) : Option (List Opt) :=
  (slice field 4 i).bind fun key => (sliceFrom field (i + 1)).bind fun value =>
    match onOff value with
    | none => some opts
    | some enable => some (setOptions opts key enable)

/-- dsp/internal/cpu/cpu.go:158-196, the body of the loop on one field -/
def processField (opts : List Opt) (field : Str) : Option (List Opt) :=
  if field.length < 4 ∨ field.take 4 ≠ ['c', 'p', 'u', '.'] then some opts
  else
    match indexByte field '=' with
    | none => some opts
    | some i => onField opts field i

/-- dsp/internal/cpu/cpu.go:149-196, the first loop; `fuel` bounds the number of turns -/
def loop : Nat → List Opt → Str → Option (List Opt)
  | 0, opts, _ => some opts
  | fuel + 1, opts, env =>
    if env = [] then some opts
    else
      match indexByte env ',' with
      | none => processField opts env
      | some i => (slice env 0 i).bind fun field => (sliceFrom env (i + 1)).bind fun rest =>
          (processField opts field).bind fun opts => loop fuel opts rest

/-- dsp/internal/cpu/cpu.go:199-213, the body of the second loop -/
def applyOption (mem : Nat → Bool) (o : Opt) : Nat → Bool :=
  if !o.specified then mem
  else if o.enable && !mem o.feature then mem
  else if !o.enable && o.required then mem
  else Function.update mem o.feature o.enable

/-- dsp/internal/cpu/cpu.go:148-215 `processOptions`. Every turn of the first loop makes `env` shorter, so
its length is fuel enough. -/
def processOptions (opts : List Opt) (mem : Nat → Bool) (env : Str) : Option (Nat → Bool) :=
  (loop env.length opts env).bind fun opts => some (opts.foldl applyOption mem)

end Verif.Cpu
