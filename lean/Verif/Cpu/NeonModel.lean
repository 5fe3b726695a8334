/-!
# Model of the detection of NEON in dsp/cpu_arm.go

Strings and files are lists of characters standing for bytes.  The package regexp is modelled for the
operators that the two expressions use.  `.` takes one byte, where Go takes one UTF-8 sequence or one invalid
byte: since an ASCII byte is never inside a UTF-8 sequence, and both expressions go on with ASCII letters or
with the end of the line after `.*`, that makes no difference to whether they match.
-/

namespace Verif.Cpu.Neon

/-- The regular expressions in use: `^` and `$` in the mode `(?m)`, a literal, `.*`, `(a|b)`, and one after
the other. -/
inductive Re
  | bol
  | eol
  | lit (s : List Char)
  | dotStar
  | alt (a b : Re)
  | cat (a b : Re)

/-- The byte before the position after `m`, when it was `prev` before `m`. -/
def lastOf (prev : Option Char) (m : List Char) : Option Char := m.getLast?.or prev

/-- `.*`, then `k`: all lengths up to the next newline are tried. -/
def matchStar (k : Option Char → List Char → Bool) : Option Char → List Char → Bool
  | prev, [] => k prev []
  | prev, c :: cs => k prev (c :: cs) || (c != '\n' && matchStar k (some c) cs)

/-- Whether the expression, then `k`, matches at a position; `prev` is the byte before it, if any. -/
def matchK : Re → (Option Char → List Char → Bool) → Option Char → List Char → Bool
  | .bol, k, prev, rest => (prev == none || prev == some '\n') && k prev rest
  | .eol, k, prev, rest => (rest.head? == none || rest.head? == some '\n') && k prev rest
  | .lit s, k, prev, rest => s.isPrefixOf rest && k (lastOf prev s) (rest.drop s.length)
  | .dotStar, k, prev, rest => matchStar k prev rest
  | .alt a b, k, prev, rest => matchK a k prev rest || matchK b k prev rest
  | .cat a b, k, prev, rest => matchK a (matchK b k) prev rest

/-- `(*Regexp).Match`: a match at some position. -/
def search (re : Re) : Option Char → List Char → Bool
  | prev, [] => matchK re (fun _ _ => true) prev []
  | prev, c :: cs => matchK re (fun _ _ => true) prev (c :: cs) || search re (some c) cs

def Re.match (re : Re) (b : List Char) : Bool := search re none b

/-- dsp/cpu_arm.go:21 `neonRE` -/
def neonRE : Re :=
  .cat .bol (.cat (.lit "Features".toList) (.cat .dotStar
    (.cat (.alt (.lit "neon".toList) (.lit "asimd".toList)) (.cat .dotStar .eol))))

/-- dsp/cpu_arm.go:23 `rpi1RE` -/
def rpi1RE : Re :=
  .cat .bol (.cat (.lit "Hardware".toList) (.cat .dotStar (.cat (.lit "BCM2708".toList) (.cat .dotStar .eol))))

/-- `strconv.ParseBool`; `none` for an error -/
def parseBool (s : List Char) : Option Bool :=
  if s ∈ ["1".toList, "t".toList, "T".toList, "true".toList, "TRUE".toList, "True".toList] then some true
  else if s ∈ ["0".toList, "f".toList, "F".toList, "false".toList, "FALSE".toList, "False".toList] then some false
  else none

/-- What `init` finds: /proc/cpuinfo cannot be opened, or reading fails, or it has the given content. -/
inductive Info | noFile | readError | content (c : List Char)

/-- dsp/cpu_arm.go:12-17, the variables -/
structure Flags where
  haveNEON : Bool := false
  useVector : Bool := false
  deriving DecidableEq

/-- dsp/cpu_arm.go:26-52 `init`; `env` is the value of ARMVECTOR, empty when it is not set -/
def init (info : Info) (env : List Char) : Flags :=
  match info with
  | .noFile => {}
  | .readError => {}
  | .content c =>
    let b := c.take 2048
    let haveNEON := neonRE.match b
    let useVector := !haveNEON && rpi1RE.match b
    ⟨haveNEON, (parseBool env).getD useVector⟩

end Verif.Cpu.Neon
