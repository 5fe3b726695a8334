/-!
# Model of borip/client.go

Strings are lists of characters standing for the bytes of the Go strings. Calls into the standard
library that the client depends on but does not define (`strconv.ParseFloat`, `strconv.ParseInt`,
`strconv.FormatFloat`, `strings.TrimSpace`) are fields of `Lib`. The connection is the list of what the
next exchanges will bring. A panic (index or slice expression out of range) is `none`.
The client keeps a log of what went over the connection; it is not part of the Go code and nothing
reads it.
-/

namespace Verif.Borip

abbrev Str := List Char

/-- The library functions used by the client. -/
structure Lib (F : Type) where
  parseFloat : Str → Option F
  parseInt : Str → Option Int
  formatFloat : F → Str
  trim : Str → Str

/-- Errors of the client. -/
inductive CErr where
  /-- `ErrUnexpectedResponse`, borip/client.go:13 -/
  | unexpected
  /-- `ErrResponse`, borip/client.go:15-18 -/
  | response (errorType msg : Str)
  /-- `errors.New("borip: " + …)`, borip/client.go:116 -/
  | text (msg : Str)
  /-- an error of `strconv` -/
  | number
  /-- an error of the connection -/
  | io
  deriving DecidableEq

/-- strings.Split(s, sep) for a separator of one byte. -/
def split (sep : Char) : Str → List Str
  | [] => [[]]
  | c :: cs => if c = sep then [] :: split sep cs else
    match split sep cs with
    | [] => [[c]]
    | w :: ws => (c :: w) :: ws

/-- strings.SplitN(s, " ", 2) -/
def splitN2 (sep : Char) : Str → List Str
  | [] => [[]]
  | c :: cs => if c = sep then [[], cs] else
    match splitN2 sep cs with
    | [] => [[c]]
    | w :: ws => (c :: w) :: ws

/-- strings.Join(parts, " ") -/
def join : List Str → Str
  | [] => []
  | [w] => w
  | w :: ws => w ++ ' ' :: join ws

/-- The slice expression `s[i:]`. -/
def sliceFrom {α : Type} (s : List α) (i : Nat) : Option (List α) := if i ≤ s.length then some (s.drop i) else none

/-- borip/client.go:24-29 `makeErrorResponse` -/
def makeErrorResponse (parts : List Str) : Option CErr :=
  if parts.length = 1 then
    parts[0]?.bind fun p => some (.response p [])
  else
    parts[0]?.bind fun p => (sliceFrom parts 1).bind fun rest => some (.response p (join rest))

/-- borip/client.go:31-37 `Device` -/
structure Device (F : Type) where
  name : Str
  serial : Str
  minGain : F
  maxGain : F
  gainStep : F
  fpgaFreq : F
  samplesPerPacket : Int
  validAntennas : List Str

/-- `return nil, err` unless the conversion worked. -/
def orNumber {α β : Type} (x : Option α) (k : α → Option (Except CErr β)) : Option (Except CErr β) :=
  match x with
  | none => some (.error .number)
  | some v => k v

/-- borip/client.go:39-69 `parseDeviceString` -/
def parseDeviceString {F : Type} (lib : Lib F) (st : Str) : Option (Except CErr (Device F)) :=
  let deviceParts := split '|' st
  if deviceParts.length < 8 then some (.error .unexpected)
  else
    deviceParts[0]?.bind fun name =>
    deviceParts[7]?.bind fun serial =>
    deviceParts[1]?.bind fun p1 => orNumber (lib.parseFloat p1) fun minGain =>
    deviceParts[2]?.bind fun p2 => orNumber (lib.parseFloat p2) fun maxGain =>
    deviceParts[3]?.bind fun p3 => orNumber (lib.parseFloat p3) fun gainStep =>
    deviceParts[4]?.bind fun p4 => orNumber (lib.parseFloat p4) fun fpgaFreq =>
    deviceParts[5]?.bind fun p5 => orNumber (lib.parseInt p5) fun val =>
    deviceParts[6]?.bind fun p6 =>
    some (.ok ⟨name, serial, minGain, maxGain, gainStep, fpgaFreq, val, split ',' p6⟩)

/-- What an exchange brings: a line as `ReadString('\n')` returns it, or a failure to write or read. -/
inductive Reply where
  | line (raw : Str)
  | fail

/-- borip/client.go:71-78 `BorIP`, with the replies still to come and the log of exchanges. -/
structure BorIP (F : Type) where
  running : Bool
  device : Option (Device F)
  replies : List Reply
  log : List (Str × Reply)

/-- borip/client.go:323-336 `command` -/
def BorIP.command {F : Type} (lib : Lib F) (bor : BorIP F) (cmd : Str) (args : List Str) : Except CErr Str × BorIP F :=
  let argString := if args.length > 0 then ' ' :: join args else []
  let request := cmd ++ argString ++ ['\n']
  match bor.replies with
  | [] => (.error .io, { bor with log := bor.log ++ [(request, .fail)] })
  | .fail :: rest => (.error .io, { bor with replies := rest, log := bor.log ++ [(request, .fail)] })
  | .line raw :: rest => (.ok (lib.trim raw), { bor with replies := rest, log := bor.log ++ [(request, .line raw)] })

/-- borip/client.go:309-321 `parseAndCheck` -/
def parseAndCheck (res : Str) (minArgs : Nat) : Option (Except CErr (List Str)) :=
  let resParts := split ' ' res
  if resParts.length < 2 then some (.error .unexpected)
  else
    resParts[1]?.bind fun p1 =>
    if p1 ≠ ['O', 'K'] then
      (sliceFrom resParts 1).bind fun rest => (makeErrorResponse rest).bind fun e => some (.error e)
    else if resParts.length < 1 + minArgs then some (.error .unexpected)
    else some (.ok resParts)

/-- The values the calls return. -/
inductive Value (F : Type) where
  | unit
  | float (v : F)
  | str (s : Str)
  | bool (b : Bool)
  | device (d : Option (Device F))
  /-- the four results of `SetFrequency`; `none` is a result left or parsed as an error, that is zero -/
  | freqs (targetIF actualIF targetDDC actualDDC : Option F)

/-- A call's result: `none` is a panic. -/
abbrev Res (F : Type) := Option (Except CErr (Value F) × BorIP F)

/-- Runs `command`, returns on an error of the connection, otherwise hands the reply to `parse`, which
leaves the client as it is. -/
def BorIP.call {F : Type} (lib : Lib F) (bor : BorIP F) (cmd : Str) (args : List Str)
    (parse : Str → Option (Except CErr (Value F))) : Res F :=
  match bor.command lib cmd args with
  | (.error e, bor) => some (.error e, bor)
  | (.ok res, bor) => (parse res).bind fun v => some (v, bor)

/-- borip/client.go:106-123, what `SelectDevice` makes of the reply: an error, or the new device. -/
def parseSelect {F : Type} (lib : Lib F) (res : Str) : Option (Except CErr (Option (Device F))) :=
  let resParts := splitN2 ' ' res
  resParts[0]?.bind fun p0 =>
  if p0 ≠ ['D', 'E', 'V', 'I', 'C', 'E'] ∨ resParts.length < 2 then some (.error .unexpected)
  else
    resParts[1]?.bind fun p1 =>
    p1[0]?.bind fun c =>
    if c = '-' then
      if p1.length = 1 then some (.ok none)
      else (sliceFrom p1 1).bind fun msg => some (.error (.text (lib.trim msg)))
    else
      (parseDeviceString lib p1).bind fun dev =>
      match dev with
      | .error e => some (.error e)
      | .ok d => some (.ok (some d))

/-- borip/client.go:101-124 `SelectDevice` -/
def BorIP.selectDevice {F : Type} (lib : Lib F) (bor : BorIP F) (hint : Str) : Res F :=
  match bor.command lib ['D', 'E', 'V', 'I', 'C', 'E'] [hint] with
  | (.error e, bor) => some (.error e, bor)
  | (.ok res, bor) =>
    (parseSelect lib res).bind fun r =>
    match r with
    | .error e => some (.error e, bor)
    | .ok d => some (.ok (.device d), { bor with device := d })

/-- One of the guarded results of `SetFrequency`. -/
def optFloat {F : Type} (lib : Lib F) (parts : List Str) (i : Nat) : Option (Option F) :=
  if parts.length ≥ i + 1 then parts[i]?.bind fun p => some (lib.parseFloat p) else some none

/-- borip/client.go:130-154 `SetFrequency` -/
def BorIP.setFrequency {F : Type} (lib : Lib F) (bor : BorIP F) (freq : F) : Res F :=
  bor.call lib ['F', 'R', 'E', 'Q'] [lib.formatFloat freq] fun res =>
    (parseAndCheck res 1).bind fun r =>
    match r with
    | .error e => some (.error e)
    | .ok parts =>
      (optFloat lib parts 2).bind fun a => (optFloat lib parts 3).bind fun b =>
      (optFloat lib parts 4).bind fun c => (optFloat lib parts 5).bind fun d =>
      some (.ok (.freqs a b c d))

/-- The common part of `Frequency`, `Rate` and `Gain`, borip/client.go:161-164, 205-208, 226-229. -/
def parseQuery {F : Type} (lib : Lib F) (res : Str) : Option (Except CErr (Value F)) :=
  if res.length < 6 then some (.error .unexpected)
  else (sliceFrom res 5).bind fun v => orNumber (lib.parseFloat v) fun f => some (.ok (.float f))

/-- borip/client.go:156-165 `Frequency` -/
def BorIP.frequency {F : Type} (lib : Lib F) (bor : BorIP F) : Res F := bor.call lib ['F', 'R', 'E', 'Q'] [] (parseQuery lib)

/-- The calls that only look for OK. -/
def parseOK {F : Type} (res : Str) : Option (Except CErr (Value F)) :=
  (parseAndCheck res 1).bind fun r =>
  match r with
  | .error e => some (.error e)
  | .ok _ => some (.ok .unit)

/-- borip/client.go:167-174 `SetAntenna` -/
def BorIP.setAntenna {F : Type} (lib : Lib F) (bor : BorIP F) (ant : Str) : Res F :=
  bor.call lib ['A', 'N', 'T', 'E', 'N', 'N', 'A'] [ant] parseOK

/-- borip/client.go:176-185 `Antenna` -/
def BorIP.antenna {F : Type} (lib : Lib F) (bor : BorIP F) : Res F :=
  bor.call lib ['A', 'N', 'T', 'E', 'N', 'N', 'A'] [] fun res =>
    if res.length < 8 then some (.error .unexpected) else (sliceFrom res 8).bind fun v => some (.ok (.str v))

/-- borip/client.go:193-197, what `SetRate` makes of the reply. -/
def parseRate {F : Type} (lib : Lib F) (res : Str) : Option (Except CErr (Value F)) :=
  (parseAndCheck res 1).bind fun r =>
  match r with
  | .error e => some (.error e)
  | .ok parts => parts[2]?.bind fun p => orNumber (lib.parseFloat p) fun f => some (.ok (.float f))

/-- borip/client.go:188-198 `SetRate` -/
def BorIP.setRate {F : Type} (lib : Lib F) (bor : BorIP F) (rate : F) : Res F :=
  bor.call lib ['R', 'A', 'T', 'E'] [lib.formatFloat rate] (parseRate lib)

/-- borip/client.go:200-209 `Rate` -/
def BorIP.rate {F : Type} (lib : Lib F) (bor : BorIP F) : Res F := bor.call lib ['R', 'A', 'T', 'E'] [] (parseQuery lib)

/-- borip/client.go:212-219 `SetGain` -/
def BorIP.setGain {F : Type} (lib : Lib F) (bor : BorIP F) (gain : F) : Res F :=
  bor.call lib ['G', 'A', 'I', 'N'] [lib.formatFloat gain] parseOK

/-- borip/client.go:221-230 `Gain` -/
def BorIP.gain {F : Type} (lib : Lib F) (bor : BorIP F) : Res F := bor.call lib ['G', 'A', 'I', 'N'] [] (parseQuery lib)

/-- borip/client.go:232-242 `SetDestination` -/
def BorIP.setDestination {F : Type} (lib : Lib F) (bor : BorIP F) (dest : Str) : Res F :=
  bor.call lib ['D', 'E', 'S', 'T'] [dest] fun res =>
    (parseAndCheck res 2).bind fun r =>
    match r with
    | .error e => some (.error e)
    | .ok parts => parts[2]?.bind fun p => some (.ok (.str p))

/-- borip/client.go:244-253 `Destination` -/
def BorIP.destination {F : Type} (lib : Lib F) (bor : BorIP F) : Res F :=
  bor.call lib ['D', 'E', 'S', 'T'] [] fun res =>
    if res.length < 5 then some (.error .unexpected) else (sliceFrom res 5).bind fun v => some (.ok (.str v))

/-- borip/client.go:255-266 `SetHeaderEnabled` -/
def BorIP.setHeaderEnabled {F : Type} (lib : Lib F) (bor : BorIP F) (enabled : Bool) : Res F :=
  bor.call lib ['H', 'E', 'A', 'D', 'E', 'R'] [if enabled then ['O', 'N'] else ['O', 'F', 'F']] parseOK

/-- borip/client.go:268-283 `HeaderEnabled` -/
def BorIP.headerEnabled {F : Type} (lib : Lib F) (bor : BorIP F) : Res F :=
  bor.call lib ['H', 'E', 'A', 'D', 'E', 'R'] [] fun res =>
    if res.length < 8 then some (.error .unexpected)
    else (sliceFrom res 7).bind fun v =>
      if v = ['O', 'N'] then some (.ok (.bool true))
      else if v = ['O', 'F', 'F'] then some (.ok (.bool false))
      else some (.error .unexpected)

/-- borip/client.go:285-295 and 297-307, `Go` and `Stop`: `running` is set when there is no error. -/
def BorIP.setRunning {F : Type} (lib : Lib F) (bor : BorIP F) (cmd : Str) (running : Bool) : Res F :=
  match bor.command lib cmd [] with
  | (.error e, bor) => some (.error e, bor)
  | (.ok res, bor) =>
    (parseAndCheck res 1).bind fun r =>
    match r with
    | .error e => some (.error e, bor)
    | .ok _ => some (.ok .unit, { bor with running := running })

/-- `Go` -/
def BorIP.go {F : Type} (lib : Lib F) (bor : BorIP F) : Res F := bor.setRunning lib ['G', 'O'] true

/-- `Stop` -/
def BorIP.stop {F : Type} (lib : Lib F) (bor : BorIP F) : Res F := bor.setRunning lib ['S', 'T', 'O', 'P'] false

/-- borip/client.go:339-341, the first statement of `Close` -/
def BorIP.closeStop {F : Type} (lib : Lib F) (bor : BorIP F) : Option (BorIP F) :=
  if bor.running then (bor.stop lib).bind fun r => some r.2 else some bor

/-- borip/client.go:342-344, the second statement of `Close` -/
def BorIP.closeDevice {F : Type} (lib : Lib F) (bor : BorIP F) : Option (BorIP F) :=
  if bor.device.isSome then (bor.selectDevice lib ['!']).bind fun r => some r.2 else some bor

/-- borip/client.go:338-346 `Close`; every later exchange on the connection fails. -/
def BorIP.close {F : Type} (lib : Lib F) (bor : BorIP F) : Res F :=
  (bor.closeStop lib).bind fun bor => (bor.closeDevice lib).bind fun bor => some (.ok .unit, { bor with replies := [] })

/-- borip/client.go:80-99 `Dial`, once the connection is there: only reading the greeting can fail. -/
def dial {F : Type} : List Reply → Option (BorIP F)
  | .line _ :: rest => some ⟨false, none, rest, []⟩
  | _ => none

/-- The calls of the client. -/
inductive Op (F : Type) where
  | selectDevice (hint : Str)
  | setFrequency (freq : F)
  | frequency
  | setAntenna (ant : Str)
  | antenna
  | setRate (rate : F)
  | rate
  | setGain (gain : F)
  | gain
  | setDestination (dest : Str)
  | destination
  | setHeaderEnabled (enabled : Bool)
  | headerEnabled
  | go
  | stop
  | close

/-- One call. -/
def BorIP.perform {F : Type} (lib : Lib F) (bor : BorIP F) : Op F → Res F
  | .selectDevice h => bor.selectDevice lib h
  | .setFrequency f => bor.setFrequency lib f
  | .frequency => bor.frequency lib
  | .setAntenna a => bor.setAntenna lib a
  | .antenna => bor.antenna lib
  | .setRate r => bor.setRate lib r
  | .rate => bor.rate lib
  | .setGain g => bor.setGain lib g
  | .gain => bor.gain lib
  | .setDestination d => bor.setDestination lib d
  | .destination => bor.destination lib
  | .setHeaderEnabled e => bor.setHeaderEnabled lib e
  | .headerEnabled => bor.headerEnabled lib
  | .go => bor.go lib
  | .stop => bor.stop lib
  | .close => bor.close lib

/-- A sequence of calls. -/
def BorIP.performAll {F : Type} (lib : Lib F) (bor : BorIP F) : List (Op F) → Option (BorIP F)
  | [] => some bor
  | op :: ops => (bor.perform lib op).bind fun r => r.2.performAll lib ops

end Verif.Borip
