import Verif.Borip.ClientModel

/-!
# Model of the replies of boripserver

The text side of `handleCommand` (boripserver/main.go:97-297): which line the server sends for which
line it gets. The changes of `closeChan` and of the devices are in `ServerModel`. What the driver answers
is given by `Rtl`. Further library functions are fields of `SLib`.

Simplifications: the FREQ query (boripserver/main.go:108-111) uses `curFreq` outside the `if` statement that
declares it and does not compile; it is modelled as meant. The crystal frequency in the reply to DEVICE is
zero (boripserver/main.go:269-274 sets it to zero when the driver returned one). The loop opening a device is
summed up by its result. `DEST` keeps the printed form of the resolved address.
-/

namespace Verif.Borip

/-- The library functions used by server and client. -/
structure SLib (F : Type) extends Lib F where
  /-- `%f` -/
  fmtF : F → Str
  /-- `strconv.Itoa`, `strconv.FormatUint`, `%d` -/
  itoa : Int → Str
  /-- `float64(i)` -/
  ofInt : Int → F
  /-- `net.ResolveUDPAddr("udp", s)`, then `String` -/
  resolve : Str → Option Str

/-- An opened device: its name and what its gains are. -/
structure Info (F : Type) where
  name : Str
  minGain : F
  maxGain : F
  gainStep : F

/-- What the driver answers. -/
structure Rtl (F : Type) where
  setFreq : F → Bool
  freq : Option Nat
  setRate : F → Bool
  rate : Option Nat
  setGain : F → Bool
  gain : Option Int
  /-- the first device that opens, boripserver/main.go:229-239 -/
  openAny : Option (Info F)
  /-- `startStreaming`, boripserver/main.go:310-322: an error text or nil -/
  start : Option Str
  /-- by now the stream there was has ended: the callback has set `closeChan` to nil, boripserver/main.go:332-342 -/
  ended : Bool := false

/-- The parts of `client`, boripserver/main.go:73-80, that the replies depend on. -/
structure Srv (F : Type) where
  dest : Option Str
  dev : Option (Info F)
  streaming : Bool

/-- The state that the next line meets: between two lines a stream can have ended, boripserver/main.go:332-342. -/
def Srv.now {F : Type} (s : Srv F) (rtl : Rtl F) : Srv F := { s with streaming := s.streaming && !rtl.ended }

/-- boripserver/main.go:82-95 `sendResponse`: the line with its end. -/
def response (cmd : Str) (args : List Str) : Str :=
  (if args.length > 0 then cmd ++ ' ' :: join args else cmd) ++ ['\n']

def resOK : Str := "OK".toList
def resFail : Str := "FAIL".toList
def resDevice : Str := "DEVICE".toList
def noDevice : Str := "no active device".toList

/-- A string literal. -/
abbrev lit (s : String) : Str := s.toList

/-- The argument of the DEVICE reply, boripserver/main.go:276 -/
def deviceLine {F : Type} (lib : SLib F) (i : Info F) : Str :=
  i.name ++ '|' :: (lib.fmtF i.minGain ++ '|' :: (lib.fmtF i.maxGain ++ '|' :: (lib.fmtF i.gainStep ++ '|' ::
    (lib.fmtF (lib.ofInt 0) ++ '|' :: (lib.itoa 4096 ++ '|' :: lit "default")))))

/-- The commands that set a number, boripserver/main.go:113-124, 144-155, 167-178. The last argument makes the
success reply from the number asked for and the number read back. -/
def setNumber {F : Type} (lib : SLib F) (cmd arg : Str) (set : F → Bool) (get : Option Int) (ok : F → Int → List Str) (what : Str) : Str :=
  match lib.parseFloat arg with
  | none => response cmd [resFail, lit "invalid format for " ++ what ++ lit " -- expected float"]
  | some v =>
    if set v then
      match get with
      | none => response cmd [resFail, lit "failed to get " ++ what]
      | some cur => response cmd (ok v cur)
    else response cmd [resFail, lit "failed to set " ++ what]

/-- The commands that read a number, boripserver/main.go:107-112, 137-143, 160-166. -/
def getNumber {F : Type} (lib : SLib F) (cmd : Str) (get : Option Int) (what : Str) : Str :=
  match get with
  | none => response cmd [lit "-", lit "failed to get " ++ what]
  | some cur => response cmd [lib.itoa cur]

/-- boripserver/main.go:103-124 -/
def onFreq {F : Type} (lib : SLib F) (rtl : Rtl F) (s : Srv F) (args : List Str) : Str :=
  match s.dev, args with
  | none, _ => response (lit "FREQ") [resDevice, noDevice]
  | some _, [] => getNumber lib (lit "FREQ") (rtl.freq.map Int.ofNat) (lit "frequency")
  | some _, a :: _ => setNumber lib (lit "FREQ") a rtl.setFreq (rtl.freq.map Int.ofNat)
      (fun v cur => [resOK, lib.fmtF v, lib.itoa cur, lib.fmtF (lib.ofInt 0), lib.fmtF (lib.ofInt 0)]) (lit "frequency")

/-- boripserver/main.go:125-132 -/
def onAntenna {F : Type} (s : Srv F) (args : List Str) : Str :=
  match s.dev, args with
  | none, _ => response (lit "ANTENNA") [resDevice, noDevice]
  | some _, _ :: _ => response (lit "ANTENNA") [resOK]
  | some _, [] => response (lit "ANTENNA") [resOK, lit "default"]

/-- boripserver/main.go:133-155 -/
def onRate {F : Type} (lib : SLib F) (rtl : Rtl F) (s : Srv F) (args : List Str) : Str :=
  match s.dev, args with
  | none, _ => response (lit "RATE") [resDevice, noDevice]
  | some _, [] => getNumber lib (lit "RATE") (rtl.rate.map Int.ofNat) (lit "sample rate")
  | some _, a :: _ => setNumber lib (lit "RATE") a rtl.setRate (rtl.rate.map Int.ofNat) (fun _ cur => [resOK, lib.itoa cur]) (lit "sample rate")

/-- boripserver/main.go:156-178; `uint64(curGain)` of a negative gain -/
def onGain {F : Type} (lib : SLib F) (rtl : Rtl F) (s : Srv F) (args : List Str) : Str :=
  match s.dev, args with
  | none, _ => response (lit "GAIN") [resDevice, noDevice]
  | some _, [] => getNumber lib (lit "GAIN") rtl.gain (lit "gain")
  | some _, a :: _ => setNumber lib (lit "GAIN") a rtl.setGain rtl.gain (fun _ cur => [resOK, lib.itoa (cur % 2 ^ 64)]) (lit "gain")

/-- boripserver/main.go:179-192 -/
def onDest {F : Type} (lib : SLib F) (s : Srv F) (args : List Str) : Str × Srv F :=
  match args with
  | [] =>
    match s.dest with
    | none => (response (lit "DEST") [lit "-", lit "no DEST set"], s)
    | some d => (response (lit "DEST") [d], s)
  | a :: _ =>
    match lib.resolve a with
    | none => (response (lit "DEST") [resFail, lit "failed to resolve address"], s)
    | some d => (response (lit "DEST") [resOK], { s with dest := some d })

/-- boripserver/main.go:193-206 -/
def onGo {F : Type} (rtl : Rtl F) (s : Srv F) : Str × Srv F :=
  if s.dest.isNone then (response (lit "GO") [resFail, lit "no DEST set"], s)
  else if s.dev.isNone then (response (lit "GO") [resDevice, noDevice], s)
  else if s.streaming then (response (lit "GO") [lit "RUNNING"], s)
  else
    match rtl.start with
    | some e => (response (lit "GO") [resFail, e], s)
    | none => (response (lit "GO") [resOK], { s with streaming := true })

/-- boripserver/main.go:207-212; the stream ends with the next callback. -/
def onStop {F : Type} (s : Srv F) : Str := if s.streaming then response (lit "STOP") [resOK] else response (lit "STOP") [lit "STOPPED"]

/-- boripserver/main.go:213-295 -/
def onDevice {F : Type} (lib : SLib F) (rtl : Rtl F) (s : Srv F) (args : List Str) : Str × Srv F :=
  let hint := match args with
    | [] => lit "-"
    | a :: _ => a
  if hint = lit "-" then
    match rtl.openAny with
    | none => (response (lit "DEVICE") [lit "-", lit "no devices available"], { s with dev := none })
    | some i => (response (lit "DEVICE") [deviceLine lib i], { s with dev := some i })
  else if hint = lit "!" then (response (lit "DEVICE") [lit "-"], { s with dev := none })
  else (response (lit "DEVICE") [lit "-", lit "unknown hint"], s)

/-- boripserver/main.go:97-297 `handleCommand` -/
def handleCommand {F : Type} (lib : SLib F) (rtl : Rtl F) (s : Srv F) (cmd : Str) (args : List Str) : Str × Srv F :=
  if cmd = lit "FREQ" then (onFreq lib rtl s args, s)
  else if cmd = lit "ANTENNA" then (onAntenna s args, s)
  else if cmd = lit "RATE" then (onRate lib rtl s args, s)
  else if cmd = lit "GAIN" then (onGain lib rtl s args, s)
  else if cmd = lit "DEST" then onDest lib s args
  else if cmd = lit "GO" then onGo rtl s
  else if cmd = lit "STOP" then (onStop s, s)
  else if cmd = lit "DEVICE" then onDevice lib rtl s args
  else (response cmd [lit "UNKNOWN"], s)

/-- One turn of `loop`, boripserver/main.go:379-396, on a line as `ReadSlice` returns it: no reply to an
empty line. -/
def serveLine {F : Type} (lib : SLib F) (rtl : Rtl F) (s : Srv F) (raw : Str) : Option Str × Srv F :=
  let line := lib.trim raw
  if line.length = 0 then (none, s)
  else
    match split ' ' line with
    | [] => (none, s)
    | cmd :: args => ((handleCommand lib rtl s (cmd.map Char.toUpper) args).map some id)

end Verif.Borip
