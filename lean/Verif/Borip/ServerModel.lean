import Mathlib.Logic.Function.Basic
import Mathlib.Tactic.Common

/-!
# Model of the connections and devices of boripserver

A state machine over explicit steps. Each connection is served by its own goroutine
(boripserver/main.go:400-421, 453); the driver calls the streaming callback on another thread. A step is
one access to shared data: one read or write of `cli.closeChan`, or one section of code under
`dev.mutex`. The environment chooses which connection steps, which command it gets, and what the driver
returns.

Assumptions and simplifications: `rtlDev.ReadAsync` returns at once and the callback runs on another
thread until it returns true (the driver package is not part of the repository); reads and writes of
`cli.closeChan` are atomic; the list made by `deviceList` may be any list of devices (the code skips
those in use, in the random order of a map; `open` tests again); commands that touch neither
`cli.closeChan` nor `cli.dev` are left out. A panic in any goroutine ends the process.
-/

namespace Verif.Borip

/-- `cli.closeChan`: nil, an open channel, or a closed one. -/
inductive Chan where
  | nil
  | opened
  | closed
  deriving DecidableEq

/-- What runs after `stopStreaming`: the reply to STOP, the rest of `DEVICE -`, the rest of `DEVICE !`, or
the end of `handleConnection`. -/
inductive After where
  | reply
  | select
  | release
  | finish
  deriving DecidableEq

/-- Where the goroutine of a connection is. -/
inductive Phase where
  /-- not connected yet -/
  | absent
  /-- waiting for a command, boripserver/main.go:380 -/
  | idle
  /-- about to test `isStreaming` in `stopStreaming`, boripserver/main.go:304 -/
  | testing (k : After)
  /-- about to run `close(cli.closeChan)`, boripserver/main.go:307 -/
  | closing (k : After)
  /-- about to run `if cli.dev != nil { cli.dev.close() … }`, boripserver/main.go:224-227, 283-286, 418-420 -/
  | releasing (k : After)
  /-- about to call `deviceList`, boripserver/main.go:229 -/
  | listing
  /-- in the loop boripserver/main.go:232-239 with the devices still to try -/
  | opening (devices : List Nat)
  /-- `dev = d; break`, before `cli.dev = dev`, boripserver/main.go:245 -/
  | opened (d : Nat)
  /-- about to look at the tuner gains, boripserver/main.go:258-265 -/
  | configuring
  /-- the goroutine has ended -/
  | gone
  deriving DecidableEq

/-- The parts of `client` (boripserver/main.go:73-80) that matter, the place of its goroutine, and whether
the driver still calls its callback. -/
structure Conn where
  phase : Phase
  dev : Option Nat
  closeChan : Chan
  async : Bool

/-- `device.inUse` and whether `device.rtlDev` is not nil, boripserver/devices.go:18-26 -/
structure Dev where
  inUse : Bool
  rtlDev : Bool

/-- Openings and closings of the hardware. -/
inductive Event where
  | opened (c d : Nat)
  | closed (c d : Nat)
  deriving DecidableEq

/-- Why the process died. -/
inductive Panic where
  | closeOfClosed
  | closeOfNil
  | index
  deriving DecidableEq

structure Server where
  conns : Nat → Conn
  devs : Nat → Dev
  log : List Event
  panic : Option Panic

/-- The server at the start: no connections, no device in use. -/
def Server.init : Server where
  conns := fun _ => ⟨.absent, none, .nil, false⟩
  devs := fun _ => ⟨false, false⟩
  log := []
  panic := none

/-- One step of connection `c`, with the choices of the environment. -/
inductive Action where
  /-- a client connects, boripserver/main.go:447-453 -/
  | connect (c : Nat)
  /-- commands -/
  | stop (c : Nat)
  | go (c : Nat) (driverOk : Bool)
  | select (c : Nat)
  | release (c : Nat)
  /-- the client is gone or a reply cannot be sent -/
  | disconnect (c : Nat)
  /-- the next access of a goroutine in the middle of a command -/
  | advance (c : Nat)
  /-- the result of `deviceList` -/
  | list (c : Nat) (devices : List Nat)
  /-- the next `d.open()`; whether `rtl.Open` works -/
  | tryOpen (c : Nat) (rtlOk : Bool)
  /-- the number of gains returned by `GetTunerGains`, `none` for an error -/
  | gains (c : Nat) (n : Option Nat)
  /-- the driver calls the callback, with a nil buffer or not -/
  | callback (c : Nat) (bufNil : Bool)

def Server.setConn (s : Server) (c : Nat) (x : Conn) : Server := { s with conns := Function.update s.conns c x }

/-- Where a connection goes after `stopStreaming`. -/
def After.next : After → Phase
  | .reply => .idle
  | k => .releasing k

/-- Where a connection goes after its device is closed. -/
def After.closed : After → Phase
  | .select => .listing
  | .finish => .gone
  | _ => .idle

/-- `device.close`, boripserver/devices.go:86-95 -/
def Server.closeDev (s : Server) (c d : Nat) : Server :=
  if (s.devs d).rtlDev = false then s
  else { s with devs := Function.update s.devs d ⟨false, false⟩, log := s.log ++ [.closed c d] }

/-- boripserver/main.go:303-308 and 224-227, 283-286, 418-420: one access of a goroutine inside
`stopStreaming` or after it. `cli.dev` is set to nil except at the end of `handleConnection`. -/
def Server.advance (s : Server) (c : Nat) : Option Server :=
  let x := s.conns c
  match x.phase with
  | .testing k => some (s.setConn c { x with phase := if x.closeChan = .nil then k.next else .closing k })
  | .closing k =>
    match x.closeChan with
    | .opened => some (s.setConn c { x with phase := k.next, closeChan := .closed })
    | .closed => some { s with panic := some .closeOfClosed }
    | .nil => some { s with panic := some .closeOfNil }
  | .releasing k =>
    match x.dev with
    | none => some (s.setConn c { x with phase := k.closed })
    | some d => some ((s.closeDev c d).setConn c { x with phase := k.closed, dev := if k = .finish then some d else none })
  | .opened d => some (s.setConn c { x with phase := .configuring, dev := some d })
  | _ => none

/-- boripserver/devices.go:81-82 -/
def Server.openDev (s : Server) (c d : Nat) : Server :=
  { s with devs := Function.update s.devs d ⟨true, true⟩, log := s.log ++ [.opened c d] }

/-- `device.open`, boripserver/devices.go:71-84, and the loop body boripserver/main.go:233-238 -/
def Server.tryOpen (s : Server) (c : Nat) (rtlOk : Bool) : Option Server :=
  let x := s.conns c
  match x.phase with
  | .opening [] => some (s.setConn c { x with phase := .idle })
  | .opening (d :: rest) =>
    if (s.devs d).inUse = true ∨ rtlOk = false then some (s.setConn c { x with phase := .opening rest })
    else some ((s.openDev c d).setConn c { x with phase := .opened d })
  | _ => none

/-- The callback's first statements, boripserver/main.go:335-345 -/
def Server.callback (s : Server) (c : Nat) (bufNil : Bool) : Option Server :=
  let x := s.conns c
  if x.async = false then none
  else if bufNil = true ∨ x.closeChan = .closed then some (s.setConn c { x with closeChan := .nil, async := false })
  else some s

/-- A command is taken up only by an idle connection. -/
def Server.command (s : Server) (c : Nat) (x : Conn) : Option Server :=
  if (s.conns c).phase = .idle then some (s.setConn c x) else none

/-- One step; `none` if it is not possible. -/
def Server.step (s : Server) (a : Action) : Option Server :=
  if s.panic.isSome then none else
  match a with
  | .connect c => if (s.conns c).phase = .absent then some (s.setConn c { s.conns c with phase := .idle }) else none
  -- boripserver/main.go:207-212
  | .stop c => s.command c { s.conns c with phase := if (s.conns c).closeChan = .nil then .idle else .testing .reply }
  -- boripserver/main.go:193-206, 310-326
  | .go c ok => s.command c (if (s.conns c).dev.isSome ∧ (s.conns c).closeChan = .nil ∧ ok = true
      then { s.conns c with closeChan := .opened, async := true } else s.conns c)
  -- boripserver/main.go:221-223
  | .select c => s.command c { s.conns c with phase := if (s.conns c).closeChan = .nil then .releasing .select else .testing .select }
  -- boripserver/main.go:280-282
  | .release c => s.command c { s.conns c with phase := if (s.conns c).closeChan = .nil then .releasing .release else .testing .release }
  -- boripserver/main.go:414-417
  | .disconnect c => s.command c { s.conns c with phase := .testing .finish }
  | .advance c => s.advance c
  | .list c l => if (s.conns c).phase = .listing then some (s.setConn c { s.conns c with phase := .opening l }) else none
  | .tryOpen c ok => s.tryOpen c ok
  | .gains c n => if (s.conns c).phase = .configuring then
      if n = some 0 ∨ n = some 1 then some { s with panic := some .index } else some (s.setConn c { s.conns c with phase := .idle })
    else none
  | .callback c b => s.callback c b

/-- An execution. -/
def Server.run (s : Server) : List Action → Option Server
  | [] => some s
  | a :: as => (s.step a).bind fun s => s.run as

end Verif.Borip
