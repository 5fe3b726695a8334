import Verif.Borip.ServerModel

/-!
# The memory accesses of boripserver

The state machine of `ServerModel` with the accesses to shared memory and the synchronising operations that
each step performs, in order. Besides the steps of `ServerModel` there are steps for the commands that only
use the device or the destination, and one for every device `deviceList` looks at.

Assumptions and simplifications: `rtlDev.ReadAsync` starts one thread for each stream, and the calls of the
callback are made one after another on it (the driver package is not part of the repository);
`devicesMutex` is left out, for the code only takes it for reading, and that orders nothing
(boripserver/devices.go:56); the reads of `closeChan` in GO (boripserver/main.go:200, 311) are one step, as
in `ServerModel`; the variables of the callback (`bufOut`, `first`, `seq`, `conn`) are one place in memory,
and so are the map of devices and the fields of a device that never change; what the packages `net`,
`bufio` and `log` do inside is left out.
-/

namespace Verif.Borip

/-- The goroutines and threads. -/
inductive Thread where
  /-- `init` and `main` -/
  | main
  /-- the goroutine that accepts connections, boripserver/main.go:445-455 -/
  | accept
  /-- the goroutine of a connection, boripserver/main.go:453 -/
  | conn (c : Nat)
  /-- the thread on which the driver calls the callback of the connection's `n`-th stream -/
  | stream (c n : Nat)
  deriving DecidableEq

/-- The places in memory. -/
inductive Loc where
  /-- `devices`, and `name` and `rtlIndex` of the devices, boripserver/devices.go:19-20, 32 -/
  | table
  /-- `device.inUse`, boripserver/devices.go:24 -/
  | inUse (d : Nat)
  /-- `device.rtlDev`, boripserver/devices.go:23 -/
  | rtlDev (d : Nat)
  /-- `client.dev`, boripserver/main.go:78 -/
  | dev (c : Nat)
  /-- `client.dest`, boripserver/main.go:77 -/
  | dest (c : Nat)
  /-- `client.closeChan`, boripserver/main.go:79 -/
  | closeChan (c : Nat)
  /-- the variables of the callback of the connection's `n`-th stream, boripserver/main.go:318, 327-331 -/
  | packet (c n : Nat)
  deriving DecidableEq

/-- What a thread does to memory, or to order itself with others. -/
inductive MemOp where
  | read (l : Loc)
  | write (l : Loc)
  /-- `dev.mutex.Lock()` -/
  | lock (d : Nat)
  /-- `dev.mutex.Unlock()` -/
  | unlock (d : Nat)
  /-- a `go` statement, or the driver starting its thread -/
  | spawn (t : Thread)
  /-- `close` of the channel of the connection's `n`-th stream -/
  | close (c n : Nat)
  /-- a receive from that channel that returns because it is closed -/
  | received (c n : Nat)
  deriving DecidableEq

structure MemEv where
  thread : Thread
  op : MemOp
  deriving DecidableEq

/-- The server, how many streams each connection has started, and what was done so far. -/
structure RServer where
  srv : Server
  streams : Nat → Nat
  trace : List MemEv

/-- boripserver/devices.go:35-53, run before `main`, and the `go` statement boripserver/main.go:445 -/
def RServer.init : RServer where
  srv := .init
  streams := fun _ => 0
  trace := [⟨.main, .write .table⟩, ⟨.main, .spawn .accept⟩]

/-- The steps. -/
inductive RAction where
  | base (a : Action)
  /-- FREQ, RATE and GAIN, boripserver/main.go:103-129, 138-180 -/
  | tune (c : Nat)
  /-- DEST, without or with an address, boripserver/main.go:181-192 -/
  | dest (c : Nat) (set : Bool)
  /-- `deviceList` comes to a device, boripserver/devices.go:60-66 -/
  | scan (c d : Nat)

/-- Whether GO starts a stream, as in `Server.step`. -/
def Server.starts (s : Server) (c : Nat) (ok : Bool) : Bool :=
  decide ((s.conns c).phase = .idle ∧ (s.conns c).dev.isSome ∧ (s.conns c).closeChan = .nil ∧ ok = true)

/-- `device.close`, boripserver/devices.go:86-95: the mutex is held until the end. -/
def Server.closeOps (s : Server) (d : Nat) : List MemOp :=
  .lock d :: .read (.rtlDev d) :: (if (s.devs d).rtlDev then [.write (.rtlDev d), .write (.inUse d)] else []) ++ [.unlock d]

/-- `device.open`, boripserver/devices.go:71-84 -/
def Server.openOps (s : Server) (d : Nat) (rtlOk : Bool) : List MemOp :=
  .lock d :: .read (.inUse d) :: (if (s.devs d).inUse = true ∨ rtlOk = false then [.unlock d]
    else [.read .table, .write (.inUse d), .write (.rtlDev d), .unlock d])

/-- The uses of `cli.dev.rtlDev` outside the mutex. -/
def useOps (c : Nat) : Option Nat → List MemOp
  | none => [.read (.dev c)]
  | some d => [.read (.dev c), .read (.rtlDev d)]

/-- What `Server.advance` does to memory. -/
def Server.advanceOps (s : Server) (c n : Nat) : List MemOp :=
  match (s.conns c).phase with
  -- boripserver/main.go:304
  | .testing _ => [.read (.closeChan c)]
  -- boripserver/main.go:307
  | .closing _ => .read (.closeChan c) :: if (s.conns c).closeChan = .opened then [.close c (n - 1)] else []
  -- boripserver/main.go:224-227, 283-286, 418-420
  | .releasing k =>
    .read (.dev c) :: match (s.conns c).dev with
      | none => []
      | some d => s.closeOps d ++ if k = .finish then [] else [.write (.dev c)]
  -- boripserver/main.go:245-254
  | .opened d => [.write (.dev c), .read (.rtlDev d)]
  | _ => []

/-- What GO does to memory, boripserver/main.go:193-206, 310-334. With `ok` false, `ResetBuffer` fails. -/
def Server.goOps (s : Server) (c n : Nat) (ok : Bool) : List MemOp :=
  .read (.dest c) :: .read (.dev c) :: match (s.conns c).dev with
    | none => []
    | some d => .read (.closeChan c) :: if (s.conns c).closeChan = .nil then
        .read (.dest c) :: .read (.dev c) :: .read (.rtlDev d) :: (if ok then
          [.write (.closeChan c), .write (.packet c n), .read (.dev c), .read (.rtlDev d), .spawn (.stream c n)] else [])
      else []

/-- The callback, boripserver/main.go:334-370 -/
def Server.callbackOps (s : Server) (c n : Nat) (bufNil : Bool) : List MemOp :=
  if bufNil = true then [.write (.closeChan c)]
  else .read (.closeChan c) :: if (s.conns c).closeChan = .closed then [.received c n, .write (.closeChan c)]
    else [.read (.packet c n), .write (.packet c n)]

def onThread (t : Thread) (l : List MemOp) : List MemEv := l.map (MemEv.mk t)

/-- What a step does to memory. `n` is the number of streams its connection has started. -/
def Server.ops (s : Server) (n : Nat → Nat) : Action → List MemEv
  -- boripserver/main.go:447-453, 402-413
  | .connect c => ⟨.accept, .spawn (.conn c)⟩ :: onThread (.conn c) [.write (.dev c), .write (.closeChan c), .write (.dest c)]
  -- boripserver/main.go:208, 221, 280
  | .stop c | .select c | .release c => onThread (.conn c) [.read (.closeChan c)]
  | .go c ok => onThread (.conn c) (s.goOps c (n c) ok)
  -- boripserver/main.go:380-383: nothing shared
  | .disconnect _ => []
  | .advance c => onThread (.conn c) (s.advanceOps c (n c))
  -- boripserver/devices.go:59
  | .list c _ => onThread (.conn c) [.read .table]
  | .tryOpen c ok => onThread (.conn c) (match (s.conns c).phase with
      | .opening (d :: _) => s.openOps d ok
      | _ => [])
  -- boripserver/main.go:258-272
  | .gains c _ => onThread (.conn c) (match (s.conns c).dev with
      | some d => [.read (.rtlDev d), .read .table]
      | none => [])
  | .callback c b => onThread (.stream c (n c - 1)) (s.callbackOps c (n c - 1) b)

/-- How many streams each connection has started after a step. -/
def Server.streamsAfter (s : Server) (n : Nat → Nat) : Action → Nat → Nat
  | .go c ok => if s.starts c ok then Function.update n c (n c + 1) else n
  | _ => n

/-- One step; `none` if it is not possible. -/
def RServer.step (r : RServer) : RAction → Option RServer
  | .base a => (r.srv.step a).map fun s => ⟨s, r.srv.streamsAfter r.streams a, r.trace ++ r.srv.ops r.streams a⟩
  | .tune c => if r.srv.panic = none ∧ (r.srv.conns c).phase = .idle then
      some { r with trace := r.trace ++ onThread (.conn c) (useOps c (r.srv.conns c).dev) } else none
  | .dest c set => if r.srv.panic = none ∧ (r.srv.conns c).phase = .idle then
      some { r with trace := r.trace ++ onThread (.conn c) [if set then .write (.dest c) else .read (.dest c)] } else none
  | .scan c d => if r.srv.panic = none ∧ (r.srv.conns c).phase = .listing then
      some { r with trace := r.trace ++ onThread (.conn c) [.read .table, .lock d, .read (.inUse d), .unlock d] } else none

/-- An execution. -/
def RServer.run (r : RServer) : List RAction → Option RServer
  | [] => some r
  | a :: as => (r.step a).bind fun r => r.run as

end Verif.Borip
