import Verif.Borip.ServerModel

/-!
# Model of starting and stopping streams in boripserver/main.go

`ServerModel` with what it leaves out of GO, STOP and DEST: the destination, the UDP sockets, the replies to
GO and STOP, and the datagrams, which the callback sends one by one while other goroutines go on. An address
is a number. No code closes a socket of a stream, so the list of sockets only grows; that the garbage
collector may close a socket nobody refers to is left out. The contents of the datagrams are in
`StreamModel`.
-/

namespace Verif.Borip

/-- The two commands whose replies are recorded. -/
inductive Cmd where
  | go
  | stop
  deriving DecidableEq

/-- The first word of the reply, boripserver/main.go:193-212. -/
inductive Ans where
  | ok
  | running
  | stopped
  | fail
  | device
  deriving DecidableEq

structure Full where
  srv : Server
  /-- `cli.dest`, boripserver/main.go:77 -/
  dest : Nat → Option Nat
  /-- the sockets dialled so far, by their destination, boripserver/main.go:318 -/
  sockets : List Nat
  /-- the `conn` captured by the callback of a connection, as a position in `sockets` -/
  sock : Nat → Nat
  /-- the datagrams that the callback in progress has still to send, boripserver/main.go:347 -/
  busy : Nat → Nat
  /-- the datagrams sent: connection and destination -/
  sent : List (Nat × Nat)
  replies : List (Nat × Cmd × Ans)

def Full.init : Full := ⟨Server.init, fun _ => none, [], fun _ => 0, fun _ => 0, [], []⟩

inductive FAction where
  /-- a client connects; its address, if it is a TCP address, boripserver/main.go:407-413 -/
  | connect (c : Nat) (remote : Option Nat)
  /-- DEST with an address, and what it resolves to, boripserver/main.go:183-192 -/
  | dest (c : Nat) (addr : Option Nat)
  /-- GO; whether `DialUDP` and `ResetBuffer` work -/
  | go (c : Nat) (dial reset : Bool)
  /-- the driver calls the callback with no buffer or one of `packets` packets -/
  | callback (c : Nat) (bufNil : Bool) (packets : Nat)
  /-- the callback sends the next datagram -/
  | send (c : Nat)
  /-- STOP -/
  | stop (c : Nat)
  /-- the next access of a goroutine in the middle of a command -/
  | advance (c : Nat)
  /-- the other steps of `ServerModel` -/
  | select (c : Nat)
  | release (c : Nat)
  | disconnect (c : Nat)
  | list (c : Nat) (devices : List Nat)
  | tryOpen (c : Nat) (rtlOk : Bool)
  | gains (c : Nat) (n : Option Nat)

def Full.reply (s : Full) (c : Nat) (cmd : Cmd) (r : Ans) : Full := { s with replies := s.replies ++ [(c, cmd, r)] }

/-- A step of the server that leaves the rest alone. -/
def Full.lift (s : Full) (a : Action) : Option Full := (s.srv.step a).map fun srv => { s with srv := srv }

/-- boripserver/main.go:193-206 with `startStreaming`, boripserver/main.go:310-332 -/
def Full.go (s : Full) (c : Nat) (dial reset : Bool) : Option Full :=
  if s.srv.panic.isSome ∨ (s.srv.conns c).phase ≠ .idle then none
  else
    match s.dest c with
    | none => some (s.reply c .go .fail)
    | some a =>
      if (s.srv.conns c).dev = none then some (s.reply c .go .device)
      else if (s.srv.conns c).closeChan ≠ .nil then some (s.reply c .go .running)
      else if dial = false then some (s.reply c .go .fail)
      else if reset = false then some ({ s with sockets := s.sockets ++ [a] }.reply c .go .fail)
      else (s.srv.step (.go c true)).map fun srv =>
        { s with srv := srv, sockets := s.sockets ++ [a], sock := Function.update s.sock c s.sockets.length }.reply c .go .ok

/-- boripserver/main.go:335-345, the beginning of the callback; the driver calls it again only after it has
returned -/
def Full.callback (s : Full) (c : Nat) (bufNil : Bool) (packets : Nat) : Option Full :=
  if s.busy c ≠ 0 then none
  else (s.srv.step (.callback c bufNil)).map fun srv =>
    { s with srv := srv, busy := Function.update s.busy c (if (srv.conns c).async then packets else 0) }

/-- boripserver/main.go:359, one datagram -/
def Full.send (s : Full) (c : Nat) : Option Full :=
  if s.srv.panic.isSome then none
  else
    match s.busy c with
    | 0 => none
    | k + 1 => (s.sockets[s.sock c]?).map fun a => { s with busy := Function.update s.busy c k, sent := s.sent ++ [(c, a)] }

/-- boripserver/main.go:207-212 -/
def Full.stop (s : Full) (c : Nat) : Option Full :=
  (s.srv.step (.stop c)).map fun srv =>
    if (srv.conns c).phase = .idle then { s with srv := srv }.reply c .stop .stopped else { s with srv := srv }

/-- A goroutine goes on; the end of `stopStreaming` in STOP is followed by the reply, boripserver/main.go:211-212 -/
def Full.advance (s : Full) (c : Nat) : Option Full :=
  (s.srv.step (.advance c)).map fun srv =>
    if ((s.srv.conns c).phase = .testing .reply ∨ (s.srv.conns c).phase = .closing .reply) ∧ (srv.conns c).phase = .idle
    then { s with srv := srv }.reply c .stop .ok else { s with srv := srv }

/-- One step; `none` if it is not possible. -/
def Full.step (s : Full) : FAction → Option Full
  | .connect c remote => (s.srv.step (.connect c)).map fun srv => { s with srv := srv, dest := Function.update s.dest c remote }
  | .dest c addr => if s.srv.panic.isSome ∨ (s.srv.conns c).phase ≠ .idle then none else
      match addr with
      | none => some s
      | some a => some { s with dest := Function.update s.dest c (some a) }
  | .go c dial reset => s.go c dial reset
  | .callback c bufNil packets => s.callback c bufNil packets
  | .send c => s.send c
  | .stop c => s.stop c
  | .advance c => s.advance c
  | .select c => s.lift (.select c)
  | .release c => s.lift (.release c)
  | .disconnect c => s.lift (.disconnect c)
  | .list c l => s.lift (.list c l)
  | .tryOpen c ok => s.lift (.tryOpen c ok)
  | .gains c n => s.lift (.gains c n)

/-- An execution. -/
def Full.run (s : Full) : List FAction → Option Full
  | [] => some s
  | a :: as => (s.step a).bind fun s => s.run as

end Verif.Borip
