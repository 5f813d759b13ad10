import Verif.Model.Server
import Verif.Model.System
/-! # The whole server

`Model/Server.lean` describes how sessions are accepted, kept alive and closed, and `Model/System.lean` what their receive loops do with the bytes of their
connections. Here both are one state machine: the loops read the connections of the sessions, a handled message restarts the keepalive period, and a closed
session delivers no more bytes. The number of a connection is the id of its session. Sending is not part of it (`Model/Outbox.lean`); that a failed `Send`
closes the session is among the calls of `Close` by anyone at any time. -/

namespace Verif.World
open Handler Session

/-- How far the loop of a session is with a message for which it has found a handler (server.go:177-191). -/
inductive Busy where
  | idle
  /-- the handler is found, `timer.Update` is not finished -/
  | chosen (h : Nat) (m : Message Entity)
  /-- the handler is running -/
  | running (h : Nat) (m : Message Entity)
  deriving DecidableEq, Repr

/-- The server (server.go:25-36) with the loops of its sessions (session_handler.go:19-114). -/
structure State where
  server : Server.State
  sys : System.State
  busy : Nat → Busy := fun _ => .idle

/-- What can be observed (server.go:90-192, session_handler.go:19-114). -/
inductive Obs where
  | server (o : Server.Obs)
  /-- the loop of session `k` does something -/
  | act (k : Nat) (a : Act)
  /-- `Receive` returns a message to the loop of session `k` -/
  | received (k : Nat) (m : Message Entity)
  /-- the handler is called -/
  | called (k : Nat) (h : Nat) (m : Message Entity)
  /-- the handler has returned or panicked -/
  | returned (k : Nat) (h : Nat) (u : UserCode)
  deriving DecidableEq, Repr

/-- The steps (server.go:90-192, session_handler.go:19-114, timer.go:121-153). -/
inductive Event where
  /-- link accepts a connection -/
  | accept
  /-- a step of or on a session, see `Server.Move`; `leave`, and restarting the period for a message, are part of the steps of the loop -/
  | move (k : Nat) (m : Server.Move)
  | tick (now : Int)
  | lookup
  | closeFound
  /-- `Receive` returns, session_handler.go:36 -/
  | receive (k : Nat)
  /-- session_handler.go:44-93 -/
  | process (k : Nat) (o : Outcome) (u : UserCode)
  /-- session_handler.go:94-96 -/
  | check (k : Nat)
  /-- session_handler.go:98-109 -/
  | merge (k : Nat) (o : Outcome)
  /-- session_handler.go:110 -/
  | note (k : Nat) (u : UserCode)
  /-- `dispatchMessage` looks for the handler and, if there is one, `timer.Update` reads the clock, server.go:177-190 -/
  | dispatch (k : Nat) (now : Int)
  /-- the handler is called, server.go:191 -/
  | call (k : Nat)
  /-- it ends like this -/
  | finish (k : Nat) (u : UserCode)
  /-- server.go:124-128 `AddHandler` -/
  | addHandler (id : UInt16) (h : Option Nat)
  /-- session.go:105 `addRequestContext` on session `k` -/
  | addRequest (k : Nat) (r : Pending)
  deriving DecidableEq, Repr

/-- The goroutine of session `k` is in its loop (session_handler.go:34). -/
def inLoop (s : Server.State) (k : Nat) : Bool :=
  match s.sessions k with
  | some x => x.place == .looping
  | none => false

/-- The session was closed (session.go:115-117). -/
def isClosed (s : Server.State) (k : Nat) : Bool :=
  match s.sessions k with
  | some x => x.closed
  | none => false

/-- Connection `k` delivers nothing more: reading a closed connection fails (protocol.go:112). -/
def hangUp (s : System.State) (k : Nat) : System.State :=
  s.put k { s.conns k with recv := { (s.conns k).recv with reads := [] } }

/-- A step of `Model/Server.lean` (server.go:90-192). -/
def State.onServer (s : State) (e : Server.Event) : Res (State × List Obs) := do
  let (t, o) ← s.server.step e
  .ok ({ s with server := t }, o.map .server)

/-- A step of `Model/System.lean` (session_handler.go:34-113). -/
def State.onSystem (env : Env) (key : Option DecKey) (endErr : Err) (auto : Bool) (s : State) (e : System.Event) : Res (State × List Obs) := do
  let (t, x) ← s.sys.step env key endErr auto e
  .ok ({ s with sys := t }, x.map fun a => .act a.1 a.2)

/-- session_handler.go:36-40. A message that is already in the buffer is returned even if the connection is closed (protocol.go:102-108). -/
def State.receive (env : Env) (key : Option DecKey) (endErr : Err) (auto : Bool) (s : State) (k : Nat) : Res (State × List Obs) := do
  let s := if isClosed s.server k then { s with sys := hangUp s.sys k } else s
  let (s, x) ← s.onSystem env key endErr auto (.receive k)
  match (s.sys.conns k).place with
  | .received m => .ok (s, x ++ [.received k m])
  | .ended => do
    let (s, y) ← s.onServer (.move k .leave)
    .ok (s, x ++ y)
  | _ => .ok (s, x)

/-- server.go:177-190: the handler is looked up; if there is one, `timer.Update` reads the clock. -/
def State.dispatch (env : Env) (key : Option DecKey) (endErr : Err) (auto : Bool) (s : State) (k : Nat) (now : Int) (m : Message Entity) :
    Res (State × List Obs) := do
  let (s', x) ← s.onSystem env key endErr auto (.dispatch k .returns)
  match s.sys.handlers m.header.msgID with
  | none => .ok (s', x)
  | some h => do
    let (s'', y) ← s'.onServer (.move k (.restart now))
    .ok ({ s'' with busy := fun j => if j = k then .chosen h m else s''.busy j }, y ++ x)

/-- One step; a goroutine that is not at the point does nothing. A panic that is not recovered ends the process. (server.go:90-192,
session_handler.go:19-114) -/
def State.step (env : Env) (key : Option DecKey) (endErr : Err) (auto : Bool) (s : State) : Event → Res (State × List Obs)
  | .accept => s.onServer .accept
  | .move _ .leave => .ok (s, [])
  | .move k (.restart now) => if inLoop s.server k then .ok (s, []) else s.onServer (.move k (.restart now))
  | .move k m => s.onServer (.move k m)
  | .tick now => s.onServer (.tick now)
  | .lookup => s.onServer .lookup
  | .closeFound => s.onServer .closeFound
  | .receive k =>
    if inLoop s.server k ∧ s.busy k = .idle ∧ (s.sys.conns k).place = .waiting then s.receive env key endErr auto k else .ok (s, [])
  | .process k o u => s.onSystem env key endErr auto (.process k o u)
  | .check k => s.onSystem env key endErr auto (.check k)
  | .merge k o => s.onSystem env key endErr auto (.merge k o)
  | .note k u => s.onSystem env key endErr auto (.note k u)
  | .dispatch k now =>
    match (s.sys.conns k).place with
    | .noted m => s.dispatch env key endErr auto k now m
    | _ => .ok (s, [])
  | .call k =>
    match s.busy k with
    | .chosen h m =>
      if inLoop s.server k then .ok ({ s with busy := fun j => if j = k then .running h m else s.busy j }, [.called k h m]) else .ok (s, [])
    | _ => .ok (s, [])
  | .finish k u =>
    match s.busy k with
    | .running h _ => do
      let _ ← recovered u.call
      .ok ({ s with busy := fun j => if j = k then .idle else s.busy j }, [.returned k h u])
    | _ => .ok (s, [])
  | .addHandler id h => s.onSystem env key endErr auto (.addHandler id h)
  | .addRequest k r => s.onSystem env key endErr auto (.addRequest k r)

/-- A schedule (any interleaving of server.go:90-192, session_handler.go:19-114 and timer.go:121-153). -/
def State.run (env : Env) (key : Option DecKey) (endErr : Err) (auto : Bool) (s : State) : List Event → Res (State × List Obs)
  | [] => .ok (s, [])
  | e :: es => do
    let (s, x) ← s.step env key endErr auto e
    let (s, y) ← s.run env key endErr auto es
    .ok (s, x ++ y)

/-- A new server (server.go:41-59) to which the connections will deliver the bytes `reads k`, unless they are closed before. -/
def start (server : Server.State) (reads : Nat → List Bytes) : State := { server, sys := System.start reads }

end Verif.World
