import Verif.Model.World
/-! # server.go: stopping a server that has sessions

`Model/Lifecycle.lean` has the calls of `Run` and `Stop`, and `Model/World.lean` the sessions. Here is what `Stop` does to the sessions: the whole server of
`Model/World.lean`, with the part of github.com/funny/link that accepts connections and that `Stop` calls. One `Run` and one `Stop` are modelled.

link is not part of the repository. Its behaviour is modelled as follows: a goroutine is started for every accepted connection; it makes a session and enters it
into one of 32 maps, by its number, under the mutex of the map, or closes it at once if the map is marked; the number is given in the same step here. `Stop` closes the
listener, then marks the maps one after the other and closes the sessions in them, holding the mutex of the map, and then waits until no session is left in
the maps. The goroutine that `Close` starts takes the session out of its map when the close callbacks have returned. -/

namespace Verif.Shutdown

/-- The number of maps that link spreads its sessions over (link.NewServer, server.go:76). -/
def maps : Nat := 32

/-- How far the call of `Stop` is (server.go:84). -/
inductive Phase where
  /-- not called -/
  | serving
  /-- the listener is closed, `i` maps are done -/
  | between (i : Nat)
  /-- the mutex of map `i` is held and the map is marked, these sessions in it are still to be closed -/
  | closing (i : Nat) (left : List Nat)
  /-- it waits for the sessions to be taken out of the maps -/
  | waiting
  /-- it has returned -/
  | returned
  deriving DecidableEq, Repr

/-- The server (server.go:25-36), the number of goroutines for connections that have no session yet, and the sessions in the maps of link (server.go:76-78). -/
structure State where
  world : World.State
  arriving : Nat := 0
  held : List Nat := []
  phase : Phase := .serving

/-- What can be observed (server.go:62-192). -/
inductive Obs where
  | world (o : World.Obs)
  /-- a connection is accepted -/
  | connected
  /-- `Stop` is called -/
  | stopping
  /-- `Stop` returns -/
  | stopped
  deriving DecidableEq, Repr

/-- The steps (server.go:62-192, session_handler.go:19-114). -/
inductive Event where
  /-- a connection is accepted, server.go:78 -/
  | connect
  /-- its goroutine makes the session and enters it into the map, server.go:78 -/
  | enter
  /-- the goroutine that closes session `k` takes it out of the map, session.go:116 -/
  | release (k : Nat)
  /-- `Stop` is called and closes the listener, server.go:83-84 -/
  | stop
  /-- it takes the mutex of the next map, or has done all of them, server.go:84 -/
  | lock
  /-- it closes one of the sessions in the map, server.go:84 -/
  | closeNext (k : Nat)
  /-- it gives the mutex back, server.go:84 -/
  | unlock
  /-- it has waited long enough and returns, server.go:84-87 -/
  | finish
  /-- a step of anything else, see `World.Event`; sessions are accepted by `enter` -/
  | world (e : World.Event)
  deriving DecidableEq, Repr

/-- The map that session `k` belongs to is marked (server.go:84). -/
def Phase.marked (k : Nat) : Phase → Bool
  | .serving => false
  | .between i => k % maps < i
  | .closing i _ => k % maps ≤ i
  | .waiting => true
  | .returned => true

/-- `Stop` holds the mutex of the map that session `k` belongs to (server.go:84). -/
def Phase.locked (k : Nat) : Phase → Bool
  | .closing i _ => k % maps = i
  | _ => false

/-- The close callbacks of session `k` have returned (session.go:115-117 with server.go:131-150). -/
def closeReturned (s : Server.State) (k : Nat) : Bool :=
  match s.sessions k with
  | some x => x.closer == .done || x.closer == .skipped
  | none => false

/-- A step of the rest of the server (server.go:90-192). -/
def State.onWorld (env : Env) (key : Option DecKey) (endErr : Err) (auto : Bool) (s : State) (e : World.Event) : Res (State × List Obs) := do
  let (w, x) ← s.world.step env key endErr auto e
  .ok ({ s with world := w }, x.map .world)

/-- A session is made for a connection that was accepted (server.go:78). -/
def State.enter (env : Env) (key : Option DecKey) (endErr : Err) (auto : Bool) (s : State) : Res (State × List Obs) := do
  let k := s.world.server.count + 1
  let (t, x) ← s.onWorld env key endErr auto .accept
  if s.phase.marked k then do
    let (t, y) ← t.onWorld env key endErr auto (.move k .close)
    .ok ({ t with arriving := t.arriving - 1 }, x ++ y)
  else .ok ({ t with arriving := t.arriving - 1, held := k :: t.held }, x)

/-- One step; a goroutine that is not at the point, or that waits for a mutex, does nothing (server.go:62-192). -/
def State.step (env : Env) (key : Option DecKey) (endErr : Err) (auto : Bool) (s : State) : Event → Res (State × List Obs)
  | .connect => if s.phase = .serving then .ok ({ s with arriving := s.arriving + 1 }, [.connected]) else .ok (s, [])
  | .enter =>
    if s.arriving = 0 ∨ s.phase.locked (s.world.server.count + 1) then .ok (s, []) else s.enter env key endErr auto
  | .release k =>
    if s.phase.locked k = false ∧ closeReturned s.world.server k then .ok ({ s with held := s.held.filter (· ≠ k) }, []) else .ok (s, [])
  | .stop => if s.phase = .serving then .ok ({ s with phase := .between 0 }, [.stopping]) else .ok (s, [])
  | .lock =>
    match s.phase with
    | .between i =>
      if i < maps then .ok ({ s with phase := .closing i (s.held.filter fun k => k % maps = i) }, []) else .ok ({ s with phase := .waiting }, [])
    | _ => .ok (s, [])
  | .closeNext k =>
    match s.phase with
    | .closing i left =>
      if k ∈ left then do
        let (t, x) ← s.onWorld env key endErr auto (.move k .close)
        .ok ({ t with phase := .closing i (left.filter (· ≠ k)) }, x)
      else .ok (s, [])
    | _ => .ok (s, [])
  | .unlock =>
    match s.phase with
    | .closing i [] => .ok ({ s with phase := .between (i + 1) }, [])
    | _ => .ok (s, [])
  | .finish => if s.phase = .waiting ∧ s.held = [] then .ok ({ s with phase := .returned }, [.stopped]) else .ok (s, [])
  | .world .accept => .ok (s, [])
  | .world e => s.onWorld env key endErr auto e

/-- A schedule (any interleaving of server.go:62-192 and session_handler.go:19-114). -/
def State.run (env : Env) (key : Option DecKey) (endErr : Err) (auto : Bool) (s : State) : List Event → Res (State × List Obs)
  | [] => .ok (s, [])
  | e :: es => do
    let (s, x) ← s.step env key endErr auto e
    let (s, y) ← s.run env key endErr auto es
    .ok (s, x ++ y)

/-- A new server that runs (server.go:41-59, 63-78); the connections will deliver the bytes `reads k`, unless they are closed before. -/
def start (server : Server.State) (reads : Nat → List Bytes) : State := { world := World.start server reads }

end Verif.Shutdown
