import Verif.Model.Basic
/-! # server.go: creating, running and stopping a server

`Run` and `Stop` may be called from any goroutine. They share the field `server.server`, which no mutex guards; every access to it is one atomic step
here (Go's memory model promises less for such a race). `net.Listen` succeeds or fails; `Serve` of link accepts connections until the listener is closed
or accepting fails, and then returns an error; `Stop` of link closes the listener. -/

namespace Verif.Lifecycle

/-- server.go:17-22 `Options`: what `NewServer` looks at. The key is represented by the value of its method `Size`. -/
structure Options where
  keepalive : Int
  keySize : Option Nat := none
  deriving DecidableEq, Repr

/-- server.go:41-59 `NewServer`: the period of the timer and the size of the key, or `none` for an error. -/
def newServer (o : Options) : Option (Int × Option Nat) :=
  let keepalive := if o.keepalive ≤ 0 then 60 else o.keepalive
  match o.keySize with
  | some n => if n ≠ 128 then none else some (keepalive, some n)
  | none => some (keepalive, none)

/-- Where a goroutine is in `Run` or `Stop` (server.go:62-87). -/
inductive Place where
  /-- in neither -/
  | idle
  /-- `Run` after the check of line 64, before `net.Listen` -/
  | checked
  /-- `Run` after `net.Listen` returned the listener, before line 77 -/
  | bound (l : Nat)
  /-- in `Serve`, line 79 -/
  | serving (l : Nat)
  /-- `Stop` after the check of line 84 -/
  | halting
  /-- `Stop` before line 86 -/
  | clearing
  deriving DecidableEq, Repr

/-- The atomic steps of goroutine `i` (server.go:62-87). -/
inductive Event where
  /-- `Run` is called, server.go:63-65 -/
  | run (i : Nat)
  /-- `net.Listen` succeeds or fails, server.go:68-71 -/
  | listen (i : Nat) (ok : Bool)
  /-- server.go:73-78: the field is set and `Serve` called -/
  | serve (i : Nat)
  /-- `Serve` returns and with it `Run`: the listener was closed, or accepting failed -/
  | ends (i : Nat)
  /-- `Stop` is called, server.go:83 -/
  | stop (i : Nat)
  /-- server.go:84: the field is read again and link's `Stop` closes the listener -/
  | halt (i : Nat)
  /-- server.go:85 -/
  | clear (i : Nat)
  deriving DecidableEq, Repr

/-- What can be observed (results of server.go:62-87). -/
inductive Obs where
  /-- `Run` returns "server already running" -/
  | refused (i : Nat)
  /-- `Run` returns the error of `net.Listen` -/
  | failed (i : Nat)
  /-- the server accepts connections on the listener -/
  | started (i : Nat) (l : Nat)
  /-- `Run` returns the error of `Serve` -/
  | ended (i : Nat)
  /-- `Stop` returns -/
  | stopped (i : Nat)
  deriving DecidableEq, Repr

/-- The field `server.server` (the listener of the link server it points to), the listeners that are open, the number of listeners opened so far, and
the goroutines. -/
structure State where
  field : Option Nat := none
  opened : List Nat := []
  count : Nat := 0
  place : Nat → Place := fun _ => .idle

/-- Goroutine `i` moves (plumbing for server.go:62-87). -/
def goto (p : Nat → Place) (i : Nat) (x : Place) : Nat → Place := fun j => if j = i then x else p j

/-- One step; steps a goroutine cannot take where it is do nothing (server.go:62-87). -/
def State.step (s : State) : Event → Res (State × List Obs)
  | .run i =>
    match s.place i, s.field with
    | .idle, some _ => .ok (s, [.refused i])
    | .idle, none => .ok ({ s with place := goto s.place i .checked }, [])
    | _, _ => .ok (s, [])
  | .listen i ok =>
    match s.place i with
    | .checked =>
      if ok then .ok ({ s with opened := s.count :: s.opened, count := s.count + 1, place := goto s.place i (.bound s.count) }, [])
      else .ok ({ s with place := goto s.place i .idle }, [.failed i])
    | _ => .ok (s, [])
  | .serve i =>
    match s.place i with
    | .bound l => .ok ({ s with field := some l, place := goto s.place i (.serving l) }, [.started i l])
    | _ => .ok (s, [])
  | .ends i =>
    match s.place i with
    | .serving _ => .ok ({ s with place := goto s.place i .idle }, [.ended i])
    | _ => .ok (s, [])
  | .stop i =>
    match s.place i, s.field with
    | .idle, some _ => .ok ({ s with place := goto s.place i .halting }, [])
    | .idle, none => .ok (s, [.stopped i])
    | _, _ => .ok (s, [])
  | .halt i =>
    match s.place i, s.field with
    | .halting, some l => .ok ({ s with opened := s.opened.filter (· ≠ l), place := goto s.place i .clearing }, [])
    | .halting, none => .panic
    | _, _ => .ok (s, [])
  | .clear i =>
    match s.place i with
    | .clearing => .ok ({ s with field := none, place := goto s.place i .idle }, [.stopped i])
    | _ => .ok (s, [])

/-- A schedule. A panic ends the process (any interleaving of server.go:62-87). -/
def State.run (s : State) : List Event → Res (State × List Obs)
  | [] => .ok (s, [])
  | ev :: evs => do
    let (s, x) ← s.step ev
    let (s, y) ← s.run evs
    .ok (s, x ++ y)

end Verif.Lifecycle
