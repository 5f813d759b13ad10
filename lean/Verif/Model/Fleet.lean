import Verif.Model.Outbox
/-! # The connections of a server and the bodies they share

`Model/Outbox.lean` has one connection, to which the others are unknown. Here are all of them: a body may be sent to several sessions, by `Broadcast`
(server.go:106-121) or one by one, and then all their send loops encode the same object. `Broadcast` calls `Send` for one session after the other; its
calls are among the calls considered. -/

namespace Verif.Fleet

variable {E : Type}

/-- The objects of the program, and for each session what `Model/Outbox.lean` has (session.go:80, protocol.go:60-98); `heap` and `crashed` of a
connection are not used, those of the process are. -/
structure State (E : Type) where
  heap : Nat → E
  conns : Nat → Outbox.State E
  /-- a panic in a send loop ended the process -/
  crashed : Bool := false

/-- The steps: of the program, and those of `Outbox.Event` for each session (session.go:80, protocol.go:60-98, session.go:115-117). -/
inductive Event (E : Type) where
  /-- the program assigns to an object -/
  | write (r : Nat) (e : E)
  | on (k : Nat) (ev : Outbox.Event E)
  deriving DecidableEq, Repr

/-- A connection with the objects it shares with the others (session.go:80, protocol.go:60-98). -/
def State.conn (s : State E) (k : Nat) : Outbox.State E := { s.conns k with heap := s.heap, crashed := s.crashed }

/-- One step on connection `k` (session.go:80, protocol.go:60-98). -/
def State.stepOn (C : BodyCodec E) (keys : Nat → Option EncKey) (s : State E) (k : Nat) (ev : Outbox.Event E) :
    State E × List (Nat × Outbox.Obs E) :=
  let t := (s.conn k).step C (keys k) ev
  ({ heap := t.1.heap, conns := Outbox.update s.conns k t.1, crashed := t.1.crashed }, t.2.map fun o => (k, o))

/-- One step. `keys` are the public keys of the terminals. What others do to the objects happens on their connections, so that these events of
`Model/Outbox.lean` do nothing here. (session.go:80, protocol.go:60-98.) -/
def State.step (C : BodyCodec E) (keys : Nat → Option EncKey) (s : State E) : Event E → State E × List (Nat × Outbox.Obs E)
  | .write r e => (if s.crashed then s else { s with heap := Outbox.update s.heap r e }, [])
  | .on k ev =>
    match ev with
    | .write _ _ => (s, [])
    | .encodeElsewhere _ => (s, [])
    | ev => s.stepOn C keys k ev

/-- A schedule of the steps of session.go:80 and protocol.go:60-98. -/
def State.run (C : BodyCodec E) (keys : Nat → Option EncKey) (s : State E) : List (Event E) → State E × List (Nat × Outbox.Obs E)
  | [] => (s, [])
  | ev :: evs =>
    let r := s.step C keys ev
    let r' := State.run C keys r.1 evs
    (r'.1, r.2 ++ r'.2)

/-- Fresh connections (protocol.go:20-29). -/
def State.init (heap : Nat → E) : State E := { heap, conns := fun _ => .init heap }

end Verif.Fleet
