import Verif.Model.Crowd
import Verif.Model.Programs
import Verif.Spec.Isolation
import Verif.Spec.Converse
/-! # What concerns one of many connections -/

namespace Verif.Spec
open Crowd Converse Handler

/-- What happens on the connection. -/
def logOf (k : Nat) (log : List (Nat × Ev)) : List Ev := log.filterMap fun x => if x.1 = k then some x.2 else none

/-- The events that concern the connection. -/
def eventsOf (k : Nat) (es : List Event) : List Event := es.filter fun e => e.conn == k

/-- The bytes that arrive on the connection, in pieces. -/
def arrivedOn (k : Nat) (es : List Event) : List Bytes :=
  es.filterMap fun
    | .arrive j piece => if j = k then some piece else none
    | _ => none

/-- No other goroutine uses the session of the connection. -/
def OwnCalls (k : Nat) (es : List Event) : Prop := (∀ e, Event.send k e ∉ es) ∧ ∀ e cb, Event.request k e cb ∉ es

/-- The terminal has hung up, and `pieces` begin with all that had arrived on the connection until then. -/
def HungUp (k : Nat) (es : List Event) (pieces : List Bytes) : Prop := ∃ es1 es2, es = es1 ++ .hangUp k :: es2 ∧ arrivedOn k es1 <+: pieces

/-- The answers of the loop, in order: serial number and message id of the message answered, and the result. -/
def answersIn (log : List Ev) : List (UInt16 × UInt16 × UInt8) :=
  log.filterMap fun
    | .replies serial id result => some (serial, id, result)
    | _ => none

/-- The message was given to the handler of its message id, if there is one. -/
def GivenTo {σ : Type} (P : Program σ) (log : List Ev) (d : Message Entity) : Prop :=
  match P.handlers d.header.msgID with
  | some h => .handled h d ∈ log
  | none => .unhandled d ∈ log

/-- The upload that is stored or merged. -/
def evUpload : Ev → Option Upload
  | .stored f _ _ _ => some ⟨f.icc, f.msgID, f.tag⟩
  | .merged f _ => some ⟨f.icc, f.msgID, f.tag⟩
  | _ => none

/-- The uploads on this connection are not those on others. -/
def Apart (k : Nat) (log : List (Nat × Ev)) : Prop :=
  ∀ x ∈ log, ∀ y ∈ log, x.1 = k → y.1 ≠ k → ∀ u, evUpload x.2 = some u → evUpload y.2 ≠ some u

/-- The loop of the connection has nothing to do until more arrives: it is over, or the terminal is there and all that `Receive` finds is the end of what has arrived. -/
def NothingToDo {σ : Type} (env : Env) (key : Option DecKey) (c : Crowd.Conn σ) : Prop :=
  c.place = .ended ∨ c.place = .waiting ∧ c.gone = false ∧ ∀ e, (Codec.receive (entityCodec env) key e c.recv).1 = .err e

/-- A client program at connection `k` of a server with other connections, given by the bytes it has sent when it has read the given pieces. `run` is what the
server does, `bytes` how its messages are written. `Crowded … es down`: the events `es` happen at the server, and the pieces `down` arrive at the client. On
the other connections anything happens. On this one nothing arrives that was not sent before, and everything in order, in pieces of at most 128 bytes; its loop
goes on whenever it likes, and its work on files succeeds. -/
inductive Crowded {σ : Type} (run : List Event → Res (Crowd.State σ × List (Nat × Ev))) (bytes : List (Message Entity) → Bytes) (client : List Bytes → Res Bytes)
    (k : Nat) : List Event → List Bytes → Prop where
  | start : Crowded run bytes client k [] []
  | other {es down e} : Crowded run bytes client k es down → e.conn ≠ k → Crowded run bytes client k (es ++ [e]) down
  | turn {es down} : Crowded run bytes client k es down → Crowded run bytes client k (es ++ [.turn k .ok]) down
  | toServer {es down b c} : Crowded run bytes client k es down → client down = .ok b → c.length ≤ 128 → (arrivedOn k es ++ [c]).flatten <+: b →
      Crowded run bytes client k (es ++ [.arrive k c]) down
  | toClient {es down s log c} : Crowded run bytes client k es down → run es = .ok (s, log) → c.length ≤ 128 →
      (down ++ [c]).flatten <+: bytes (sentIn (logOf k log)) → Crowded run bytes client k es (down ++ [c])

/-- Nothing is under way any more: the client has nothing more to send, everything sent has arrived, and the loop has nothing to do. -/
structure AllArrived {σ : Type} (env : Env) (key : Option DecKey) (bytes : List (Message Entity) → Bytes) (client : List Bytes → Res Bytes) (k : Nat)
    (es : List Event) (down : List Bytes) (s : Crowd.State σ) (log : List (Nat × Ev)) : Prop where
  up : client down = .ok (arrivedOn k es).flatten
  down : bytes (sentIn (logOf k log)) = down.flatten
  loop : NothingToDo env key (s.conns k)

end Verif.Spec
