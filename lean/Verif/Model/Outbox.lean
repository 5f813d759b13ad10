import Verif.Model.Codec
/-! # The way of a message from `Session.Send` to the connection

`session.session.Send(message)` (session.go:80) is a method of github.com/funny/link: it puts the message into a channel of 24 places
(server.go:76) from which the send loop of the connection takes messages and calls `ProtocolCodec.Send` (protocol.go:60-98). The library is not in
/repo; its part of the model is an assumption (DESIGN.md, trusted base):

* `Send` holds a read lock. If the session is closed it fails; if the channel has room it puts the message there; otherwise it releases the lock,
  closes the session and fails. It never waits.
* `Close` sets the closed flag once and then closes the channels and the connection.
* The send loop takes messages in order; an error of the codec ends it, the closed flag may end it at any time; when it ends it closes the session.

Bodies are pointers: the queue holds references to objects on the heap, which the program may change and which the send loops of other sessions may
encode. Every step of the send loop is taken as atomic. -/

namespace Verif.Outbox

/-- server.go:76: the size of the channel. -/
def capacity : Nat := 24

/-- The body of a message as an interface value: a nil pointer of the type with the given id or a pointer to an object. (`Session.Send` panics in
the caller's goroutine for the nil interface.)
(session.go:71-72.) -/
inductive Arg where
  | nilPtr (id : UInt16)
  | obj (r : Nat)
  deriving DecidableEq, Repr

/-- A message on its way. `given` is the value the body had when `Send` was called; it is only kept to state properties, no step looks at it
(session.go:71-78). -/
structure Item (E : Type) where
  header : Header
  arg : Arg
  given : Body E
  deriving DecidableEq, Repr

/-- Where a goroutine is inside `Send` (inside session.go:80). -/
inductive Place (E : Type) where
  /-- it holds the read lock and has seen that the session is open -/
  | checked (x : Item E)
  /-- it has seen that the channel is full -/
  | full (x : Item E)
  deriving DecidableEq, Repr

/-- The send loop (of link, started for server.go:76). -/
inductive Loop where
  | running
  /-- it has returned; the deferred `Close` is still to come -/
  | returning
  | done
  deriving DecidableEq, Repr

/-- The state of the connection: objects of the program, goroutines inside session.go:80, channel (server.go:76), closed flag, send loop, bytes
written (protocol.go:84). -/
structure State (E : Type) where
  heap : Nat → E
  place : Nat → Option (Place E) := fun _ => none
  queue : List (Item E) := []
  closed : Bool := false
  loop : Loop := .running
  /-- everything written to the connection -/
  wire : Bytes := []
  /-- a panic in the send loop ended the process -/
  crashed : Bool := false

/-- The steps: session.go:80, protocol.go:60-98, session.go:115-117 and the program's own. -/
inductive Event (E : Type) where
  /-- the program assigns to an object -/
  | write (r : Nat) (e : E)
  /-- the send loop of another session encodes the object -/
  | encodeElsewhere (r : Nat)
  /-- goroutine `i` calls `Send` -/
  | enter (i : Nat) (header : Header) (arg : Arg)
  /-- goroutine `i` tries to put its message into the channel -/
  | enqueue (i : Nat)
  /-- goroutine `i`, which found the channel full, closes the session and returns -/
  | giveUp (i : Nat)
  /-- the send loop takes a message; `w` is what `Write` does: `none` = all bytes, `some n` = an error after at most `n` bytes -/
  | take (w : Option Nat)
  /-- the send loop sees the closed flag -/
  | stop
  /-- the deferred `Close` of the send loop -/
  | finish
  /-- someone closes the session -/
  | close
  deriving DecidableEq, Repr

/-- What can be observed: results of session.go:80 and of protocol.go:60-98. -/
inductive Obs (E : Type) where
  /-- `Send` of goroutine `i` returns nil -/
  | accepted (i : Nat) (x : Item E)
  /-- `Send` of goroutine `i` returns an error -/
  | refused (i : Nat)
  /-- the codec was given the message with the body, and wrote bytes; `ok` says whether it returned nil -/
  | handled (x : Item E) (body : Body E) (written : Bytes) (ok : Bool)
  deriving DecidableEq, Repr

variable {E : Type}

/-- Changes a function at one place; plumbing for session.go:80 and protocol.go:74. -/
def update {α : Type} (f : Nat → α) (i : Nat) (a : α) : Nat → α := fun j => if j = i then a else f j

/-- The value of the body behind a reference (protocol/message.go:27). -/
def State.body (s : State E) : Arg → Body E
  | .nilPtr id => .nilPtr id
  | .obj r => .val (s.heap r)

/-- `Encode` has a pointer receiver: the object afterwards (protocol/message.go:27). -/
def State.encodeObject (C : BodyCodec E) (s : State E) (r : Nat) : Nat → E :=
  match C.encode (s.heap r) with
  | .ok (_, e') => update s.heap r e'
  | _ => s.heap

/-- The heap after `ProtocolCodec.Send` (protocol.go:71-75). -/
def State.heapAfter (C : BodyCodec E) (s : State E) : Arg → Nat → E
  | .nilPtr _ => s.heap
  | .obj r => s.encodeObject C r

/-- One step; protocol.go:60-98 for `take`, session.go:80 for `enter`, `enqueue` and `giveUp`, session.go:115-117 for `close`. -/
def State.step (C : BodyCodec E) (key : Option EncKey) (s : State E) (ev : Event E) : State E × List (Obs E) :=
  if s.crashed then (s, [])
  else match ev with
  | .write r e => ({ s with heap := update s.heap r e }, [])
  | .encodeElsewhere r => ({ s with heap := s.encodeObject C r }, [])
  | .enter i header arg =>
    match s.place i with
    | none =>
      if s.closed then (s, [.refused i])
      else ({ s with place := update s.place i (some (.checked ⟨header, arg, s.body arg⟩)) }, [])
    | some _ => (s, [])
  | .enqueue i =>
    match s.place i with
    | some (.checked x) =>
      if s.queue.length < capacity then ({ s with queue := s.queue ++ [x], place := update s.place i none }, [.accepted i x])
      else ({ s with place := update s.place i (some (.full x)) }, [])
    | _ => (s, [])
  | .giveUp i =>
    match s.place i with
    | some (.full _) => ({ s with closed := true, place := update s.place i none }, [.refused i])
    | _ => (s, [])
  | .take w =>
    match s.loop with
    | .running =>
      match s.queue with
      | [] => (if s.closed then { s with loop := .returning } else s, [])
      | x :: rest =>
        let s' := { s with queue := rest, heap := s.heapAfter C x.arg }
        -- protocol.go:70-97
        match Codec.sendBytes C key { header := x.header, body := s.body x.arg } with
        | .ok f =>
          match w with
          | none => ({ s' with wire := s.wire ++ f }, [.handled x (s.body x.arg) f true])
          | some n => ({ s' with wire := s.wire ++ f.take n, loop := .returning }, [.handled x (s.body x.arg) (f.take n) false])
        | .err _ => ({ s' with loop := .returning }, [.handled x (s.body x.arg) [] false])
        | .panic => ({ s' with crashed := true }, [.handled x (s.body x.arg) [] false])
    | _ => (s, [])
  | .stop =>
    match s.loop with
    | .running => (if s.closed then { s with loop := .returning } else s, [])
    | _ => (s, [])
  | .finish =>
    match s.loop with
    | .returning => ({ s with loop := .done, closed := true }, [])
    | _ => (s, [])
  | .close => ({ s with closed := true }, [])

/-- A schedule of the steps of session.go:80 and protocol.go:60-98. -/
def State.run (C : BodyCodec E) (key : Option EncKey) (s : State E) : List (Event E) → State E × List (Obs E)
  | [] => (s, [])
  | ev :: evs =>
    let r := s.step C key ev
    let r' := State.run C key r.1 evs
    (r'.1, r.2 ++ r'.2)

/-- A fresh connection (protocol.go:20-29). -/
def State.init (heap : Nat → E) : State E := { heap }

end Verif.Outbox
