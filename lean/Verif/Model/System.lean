import Verif.Model.Connection
/-! # The receive loops of all connections together

Every connection has its goroutine (session_handler.go:19-114). They share the part storage and `messageHandlers`; other goroutines of the program
register handlers and add requests. A step takes one goroutine from one look at shared data to the next. -/

namespace Verif.System
open Handler Session

/-- Where the goroutine of a connection is in the loop (session_handler.go:34-113). -/
inductive Place where
  /-- before line 36 -/
  | waiting
  /-- `Receive` has returned a message, before line 44 -/
  | received (m : Message Entity)
  /-- a part was stored and acknowledged, before line 94 -/
  | stored (m : Message Entity) (b : T0801) (p : Packet)
  /-- `IsFull` said yes, before line 98 -/
  | full (m : Message Entity) (b : T0801) (p : Packet)
  /-- the parts are merged and the reader is set, before line 110 -/
  | merged (m : Message Entity)
  /-- after `session.message`, before `dispatchMessage` looks for the handler (lines 51, 59, 111) -/
  | noted (m : Message Entity)
  /-- after the loop -/
  | ended
  deriving DecidableEq, Repr

/-- The loop is not left (session_handler.go:34-40). -/
def Place.running : Place → Bool
  | .ended => false
  | _ => true

/-- A connection with its session (protocol.go:32-39, session.go:21-31). `recv` holds what the connection is going to deliver: a connection that
somebody closes, or that breaks, delivers nothing after that point. -/
structure Conn where
  place : Place := .waiting
  recv : RecvState
  requests : List Pending := []
  icc : UInt64 := 0

/-- The shared data and the connections (server.go:25-36). -/
structure State where
  fs : FS := fun _ => none
  handlers : UInt16 → Option Nat := fun _ => none
  conns : Nat → Conn

/-- The steps; `k` is the connection (session_handler.go:34-113, server.go:124-128, session.go:98-112). -/
inductive Event where
  /-- `Receive` returns, line 36 -/
  | receive (k : Nat)
  /-- lines 44-93: an undecodable message is answered, a part is stored and answered, any other message goes through `session.message`. What the
  operating system does to a write, and how a callback ends. -/
  | process (k : Nat) (o : Outcome) (u : UserCode)
  /-- lines 94-96 -/
  | check (k : Nat)
  /-- lines 98-109 -/
  | merge (k : Nat) (o : Outcome)
  /-- line 110, `session.message` -/
  | note (k : Nat) (u : UserCode)
  /-- lines 51, 59, 111: `dispatchMessage` with a handler that ends like this -/
  | dispatch (k : Nat) (u : UserCode)
  /-- server.go:124-128 `AddHandler` -/
  | addHandler (id : UInt16) (h : Option Nat)
  /-- session.go:105 `addRequestContext` on session `k` -/
  | addRequest (k : Nat) (r : Pending)
  deriving DecidableEq, Repr

namespace State

/-- The data the loop of connection `k` works on (server.go:25-36, session.go:21-31). -/
def view (s : State) (k : Nat) : Loop :=
  { fs := s.fs, handlers := s.handlers, requests := (s.conns k).requests, icc := (s.conns k).icc,
    running := (s.conns k).place.running }

/-- Connection `k` becomes `c` (plumbing for server.go:32). -/
def put (s : State) (k : Nat) (c : Conn) : State := { s with conns := fun j => if j = k then c else s.conns j }

/-- The goroutine of connection `k` moves on (session_handler.go:34-113). -/
def goto (s : State) (k : Nat) (p : Place) : State := s.put k { s.conns k with place := p }

/-- The acts are those of connection `k` (session_handler.go:34-113). -/
def acts (k : Nat) (xs : List Act) : List (Nat × Act) := xs.map fun a => (k, a)

/-- `session.message` (session.go:138-191) for connection `k`. -/
def message (s : State) (k : Nat) (u : UserCode) (m : Message Entity) : Res (State × List (Nat × Act)) := do
  let (l, x) ← (s.view k).message { callback := u } m
  .ok (s.put k { s.conns k with place := .noted m, requests := l.requests, icc := l.icc }, acts k x)

/-- session_handler.go:81-93: a part with content `data` is stored and answered. -/
def store (s : State) (k : Nat) (o : Outcome) (m : Message Entity) (b : T0801) (p : Packet) (data : Bytes) : State × List (Nat × Act) :=
  let w := (Loop.partFile m b p).write o p.seq data s.fs
  if w.2 then
    ({ s with fs := w.1 }.goto k (.stored m b p), acts k [.wrote (Loop.partFile m b p) p.seq data o, .reply m.header.serial m.header.msgID 0])
  else
    ({ s with fs := w.1 }.goto k .waiting, acts k [.wrote (Loop.partFile m b p) p.seq data o, .reply m.header.serial m.header.msgID 1])

/-- One step; a goroutine that is not at the point does nothing. `auto` is the option AutoMergePacket. The acknowledgement of a part only
concerns the session itself, so it is one step with the write. A panic ends the process. (session_handler.go:34-113) -/
def step (env : Env) (key : Option DecKey) (endErr : Err) (auto : Bool) (s : State) : Event → Res (State × List (Nat × Act))
  | .receive k =>
    match (s.conns k).place with
    | .waiting =>
      match Codec.receive (entityCodec env) key endErr (s.conns k).recv with
      | (.ok m, r) => .ok (s.put k { s.conns k with place := .received m, recv := r }, [])
      | (.err _, r) => .ok (s.put k { s.conns k with place := .ended, recv := r }, [(k, .closed)])
      | (.panic, _) => .panic
    | _ => .ok (s, [])
  | .process k o u =>
    match (s.conns k).place with
    | .received m =>
      match m.body with
      | .val e =>
        if !auto || !Property.isEnablePacket m.header.property then s.message k u m
        else
          match e with
          | .m0801 b =>
            match m.header.packet, b.packet with
            | some p, some data => .ok (s.store k o m b p data)
            | _, _ => .panic
          | _ => s.message k u m
      | _ => .ok (s.goto k .waiting, [(k, .reply m.header.serial m.header.msgID 3)])
    | _ => .ok (s, [])
  | .check k =>
    match (s.conns k).place with
    | .stored m b p =>
      if p.seq ≠ p.sum then .ok (s.goto k .waiting, [])
      else do
        let full ← (Loop.partFile m b p).isFull s.fs
        if full then .ok (s.goto k (.full m b p), []) else .ok (s.goto k .waiting, [])
    | _ => .ok (s, [])
  | .merge k o =>
    match (s.conns k).place with
    | .full m b p => do
      let r ← (Loop.partFile m b p).merge o s.fs
      match r.2 with
      | none => .ok ({ s with fs := r.1 }.goto k .waiting, [(k, .merged (Loop.partFile m b p) o)])
      | some content =>
        .ok ({ s with fs := r.1 }.goto k (.merged { m with body := .val (.m0801 { b with packet := some content }) }),
          [(k, .merged (Loop.partFile m b p) o)])
    | _ => .ok (s, [])
  | .note k u =>
    match (s.conns k).place with
    | .merged m => s.message k u m
    | _ => .ok (s, [])
  | .dispatch k u =>
    match (s.conns k).place with
    | .noted m => do
      let (_, x) ← (s.view k).dispatch { handler := u } m
      .ok (s.goto k .waiting, acts k x)
    | _ => .ok (s, [])
  | .addHandler _ none => .ok (s, [])
  | .addHandler id (some h) => .ok ({ s with handlers := fun x => if x = id then some h else s.handlers x }, [(0, .registered id h)])
  | .addRequest k r => .ok (s.put k { s.conns k with requests := addRequest r (s.conns k).requests }, [(k, .requested r)])

/-- A schedule (any interleaving of the goroutines; session_handler.go:34-113). -/
def run (env : Env) (key : Option DecKey) (endErr : Err) (auto : Bool) (s : State) : List Event → Res (State × List (Nat × Act))
  | [] => .ok (s, [])
  | e :: es => do
    let (s, x) ← s.step env key endErr auto e
    let (s, y) ← s.run env key endErr auto es
    .ok (s, x ++ y)

end State

/-- The connections at the beginning: connection `k` will deliver the bytes `reads k`. All connections that will ever be accepted are present from the
start; before its first step a connection does nothing. (session_handler.go:19-32) -/
def start (reads : Nat → List Bytes) : State := { conns := fun k => { recv := ⟨[], reads k⟩ } }

/-- The connections at the beginning when an earlier process has left these files (multipart.go:90-94: they stay in the temporary directory). -/
def startOn (fs : FS) (reads : Nat → List Bytes) : State := { start reads with fs := fs }

end Verif.System
