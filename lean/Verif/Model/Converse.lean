import Verif.Model.Connection
/-! # A session whose handlers use it

Handlers and callbacks are called by the receive loop of the session (session_handler.go:50-51, 58-59, 110-111), in its goroutine, and use the session
themselves: they answer, send and make requests. Here their code is part of the model, as programs of calls on the session. Left out: calls on the
session from other goroutines and other sessions of the same terminal (`Model/System.lean`, `Model/Session.lean`), and the way of a message through the
channel (`Model/Outbox.lean`), of which only the result of every call is kept. -/

namespace Verif.Converse
open Session Handler

/-- The code of a handler (server.go:191) or a callback (session.go:189): it may use data `σ` of the program (such as session.go:30 `UserData`), call
`Send` (session.go:70; `Reply`, session.go:88, is a call of it) and `Request` (session.go:98) with results it can look at (`none`: an error), and returns
or panics. The argument is not nil. -/
inductive Code (σ : Type) where
  | returns (s : σ)
  | panics (s : σ)
  | send (e : Entity) (next : Option UInt16 → Code σ)
  | request (e : Entity) (cb : Nat) (next : Option UInt16 → Code σ)

/-- The program: the handlers registered for the message ids (server.go:124-128, before the server runs), the code of handlers and callbacks. -/
structure Program (σ : Type) where
  handlers : UInt16 → Option Nat
  handler : Nat → σ → Message Entity → Code σ
  callback : Nat → σ → Message Entity → Code σ

/-- What happens, in order (session_handler.go:34-113, session.go:70-112). -/
inductive Ev where
  /-- `Receive` returns the message -/
  | received (m : Message Entity)
  /-- the loop itself calls `Reply`; what is sent follows -/
  | replies (serial id : UInt16) (result : UInt8)
  /-- `Send` hands the message to the connection, which accepts it -/
  | sent (m : Message Entity)
  /-- `Send` hands the message to the connection, which refuses it -/
  | refused (m : Message Entity)
  /-- `addRequestContext` -/
  | requested (r : Pending)
  /-- the callback of a request is called -/
  | ran (cb : Nat) (m : Message Entity)
  /-- a handler is called -/
  | handled (h : Nat) (m : Message Entity)
  /-- no handler is registered for the message -/
  | unhandled (m : Message Entity)
  /-- a part is written -/
  | stored (f : Multipart) (seq : UInt16) (data : Bytes) (o : Outcome)
  /-- parts are merged -/
  | merged (f : Multipart) (o : Outcome)
  /-- `sess.Close` because receiving failed -/
  | closed
  deriving DecidableEq, Repr

/-- The session (session.go:21-31), the storage (multipart.go:90-94) and the data of the program. `accepts` are the results of the coming calls of the
connection's `Send` (session.go:80); after that it accepts everything. -/
structure State (σ : Type) where
  next : UInt32 := 0
  icc : UInt64 := 0
  requests : List Pending := []
  fs : FS := fun _ => none
  accepts : List Bool := []
  user : σ

variable {σ : Type}

namespace State

/-- session.go:71-78: the message `Send` builds. -/
def message (s : State σ) (e : Entity) : Message Entity := buildMessage e.msgID (.val e) s.icc (successor s.next).toUInt16

/-- session.go:70-85 `Send`. -/
def send (s : State σ) (e : Entity) : State σ × List Ev × Option UInt16 :=
  let s' := { s with next := successor s.next, accepts := s.accepts.tail }
  if s.accepts.headD true then (s', [.sent (s.message e)], some (s.message e).header.serial)
  else (s', [.refused (s.message e)], none)

/-- session.go:98-112 `Request` with a callback. -/
def request (s : State σ) (e : Entity) (cb : Nat) : State σ × List Ev × Option UInt16 :=
  match s.send e with
  | (s', x, none) => (s', x, none)
  | (s', x, some n) =>
    ({ s' with requests := addRequest ⟨e.msgID, n, cb⟩ s'.requests }, x ++ [.requested ⟨e.msgID, n, cb⟩], some n)

/-- Running the code of a handler or callback (session.go:189, server.go:191): the state afterwards, what happens, and how it ends. -/
def exec (s : State σ) : Code σ → State σ × List Ev × UserCode
  | .returns u => ({ s with user := u }, [], .returns)
  | .panics u => ({ s with user := u }, [], .panics)
  | .send e next =>
    let r := s.send e
    let r' := r.1.exec (next r.2.2)
    (r'.1, r.2.1 ++ r'.2.1, r'.2.2)
  | .request e cb next =>
    let r := s.request e cb
    let r' := r.1.exec (next r.2.2)
    (r'.1, r.2.1 ++ r'.2.1, r'.2.2)

/-- `session.Reply` called by the loop (session_handler.go:45, 88, 93; session.go:88-95). -/
def reply (s : State σ) (m : Message Entity) (result : UInt8) : State σ × List Ev :=
  let r := s.send (.m8001 { replySerial := m.header.serial, replyID := m.header.msgID, result := result })
  (r.1, .replies m.header.serial m.header.msgID result :: r.2.1)

/-- session.go:138-191 `message`. -/
def note (P : Program σ) (s : State σ) (m : Message Entity) : Res (State σ × List Ev) := do
  let s := if m.header.iccID > 0 then { s with icc := m.header.iccID } else s
  let serial ← replySerial m
  if serial = 0 then .ok (s, [])
  else
    match takeRequest serial s.requests with
    | none => .ok (s, [])
    | some (r, rest) => do
      let x := { s with requests := rest }.exec (P.callback r.callback s.user m)
      let _ ← recovered x.2.2.call
      .ok (x.1, .ran r.callback m :: x.2.1)

/-- server.go:172-192 `dispatchMessage`. -/
def dispatch (P : Program σ) (s : State σ) (m : Message Entity) : Res (State σ × List Ev) :=
  match P.handlers m.header.msgID with
  | none => .ok (s, [.unhandled m])
  | some h => do
    let x := s.exec (P.handler h s.user m)
    let _ ← recovered x.2.2.call
    .ok (x.1, .handled h m :: x.2.1)

/-- session_handler.go:50-51, 58-59, 110-111. -/
def deliver (P : Program σ) (s : State σ) (m : Message Entity) : Res (State σ × List Ev) := do
  let (s, x) ← s.note P m
  let (s, y) ← s.dispatch P m
  .ok (s, x ++ y)

/-- session_handler.go:94-112. `o` is what the operating system does to the merge. -/
def check (P : Program σ) (s : State σ) (o : Outcome) (m : Message Entity) (b : T0801) (p : Packet) : Res (State σ × List Ev) := do
  if p.seq ≠ p.sum then .ok (s, [])
  else do
    let full ← (Loop.partFile m b p).isFull s.fs
    if !full then .ok (s, [])
    else do
      let r ← (Loop.partFile m b p).merge o s.fs
      let s := { s with fs := r.1 }
      match r.2 with
      | none => .ok (s, [.merged (Loop.partFile m b p) o])
      | some content => do
        let (s, x) ← s.deliver P { m with body := .val (.m0801 { b with packet := some content }) }
        .ok (s, .merged (Loop.partFile m b p) o :: x)

/-- session_handler.go:63-112. `o` is what the operating system does to the write and to the merge. -/
def part (P : Program σ) (s : State σ) (o : Outcome × Outcome) (m : Message Entity) (b : T0801) (p : Packet) (data : Bytes) :
    Res (State σ × List Ev) := do
  let w := (Loop.partFile m b p).write o.1 p.seq data s.fs
  let r := { s with fs := w.1 }.reply m (if w.2 then 0 else 1)
  if !w.2 then .ok (r.1, .stored (Loop.partFile m b p) p.seq data o.1 :: r.2)
  else do
    let (s, x) ← r.1.check P o.2 m b p
    .ok (s, .stored (Loop.partFile m b p) p.seq data o.1 :: (r.2 ++ x))

/-- session_handler.go:42-112: the handling of a received message. -/
def process (auto : Bool) (P : Program σ) (s : State σ) (o : Outcome × Outcome) (m : Message Entity) : Res (State σ × List Ev) :=
  match m.body with
  | .val e =>
    if !auto || !Property.isEnablePacket m.header.property then s.deliver P m
    else
      match e with
      | .m0801 b =>
        match m.header.packet, b.packet with
        | some p, some data => s.part P o m b p data
        | _, _ => .panic
      | _ => s.deliver P m
  | _ => .ok (s.reply m 3)

/-- session_handler.go:34-113: the loop on the messages that `Receive` returns one after the other, each with what the operating system does to the
write and the merge it may lead to. -/
def run (auto : Bool) (P : Program σ) (s : State σ) : List (Message Entity × Outcome × Outcome) → Res (State σ × List Ev)
  | [] => .ok (s, [])
  | (m, o) :: ms => do
    let (s, x) ← s.process auto P o m
    let (s, y) ← s.run auto P ms
    .ok (s, .received m :: (x ++ y))

/-- session_handler.go:34-113 on the bytes of the connection (protocol.go:101-133), for as many turns as there are outcomes. -/
def serve (env : Env) (key : Option DecKey) (endErr : Err) (auto : Bool) (P : Program σ) (s : State σ) :
    List (Outcome × Outcome) → RecvState → Res (State σ × List Ev)
  | [], _ => .ok (s, [])
  | o :: os, c =>
    match Codec.receive (entityCodec env) key endErr c with
    | (.ok m, c) => do
      let (s, x) ← s.process auto P o m
      let (s, y) ← s.serve env key endErr auto P os c
      .ok (s, .received m :: (x ++ y))
    | (.err _, _) => .ok (s, [.closed])
    | (.panic, _) => .panic

end State

/-- The bytes of accepted messages on the connection: the send loop hands them to protocol.go:60-98 in order and ends with the first one that cannot be
encoded (assumption about github.com/funny/link, `Model/Outbox.lean`; here all of them are written). -/
def wire (env : Env) (pub : Option EncKey) : List (Message Entity) → Bytes
  | [] => []
  | m :: ms =>
    match Codec.sendBytes (entityCodec env) pub m with
    | .ok b => b ++ wire env pub ms
    | _ => []

end Verif.Converse
