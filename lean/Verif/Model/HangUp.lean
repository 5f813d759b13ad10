import Verif.Model.Converse
/-! # A session whose handlers close it

As `Model/Converse.lean`, but handlers and callbacks may also call `Close`, and the session knows whether it is open. Assumptions about
github.com/funny/link: `Close` closes the connection, the first time; `Send` refuses messages of a closed session, and if it refuses another message (because
too many are waiting) then it closes the session; `Receive` does not look whether the session is closed but calls the codec. A closed connection
cannot be read any more (package net). A session that others close appears as one whose next call is refused or whose connection has no more to read. -/

namespace Verif.HangUp
open Session Handler

/-- The code of a handler (server.go:191) or a callback (session.go:189), with `Send` (session.go:70), `Request` (session.go:98) and `Close` (session.go:115),
whose result is an error if the session was closed before. (That closing the connection itself fails is left out.) -/
inductive Code (σ : Type) where
  | returns (s : σ)
  | panics (s : σ)
  | send (e : Entity) (next : Option UInt16 → Code σ)
  | request (e : Entity) (cb : Nat) (next : Option UInt16 → Code σ)
  | close (next : Bool → Code σ)

/-- The program (server.go:124-128, before the server runs). -/
structure Program (σ : Type) where
  handlers : UInt16 → Option Nat
  handler : Nat → σ → Message Entity → Code σ
  callback : Nat → σ → Message Entity → Code σ

/-- What happens, in order (session_handler.go:34-113, session.go:70-117). -/
inductive Ev where
  | does (e : Converse.Ev)
  /-- a handler or callback calls `Close`; `first`: the session was open -/
  | closes (first : Bool)
  deriving DecidableEq, Repr

/-- The session (session.go:21-31) and whether it is open. `accepts` in `session` are the results of the coming calls of the connection's `Send` and `Close`,
as long as the session is open. -/
structure State (σ : Type) where
  session : Converse.State σ
  isOpen : Bool := true

variable {σ : Type}

namespace State

/-- session.go:70-85 `Send`. -/
def send (s : State σ) (e : Entity) : State σ × List Ev × Option UInt16 :=
  let t := { s.session with next := successor s.session.next, accepts := s.session.accepts.tail }
  if s.isOpen && s.session.accepts.headD true then
    ({ s with session := t }, [.does (.sent (s.session.message e))], some (s.session.message e).header.serial)
  else ({ session := t, isOpen := false }, [.does (.refused (s.session.message e))], none)

/-- session.go:98-112 `Request` with a callback. -/
def request (s : State σ) (e : Entity) (cb : Nat) : State σ × List Ev × Option UInt16 :=
  match s.send e with
  | (s', x, none) => (s', x, none)
  | (s', x, some n) =>
    ({ s' with session := { s'.session with requests := addRequest ⟨e.msgID, n, cb⟩ s'.session.requests } },
      x ++ [.does (.requested ⟨e.msgID, n, cb⟩)], some n)

/-- session.go:115-117 `Close`: the result is true if the session was open. -/
def close (s : State σ) : State σ × Bool :=
  ({ session := { s.session with accepts := s.session.accepts.tail }, isOpen := false }, s.isOpen && s.session.accepts.headD true)

/-- Running the code of a handler or callback (session.go:189, server.go:191). -/
def exec (s : State σ) : Code σ → State σ × List Ev × UserCode
  | .returns u => ({ s with session := { s.session with user := u } }, [], .returns)
  | .panics u => ({ s with session := { s.session with user := u } }, [], .panics)
  | .send e next =>
    let r := s.send e
    let r' := r.1.exec (next r.2.2)
    (r'.1, r.2.1 ++ r'.2.1, r'.2.2)
  | .request e cb next =>
    let r := s.request e cb
    let r' := r.1.exec (next r.2.2)
    (r'.1, r.2.1 ++ r'.2.1, r'.2.2)
  | .close next =>
    let r := s.close
    let r' := r.1.exec (next r.2)
    (r'.1, .closes r.2 :: r'.2.1, r'.2.2)

/-- `session.Reply` called by the loop (session_handler.go:45, 88, 93; session.go:88-95). -/
def reply (s : State σ) (m : Message Entity) (result : UInt8) : State σ × List Ev :=
  let r := s.send (.m8001 { replySerial := m.header.serial, replyID := m.header.msgID, result := result })
  (r.1, .does (.replies m.header.serial m.header.msgID result) :: r.2.1)

/-- session.go:138-191 `message`. -/
def note (P : Program σ) (s : State σ) (m : Message Entity) : Res (State σ × List Ev) := do
  let s := if m.header.iccID > 0 then { s with session := { s.session with icc := m.header.iccID } } else s
  let serial ← replySerial m
  if serial = 0 then .ok (s, [])
  else
    match takeRequest serial s.session.requests with
    | none => .ok (s, [])
    | some (r, rest) => do
      let x := { s with session := { s.session with requests := rest } }.exec (P.callback r.callback s.session.user m)
      let _ ← recovered x.2.2.call
      .ok (x.1, .does (.ran r.callback m) :: x.2.1)

/-- server.go:172-192 `dispatchMessage`. -/
def dispatch (P : Program σ) (s : State σ) (m : Message Entity) : Res (State σ × List Ev) :=
  match P.handlers m.header.msgID with
  | none => .ok (s, [.does (.unhandled m)])
  | some h => do
    let x := s.exec (P.handler h s.session.user m)
    let _ ← recovered x.2.2.call
    .ok (x.1, .does (.handled h m) :: x.2.1)

/-- session_handler.go:50-51, 58-59, 110-111. -/
def deliver (P : Program σ) (s : State σ) (m : Message Entity) : Res (State σ × List Ev) := do
  let (s, x) ← s.note P m
  let (s, y) ← s.dispatch P m
  .ok (s, x ++ y)

/-- session_handler.go:94-112. `o` is what the operating system does to the merge. -/
def check (P : Program σ) (s : State σ) (o : Outcome) (m : Message Entity) (b : T0801) (p : Packet) : Res (State σ × List Ev) := do
  if p.seq ≠ p.sum then .ok (s, [])
  else do
    let full ← (Loop.partFile m b p).isFull s.session.fs
    if !full then .ok (s, [])
    else do
      let r ← (Loop.partFile m b p).merge o s.session.fs
      let s := { s with session := { s.session with fs := r.1 } }
      match r.2 with
      | none => .ok (s, [.does (.merged (Loop.partFile m b p) o)])
      | some content => do
        let (s, x) ← s.deliver P { m with body := .val (.m0801 { b with packet := some content }) }
        .ok (s, .does (.merged (Loop.partFile m b p) o) :: x)

/-- session_handler.go:63-112. `o` is what the operating system does to the write and to the merge. -/
def part (P : Program σ) (s : State σ) (o : Outcome × Outcome) (m : Message Entity) (b : T0801) (p : Packet) (data : Bytes) :
    Res (State σ × List Ev) := do
  let w := (Loop.partFile m b p).write o.1 p.seq data s.session.fs
  let r := { s with session := { s.session with fs := w.1 } }.reply m (if w.2 then 0 else 1)
  if !w.2 then .ok (r.1, .does (.stored (Loop.partFile m b p) p.seq data o.1) :: r.2)
  else do
    let (s, x) ← r.1.check P o.2 m b p
    .ok (s, .does (.stored (Loop.partFile m b p) p.seq data o.1) :: (r.2 ++ x))

/-- session_handler.go:42-112: the handling of a received message. -/
def process (auto : Bool) (P : Program σ) (s : State σ) (o : Outcome × Outcome) (m : Message Entity) : Res (State σ × List Ev) :=
  match m.body with
  | .val e =>
    if !auto || !Property.isEnablePacket m.header.property then s.deliver P m
    else
      match e with
      | .m0801 b =>
        match m.header.packet, b.packet with
        | some p, some data => s.part P o m b p data
        | _, _ => .panic
      | _ => s.deliver P m
  | _ => .ok (s.reply m 3)

/-- What `Receive` gets: a connection that was closed has no more to read, but what was read before is still in the buffer of the codec
(protocol.go:101-133; session_handler.go:36). -/
def connection (s : State σ) (c : RecvState) : RecvState := if s.isOpen then c else { c with reads := [] }

/-- session_handler.go:34-113 on the bytes of the connection (protocol.go:101-133), for as many turns as there are outcomes. -/
def serve (env : Env) (key : Option DecKey) (endErr : Err) (auto : Bool) (P : Program σ) (s : State σ) :
    List (Outcome × Outcome) → RecvState → Res (State σ × List Ev)
  | [], _ => .ok (s, [])
  | o :: os, c =>
    match Codec.receive (entityCodec env) key endErr (s.connection c) with
    | (.ok m, c) => do
      let (s, x) ← s.process auto P o m
      let (s, y) ← s.serve env key endErr auto P os c
      .ok (s, .does (.received m) :: (x ++ y))
    | (.err _, _) => .ok ({ s with isOpen := false }, [.does .closed])
    | (.panic, _) => .panic

end State

end Verif.HangUp
