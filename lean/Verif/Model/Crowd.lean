import Verif.Model.Converse
/-! # Sessions of one server at the same time, with handlers that use them

Every connection has its own receive loop, a goroutine (session_handler.go:19-114), which calls the handlers and callbacks of the program. The loops share the
directory with the parts (multipart.go:90-94). `Model/Converse.lean` runs the loop of one session from message to message; here the loops of any number
of connections take turns, step by step, and the code of a handler can be interrupted between any two of its calls. Left out: data that handlers of
different sessions share (every session has its own `σ`), failures to read the directory (`Model/Syscall.lean`), closing and idle time (`Model/System.lean`, `Model/Shutdown.lean`). -/

namespace Verif.Crowd
open Converse Session Handler

variable {σ : Type}

/-- Where a receive loop is (session_handler.go:34-113). -/
inductive Place (σ : Type) where
  /-- before `Receive`, line 36 -/
  | waiting
  /-- after `Receive`, line 42 -/
  | received (m : Message Entity)
  /-- after `multipartFile.Write`, line 81, before the reply (89, 93); `done`: without error -/
  | written (m : Message Entity) (b : T0801) (p : Packet) (done : Bool)
  /-- before line 94 -/
  | stored (m : Message Entity) (b : T0801) (p : Packet)
  /-- before `multipartFile.Merge`, line 98 -/
  | full (m : Message Entity) (b : T0801) (p : Packet)
  /-- before `session.message`, lines 50, 58, 110 -/
  | passing (m : Message Entity)
  /-- in code of the program: with a message, in a callback (session.go:189), and the message is to be dispatched after it; otherwise in a handler
  (server.go:191) -/
  | running (code : Code σ) (after : Option (Message Entity))
  /-- before `dispatchMessage`, lines 51, 59, 111 -/
  | noted (m : Message Entity)
  /-- after `sess.Close`, line 38 -/
  | ended

/-- A connection (session_handler.go:19-114): its loop, what has arrived and is not yet read, whether the terminal has hung up, and the session. The storage in
`sess` is not used. -/
structure Conn (σ : Type) where
  place : Place σ := .waiting
  recv : RecvState := ⟨[], []⟩
  gone : Bool := false
  sess : Converse.State σ

/-- The connections of a server (server.go:25-36) and the directory of the parts. -/
structure State (σ : Type) where
  fs : FS := fun _ => none
  conns : Nat → Conn σ

/-- protocol.go:111-132: the read loop uses up everything that has arrived and then waits for more (line 114). -/
def starvedLoop (env : Env) (key : Option DecKey) : List Bytes → Bytes → Bool
  | [], _ => true
  | chunk :: reads, buf =>
    if (buf ++ chunk).length = 0 then starvedLoop env key reads (buf ++ chunk)
    else if (buf ++ chunk).length > 0xffff then false
    else
      match Codec.readFromBuffer (entityCodec env) key (buf ++ chunk) with
      | (.ok none, buf') => starvedLoop env key reads buf'
      | _ => false

/-- protocol.go:101-133: `Receive` waits for more. -/
def starved (env : Env) (key : Option DecKey) (c : RecvState) : Bool :=
  match Codec.readFromBuffer (entityCodec env) key c.buffer with
  | (.ok none, buf) => starvedLoop env key c.reads buf
  | _ => false

/-- The next step of a receive loop (session_handler.go:34-113, session.go:138-191, server.go:172-192). `o` is what the operating system does to the work on
files in this step, if there is any. Simplification: what `session.message` does before the callback, lines 138-182, is one step. -/
def Conn.turn (env : Env) (key : Option DecKey) (endErr : Err) (auto : Bool) (P : Program σ) (o : Outcome) (fs : FS) (c : Conn σ) :
    Res (FS × Conn σ × List Ev) :=
  match c.place with
  | .waiting =>
    if !c.gone && starved env key c.recv then .ok (fs, c, [])
    else
      match Codec.receive (entityCodec env) key endErr c.recv with
      | (.ok m, r) => .ok (fs, { c with place := .received m, recv := r }, [.received m])
      | (.err _, r) => .ok (fs, { c with place := .ended, recv := r }, [.closed])
      | (.panic, _) => .panic
  | .received m =>
    match m.body with
    | .val e =>
      if !auto || !Property.isEnablePacket m.header.property then .ok (fs, { c with place := .passing m }, [])
      else
        match e with
        | .m0801 b =>
          match m.header.packet, b.packet with
          | some p, some data =>
            let w := (Loop.partFile m b p).write o p.seq data fs
            .ok (w.1, { c with place := .written m b p w.2 }, [.stored (Loop.partFile m b p) p.seq data o])
          | _, _ => .panic
        | _ => .ok (fs, { c with place := .passing m }, [])
    | _ => .ok (fs, { c with place := .waiting, sess := (c.sess.reply m 3).1 }, (c.sess.reply m 3).2)
  | .written m b p done =>
    let r := c.sess.reply m (if done then 0 else 1)
    .ok (fs, { c with place := if done then .stored m b p else .waiting, sess := r.1 }, r.2)
  | .stored m b p =>
    if p.seq ≠ p.sum then .ok (fs, { c with place := .waiting }, [])
    else do
      let full ← (Loop.partFile m b p).isFull fs
      .ok (fs, { c with place := if full then .full m b p else .waiting }, [])
  | .full m b p => do
    let r ← (Loop.partFile m b p).merge o fs
    match r.2 with
    | none => .ok (r.1, { c with place := .waiting }, [.merged (Loop.partFile m b p) o])
    | some content =>
      .ok (r.1, { c with place := .passing { m with body := .val (.m0801 { b with packet := some content }) } }, [.merged (Loop.partFile m b p) o])
  | .passing m => do
    let s := if m.header.iccID > 0 then { c.sess with icc := m.header.iccID } else c.sess
    let serial ← replySerial m
    if serial = 0 then .ok (fs, { c with place := .noted m, sess := s }, [])
    else
      match takeRequest serial s.requests with
      | none => .ok (fs, { c with place := .noted m, sess := s }, [])
      | some (r, rest) =>
        .ok (fs, { c with place := .running (P.callback r.callback s.user m) (some m), sess := { s with requests := rest } }, [.ran r.callback m])
  | .running (.returns u) after =>
    .ok (fs, { c with place := match after with | some m => .noted m | none => .waiting, sess := { c.sess with user := u } }, [])
  | .running (.panics u) after =>
    .ok (fs, { c with place := match after with | some m => .noted m | none => .waiting, sess := { c.sess with user := u } }, [])
  | .running (.send e next) after =>
    let r := c.sess.send e
    .ok (fs, { c with place := .running (next r.2.2) after, sess := r.1 }, r.2.1)
  | .running (.request e cb next) after =>
    let r := c.sess.request e cb
    .ok (fs, { c with place := .running (next r.2.2) after, sess := r.1 }, r.2.1)
  | .noted m =>
    match P.handlers m.header.msgID with
    | none => .ok (fs, { c with place := .waiting }, [.unhandled m])
    | some h => .ok (fs, { c with place := .running (P.handler h c.sess.user m) none }, [.handled h m])
  | .ended => .ok (fs, c, [])

/-- What happens, one thing after the other, in any order. -/
inductive Event where
  /-- bytes arrive (protocol.go:114) -/
  | arrive (k : Nat) (piece : Bytes)
  /-- the terminal hangs up: reading fails once everything is read -/
  | hangUp (k : Nat)
  /-- the loop of the connection goes on -/
  | turn (k : Nat) (o : Outcome)
  /-- another goroutine, such as a handler of another session, calls `Send` on the session (session.go:70) -/
  | send (k : Nat) (e : Entity)
  /-- another goroutine calls `Request` on the session (session.go:98) -/
  | request (k : Nat) (e : Entity) (cb : Nat)

/-- The connection concerned. -/
def Event.conn : Event → Nat
  | .arrive k _ => k
  | .hangUp k => k
  | .turn k _ => k
  | .send k _ => k
  | .request k _ _ => k

/-- What an event does to its connection, with what happens. -/
def Conn.step (env : Env) (key : Option DecKey) (endErr : Err) (auto : Bool) (P : Program σ) (e : Event) (fs : FS) (c : Conn σ) :
    Res (FS × Conn σ × List Ev) :=
  match e with
  | .arrive _ piece => .ok (fs, { c with recv := { c.recv with reads := c.recv.reads ++ [piece] } }, [])
  | .hangUp _ => .ok (fs, { c with gone := true }, [])
  | .turn _ o => c.turn env key endErr auto P o fs
  | .send _ e => .ok (fs, { c with sess := (c.sess.send e).1 }, (c.sess.send e).2.1)
  | .request _ e cb => .ok (fs, { c with sess := (c.sess.request e cb).1 }, (c.sess.request e cb).2.1)

namespace State

/-- The events one after the other; what happens, with the connection it happens on. A panic outside the code of the program ends the process. -/
def run (env : Env) (key : Option DecKey) (endErr : Err) (auto : Bool) (P : Program σ) (s : State σ) : List Event → Res (State σ × List (Nat × Ev))
  | [] => .ok (s, [])
  | e :: es => do
    let r ← (s.conns e.conn).step env key endErr auto P e s.fs
    let (s', log) ← State.run env key endErr auto P { fs := r.1, conns := fun j => if j = e.conn then r.2.1 else s.conns j } es
    .ok (s', r.2.2.map (fun x => (e.conn, x)) ++ log)

/-- New connections, with the data of the program and what the connections will accept; nothing is stored (server.go:41-59, session_handler.go:24-32, session.go:34-39). -/
def start (user : Nat → σ) (accepts : Nat → List Bool) : State σ := { conns := fun k => { sess := { user := user k, accepts := accepts k } } }

end State
end Verif.Crowd
