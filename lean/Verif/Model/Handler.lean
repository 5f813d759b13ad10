import Verif.Model.Session
import Verif.Model.Multipart
/-! # session_handler.go, server.go: the receive loop of a session

The loop runs in its own goroutine. Other goroutines register handlers, add requests and store parts of other uploads at any time; what they do between
two points of the loop at which it looks at shared state is given as a list of `Outside` steps at that point. -/

namespace Verif.Handler
open Session

/-- How code of the user ends (the callback of session.go:189 and the handler of server.go:191). -/
inductive UserCode where
  | returns
  | panics
  deriving DecidableEq, Repr

/-- Calling a function of the user (session.go:184-189, server.go:185-191). -/
def UserCode.call : UserCode → Res Unit
  | .returns => .ok ()
  | .panics => .panic

/-- `defer func() { recover() }()` around a call, session.go:184-188 and server.go:185-189, 139-143. -/
def recovered : Res Unit → Res Unit
  | .panic => .ok ()
  | r => r

/-- What other goroutines do (calls of server.go:124-128 and session.go:98-112 by the program). -/
inductive Outside where
  /-- server.go:124-128 `AddHandler`; `none` is a nil handler -/
  | addHandler (id : UInt16) (h : Option Nat)
  /-- session.go:105 `addRequestContext` on this session -/
  | addRequest (r : Pending)
  /-- another session stores a part, session_handler.go:81 -/
  | write (f : Multipart) (seq : UInt16) (data : Bytes) (o : Outcome)
  /-- another session merges, session_handler.go:98 -/
  | merge (f : Multipart) (o : Outcome)
  deriving DecidableEq, Repr

/-- What happens around the handling of one message: results of the operating system, the way code of the user ends, and the steps of other
goroutines (including calls made by the callback and the handler themselves).
(session_handler.go:81, session_handler.go:98, session.go:189, server.go:191.) -/
structure Around where
  write : Outcome := .ok
  merge : Outcome := .ok
  callback : UserCode := .returns
  handler : UserCode := .returns
  /-- between storing the part and the completeness check -/
  afterWrite : List Outside := []
  /-- between the completeness check and the merge -/
  afterCheck : List Outside := []
  /-- between the merge and `session.message` -/
  afterMerge : List Outside := []
  /-- between `session.message` and the look-up of the handler -/
  beforeDispatch : List Outside := []
  deriving DecidableEq, Repr

/-- What the loop does, in order, together with the steps of others that matter to it (session_handler.go:45-112). -/
inductive Act where
  /-- `session.Reply` -/
  | reply (serial id : UInt16) (result : UInt8)
  /-- `timer.Update` for this session -/
  | touch
  /-- a handler is called -/
  | handle (h : Nat) (m : Message Entity)
  /-- no handler is registered for the message -/
  | unhandled (m : Message Entity)
  /-- the callback of a request is called -/
  | callback (cb : Nat) (m : Message Entity)
  /-- a part is written, by this or another session -/
  | wrote (f : Multipart) (seq : UInt16) (data : Bytes) (o : Outcome)
  /-- parts are merged, by this or another session -/
  | merged (f : Multipart) (o : Outcome)
  /-- a handler was registered -/
  | registered (id : UInt16) (h : Nat)
  /-- a request was added -/
  | requested (r : Pending)
  /-- `sess.Close` because receiving failed -/
  | closed
  deriving DecidableEq, Repr

/-- The state the loop works on: the storage, `messageHandlers`, the request table and terminal number of the session, and whether the loop is still
running.
(multipart.go:90-94, server.go:35, session.go:21-31.) -/
structure Loop where
  fs : FS := fun _ => none
  handlers : UInt16 → Option Nat := fun _ => none
  requests : List Pending := []
  icc : UInt64 := 0
  running : Bool := true

namespace Loop

/-- A step of another goroutine. `Merge` is only called for a terminal for which a part was stored (session_handler.go:81-98), so a merge without
directory does not happen. -/
def outside (s : Loop) : Outside → Loop × List Act
  | .addHandler _ none => (s, [])
  | .addHandler id (some h) => ({ s with handlers := fun x => if x = id then some h else s.handlers x }, [.registered id h])
  | .addRequest r => ({ s with requests := addRequest r s.requests }, [.requested r])
  | .write f seq data o => ({ s with fs := (f.write o seq data s.fs).1 }, [.wrote f seq data o])
  | .merge f o =>
    match f.merge o s.fs with
    | .ok r => ({ s with fs := r.1 }, [.merged f o])
    | _ => (s, [])

/-- Several steps of other goroutines (while session_handler.go:36 waits). -/
def outsides (s : Loop) : List Outside → Loop × List Act
  | [] => (s, [])
  | x :: xs =>
    let r := s.outside x
    let r' := r.1.outsides xs
    (r'.1, r.2 ++ r'.2)

/-- session.go:138-191 `message`: a callback that panics is recovered; the type assertions are not. -/
def message (s : Loop) (a : Around) (m : Message Entity) : Res (Loop × List Act) := do
  let s := if m.header.iccID > 0 then { s with icc := m.header.iccID } else s
  let serial ← replySerial m
  if serial = 0 then .ok (s, [])
  else
    match takeRequest serial s.requests with
    | none => .ok (s, [])
    | some (r, rest) => do
      let _ ← recovered a.callback.call
      .ok ({ s with requests := rest }, [.callback r.callback m])

/-- server.go:172-192 `dispatchMessage`. -/
def dispatch (s : Loop) (a : Around) (m : Message Entity) : Res (Loop × List Act) :=
  match s.handlers m.header.msgID with
  | none => .ok (s, [.unhandled m])
  | some h => do
    let _ ← recovered a.handler.call
    .ok (s, [.touch, .handle h m])

/-- session_handler.go:50-51, 58-59, 110-111: `session.message`, then `dispatchMessage`. -/
def deliver (s : Loop) (a : Around) (m : Message Entity) : Res (Loop × List Act) := do
  let (s, x) ← s.message a m
  let r := s.outsides a.beforeDispatch
  let (s, y) ← r.1.dispatch a m
  .ok (s, x ++ r.2 ++ y)

/-- session_handler.go:63-68: the storage of the upload a part belongs to. -/
def partFile (m : Message Entity) (b : T0801) (p : Packet) : Multipart :=
  { icc := m.header.iccID, msgID := m.header.msgID, tag := b.getTag, sum := p.sum }

/-- session_handler.go:98-112: merging and delivering. `SetReader` replaces the content. The reader is an open file that the handler reads later; its
content is taken as it is after the merge, which is what the handler reads unless another session merges the same upload in the meantime (C93). -/
def complete (s : Loop) (a : Around) (m : Message Entity) (b : T0801) (p : Packet) : Res (Loop × List Act) := do
  let r ← (partFile m b p).merge a.merge s.fs
  let s := { s with fs := r.1 }
  match r.2 with
  | none => .ok (s, [.merged (partFile m b p) a.merge])
  | some content => do
    let o := s.outsides a.afterMerge
    let (s, x) ← o.1.deliver a { m with body := .val (.m0801 { b with packet := some content }) }
    .ok (s, .merged (partFile m b p) a.merge :: (o.2 ++ x))

/-- session_handler.go:94-112, after the reply. -/
def check (s : Loop) (a : Around) (m : Message Entity) (b : T0801) (p : Packet) : Res (Loop × List Act) := do
  if p.seq ≠ p.sum then .ok (s, [])
  else do
    let full ← (partFile m b p).isFull s.fs
    if !full then .ok (s, [])
    else do
      let r := s.outsides a.afterCheck
      let (s, x) ← r.1.complete a m b p
      .ok (s, r.2 ++ x)

/-- session_handler.go:81-112: one part of an upload with content `data`. (`ioutil.ReadAll` of a `bytes.Reader` does not fail, so the branch of
lines 70-79 is not reached.) -/
def part (s : Loop) (a : Around) (m : Message Entity) (b : T0801) (p : Packet) (data : Bytes) : Res (Loop × List Act) := do
  let w := (partFile m b p).write a.write p.seq data s.fs
  let s := { s with fs := w.1 }
  if !w.2 then .ok (s, [.wrote (partFile m b p) p.seq data a.write, .reply m.header.serial m.header.msgID 1])
  else do
    let r := s.outsides a.afterWrite
    let (s, x) ← r.1.check a m b p
    .ok (s, [.wrote (partFile m b p) p.seq data a.write, .reply m.header.serial m.header.msgID 0] ++ r.2 ++ x)

/-- session_handler.go:42-112: the handling of a received message. `auto` is the option AutoMergePacket. Only 0x0801 is an `EntityPacket`; a missing
packet part of the header, or a missing reader, is a nil pointer. -/
def process (auto : Bool) (s : Loop) (a : Around) (m : Message Entity) : Res (Loop × List Act) :=
  match m.body with
  | .val e =>
    if !auto || !Property.isEnablePacket m.header.property then s.deliver a m
    else
      match e with
      | .m0801 b =>
        match m.header.packet, b.packet with
        | some p, some data => s.part a m b p data
        | _, _ => .panic
      | _ => s.deliver a m
  | _ => .ok (s, [.reply m.header.serial m.header.msgID 3])

end Loop

/-- What happens in the course of a session (session_handler.go:36-112). -/
inductive Input where
  /-- a step of another goroutine while the loop waits in `Receive` -/
  | outside (x : Outside)
  /-- `Receive` returns a message or an error, or panics -/
  | receive (r : Res (Message Entity)) (a : Around)
  deriving DecidableEq, Repr

/-- One turn of the loop, session_handler.go:34-113. A panic is not recovered: it ends the process. -/
def Loop.step (auto : Bool) (s : Loop) : Input → Res (Loop × List Act)
  | .outside x => .ok (s.outside x)
  | .receive r a =>
    if s.running then
      match r with
      | .ok m => s.process auto a m
      | .err _ => .ok ({ s with running := false }, [.closed])
      | .panic => .panic
    else .ok (s, [])

/-- The course of a session (session_handler.go:34-113). -/
def Loop.run (auto : Bool) (s : Loop) : List Input → Res (Loop × List Act)
  | [] => .ok (s, [])
  | i :: is => do
    let (s, x) ← s.step auto i
    let (s, y) ← s.run auto is
    .ok (s, x ++ y)

end Verif.Handler
