import Verif.Model.Files
import Verif.Model.System
/-! # The receive loops of all connections together, system call by system call

In `Model/System.lean` a part is stored, an upload is checked and parts are merged in one step each, and the content of the merged file is read in the step
that merges. Here the loop of every connection calls `Write`, `IsFull` and `Merge` as they are in `Model/Files.lean`: each of their system calls is a step of
its own, and the handler reads the merged file piece by piece, while other connections go on. -/

namespace Verif.Syscall
open Handler Session

/-- Where the goroutine of a connection is in the loop (session_handler.go:34-113). -/
inductive Place where
  /-- before line 36 -/
  | waiting
  /-- `Receive` has returned a message, before line 44 -/
  | received (m : Message Entity)
  /-- in `Write`, line 81 -/
  | storing (m : Message Entity) (b : T0801) (p : Packet)
  /-- a part was stored and acknowledged, before line 94 -/
  | stored (m : Message Entity) (b : T0801) (p : Packet)
  /-- in `IsFull`, line 94 -/
  | checking (m : Message Entity) (b : T0801) (p : Packet)
  /-- `IsFull` said yes, before line 98 -/
  | full (m : Message Entity) (b : T0801) (p : Packet)
  /-- in `Merge`, line 98 -/
  | merging (m : Message Entity) (b : T0801) (p : Packet)
  /-- the merged file is open and the reader is set, before line 110 -/
  | merged (m : Message Entity)
  /-- after `session.message`, before `dispatchMessage` looks for the handler (lines 51, 59, 111) -/
  | noted (m : Message Entity)
  /-- in the handler (server.go:191) -/
  | handling
  /-- after the loop -/
  | ended
  deriving DecidableEq, Repr

/-- A connection with its session (protocol.go:32-39, session.go:21-31); as in `Model/System.lean`. -/
structure Conn where
  place : Place := .waiting
  recv : RecvState
  requests : List Pending := []
  icc : UInt64 := 0

/-- The shared data, the calls on files that are under way, and the connections (server.go:25-36, multipart.go:90-94). Goroutine `k` of `files` is the one
of connection `k`. -/
structure State where
  files : Files.State := {}
  handlers : UInt16 → Option Nat := fun _ => none
  conns : Nat → Conn

/-- What is observed: what the loops do, and what happens in the calls on files (session_handler.go:34-113). -/
inductive Item where
  | act (k : Nat) (a : Act)
  | file (o : Files.Obs)
  deriving DecidableEq, Repr

/-- The steps; `k` is the connection (session_handler.go:34-113, server.go:124-128, session.go:98-112). -/
inductive Event where
  /-- `Receive` returns, line 36 -/
  | receive (k : Nat)
  /-- lines 44-81: an undecodable message is answered, `Write` is called for a part, any other message goes through `session.message` with a callback that
  ends like this -/
  | process (k : Nat) (u : UserCode)
  /-- line 94: `IsFull` is called -/
  | check (k : Nat)
  /-- line 98: `Merge` is called -/
  | merge (k : Nat)
  /-- the next system call of `Write`, `IsFull` or `Merge`, with its answer; if the call returns, the loop goes on to the next point -/
  | sys (k : Nat) (a : Files.Answer)
  /-- line 110, `session.message` -/
  | note (k : Nat) (u : UserCode)
  /-- lines 51, 59, 111: `dispatchMessage` looks for the handler and calls it -/
  | dispatch (k : Nat)
  /-- the handler reads at most `n + 1` bytes of the merged file -/
  | read (k : Nat) (n : Nat)
  /-- the handler ends like this, server.go:185-192; line 112: a merged file is closed -/
  | ret (k : Nat) (u : UserCode)
  /-- server.go:124-128 `AddHandler` -/
  | addHandler (id : UInt16) (h : Option Nat)
  /-- session.go:105 `addRequestContext` on session `k` -/
  | addRequest (k : Nat) (r : Pending)
  deriving DecidableEq, Repr

namespace State

/-- The data the loop of connection `k` works on (server.go:25-36, session.go:21-31). -/
def view (s : State) (k : Nat) : Loop :=
  { fs := s.files.fs, handlers := s.handlers, requests := (s.conns k).requests, icc := (s.conns k).icc }

/-- Connection `k` becomes `c` (plumbing for server.go:32). -/
def put (s : State) (k : Nat) (c : Conn) : State := { s with conns := fun j => if j = k then c else s.conns j }

/-- The goroutine of connection `k` moves on (session_handler.go:34-113). -/
def goto (s : State) (k : Nat) (p : Place) : State := s.put k { s.conns k with place := p }

/-- `session.message` (session.go:138-191) for connection `k`. -/
def message (s : State) (k : Nat) (u : UserCode) (m : Message Entity) : Res (State × List Item) := do
  let (l, x) ← (s.view k).message { callback := u } m
  .ok (s.put k { s.conns k with place := .noted m, requests := l.requests, icc := l.icc }, x.map (.act k))

/-- Connection `k` makes a call on files (session_handler.go:81, 94, 98). -/
def call (s : State) (k : Nat) (p : Place) (c : Files.Call) : Res (State × List Item) := do
  let (f, l) ← s.files.step (.call k c)
  .ok ({ s with files := f }.goto k p, l.map .file)

/-- The message with the merged file as reader (session_handler.go:109 `SetReader`). Here `none` stands for the open file: what is read from it is observed
apart from the message. -/
def withReader (m : Message Entity) (b : T0801) : Message Entity := { m with body := .val (.m0801 { b with packet := none }) }

/-- A call on files has returned, with this result (session_handler.go:81-109). -/
def result (s : State) (k : Nat) (o : Files.Obs) : State × List Act :=
  match (s.conns k).place, o with
  | .storing m b p, .wrote _ f seq data o =>
    if o = .ok then (s.goto k (.stored m b p), [.wrote f seq data o, .reply m.header.serial m.header.msgID 0])
    else (s.goto k .waiting, [.wrote f seq data o, .reply m.header.serial m.header.msgID 1])
  | .checking m b p, .checked _ _ full => (s.goto k (if full then .full m b p else .waiting), [])
  | .merging m b _, .merged _ f o => (s.goto k (if o = .ok then .merged (withReader m b) else .waiting), [.merged f o])
  | _, _ => (s, [])

/-- The result of a call is observed last; without one the call goes on (session_handler.go:81-109). -/
def returned (s : State) (k : Nat) (l : List Files.Obs) : State × List Act :=
  match l.getLast? with
  | some o => s.result k o
  | none => (s, [])

/-- session_handler.go:112: a merged file is closed, and the loop begins again. Other messages have none. -/
def finish (s : State) (k : Nat) (x : List Item) : Res (State × List Item) := do
  let (f, l) ← s.files.step (.release k)
  .ok ({ s with files := f }.goto k .waiting, x ++ l.map .file)

/-- One step; a goroutine that is not at the point does nothing. `auto` is the option AutoMergePacket. A panic ends the process.
(session_handler.go:34-113, server.go:172-192) -/
def step (env : Env) (key : Option DecKey) (endErr : Err) (auto : Bool) (s : State) : Event → Res (State × List Item)
  | .receive k =>
    match (s.conns k).place with
    | .waiting =>
      match Codec.receive (entityCodec env) key endErr (s.conns k).recv with
      | (.ok m, r) => .ok (s.put k { s.conns k with place := .received m, recv := r }, [])
      | (.err _, r) => .ok (s.put k { s.conns k with place := .ended, recv := r }, [.act k .closed])
      | (.panic, _) => .panic
    | _ => .ok (s, [])
  | .process k u =>
    match (s.conns k).place with
    | .received m =>
      match m.body with
      | .val e =>
        if !auto || !Property.isEnablePacket m.header.property then s.message k u m
        else
          match e with
          | .m0801 b =>
            match m.header.packet, b.packet with
            | some p, some data => s.call k (.storing m b p) (.write (Loop.partFile m b p) p.seq data)
            | _, _ => .panic
          | _ => s.message k u m
      | _ => .ok (s.goto k .waiting, [.act k (.reply m.header.serial m.header.msgID 3)])
    | _ => .ok (s, [])
  | .check k =>
    match (s.conns k).place with
    | .stored m b p =>
      if p.seq ≠ p.sum then .ok (s.goto k .waiting, [])
      else s.call k (.checking m b p) (.isFull (Loop.partFile m b p))
    | _ => .ok (s, [])
  | .merge k =>
    match (s.conns k).place with
    | .full m b p => s.call k (.merging m b p) (.merge (Loop.partFile m b p))
    | _ => .ok (s, [])
  | .sys k a => do
    let (f, l) ← s.files.step (.step k a)
    let r := { s with files := f }.returned k l
    .ok (r.1, l.map .file ++ r.2.map (.act k))
  | .note k u =>
    match (s.conns k).place with
    | .merged m => s.message k u m
    | _ => .ok (s, [])
  | .dispatch k =>
    match (s.conns k).place with
    | .noted m =>
      match s.handlers m.header.msgID with
      | none => s.finish k [.act k (.unhandled m)]
      | some h => .ok (s.goto k .handling, [.act k .touch, .act k (.handle h m)])
    | _ => .ok (s, [])
  | .read k n =>
    match (s.conns k).place with
    | .handling => do
      let (f, l) ← s.files.step (.read k n)
      .ok ({ s with files := f }, l.map .file)
    | _ => .ok (s, [])
  | .ret k u =>
    match (s.conns k).place with
    | .handling => do
      let _ ← recovered u.call
      s.finish k []
    | _ => .ok (s, [])
  | .addHandler _ none => .ok (s, [])
  | .addHandler id (some h) => .ok ({ s with handlers := fun x => if x = id then some h else s.handlers x }, [.act 0 (.registered id h)])
  | .addRequest k r => .ok (s.put k { s.conns k with requests := addRequest r (s.conns k).requests }, [.act k (.requested r)])

/-- A schedule (any interleaving of the goroutines; session_handler.go:34-113). -/
def run (env : Env) (key : Option DecKey) (endErr : Err) (auto : Bool) (s : State) : List Event → Res (State × List Item)
  | [] => .ok (s, [])
  | e :: es => do
    let (s, x) ← s.step env key endErr auto e
    let (s, y) ← s.run env key endErr auto es
    .ok (s, x ++ y)

end State

/-- The connections at the beginning: connection `k` will deliver the bytes `reads k` (session_handler.go:19-32); as in `Model/System.lean`. -/
def start (reads : Nat → List Bytes) : State := { conns := fun k => { recv := ⟨[], reads k⟩ } }

/-- The connections at the beginning when an earlier process has left these files (multipart.go:90-94: they stay in the temporary directory). -/
def startOn (fs : FS) (reads : Nat → List Bytes) : State := { start reads with files := { fs := fs } }

end Verif.Syscall
