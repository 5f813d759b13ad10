/-! # Goroutines, locks and shared memory

Which memory every function of the server touches, in which order, and which locks it takes meanwhile; and the interleavings of the goroutines that
run these functions: the ones of the program, the ticker of the timer, and for every session the receive loop, the send loop and the goroutine that
runs the close callback.

What the functions compute is left out: where the code branches on data, the outcome is a parameter of the model, so that every outcome is among the
executions considered. Fields that only constructors write (`Server.closeHandler`, `Server.privateKey`, `Server.timer`, `Session.server`, ...),
`Session.UserData`, which only the program touches, and `Server.messageHandlers`, a `sync.Map`, which may be used by several goroutines at once,
are left out too. There is one server. -/

namespace Verif.Sync

/-- The locks: server.go:31, timer.go:67, session.go:27. -/
inductive Mutex where
  | server
  | timer
  | session (s : Nat)
  deriving DecidableEq, Repr

/-- The memory that goroutines share. -/
inductive Cell where
  /-- `Server.server` (server.go:26) -/
  | running
  /-- `Server.sessions`, the map (server.go:32) -/
  | sessions
  /-- `CountdownTimer.q` and `mapper` with their elements (timer.go:68-69) -/
  | queue
  /-- `CountdownTimer.seconds` (timer.go:66) -/
  | seconds
  /-- `Session.next` (session.go:22) -/
  | next (s : Nat)
  /-- `Session.iccID` (session.go:23) -/
  | iccID (s : Nat)
  /-- `Session.requests` (session.go:28) -/
  | requests (s : Nat)
  /-- `ProtocolCodec.publicKey` (protocol.go:36) -/
  | publicKey (s : Nat)
  /-- `ProtocolCodec.bufferReceiving` (protocol.go:38) -/
  | received (s : Nat)
  /-- `protocol.entityMapper` (protocol/register.go:140) -/
  | bodyTypes
  /-- `extra.entityMapper` (protocol/extra/register.go:34) -/
  | extraTypes
  /-- a message body, an object of the program -/
  | body (b : Nat)
  deriving DecidableEq, Repr

/-- The goroutines: those of the program (0 is the one that runs `main`), the one started in timer.go:82, and those that link starts: one per
accepted connection, which runs `HandleSession` (session_handler.go:19), its send loop, and the one that runs the close callbacks. -/
inductive Goroutine where
  | program (n : Nat)
  | ticker
  | receiver (s : Nat)
  | sender (s : Nat)
  | closer (s : Nat)
  deriving DecidableEq, Repr

/-- What a goroutine does at once. -/
inductive Act where
  | lock (m : Mutex)
  | unlock (m : Mutex)
  | read (c : Cell)
  | write (c : Cell)
  /-- an operation of `sync/atomic` -/
  | atomicRead (c : Cell)
  | atomicWrite (c : Cell)
  /-- link puts a message with this body into the channel of the session (session.go:80) -/
  | put (s : Nat) (b : Nat)
  /-- the send loop takes the message from the channel (before protocol.go:60) -/
  | take (s : Nat) (b : Nat)
  /-- a `go` statement; nothing happens if this goroutine runs already (link closes a session only once) -/
  | start (g : Goroutine)
  /-- waiting until a goroutine has come to its end (`sync.WaitGroup` in link) -/
  | join (g : Goroutine)
  /-- a function of the program is called: a handler, a callback of a request, the close handler (server.go:144, 191; session.go:189) -/
  | enter
  deriving DecidableEq, Repr

/-! ## The functions of the timer -/

/-- timer.go:101-111: `Remove`. -/
def timerRemove (found : Bool) : List Act :=
  [.lock .timer, .read .queue] ++ (if found then [.write .queue] else []) ++ [.unlock .timer]

/-- timer.go:87-98: `Update`. -/
def timerUpdate (found : Bool) : List Act :=
  [.atomicRead .seconds] ++ timerRemove found ++ [.lock .timer, .read .queue, .write .queue, .unlock .timer]

/-- timer.go:114-118: `SetExpiration`. -/
def setExpiration (positive : Bool) : List Act :=
  if positive then [.atomicWrite .seconds] else []

/-! ## The functions of the session -/

/-- How link's `Send` ends: the message is in the channel, the session was closed, or the channel was full, and `Send` closed the session.
(session.go:80.) -/
inductive SendEnd where
  | queued
  | refused
  | blocked
  deriving DecidableEq, Repr

/-- session.go:120-134: `nextID`, whose compare-and-swap fails `tries` times. -/
def nextID (s tries : Nat) : List Act :=
  (List.replicate (tries + 1) [Act.atomicRead (.next s), Act.atomicWrite (.next s)]).flatten

/-- session.go:70-85: `Send`. -/
def send (s tries b : Nat) (e : SendEnd) : List Act :=
  [.atomicRead (.iccID s)] ++ nextID s tries ++
    match e with
    | .queued => [.put s b]
    | .refused => []
    | .blocked => [.start (.closer s)]

/-- session.go:194-205: `addRequestContext`. -/
def addRequest (s : Nat) : List Act :=
  [.lock (.session s), .read (.requests s), .write (.requests s), .unlock (.session s)]

/-- session.go:208-220: `takeRequestContext`. -/
def takeRequest (s : Nat) (found : Bool) : List Act :=
  [.lock (.session s), .read (.requests s)] ++ (if found then [.write (.requests s)] else []) ++ [.unlock (.session s)]

/-- session.go:98-112: `Request`; `callback` says whether a callback is given. -/
def request (s tries b : Nat) (e : SendEnd) (callback : Bool) : List Act :=
  send s tries b e ++ (if e = .queued ∧ callback = true then addRequest s else [])

/-! ## The functions of the server -/

/-- server.go:90-98: `GetSession`. -/
def getSession : List Act := [.lock .server, .read .sessions, .unlock .server]

/-- server.go:106-121: `Broadcast`, which finds these sessions. -/
def broadcast (b : Nat) (found : List (Nat × Nat × SendEnd)) : List Act :=
  [.lock .server, .read .sessions, .unlock .server] ++ found.flatMap fun (s, tries, e) => send s tries b e

/-- server.go:62-79: `Run`. `already`: it finds the server running; `listening`: `net.Listen` succeeds; `accepted`: the connections that
`Serve` accepts. Link starts a goroutine for each. -/
def runServer (already listening : Bool) (accepted : List Nat) : List Act :=
  [.read .running] ++
    if already = false ∧ listening = true then
      [.write .running, .read .running] ++ accepted.map fun s => .start (.receiver s)
    else []

/-- server.go:82-87: `Stop`. Link closes the sessions it has, `opened`, and waits until their close callbacks have run. -/
def stopServer (isRunning : Bool) (opened : List Nat) : List Act :=
  [.read .running] ++
    if isRunning then
      [.read .running] ++ (opened.map fun s => .start (.closer s)) ++ (opened.map fun s => .join (.closer s)) ++ [.write .running]
    else []

/-! ## Codec and messages -/

/-- protocol/message.go:20-65: `Message.Encode`, as far as it touches the body: it may find no body, it reads it, or it changes it as well
(protocol/t808_0x0200.go:114, 118 and protocol/t808_0x8604.go:52, 56: `Encode` sets the bits for south and west in the body; bodies that contain
a report do the same through it, protocol/t808_0x0201.go:22). -/
inductive Encoding where
  | nothing
  | reads
  | marks
  deriving DecidableEq, Repr

/-- See `Encoding` (protocol/message.go:20-65). -/
def encode (b : Nat) : Encoding → List Act
  | .nothing => []
  | .reads => [.read (.body b)]
  | .marks => [.read (.body b), .write (.body b)]

/-- protocol/message.go:68-180: `Message.Decode` as far as it touches shared memory. If it comes that far it looks up the type of the body
(protocol/message.go:183) and those of so many extras (protocol/extra/extra.go:18). -/
def decode : Option Nat → List Act
  | none => []
  | some extras => [.read .bodyTypes] ++ List.replicate extras (.read .extraTypes)

/-! ## What a goroutine of the program may do -/

/-- The calls of a program, with what they meet. -/
inductive Call where
  /-- server.go:41-59 (with timer.go:74-84: the goroutine of the timer is started) -/
  | newServer
  | run (already listening : Bool) (accepted : List Nat)
  | stop (isRunning : Bool) (opened : List Nat)
  | getSession
  | broadcast (b : Nat) (found : List (Nat × Nat × SendEnd))
  /-- server.go:124-128: only a `sync.Map` is touched -/
  | addHandler
  /-- session.go:70-85; `Reply` (session.go:88-95) is `Send` with a new body -/
  | send (s tries b : Nat) (e : SendEnd)
  | request (s tries b : Nat) (e : SendEnd) (callback : Bool)
  /-- session.go:115-117 -/
  | close (s : Nat)
  /-- session.go:52-58, protocol.go:42-44 -/
  | getPublicKey (s : Nat)
  /-- session.go:61-67, protocol.go:47-49 -/
  | setPublicKey (s : Nat)
  | timerUpdate (found : Bool)
  | timerRemove (found : Bool)
  | setExpiration (positive : Bool)
  /-- protocol/register.go:339-341 -/
  | register
  /-- protocol/extra/register.go:74-76 -/
  | registerExtra
  /-- protocol/message.go:20-180: the program encodes or decodes a message itself -/
  | encode (b : Nat) (e : Encoding)
  | decode (types : Option Nat)
  /-- the program reads or changes a body -/
  | look (b : Nat)
  | change (b : Nat)
  /-- the program starts one of its own goroutines -/
  | go (n : Nat)

/-- What a call does. (See the functions above; the other lines are cited at `Call`.) -/
def Call.acts : Call → List Act
  | .newServer => [.start .ticker]
  | .run already listening accepted => runServer already listening accepted
  | .stop isRunning opened => stopServer isRunning opened
  | .getSession => Sync.getSession
  | .broadcast b found => Sync.broadcast b found
  | .addHandler => []
  | .send s tries b e => Sync.send s tries b e
  | .request s tries b e callback => Sync.request s tries b e callback
  | .close s => [.start (.closer s)]
  | .getPublicKey s => [.read (.publicKey s)]
  | .setPublicKey s => [.write (.publicKey s)]
  | .timerUpdate found => Sync.timerUpdate found
  | .timerRemove found => Sync.timerRemove found
  | .setExpiration positive => Sync.setExpiration positive
  | .register => [.write .bodyTypes]
  | .registerExtra => [.write .extraTypes]
  | .encode b e => Sync.encode b e
  | .decode types => Sync.decode types
  | .look b => [.read (.body b)]
  | .change b => [.write (.body b)]
  | .go n => [.start (.program n)]

/-- Calls one after the other. A function of the program that panics makes fewer calls. (server.go:139-143, 185-189; session.go:184-188.) -/
def calls (cs : List Call) : List Act := cs.flatMap Call.acts

/-! ## The goroutines of the library -/

/-- timer.go:121-153: one turn of the loop. `expired` tells for each key that is due whether the server knows the session. -/
structure Tick where
  expired : List (Nat × Bool)

/-- timer.go:128-150 and, for each key that was due, server.go:154-169. -/
def Tick.acts (t : Tick) : List Act :=
  [.lock .timer] ++ (t.expired.flatMap fun _ => [Act.read .queue, Act.write .queue]) ++ [.read .queue, .unlock .timer] ++
    t.expired.flatMap fun (s, known) => getSession ++ if known then [.start (.closer s)] else []

/-- session.go:138-191: `Session.message`. `number`: the message has a terminal number; `answer`: it has a serial number to look up, and the lookup
finds a callback, which makes these calls. -/
structure Delivery where
  number : Bool
  answer : Option (Option (List Call))
  /-- server.go:172-192: `dispatchMessage`: there is a handler; the timer knows the session; the handler makes these calls -/
  handler : Option (Bool × List Call)

/-- session.go:138-191 and server.go:172-192. -/
def Delivery.acts (s : Nat) (d : Delivery) : List Act :=
  (if d.number then [.atomicRead (.iccID s), .atomicWrite (.iccID s)] else []) ++
  (match d.answer with
    | none => []
    | some none => takeRequest s false
    | some (some cs) => takeRequest s true ++ [.enter] ++ calls cs) ++
  (match d.handler with
    | none => []
    | some (known, cs) => timerUpdate known ++ [.enter] ++ calls cs)

/-- What one turn of the receive loop does after `Receive` (session_handler.go:42-112). -/
inductive Turn where
  /-- no body: the message is answered (session_handler.go:44-47) -/
  | unsupported (tries b : Nat) (e : SendEnd)
  /-- session_handler.go:49-61 -/
  | delivered (d : Delivery)
  /-- a part of an upload: answered and, if it is the last one, delivered (session_handler.go:63-112) -/
  | part (tries b : Nat) (e : SendEnd) (d : Option Delivery)

/-- protocol.go:101-185: `Receive`, which uses the buffer so many times and then decodes a frame or not (see `decode`). -/
structure Receiving where
  uses : Nat
  types : Option Nat

/-- protocol.go:101-185. -/
def Receiving.acts (s : Nat) (x : Receiving) : List Act :=
  (List.replicate x.uses [Act.read (.received s), Act.write (.received s)]).flatten ++ decode x.types ++
    [.read (.received s), .write (.received s)]

/-- session_handler.go:42-112. -/
def Turn.acts (s : Nat) : Turn → List Act
  | .unsupported tries b e => send s tries b e
  | .delivered d => d.acts s
  | .part tries b e d => send s tries b e ++ match d with | none => [] | some d => d.acts s

/-- session_handler.go:19-114: the receive loop. Before, link has started the send loop. At last `Receive` fails and the loop closes the session
(session_handler.go:36-40). -/
def receiverActs (s : Nat) (known : Bool) (turns : List (Receiving × Turn)) (last : Receiving) : List Act :=
  [.start (.sender s), .lock .server, .write .sessions, .unlock .server] ++ timerUpdate known ++
  (turns.flatMap fun (x, t) => x.acts s ++ t.acts s) ++ last.acts s ++ [.start (.closer s)]

/-- What the send loop does with a message (protocol.go:60-98): with a public key it looks at it a second time. -/
structure Sending where
  b : Nat
  keyed : Bool
  encoding : Encoding

/-- protocol.go:70-84. -/
def Sending.acts (s : Nat) (x : Sending) : List Act :=
  [.take s x.b, .read (.publicKey s)] ++ (if x.keyed then [.read (.publicKey s)] else []) ++ encode x.b x.encoding

/-- The send loop of link; when it ends it closes the session. (Started for server.go:76.) -/
def senderActs (s : Nat) (xs : List Sending) : List Act :=
  xs.flatMap (Sending.acts s) ++ [.start (.closer s)]

/-- server.go:131-151: `handleClose`; `handler`: the close handler, if there is one, makes these calls. -/
def handleClose (found : Bool) (handler : Option (List Call)) : List Act :=
  [.lock .server, .write .sessions, .unlock .server] ++ timerRemove found ++
    match handler with
    | none => []
    | some cs => [.enter] ++ calls cs

/-- What all goroutines do. In an infinite loop they do as much as one likes. `closing s` is `none` if the session is closed before the receive loop
adds the callback (session_handler.go:30-32). -/
structure System where
  programs : Nat → List Call
  ticks : List Tick
  turns : Nat → Bool × List (Receiving × Turn) × Receiving
  sendings : Nat → List Sending
  closing : Nat → Option (Bool × Option (List Call))

/-- See the definitions above (timer.go:121-153, session_handler.go:19-114, protocol.go:60-98, server.go:131-151). -/
def System.acts (S : System) : Goroutine → List Act
  | .program n => calls (S.programs n)
  | .ticker => S.ticks.flatMap Tick.acts
  | .receiver s => receiverActs s (S.turns s).1 (S.turns s).2.1 (S.turns s).2.2
  | .sender s => senderActs s (S.sendings s)
  | .closer s =>
    match S.closing s with
    | none => []
    | some (found, handler) => handleClose found handler

/-! ## Interleavings -/

/-- The state: what every goroutine has still to do, which have been started, who holds which lock, what is in the channels.
(server.go:31, timer.go:67, session.go:27, server.go:76.) -/
structure State where
  todo : Goroutine → List Act
  started : Goroutine → Bool
  holder : Mutex → Option Goroutine
  channel : Nat → List Nat

/-- At first `main` runs alone (example/server/server.go:127). -/
def System.init (S : System) : State where
  todo := S.acts
  started g := g == .program 0
  holder _ := none
  channel _ := []

/-- Whether an action need not wait: `Lock` waits for the lock, receiving from a channel for a message (the one named is at its front), waiting for
a goroutine until that has nothing more to do. Putting a message into the channel never waits (`SendEnd`). (Go semantics; session.go:80.) -/
def State.ready (σ : State) : Act → Bool
  | .lock m => (σ.holder m).isNone
  | .take s b => (σ.channel s).head? == some b
  | .join g => (σ.todo g).isEmpty
  | _ => true

/-- The effect of an action of `g`, after which `rest` is left (Go semantics). -/
def State.effect (σ : State) (g : Goroutine) (rest : List Act) (a : Act) : State :=
  let σ := { σ with todo := fun h => if h = g then rest else σ.todo h }
  match a with
  | .lock m => { σ with holder := fun n => if n = m then some g else σ.holder n }
  | .unlock m => { σ with holder := fun n => if n = m then none else σ.holder n }
  | .put s b => { σ with channel := fun t => if t = s then σ.channel t ++ [b] else σ.channel t }
  | .take s _ => { σ with channel := fun t => if t = s then (σ.channel t).tail else σ.channel t }
  | .start h => { σ with started := fun k => if k = h then true else σ.started k }
  | _ => σ

/-- One step of goroutine `g`, if it can make one (Go semantics). -/
def State.step (σ : State) (g : Goroutine) : Option (Act × State) :=
  if σ.started g then
    match σ.todo g with
    | [] => none
    | a :: rest => if σ.ready a then some (a, σ.effect g rest a) else none
  else none

/-- The goroutines make steps in this order; the result is what was done by whom and the state reached. -/
def State.run (σ : State) : List Goroutine → Option (List (Goroutine × Act) × State)
  | [] => some ([], σ)
  | g :: gs =>
    match σ.step g with
    | none => none
    | some (a, σ') =>
      match σ'.run gs with
      | none => none
      | some (τ, σ'') => some ((g, a) :: τ, σ'')

end Verif.Sync
