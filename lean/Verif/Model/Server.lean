import Verif.Model.TimerRun
import Verif.Model.Handler
/-! # server.go, session_handler.go: accepting, keeping alive and closing sessions

The concurrent activities are: one goroutine per session (`HandleSession`), one goroutine per closed session that runs its close callbacks, the
goroutine of the countdown timer, and any goroutines that call `Close` on sessions. The atomic steps are the critical sections under `server.mutex`,
under the mutex of the timer and under the mutex for close callbacks, and the atomic operations on the closed flag.

github.com/funny/link is not part of the repository. Its behaviour is modelled as follows: session ids come from a counter; `Session.Close` takes effect
once (compare-and-swap on a flag) and then starts a goroutine that runs the close callbacks under a mutex; `AddCloseCallback` does nothing if the flag is
set, and otherwise appends the callback under that mutex; `Receive` and the sending goroutine close the session on errors. -/

namespace Verif.Server
open Handler

/-- Where the goroutine of a session is in `HandleSession` (session_handler.go:19-114). -/
inductive Place where
  /-- before line 25 -/
  | accepted
  /-- before `timer.Update`, line 29 -/
  | registered
  /-- inside that `timer.Update`, before or after its first critical section -/
  | starting (cancelled : Bool)
  /-- before `AddCloseCallback`, line 30 -/
  | timed
  /-- inside `AddCloseCallback`, after its look at the closed flag -/
  | checked
  /-- in the loop, line 34 -/
  | looping
  /-- inside `timer.Update` of `dispatchMessage`, server.go:190, likewise -/
  | updating (cancelled : Bool)
  /-- after the loop -/
  | ended
  deriving DecidableEq, Repr

/-- Where the goroutine started by `Close` is (session.go:115-117 with the close callback of session_handler.go:30-32). -/
inductive Closer where
  /-- not started -/
  | idle
  /-- before taking the mutex of the callbacks -/
  | started
  /-- in `handleClose`, before server.go:132 -/
  | deleting
  /-- before server.go:136 -/
  | removing
  /-- before server.go:137 -/
  | handling
  /-- at the end, after `handleClose` -/
  | done
  /-- at the end, without callback -/
  | skipped
  deriving DecidableEq, Repr

/-- A session: link's closed flag and close callback, the goroutines, and whether it is in `server.sessions` (server.go:32; the map is kept as this
flag). -/
structure Sess where
  place : Place := .accepted
  closed : Bool := false
  attached : Bool := false
  closer : Closer := .idle
  inMap : Bool := false
  deriving DecidableEq, Repr

/-- Steps of and on one session (session_handler.go:19-114). -/
inductive Move where
  /-- session_handler.go:25-28 -/
  | register
  /-- `timer.Update` is called, by session_handler.go:29 or for a message by server.go:190, and reads the clock -/
  | restart (now : Int)
  /-- the first critical section of `Update` -/
  | cancel
  /-- its second critical section -/
  | arm
  /-- `AddCloseCallback` looks at the closed flag, session_handler.go:30 -/
  | check
  /-- `AddCloseCallback` appends -/
  | attach
  /-- receiving fails, session_handler.go:37-40 -/
  | leave
  /-- any other call of `Close` takes effect or not -/
  | close
  /-- the closing goroutine takes the mutex of the callbacks -/
  | callbacks
  /-- server.go:132-134 -/
  | delete
  /-- server.go:136 -/
  | remove
  /-- server.go:137-146; `u` says how the close handler ends -/
  | handler (u : UserCode)
  deriving DecidableEq, Repr

/-- What can be observed (server.go:131-192). -/
inductive Obs where
  | accepted (k : Nat)
  | registered (k : Nat)
  /-- the keepalive period of a session is restarted at this time: the call of `Update` -/
  | restart (k : Nat) (now : Int)
  /-- the old period no longer counts -/
  | cancelled (k : Nat)
  /-- the new period counts -/
  | armed (k : Nat)
  /-- the close callback is in place -/
  | attached (k : Nat)
  /-- the loop has ended -/
  | left (k : Nat)
  /-- `Close` took effect -/
  | closing (k : Nat)
  | deleted (k : Nat)
  | removed (k : Nat)
  /-- the close handler is called, if there is one -/
  | closeHandler (k : Nat)
  /-- the closing goroutine has ended -/
  | closeDone (k : Nat)
  /-- a tick of the timer at this time, and the keys that have expired -/
  | ticked (now : Int) (ks : List Nat)
  /-- the keepalive closes a session, server.go:164 -/
  | timeout (k : Nat)
  deriving DecidableEq, Repr

/-- `Session.Close`: takes effect once (session.go:115-117). -/
def Sess.close (k : Nat) (x : Sess) : Sess × List Obs :=
  if x.closed then (x, []) else ({ x with closed := true, closer := .started }, [.closing k])

/-- One step; `none` if the goroutine is not at that point. A panic in the close handler is recovered (server.go:139-143). -/
def Sess.step (k : Nat) (x : Sess) : Move → Option (Sess × List Obs)
  | .register => if x.place = .accepted then some ({ x with place := .registered, inMap := true }, [.registered k]) else none
  | .restart now =>
    if x.place = .registered then some ({ x with place := .starting false }, [.restart k now])
    else if x.place = .looping then some ({ x with place := .updating false }, [.restart k now])
    else none
  | .cancel =>
    if x.place = .starting false then some ({ x with place := .starting true }, [.cancelled k])
    else if x.place = .updating false then some ({ x with place := .updating true }, [.cancelled k])
    else none
  | .arm =>
    if x.place = .starting true then some ({ x with place := .timed }, [.armed k])
    else if x.place = .updating true then some ({ x with place := .looping }, [.armed k])
    else none
  | .check =>
    if x.place = .timed then some ({ x with place := if x.closed then .looping else .checked }, []) else none
  | .attach => if x.place = .checked then some ({ x with place := .looping, attached := true }, [.attached k]) else none
  | .leave =>
    if x.place = .looping then
      let (x, o) := x.close k
      some ({ x with place := .ended }, o ++ [.left k])
    else none
  | .close => some (x.close k)
  | .callbacks =>
    if x.closer = .started then
      if x.attached then some ({ x with closer := .deleting }, [])
      else some ({ x with closer := .skipped }, [.closeDone k])
    else none
  | .delete => if x.closer = .deleting then some ({ x with closer := .removing, inMap := false }, [.deleted k]) else none
  | .remove => if x.closer = .removing then some ({ x with closer := .handling }, [.removed k]) else none
  | .handler u =>
    if x.closer = .handling then
      match recovered u.call with
      | .ok () => some ({ x with closer := .done }, [.closeHandler k, .closeDone k])
      | _ => none
    else none

/-- The call on the timer that a step consists of. The key is `strconv.FormatUint(id, 10)`, which `handleReadTimeout` parses back (server.go:155);
the model uses the id itself. The goroutine of session `k` is number `k`. -/
def Move.timerEvent (k : Nat) : Move → Option (Timer.Event Nat)
  | .restart now => some (.begin k k now)
  | .cancel => some (.erase k)
  | .arm => some (.insert k)
  | .remove => some (.remove k)
  | _ => none

/-- The server (server.go:25-36): the sessions accepted so far, the timer, and the goroutine of the timer: expired keys not yet looked at, and the
session it is about to close. -/
structure State where
  sessions : Nat → Option Sess := fun _ => none
  count : Nat := 0
  timer : Timer.Threads Nat
  fired : List Nat := []
  found : Option Nat := none

/-- The steps (server.go:90-192, session_handler.go:19-114, timer.go:121-153). -/
inductive Event where
  /-- link accepts a connection -/
  | accept
  | move (k : Nat) (m : Move)
  /-- the critical section of a tick, timer.go:126-144 -/
  | tick (now : Int)
  /-- server.go:160 `GetSession` in `handleReadTimeout` for the next expired key -/
  | lookup
  /-- server.go:164 -/
  | closeFound
  deriving DecidableEq, Repr

namespace State

/-- Session `k` becomes `x` (plumbing for server.go:32). -/
def put (s : State) (k : Nat) (x : Sess) : State := { s with sessions := fun j => if j = k then some x else s.sessions j }

/-- `Close` of session `k` (session.go:115-117). -/
def close (s : State) (k : Nat) : State × List Obs :=
  match s.sessions k with
  | none => (s, [])
  | some x => (s.put k (x.close k).1, (x.close k).2)

/-- server.go:90-98 `GetSession`. -/
def getSession (s : State) (k : Nat) : Bool :=
  match s.sessions k with
  | none => false
  | some x => x.inMap

/-- The ids in `server.sessions`, as copied by server.go:107-112; the iteration order of a map is arbitrary, so users of this list may rely only on
its elements. -/
def registry (s : State) : List Nat := ((List.range s.count).map (· + 1)).filter s.getSession

/-- A call on the timer (session_handler.go:29, server.go:136, server.go:190). -/
def onTimer (s : State) : Option (Timer.Event Nat) → Res State
  | none => .ok s
  | some e => do
    let (t, _) ← s.timer.step e
    .ok { s with timer := t }

/-- One step. The goroutine of the timer looks at the expired keys one after the other, and ticks only when it has finished with them
(timer.go:124-151). -/
def step (s : State) : Event → Res (State × List Obs)
  | .accept => .ok ({ s.put (s.count + 1) {} with count := s.count + 1 }, [.accepted (s.count + 1)])
  | .move k m =>
    match s.sessions k with
    | none => .ok (s, [])
    | some x =>
      match x.step k m with
      | none => .ok (s, [])
      | some (x', o) => do
        let s' ← s.onTimer (m.timerEvent k)
        .ok (s'.put k x', o)
  | .tick now =>
    if s.fired = [] ∧ s.found = none then do
      let (t, ks) ← s.timer.step (.tick now)
      .ok ({ s with timer := t, fired := ks }, [.ticked now ks])
    else .ok (s, [])
  | .lookup =>
    match s.fired, s.found with
    | k :: ks, none => .ok ({ s with fired := ks, found := if s.getSession k then some k else none }, [])
    | _, _ => .ok (s, [])
  | .closeFound =>
    match s.found with
    | some k => .ok ({ (s.close k).1 with found := none }, .timeout k :: (s.close k).2)
    | none => .ok (s, [])

/-- A schedule (any interleaving of server.go:90-192, session_handler.go:19-114 and timer.go:121-153). -/
def run (s : State) : List Event → Res (State × List Obs)
  | [] => .ok (s, [])
  | e :: es => do
    let (s, x) ← s.step e
    let (s, y) ← s.run es
    .ok (s, x ++ y)

end State

/-- server.go:41-59 `NewServer`: the period, and the error for keys of the wrong size. `key` is the size of the private key in bytes, if any. -/
def newServer (keepalive : Int) (key : Option Nat) : Res State :=
  let p := if keepalive ≤ 0 then 60 else keepalive
  match key with
  | some n => if n ≠ 128 then .err .other else .ok { timer := { timer := Timer.new p } }
  | none => .ok { timer := { timer := Timer.new p } }

/-- server.go:106-121 `Broadcast`. `order` is the order in which the map is iterated, `send` says for each attempt (numbered from 0) and session whether
`Send` succeeds. Returns the sessions tried, in order, and the count. (A nil entity panics in the caller.) -/
def broadcast (order : List Nat) (send : Nat → Nat → Bool) : List Nat × Nat :=
  let rec go (i : Nat) (count : Nat) : List Nat → List Nat × Nat
    | [] => ([], count)
    | k :: ks =>
      let r := go (i + 1) (if send i k then count + 1 else count) ks
      (k :: r.1, r.2)
  go 0 0 order

end Verif.Server
