import Verif.Model.Codec
/-! # session.go: concurrent use of one session

Any number of goroutines call `Send`, `Reply` and `Request` on a session while its receive goroutine handles messages. The atomic steps are the
operations of sync/atomic and the critical sections under `session.mux`. -/

namespace Verif.Session

/-! ## The request table -/

/-- session.go:14-18 `requestContext`; the callback is a number. -/
structure Pending where
  msgID : UInt16
  serial : UInt16
  callback : Nat
  deriving DecidableEq, Repr

/-- session.go:194-205 `addRequestContext`: replaces the entry with the same message id or appends. -/
def addRequest (r : Pending) : List Pending → List Pending
  | [] => [r]
  | x :: xs => if x.msgID = r.msgID then r :: xs else x :: addRequest r xs

/-- session.go:208-220 `takeRequestContext`: the first entry with the serial number; the last entry takes its place. -/
def takeRequest (serial : UInt16) (xs : List Pending) : Option (Pending × List Pending) :=
  match xs.findIdx? fun x => x.serial == serial with
  | none => none
  | some i =>
    match xs[i]?, xs.getLast? with
    | some item, some last => some (item, (xs.set i last).dropLast)
    | _, _ => none

/-! ## Sending -/

/-- A call of `Send` (no callback; also `Request` with a nil callback) or of `Request` (session.go:70, 98). The argument may be a nil pointer but
not a nil interface: `entity.MsgID()` panics for that in the caller's goroutine. -/
structure Call (E : Type) where
  body : Body E
  callback : Option Nat := none
  deriving DecidableEq, Repr

/-- session.go:71-78: the message `Send` builds. -/
def buildMessage {E : Type} (msgID : UInt16) (body : Body E) (icc : UInt64) (serial : UInt16) : Message E :=
  { header := { msgID := msgID, property := 0, iccID := icc, serial := serial, packet := none }, body := body }

/-- session.go:88-95 `Reply`: the call of `Send` it makes. -/
def replyCall (m : Message Entity) (result : UInt8) : Call Entity :=
  { body := .val (.m8001 { replySerial := m.header.serial, replyID := m.header.msgID, result := result }) }

/-- Where a goroutine is inside `Send` or `Request` (session.go:70-112). -/
inductive Place (E : Type) where
  /-- before the load of the terminal number, session.go:75 -/
  | started (c : Call E)
  /-- at the start of the loop of `nextID`, session.go:122; the terminal number was read -/
  | numbering (c : Call E) (icc : UInt64)
  /-- between load and compare-and-swap, session.go:123-129 -/
  | loaded (c : Call E) (icc : UInt64) (seen : UInt32)
  /-- before `session.session.Send`, session.go:80 -/
  | built (c : Call E) (icc : UInt64) (serial : UInt16)
  /-- `Request` before `addRequestContext`, session.go:104-110 -/
  | sent (c : Call E) (serial : UInt16)
  deriving DecidableEq, Repr

/-- The atomic steps; `i` is the goroutine (session.go:70-191). -/
inductive Event (E : Type) where
  /-- goroutine `i` enters `Send` or `Request` -/
  | start (i : Nat) (c : Call E)
  /-- it loads the terminal number, session.go:75 -/
  | loadIcc (i : Nat)
  /-- it loads the counter, session.go:123 -/
  | loadNext (i : Nat)
  /-- its compare-and-swap, session.go:124-131 -/
  | cas (i : Nat)
  /-- `session.session.Send` accepts the message or returns an error, session.go:80-84 -/
  | push (i : Nat) (accepted : Bool)
  /-- `addRequestContext`, session.go:105-109 and 194-205 -/
  | add (i : Nat)
  /-- the receive goroutine stores the terminal number of a message, session.go:139-149 -/
  | learn (icc : UInt64)
  /-- the receive goroutine takes the request an answer belongs to and runs its callback, session.go:178-190 -/
  | answer (serial : UInt16)
  deriving DecidableEq, Repr

/-- What can be observed of a step (results of session.go:70-191). -/
inductive Obs (E : Type) where
  /-- `nextID` of goroutine `i` returns -/
  | allocated (i : Nat) (serial : UInt16)
  /-- the message of the call was accepted for sending -/
  | pushed (i : Nat) (c : Call E) (m : Message E)
  /-- `Send` or `Request` returns the serial number, or an error (`none`) -/
  | returned (i : Nat) (c : Call E) (r : Option UInt16)
  /-- the callback runs for an answer with the serial number -/
  | ran (callback : Nat) (serial : UInt16)
  /-- an answer with the serial number runs no callback -/
  | ignored (serial : UInt16)
  deriving DecidableEq, Repr

/-- session.go:21-31 `Session`, without the links to server and connection, and the goroutines in its methods. -/
structure State (E : Type) where
  next : UInt32 := 0
  icc : UInt64 := 0
  requests : List Pending := []
  place : Nat → Option (Place E) := fun _ => none

/-- Goroutine `i` moves to another place (plumbing for session.go:70-112). -/
def goto {E : Type} (p : Nat → Option (Place E)) (i : Nat) (x : Option (Place E)) : Nat → Option (Place E) := fun j => if j = i then x else p j

/-- session.go:124-131: the new value of the counter, which is also the serial number handed out. -/
def successor (id : UInt32) : UInt32 := if id = 0xff then 1 else id + 1

/-- One step; steps a goroutine cannot take where it is do nothing. `msgID` is the method `MsgID()` of the bodies (session.go:70-220). -/
def State.step {E : Type} (C : BodyCodec E) (s : State E) : Event E → State E × List (Obs E)
  | .start i c =>
    match s.place i, c.body with
    | none, .nil => (s, [])
    | none, _ => ({ s with place := goto s.place i (some (.started c)) }, [])
    | _, _ => (s, [])
  | .loadIcc i =>
    match s.place i with
    | some (.started c) => ({ s with place := goto s.place i (some (.numbering c s.icc)) }, [])
    | _ => (s, [])
  | .loadNext i =>
    match s.place i with
    | some (.numbering c icc) => ({ s with place := goto s.place i (some (.loaded c icc s.next)) }, [])
    | _ => (s, [])
  | .cas i =>
    match s.place i with
    | some (.loaded c icc seen) =>
      if s.next = seen then
        ({ s with next := successor seen, place := goto s.place i (some (.built c icc (successor seen).toUInt16)) },
          [.allocated i (successor seen).toUInt16])
      else ({ s with place := goto s.place i (some (.numbering c icc)) }, [])
    | _ => (s, [])
  | .push i accepted =>
    match s.place i with
    | some (.built c icc serial) =>
      if accepted then
        match Message.bodyMsgID C c.body, c.callback with
        | .ok id, none => ({ s with place := goto s.place i none }, [.pushed i c (buildMessage id c.body icc serial), .returned i c (some serial)])
        | .ok id, some _ => ({ s with place := goto s.place i (some (.sent c serial)) }, [.pushed i c (buildMessage id c.body icc serial)])
        | _, _ => (s, [])
      else ({ s with place := goto s.place i none }, [.returned i c none])
    | _ => (s, [])
  | .add i =>
    match s.place i with
    | some (.sent c serial) =>
      match Message.bodyMsgID C c.body, c.callback with
      | .ok id, some cb => ({ s with requests := addRequest ⟨id, serial, cb⟩ s.requests, place := goto s.place i none }, [.returned i c (some serial)])
      | _, _ => (s, [])
    | _ => (s, [])
  | .learn icc => (if icc > 0 then { s with icc := icc } else s, [])
  | .answer serial =>
    if serial = 0 then (s, [.ignored serial])
    else
      match takeRequest serial s.requests with
      | none => (s, [.ignored serial])
      | some (r, rest) => ({ s with requests := rest }, [.ran r.callback serial])

/-- A schedule: the final state and what was observed, in order (any interleaving of session.go:70-220). -/
def State.run {E : Type} (C : BodyCodec E) (s : State E) : List (Event E) → State E × List (Obs E)
  | [] => (s, [])
  | ev :: evs =>
    let r := s.step C ev
    let r' := State.run C r.1 evs
    (r'.1, r.2 ++ r'.2)

/-! ## Incoming messages -/

/-- session.go:151-177: the serial number an answer carries, chosen by the message id of the header; a type assertion on a body of another type
panics. 0 for all other messages. -/
def replySerial (m : Message Entity) : Res UInt16 :=
  if m.header.msgID = 0x0001 then match m.body with | .val (.m0001 b) => .ok b.replySerial | _ => .panic
  else if m.header.msgID = 0x0104 then match m.body with | .val (.m0104 b) => .ok b.replySerial | _ => .panic
  else if m.header.msgID = 0x0201 then match m.body with | .val (.m0201 b) => .ok b.replySerial | _ => .panic
  else if m.header.msgID = 0x0302 then match m.body with | .val (.m0302 b) => .ok b.replySerial | _ => .panic
  else if m.header.msgID = 0x0500 then match m.body with | .val (.m0500 b) => .ok b.replySerial | _ => .panic
  else if m.header.msgID = 0x0700 then match m.body with | .val (.m0700 b) => .ok b.replySerial | _ => .panic
  else if m.header.msgID = 0x0802 then match m.body with | .val (.m0802 b) => .ok b.replySerial | _ => .panic
  else if m.header.msgID = 0x0805 then match m.body with | .val (.m0805 b) => .ok b.replySerial | _ => .panic
  else .ok 0

/-- session.go:138-191 `message`: the steps the receive goroutine takes for a message. -/
def messageEvents (m : Message Entity) : Res (List (Event Entity)) := do
  let serial ← replySerial m
  .ok [.learn m.header.iccID, .answer serial]

end Verif.Session
