import Verif.Model.Session
/-! # What a session should do for its users

Everything here is stated in terms of what can be observed: serial numbers handed out, messages accepted for sending, calls that returned, callbacks
that ran, answers that ran nothing. -/

namespace Verif.Spec
open Session

/-- The n-th serial number, counted from 0: 1, 2, ..., 255, 1, 2, ... -/
def serialOf (n : Nat) : UInt16 := UInt16.ofNat (n % 255 + 1)

/-- The serial numbers handed out, in order. -/
def allocations {E : Type} (log : List (Obs E)) : List UInt16 :=
  log.filterMap fun
    | .allocated _ s => some s
    | _ => none

/-- The messages accepted for sending, in order. -/
def messages {E : Type} (log : List (Obs E)) : List (Message E) :=
  log.filterMap fun
    | .pushed _ _ m => some m
    | _ => none

/-- Calls do not overlap: a goroutine starts a call only while no other goroutine is inside one. -/
def OneAtATime {E : Type} (C : BodyCodec E) : State E → List (Event E) → Prop
  | _, [] => True
  | s, ev :: evs => (match ev with | .start i _ => ∀ j, j ≠ i → s.place j = none | _ => True) ∧ OneAtATime C (s.step C ev).1 evs

/-- A session at rest: no goroutine is inside a call, and no request is pending. -/
def SessionAtRest {E : Type} (s : State E) : Prop := (∀ i, s.place i = none) ∧ s.requests = []

/-- The message id of a body. -/
def idOf {E : Type} (msgID : E → UInt16) : Body E → Option UInt16
  | .nil => none
  | .nilPtr id => some id
  | .val e => some (msgID e)

/-- A request that has become pending: `Request` with a callback returned without error. -/
def Registered {E : Type} (msgID : E → UInt16) (o : Obs E) (id serial : UInt16) (callback : Nat) : Prop :=
  ∃ i c, o = .returned i c (some serial) ∧ c.callback = some callback ∧ idOf msgID c.body = some id

/-- A request waits for its answer: its `Request` has returned, and since then neither another `Request` for the same message id has returned nor has a
callback run for an answer with its number. -/
def RequestWaits {E : Type} (msgID : E → UInt16) (log : List (Obs E)) (id serial : UInt16) (callback : Nat) : Prop :=
  ∃ l1 o l2, log = l1 ++ o :: l2 ∧ Registered msgID o id serial callback ∧ (∀ o' ∈ l2, ∀ s' cb', ¬ Registered msgID o' id s' cb') ∧
    ∀ o' ∈ l2, ∀ cb', o' ≠ .ran cb' serial

/-- The pending requests: for each message id at most one, with its serial number and callback. -/
abbrev Table := UInt16 → Option (UInt16 × Nat)

/-- The same table except for one message id. -/
def Table.put (t : Table) (id : UInt16) (x : Option (UInt16 × Nat)) : Table := fun j => if j = id then x else t j

/-- The effect of one observation on the pending requests.

* A `Request` that returns replaces the pending request with its message id.
* A callback runs only for an answer with a non-zero serial number, if it is the callback of a pending request with this number, and the request is no
  longer pending.
* An answer is ignored only if its number is 0 or no pending request has it. -/
def Table.Step {E : Type} (msgID : E → UInt16) (t : Table) (o : Obs E) (t' : Table) : Prop :=
  match o with
  | .returned _ c (some s) =>
    match c.callback, idOf msgID c.body with
    | some cb, some id => t' = t.put id (some (s, cb))
    | _, _ => t' = t
  | .ran cb s => s ≠ 0 ∧ ∃ id, t id = some (s, cb) ∧ t' = t.put id none
  | .ignored s => (s = 0 ∨ ∀ id cb, t id ≠ some (s, cb)) ∧ t' = t
  | _ => t' = t

/-- A log of observations leads from one table to another. -/
inductive Table.Steps {E : Type} (msgID : E → UInt16) : Table → List (Obs E) → Table → Prop where
  | nil (t : Table) : Steps msgID t [] t
  | snoc {t t' t'' : Table} {log : List (Obs E)} {o : Obs E} : Steps msgID t log t' → t'.Step msgID o t'' → Steps msgID t (log ++ [o]) t''

/-- The terminal number the session has learned last after a schedule, if it knew `icc` before: the last non-zero one. -/
def lastLearned {E : Type} (icc : UInt64) : List (Event E) → UInt64
  | [] => icc
  | .learn x :: evs => lastLearned (if x = 0 then icc else x) evs
  | _ :: evs => lastLearned icc evs

/-- The observation is the registration of a request with this callback. -/
def registers {E : Type} (cb : Nat) : Obs E → Bool
  | .returned _ c (some _) => c.callback == some cb
  | _ => false

/-- The observation is a run of this callback. -/
def runs {E : Type} (cb : Nat) : Obs E → Bool
  | .ran cb' _ => cb' == cb
  | _ => false

/-- The goroutine a step belongs to; the steps of the receive goroutine belong to none of the callers. -/
def actor {E : Type} : Event E → Option Nat
  | .start i _ => some i
  | .loadIcc i => some i
  | .loadNext i => some i
  | .cas i => some i
  | .push i _ => some i
  | .add i => some i
  | .learn _ => none
  | .answer _ => none

end Verif.Spec

namespace Verif.Spec

/-- The serial number of the request that a message of a terminal answers, for the answer messages of the protocol. -/
def answered : Entity → Option UInt16
  | .m0001 b => some b.replySerial
  | .m0104 b => some b.replySerial
  | .m0201 b => some b.replySerial
  | .m0302 b => some b.replySerial
  | .m0500 b => some b.replySerial
  | .m0700 b => some b.replySerial
  | .m0802 b => some b.replySerial
  | .m0805 b => some b.replySerial
  | _ => none

end Verif.Spec

namespace Verif.Spec
open Session

/-- The goroutine an observation belongs to; runs of callbacks and ignored answers belong to the receive goroutine. -/
def whose {E : Type} : Obs E → Option Nat
  | .allocated i _ => some i
  | .pushed i _ _ => some i
  | .returned i _ _ => some i
  | _ => none

end Verif.Spec
