import Verif.Spec.Handler
import Verif.Spec.Session
/-! # Which callback an answer should run -/

namespace Verif.Spec
open Handler Session

/-- The effect of one act of the receive loop on the pending requests (for each message id at most one, with serial number and callback).

* A new request replaces the pending request with its message id.
* A callback is called only with a message that answers a pending request with this callback: its body is one of the protocol's answers, and it carries
  the serial number of the request, not 0. The request is no longer pending then. -/
def AnswerStep (t : Table) : Act → Table → Prop
  | .requested r, t' => t' = t.put r.msgID (some (r.serial, r.callback))
  | .callback cb m, t' => ∃ e s id, m.body = .val e ∧ answered e = some s ∧ s ≠ 0 ∧ t id = some (s, cb) ∧ t' = t.put id none
  | _, t' => t' = t

/-- A log leads from one table of pending requests to another. -/
inductive AnswerSteps : Table → List Act → Table → Prop where
  | nil (t : Table) : AnswerSteps t [] t
  | snoc {t t' t'' : Table} {log : List Act} {a : Act} : AnswerSteps t log t' → AnswerStep t' a t'' → AnswerSteps t (log ++ [a]) t''

/-- After the log the request `r` waits for its answer, and no other request has its serial number: it was made, not replaced by another request with its
message id, no other request was made with its serial number, and no callback was called with an answer to it. -/
def AwaitsAnswer (r : Pending) (log : List Act) : Prop :=
  ∃ l1 l2, log = l1 ++ .requested r :: l2 ∧ (∀ r', .requested r' ∈ l2 → r'.msgID ≠ r.msgID) ∧
    (∀ r', .requested r' ∈ l1 ++ l2 → r'.serial ≠ r.serial) ∧
    (∀ cb m e, .callback cb m ∈ l2 → m.body = .val e → answered e ≠ some r.serial)

/-- The message of a call that was accepted last for sending with the serial number. -/
def lastWith {E : Type} (serial : UInt16) (log : List (Obs E)) : Option (Call E) :=
  log.foldl (fun c o => match o with
    | .pushed _ c' m => if m.header.serial = serial then some c' else c
    | _ => c) none

/-- A number is in use: a call has it and has not returned, or a request with it waits for its answer. -/
def NumberInUse {E : Type} (msgID : E → UInt16) (log : List (Obs E)) (serial : UInt16) : Prop :=
  (∃ i a b, log = a ++ .allocated i serial :: b ∧ ∀ o ∈ b, ∀ c r, o ≠ .returned i c r) ∨ ∃ id cb, RequestWaits msgID log id serial cb

/-- Every number is handed out only while it is not in use: calls and answers do not take so long that 255 other messages are sent meanwhile. -/
def NumbersFree {E : Type} (msgID : E → UInt16) (log : List (Obs E)) : Prop :=
  ∀ l1 i serial l2, log = l1 ++ .allocated i serial :: l2 → ¬ NumberInUse msgID l1 serial

end Verif.Spec
