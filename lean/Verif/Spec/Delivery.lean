import Verif.Spec.Converse
/-! # What the receive loop does, apart from what handlers and callbacks do -/

namespace Verif.Spec
open Session Handler Converse

/-- The loop does this by itself: it receives, answers, stores, merges, gives messages to handlers and ends. What is left are the calls that handlers and
callbacks make, what the connection does with messages, and the calls of callbacks. -/
def byLoop : Ev → Bool
  | .received _ | .replies _ _ _ | .handled _ _ | .unhandled _ | .stored _ _ _ _ | .merged _ _ | .closed => true
  | .sent _ | .refused _ | .requested _ | .ran _ _ => false

/-- What the loop does by itself, in order. -/
def handed (log : List Ev) : List Ev := log.filter byLoop

/-- The same in the words of `Model/Handler.lean`, where handlers and callbacks have no code: before a handler is called the keepalive period is restarted, and
what happens to sent messages is not seen. -/
def asActs : Ev → List Act
  | .received _ | .sent _ | .refused _ => []
  | .replies serial id result => [.reply serial id result]
  | .requested r => [.requested r]
  | .ran cb m => [.callback cb m]
  | .handled h m => [.touch, .handle h m]
  | .unhandled m => [.unhandled m]
  | .stored f seq data o => [.wrote f seq data o]
  | .merged f o => [.merged f o]
  | .closed => [.closed]

/-- The requests that were made, in order. -/
def asked (log : List Ev) : List Pending :=
  log.filterMap fun
    | .requested r => some r
    | _ => none

/-- The steps of others in the course of a loop. -/
def othersIn (is : List Input) : List Outside :=
  is.flatMap fun
    | .outside x => [x]
    | .receive _ a => a.afterWrite ++ a.afterCheck ++ a.afterMerge ++ a.beforeDispatch

/-- Handlers are registered before anything is received, in this order. -/
def registering (regs : List (UInt16 × Nat)) : List Input := regs.map fun r => .outside (.addHandler r.1 (some r.2))

/-- The messages offered to the handlers, in order. -/
def offeredIn (log : List Ev) : List (Message Entity) :=
  log.filterMap fun
    | .handled _ m => some m
    | .unhandled m => some m
    | _ => none

/-- The messages that a loop receives, and what the operating system does with them. -/
def metIn (is : List Input) : List (Message Entity × Outcome × Outcome) := (receivedIn is).map fun r => (r.1, r.2.write, r.2.merge)

/-- Two sessions end in the same way. If they do not crash, then the same is stored, and their loops did the same. -/
def SameWork {σ τ : Type} : Res (Converse.State σ × List Ev) → Res (Converse.State τ × List Ev) → Prop
  | .ok a, .ok b => a.1.fs = b.1.fs ∧ handed a.2 = handed b.2
  | .err e, .err e' => e = e'
  | .panic, .panic => True
  | _, _ => False

end Verif.Spec
