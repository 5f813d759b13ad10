import Verif.Model.Lifecycle
/-! # What running and stopping a server should mean -/

namespace Verif.Spec
open Lifecycle

/-- The server is running: it was started, and not stopped since. -/
def up (log : List Obs) : Bool :=
  log.foldl (fun b o => match o with
    | .started _ _ => true
    | .stopped _ => false
    | _ => b) false

/-- Calls that do not overlap with each other: a call of `Run` up to the point where the server accepts connections or the call returns, a call of
`Stop`, and the end of `Serve`. -/
inductive Call where
  | run (i : Nat) (ok : Bool)
  | stop (i : Nat)
  | ends (i : Nat)
  deriving DecidableEq, Repr

/-- The steps of a call. -/
def Call.events : Call → List Event
  | .run i ok => [.run i, .listen i ok, .serve i]
  | .stop i => [.stop i, .halt i, .clear i]
  | .ends i => [.ends i]

/-- A call of `Run` has begun and neither returned nor begun to accept connections. -/
def Starting (p : Place) : Prop := p = .checked ∨ ∃ l, p = .bound l

/-- A call of `Stop` has begun and not returned. -/
def Stopping (p : Place) : Prop := p = .halting ∨ p = .clearing

/-- No call of `Run` begins while another one is starting the server. -/
def RunsInTurn : State → List Event → Prop
  | _, [] => True
  | s, ev :: evs => (∀ i, ev = .run i → ∀ j, ¬ Starting (s.place j)) ∧ ∀ s' x, s.step ev = .ok (s', x) → RunsInTurn s' evs

/-- No call of `Stop` begins during another one. -/
def StopsInTurn : State → List Event → Prop
  | _, [] => True
  | s, ev :: evs => (∀ i, ev = .stop i → ∀ j, ¬ Stopping (s.place j)) ∧ ∀ s' x, s.step ev = .ok (s', x) → StopsInTurn s' evs

end Verif.Spec
