import Verif.Spec.Converse
/-! # Whom the messages of a session are addressed to -/

namespace Verif.Spec
open Converse

/-- A callback or a handler is called, or a message comes for which there is no handler. -/
def serves : Ev → Bool
  | .ran _ _ => true
  | .handled _ _ => true
  | .unhandled _ => true
  | _ => false

/-- A message was served. -/
def served (log : List Ev) : Bool := log.any serves

/-- The message was handed to the connection after the events `before`. -/
def HandedAfter (log before : List Ev) (m : Message Entity) : Prop := ∃ rest, log = before ++ .sent m :: rest ∨ log = before ++ .refused m :: rest

end Verif.Spec
