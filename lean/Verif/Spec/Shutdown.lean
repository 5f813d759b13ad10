import Verif.Model.Shutdown
import Verif.Spec.World
/-! # What happens when a server is stopped

The specification looks only at the log of what was observed. -/

namespace Verif.Spec.Stop
open Shutdown

/-- What concerns the sessions. -/
def worldView : Shutdown.Obs → Option World.Obs
  | .world o => some o
  | _ => none

/-- What concerns accepting, keeping alive and closing sessions. -/
def sessionView (o : Shutdown.Obs) : Option Server.Obs := (worldView o).bind serverView

/-- Session `k` is made for a connection. -/
abbrev made (k : Nat) : Shutdown.Obs := .world (.server (.accepted k))

/-- Some session is made. -/
def isMade : Shutdown.Obs → Bool
  | .world (.server (.accepted _)) => true
  | _ => false

/-- Session `k` is closed. -/
abbrev closed (k : Nat) : Shutdown.Obs := .world (.server (.closing k))

/-- The goroutine that runs the close callback of session `k`, and with it the close handler, has ended. -/
abbrev closeEnded (k : Nat) : Shutdown.Obs := .world (.server (.closeDone k))

/-- The close handler is called for session `k`. -/
abbrev closeCalled (k : Nat) : Shutdown.Obs := .world (.server (.closeHandler k))

/-- A message of session `k` is received. -/
abbrev received (k : Nat) (m : Message Entity) : Shutdown.Obs := .world (.received k m)

/-- Handler `h` is called for a message of session `k`. -/
abbrev called (k h : Nat) (m : Message Entity) : Shutdown.Obs := .world (.called k h m)

/-- The loop of session `k` has ended. -/
abbrev loopEnded (k : Nat) : Shutdown.Obs := .world (.server (.left k))

/-- The close callback of session `k` was in place before the session was closed. -/
def CallbackInTime (k : Nat) (log : List Shutdown.Obs) : Prop := AttachedInTime k (log.filterMap sessionView)

end Verif.Spec.Stop
