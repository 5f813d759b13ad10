import Verif.Model.Server
import Verif.Spec.Timer
/-! # What the life of sessions should look like

The specification looks only at the log of what was observed. -/

namespace Verif.Spec
open Server

/-- The keepalive period of a server: the one asked for, and a minute if none is. -/
def keepalivePeriod (keepalive : Int) : Int := if 0 < keepalive then keepalive else 60

/-- What is known about the keepalive of one session: the time read by a call of `Update` in progress, and the time from which its period counts. -/
structure Alive where
  pending : Option Int := none
  since : Option Int := none
  deriving DecidableEq, Repr

/-- Effect of an observation, for a session `k` and period `p`: a restart reads the clock; then the old period no longer counts; then the new one
counts. A close, and a tick at which the period has passed, end it. -/
def Alive.next (p : Int) (k : Nat) (a : Alive) : Obs → Alive
  | .restart k' now => if k' = k then { a with pending := some now } else a
  | .cancelled k' => if k' = k then { a with since := none } else a
  | .armed k' => if k' = k then { pending := none, since := a.pending } else a
  | .removed k' => if k' = k then { a with since := none } else a
  | .ticked now _ =>
    match a.since with
    | some t => if dueAt t p ≤ now then { a with since := none } else a
    | none => a
  | _ => a

/-- The keepalive of a session after a log. -/
def alive (p : Int) (k : Nat) (log : List Obs) : Alive := log.foldl (Alive.next p k) {}

/-- Keeps the time of a restart in progress, and the time at which the last completed one began. -/
def restartNext (k : Nat) (a : Option Int × Option Int) : Obs → Option Int × Option Int
  | .restart k' now => if k' = k then (some now, a.2) else a
  | .armed k' => if k' = k then (none, a.1) else a
  | _ => a

/-- The time at which the last completed restart of the period began. -/
def lastRestart (k : Nat) (log : List Obs) : Option Int := (log.foldl (restartNext k) (none, none)).2

/-- The time read by a restart of the period that is not completed. -/
def restarting (k : Nat) (log : List Obs) : Option Int := (log.foldl (restartNext k) (none, none)).1

/-- The close callback was in place before `Close` took effect. -/
def AttachedInTime (k : Nat) (log : List Obs) : Prop := ∃ l1 l2, log = l1 ++ .closing k :: l2 ∧ .attached k ∈ l1

end Verif.Spec
