import Verif.Model.World
import Verif.Spec.Server
import Verif.Spec.System
/-! # Views of what happens in the whole server -/

namespace Verif.Spec
open World Handler

/-- What concerns accepting, keeping alive and closing. -/
def serverView : World.Obs → Option Server.Obs
  | .server o => some o
  | _ => none

/-- What the receive loops do. -/
def loopView : World.Obs → Option (Nat × Act)
  | .act k a => some (k, a)
  | _ => none

/-- The messages `Receive` returns to the loop of session `k`. -/
def receivedBy (k : Nat) : World.Obs → Option (Message Entity)
  | .received j m => if j = k then some m else none
  | _ => none

/-- The messages `ms` are all that can be received from what is in the buffer and what will still be read: they are received one after the other, and
then receiving fails. -/
def AllFrom (env : Env) (key : Option DecKey) (endErr : Err) (c : RecvState) (ms : List (Message Entity)) : Prop :=
  ∃ e T, receiveMany (entityCodec env) key endErr (ms.length + 1) c = (ms.map .ok ++ [.err e], T)

/-- The handlers that the loop of session `k` finds for its messages, with the messages. -/
def foundBy (k : Nat) : World.Obs → Option (Nat × Message Entity)
  | .act j (.handle h m) => if j = k then some (h, m) else none
  | _ => none

/-- The handlers that are called for session `k`, with the messages. -/
def calledBy (k : Nat) : World.Obs → Option (Nat × Message Entity)
  | .called j h m => if j = k then some (h, m) else none
  | _ => none

/-- The messages that session `k` passes to `dispatchMessage`, whether a handler is found for them or not. -/
def passedBy (k : Nat) : World.Obs → Option (Message Entity)
  | .act j (.handle _ m) | .act j (.unhandled m) => if j = k then some m else none
  | _ => none

/-- The body of the message was decoded, and it is not a part of an upload: it is for the handlers. -/
def ordinary (auto : Bool) (m : Message Entity) : Bool := hasBody m && !isPart auto m

/-- A handler is called for session `k`. -/
def isCall (k : Nat) : World.Obs → Bool
  | .called j _ _ => j == k
  | _ => false

/-- A handler that was called for session `k` ends. -/
def isReturn (k : Nat) : World.Obs → Bool
  | .returned j _ _ => j == k
  | _ => false

end Verif.Spec
