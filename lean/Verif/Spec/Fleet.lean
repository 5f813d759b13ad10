import Verif.Model.Fleet
import Verif.Spec.Outbox
/-! # Specification of what leaves the connections of a server -/

namespace Verif.Spec
open Fleet

variable {E : Type}

/-- What was observed on connection `k`. -/
def seenOn (k : Nat) (o : List (Nat × Outbox.Obs E)) : List (Outbox.Obs E) := o.filterMap fun x => if x.1 = k then some x.2 else none

/-- The program does not change a body while a message with it is waiting to be written on any connection, and does not send media messages. -/
def CalmFleet (C : BodyCodec E) (keys : Nat → Option EncKey) : State E → List (Event E) → Prop
  | _, [] => True
  | s, ev :: evs =>
    (match ev with
      | .write r _ => ∀ k, ¬ Waiting (s.conn k) r
      | .on _ (.enter _ _ (.obj r)) => C.msgID (s.heap r) ≠ 0x0801
      | _ => True) ∧ CalmFleet C keys (s.step C keys ev).1 evs

end Verif.Spec
