import Verif.Model.Fleet
/-! # What the send loops did with one object -/

namespace Verif.Spec
open Fleet

variable {E : Type}

/-- The messages with this object that the send loops of all sessions have worked on, in order: the session, the message, the bytes written and whether
the whole frame was written. -/
def handledFor (r : Nat) (o : List (Nat × Outbox.Obs E)) : List (Nat × Outbox.Item E × Bytes × Bool) :=
  o.filterMap fun p => match p.2 with
    | .handled x _ w ok => if x.arg = .obj r then some (p.1, x, w, ok) else none
    | _ => none

end Verif.Spec
