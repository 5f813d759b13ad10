import Verif.Spec.Server
/-! # When the close callback of a session comes in time -/

namespace Verif.Spec
open Server

/-- The close callback was in place when the closing goroutine of the session had come to its end. -/
def AttachedBeforeEnd (k : Nat) (log : List Obs) : Prop := ∃ l1 l2, log = l1 ++ .closeDone k :: l2 ∧ .attached k ∈ l1

end Verif.Spec
