import Verif.Spec.Shutdown
import Verif.Spec.ServerExact
/-! # When the close callback of a session of a server that is stopped comes in time -/

namespace Verif.Spec.Stop
open Shutdown

/-- Session `k` is entered where `GetSession` looks. -/
abbrev enteredFor (k : Nat) : Shutdown.Obs := .world (.server (.registered k))

/-- The close callback of session `k` was in place when its closing goroutine had come to its end. -/
def CallbackBeforeEnd (k : Nat) (log : List Shutdown.Obs) : Prop := AttachedBeforeEnd k (log.filterMap sessionView)

end Verif.Spec.Stop
