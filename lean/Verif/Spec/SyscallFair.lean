import Verif.Spec.Syscall
import Verif.Spec.Endless
/-! # Runs without end of the receive loops, system call by system call -/

namespace Verif.Spec.Calls
open Syscall

/-- The goroutine of connection `k` is given turns again and again, wherever it is in session_handler.go:34-113: handlers and callbacks come to their end at some
time, and receiving comes back. -/
structure Turns (ev : Nat → Event) (k : Nat) : Prop where
  receive : Again ev (· = .receive k)
  process : Again ev fun e => ∃ u, e = .process k u
  check : Again ev (· = .check k)
  merge : Again ev (· = .merge k)
  note : Again ev fun e => ∃ u, e = .note k u
  dispatch : Again ev (· = .dispatch k)
  ret : Again ev fun e => ∃ u, e = .ret k u

/-- Every system call of connection `k` comes back at some time: its goroutine does not stay before the same one for ever. Writing may come back having written
only a part, and with errors; `st n` is the state before event `n`. -/
def ComesBack (st : Nat → State) (k : Nat) : Prop := ∀ n j, (st n).files.job k = some j → ∃ m, n ≤ m ∧ (st m).files.job k ≠ some j

end Verif.Spec.Calls
