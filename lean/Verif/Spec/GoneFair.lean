import Verif.Spec.StopFair
/-! # Terminals that have gone

A terminal sends only so many bytes; at some time it falls silent, whether it closes its connection or not. -/

namespace Verif.Spec.Stop
open Shutdown

/-- The clock goes on without end, and the goroutine of the timer is given turns again and again. -/
structure Clock (ev : Nat → Shutdown.Event) : Prop where
  late : ∀ t : Int, ∃ N, ∀ n, N ≤ n → ∀ now, ev n = .world (.tick now) → t ≤ now
  tick : Again ev fun e => ∃ now, e = .world (.tick now)
  lookup : Again ev (· = .world .lookup)
  closeFound : Again ev (· = .world .closeFound)

/-- The goroutine of session `k` is given turns again and again while it starts and while it restarts the period. Nothing is said about receiving: a terminal that has
gone lets the server wait for ever. -/
structure Starts (ev : Nat → Shutdown.Event) (k : Nat) : Prop where
  register : Again ev (· = .world (.move k .register))
  restart : Again ev fun e => ∃ now, e = .world (.move k (.restart now))
  cancel : Again ev (· = .world (.move k .cancel))
  arm : Again ev (· = .world (.move k .arm))

end Verif.Spec.Stop
