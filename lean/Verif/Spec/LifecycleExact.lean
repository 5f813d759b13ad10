import Verif.Spec.Lifecycle
/-! # Listeners that nobody can close any more -/

namespace Verif.Spec
open Lifecycle

/-- The listener is open, no call of `Run` is about to serve it, and it is not the one that `Stop` would close. -/
def Forsaken (s : State) (l : Nat) : Prop := l ∈ s.opened ∧ s.field ≠ some l ∧ ∀ j, s.place j ≠ .bound l

/-- The listener that `Stop` would close is open, and now a call of `Run` puts its own in its place, or a call of `Stop`, which has closed another one
before, says that there is none. -/
def Forsakes (s : State) (ev : Event) (l : Nat) : Prop :=
  s.field = some l ∧ l ∈ s.opened ∧ ((∃ i l', ev = .serve i ∧ s.place i = .bound l') ∨ ∃ i, ev = .clear i ∧ s.place i = .clearing)

end Verif.Spec
