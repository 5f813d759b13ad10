import Verif.Spec.Crowd
import Verif.Spec.Endless
/-! # Runs without end of a server with any number of connections -/

namespace Verif.Spec
open Crowd

/-- The loop of the connection is given turns again and again. -/
def Served (k : Nat) (ev : Nat → Event) : Prop := Again ev fun e => ∃ o, e = .turn k o

/-- A run without end of a server and of a client program at connection `k`, with fair scheduling and a network that loses nothing. `down n` are the pieces that
have arrived at the client before event `n`. At all times what has arrived was sent before (`Crowded`); the loop of the connection is given turns again and
again, everything that is sent arrives at some time, on both ways, and reading yields an empty piece only finitely often. On the other connections anything
happens. -/
structure Fair {σ : Type} (run : List Event → Res (Crowd.State σ × List (Nat × Converse.Ev))) (bytes : List (Message Entity) → Bytes) (client : List Bytes → Res Bytes)
    (k : Nat) (ev : Nat → Event) (down : Nat → List Bytes) : Prop where
  along : ∀ n, Crowded run bytes client k (firsts ev n) (down n)
  grows : ∀ n, down n <+: down (n + 1)
  served : Served k ev
  filled : ∃ N, ∀ n, N ≤ n → ev n ≠ .arrive k []
  up : ∀ n b, client (down n) = .ok b → ∃ m, b <+: (arrivedOn k (firsts ev m)).flatten
  down : ∀ n s log, run (firsts ev n) = .ok (s, log) → ∃ m, bytes (sentIn (logOf k log)) <+: (down m).flatten

end Verif.Spec
