/-! # Runs without end -/

namespace Verif.Spec

/-- The first `n` of infinitely many events. -/
def firsts {ε : Type} (ev : Nat → ε) (n : Nat) : List ε := (List.range n).map ev

/-- Again and again there is an event that `p` holds of. -/
def Again {ε : Type} (ev : Nat → ε) (p : ε → Prop) : Prop := ∀ n, ∃ m, n ≤ m ∧ p (ev m)

end Verif.Spec
