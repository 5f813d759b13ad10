import Verif.Model.Codec
import Verif.Spec.Coordinates
/-! # Specification of sending the same body several times -/

namespace Verif.Spec

/-- The same body, sent `n` times one after the other (to one terminal or to several): the results of the `n` calls of `Encode`. Each call sees the
body as the call before left it. -/
def sends (env : Env) : Nat → Entity → List (Res Bytes)
  | 0, _ => []
  | n + 1, e =>
    match Entity.encode env e with
    | .ok (b, e') => .ok b :: sends env n e'
    | .err x => .err x :: sends env n e
    | .panic => .panic :: sends env n e

/-- One report object used for a whole journey: for every position the program sets latitude and longitude and encodes the report. -/
def drive (env : Env) : T0200 → List (Dec × Dec) → List (Res Bytes)
  | _, [] => []
  | e, p :: ps =>
    match T0200.encode env { e with lat := p.1, lng := p.2 } with
    | .ok (b, e') => .ok b :: drive env e' ps
    | .err x => .err x :: drive env e ps
    | .panic => .panic :: drive env e ps

/-- The bytes are a report of position `p`, as a receiver sees it. -/
def Shows (env : Env) (p : Dec × Dec) (r : Res Bytes) : Prop :=
  ∃ b d n, r = .ok b ∧ T0200.decode env {} b = .ok (d, n) ∧ SameCoord p.1 d.lat ∧ SameCoord p.2 d.lng

/-- A journey on which neither coordinate becomes positive after it was negative. -/
def StaysPut (ps : List (Dec × Dec)) : Prop :=
  ps.Pairwise fun p q => (p.1.value < 0 → q.1.value ≤ 0) ∧ (p.2.value < 0 → q.2.value ≤ 0)

/-- The coordinates shown when one object with the hemisphere bit `bit` is used for all of them, and the bit is set by a negative coordinate and
never cleared. -/
def shownCoords (bit : Bool) : List Int → List Int
  | [] => []
  | n :: ns => withBit (bit || decide (n < 0)) n :: shownCoords (bit || decide (n < 0)) ns

/-- Latitude and longitude of the report in the bytes, as a receiver sees them. -/
def position (env : Env) (r : Res Bytes) : Res (Dec × Dec) :=
  r.bind fun b => (T0200.decode env {} b).bind fun d => .ok (d.1.lat, d.1.lng)

/-- No coordinate is positive when the bit is set or after a negative one. -/
def NeverBack (bit : Bool) (ns : List Int) : Prop := (bit = true → ∀ n ∈ ns, n ≤ 0) ∧ ns.Pairwise fun a b => a < 0 → b ≤ 0

end Verif.Spec
