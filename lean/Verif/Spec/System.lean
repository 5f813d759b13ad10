import Verif.Model.System
import Verif.Spec.Handler
import Verif.Spec.Stream
/-! # What one connection sees of the whole server -/

namespace Verif.Spec
open Handler _root_.Verif.System

/-- What connection `k` sees of an act: its own acts, the requests on its session, and the registrations and the storing and merging of all. -/
def seenBy (k : Nat) (x : Nat × Act) : Option Act :=
  match x.2 with
  | .wrote .. | .merged .. | .registered .. => some x.2
  | _ => if x.1 = k then some x.2 else none

/-- The step comes from outside of the loop of connection `k`: another connection stored or merged, or the program registered a handler or a request. -/
def FromOthers (k : Nat) (log : List (Nat × Act)) : Outside → Prop
  | .write f seq data o => ∃ j, j ≠ k ∧ (j, .wrote f seq data o) ∈ log
  | .merge f o => ∃ j, j ≠ k ∧ (j, .merged f o) ∈ log
  | .addHandler id (some h) => (0, .registered id h) ∈ log
  | .addHandler _ none => False
  | .addRequest r => (k, .requested r) ∈ log

/-- Steps of others during a turn of the loop. -/
def during (a : Around) : List Outside := a.afterWrite ++ a.afterCheck ++ a.afterMerge ++ a.beforeDispatch

/-- The results of writing and merging in this turn are those in the log. -/
def ResultsIn (k : Nat) (log : List (Nat × Act)) (a : Around) : Prop :=
  (a.write = .ok ∨ ∃ f seq d, (k, .wrote f seq d a.write) ∈ log) ∧ (a.merge = .ok ∨ ∃ f, (k, .merged f a.merge) ∈ log)

/-- The goroutine of the connection is between two messages, or has ended. -/
def AtRest (c : Conn) : Prop := c.place = .waiting ∨ c.place = .ended

/-- What connection `k` did. -/
def actsOf (k : Nat) (log : List (Nat × Act)) : List Act := (log.filter fun x => x.1 == k).map (·.2)

/-- The message is among those that arrive on a connection that delivers `reads`. -/
def ArrivesOn (env : Env) (key : Option DecKey) (endErr : Err) (reads : List Bytes) (m : Message Entity) : Prop :=
  ∃ n, .ok m ∈ (receiveMany (entityCodec env) key endErr n ⟨[], reads⟩).1

/-- The operating system did not fail in storing or merging. -/
def Succeeded : Act → Prop
  | .wrote _ _ _ o => o = .ok
  | .merged _ o => o = .ok
  | _ => True

end Verif.Spec
