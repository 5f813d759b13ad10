import Verif.Model.Timer
/-! # timer.go: histories of the countdown timer

Sequential histories, in which every call completes before the next one starts, and schedules of concurrent calls. In a schedule
the atomic steps are: reading the clock and the period (timer.go:88-91), and the critical sections under the mutex
(timer.go:101-111, 94-97, 130-144). The time of every clock reading is an arbitrary integer given with the step. -/

namespace Verif.Timer
variable {K : Type} [DecidableEq K]

/-- The calls of timer.go:87-118 and the ticks of timer.go:126-144. -/
inductive Op (K : Type) where
  | update (now : Int) (k : K)
  | remove (k : K)
  | setExpiration (s : Int)
  | tick (now : Int)
  deriving DecidableEq, Repr

/-- One call or tick; the list is the keys given to the callback (timer.go:146-150). -/
def apply (t : Timer K) : Op K → Res (Timer K × List K)
  | .update now k => do let t' ← t.update now k; .ok (t', [])
  | .remove k => do let t' ← t.removeSection k; .ok (t', [])
  | .setExpiration s => .ok (t.setExpiration s, [])
  | .tick now => t.tick now

/-- A sequential history: the keys fired by each step (timer.go:87-153, one call after another). -/
def run (t : Timer K) : List (Op K) → Res (Timer K × List (List K))
  | [] => .ok (t, [])
  | op :: ops => do
    let (t', f) ← t.apply op
    let (t'', fs) ← run t' ops
    .ok (t'', f :: fs)

/-- Where a goroutine is inside `Update` (timer.go:87-98): it has built the element, or it has also removed the old one. -/
inductive Place (K : Type) where
  | built (k : K) (expire : Int)
  | erased (k : K) (expire : Int)
  deriving DecidableEq, Repr

/-- The atomic steps of concurrent calls; `i` is the goroutine (timer.go:87-153). -/
inductive Event (K : Type) where
  /-- goroutine `i` calls `Update(k)` and reads the clock and the period, timer.go:88-91 -/
  | begin (i : Nat) (k : K) (now : Int)
  /-- its first critical section, timer.go:92 -/
  | erase (i : Nat)
  /-- its second critical section, timer.go:94-97 -/
  | insert (i : Nat)
  /-- a call of `Remove`, timer.go:101-111 -/
  | remove (k : K)
  /-- a call of `SetExpiration`, timer.go:114-118 -/
  | setExpiration (s : Int)
  /-- the critical section of a tick, timer.go:126-144 -/
  | tick (now : Int)
  deriving DecidableEq, Repr

/-- The timer and the goroutines inside `Update` (timer.go:65-71, timer.go:87-98). -/
structure Threads (K : Type) where
  timer : Timer K
  place : Nat → Option (Place K) := fun _ => none

/-- Goroutine `i` moves to another place (plumbing for timer.go:87-98). -/
def goto (p : Nat → Option (Place K)) (i : Nat) (x : Option (Place K)) : Nat → Option (Place K) := fun j => if j = i then x else p j

/-- One step of a schedule; steps a goroutine cannot take where it is do nothing (timer.go:87-153). -/
def Threads.step (c : Threads K) : Event K → Res (Threads K × List K)
  | .begin i k now =>
    match c.place i with
    | none => .ok ({ c with place := goto c.place i (some (.built k (deadline now c.timer.seconds))) }, [])
    | _ => .ok (c, [])
  | .erase i =>
    match c.place i with
    | some (.built k d) => do
      let t' ← c.timer.removeSection k
      .ok ({ timer := t', place := goto c.place i (some (.erased k d)) }, [])
    | _ => .ok (c, [])
  | .insert i =>
    match c.place i with
    | some (.erased k d) => do
      let t' ← c.timer.pushSection k d
      .ok ({ timer := t', place := goto c.place i none }, [])
    | _ => .ok (c, [])
  | .remove k => do let t' ← c.timer.removeSection k; .ok ({ c with timer := t' }, [])
  | .setExpiration s => .ok ({ c with timer := c.timer.setExpiration s }, [])
  | .tick now => do let (t', f) ← c.timer.tick now; .ok ({ c with timer := t' }, f)

/-- A schedule: the keys fired by each step (any interleaving of timer.go:87-153). -/
def Threads.run (c : Threads K) : List (Event K) → Res (Threads K × List (List K))
  | [] => .ok (c, [])
  | ev :: evs => do
    let (c', f) ← c.step ev
    let (c'', fs) ← Threads.run c' evs
    .ok (c'', f :: fs)

end Verif.Timer
