import Verif.Model.TimerRun
/-! # What a countdown timer should do

The specification knows nothing of queues: it is a period and, for each key, the deadline at which it will fire, if any. -/

namespace Verif.Spec

/-- The deadline of a countdown that starts at `now`: the end of the period, as a signed number of 64 bits. This is `now + p` for all clocks and periods whose sum
fits (`dueAt_fits`). -/
def dueAt (now p : Int) : Int := Int.bmod (now + p) (2 ^ 64)

/-- A period and the deadlines of the keys. -/
structure Countdown (K : Type) where
  period : Int
  deadline : K → Option Int := fun _ => none

namespace Countdown
variable {K : Type} [DecidableEq K]

/-- The same deadlines except for one key. -/
def put (s : Countdown K) (k : K) (d : Option Int) : Countdown K := { s with deadline := fun x => if x = k then d else s.deadline x }

/-- A tick at time `now` fires the keys `fired`, in this order: exactly those whose deadline has come, each once, earlier deadlines
first. Their deadlines are then gone and all others stay. -/
structure Tick (s : Countdown K) (now : Int) (fired : List K) (s' : Countdown K) : Prop where
  exact : ∀ k, k ∈ fired ↔ ∃ d, s.deadline k = some d ∧ d ≤ now
  once : fired.Nodup
  ordered : fired.Pairwise fun a b => ∀ da db, s.deadline a = some da → s.deadline b = some db → da ≤ db
  period : s'.period = s.period
  rest : ∀ k, s'.deadline k = if k ∈ fired then none else s.deadline k

/-- The effect of a non-positive or positive new period. -/
def setPeriod (s : Countdown K) (p : Int) : Countdown K := if p > 0 then { s with period := p } else s

/-- One call or tick of a sequential history. -/
def Step (s : Countdown K) (op : Timer.Op K) (fired : List K) (s' : Countdown K) : Prop :=
  match op with
  | .update now k => fired = [] ∧ s' = s.put k (some (dueAt now s.period))
  | .remove k => fired = [] ∧ s' = s.put k none
  | .setExpiration p => fired = [] ∧ s' = s.setPeriod p
  | .tick now => Tick s now fired s'

/-- The keys fired by the steps of a sequential history are right. -/
def Behaves (s : Countdown K) : List (Timer.Op K) → List (List K) → Prop
  | [], fs => fs = []
  | _ :: _, [] => False
  | op :: ops, f :: fs => ∃ s', Step s op f s' ∧ Behaves s' ops fs

end Countdown

/-- For schedules: the deadlines, and where the goroutines are inside `Update`. -/
structure Shared (K : Type) where
  c : Countdown K
  place : Nat → Option (Timer.Place K) := fun _ => none

namespace Shared
variable {K : Type} [DecidableEq K]

/-- One atomic step. An `Update` reads clock and period first, then cancels the old deadline, and then sets the new one. -/
def Step (s : Shared K) (ev : Timer.Event K) (fired : List K) (s' : Shared K) : Prop :=
  match ev with
  | .begin i k now =>
    fired = [] ∧ s' = match s.place i with
      | none => { s with place := fun j => if j = i then some (.built k (dueAt now s.c.period)) else s.place j }
      | _ => s
  | .erase i =>
    fired = [] ∧ s' = match s.place i with
      | some (.built k d) => { c := s.c.put k none, place := fun j => if j = i then some (.erased k d) else s.place j }
      | _ => s
  | .insert i =>
    fired = [] ∧ s' = match s.place i with
      | some (.erased k d) => { c := s.c.put k (some d), place := fun j => if j = i then none else s.place j }
      | _ => s
  | .remove k => fired = [] ∧ s' = { s with c := s.c.put k none }
  | .setExpiration p => fired = [] ∧ s' = { s with c := s.c.setPeriod p }
  | .tick now => s'.place = s.place ∧ Countdown.Tick s.c now fired s'.c

/-- The keys fired by the steps of a schedule are right. -/
def Behaves (s : Shared K) : List (Timer.Event K) → List (List K) → Prop
  | [], fs => fs = []
  | _ :: _, [] => False
  | ev :: evs, f :: fs => ∃ s', Step s ev f s' ∧ Behaves s' evs fs

end Shared

/-- Each key is updated by one goroutine only, as the server does with the goroutine of a session. -/
def OneUpdater {K : Type} (evs : List (Timer.Event K)) : Prop :=
  ∃ owner : K → Nat, ∀ i k now, Timer.Event.begin i k now ∈ evs → i = owner k

/-- What remains true when several goroutines update the same key: every completed `Update` has started a countdown of its own,
numbered in the order of completion, and the key remembers the latest. -/
structure Bag (K : Type) where
  period : Int
  live : Nat → Option (K × Int) := fun _ => none
  latest : K → Option Nat := fun _ => none
  count : Nat := 0
  place : Nat → Option (Timer.Place K) := fun _ => none

namespace Bag
variable {K : Type} [DecidableEq K]

/-- `Remove` and the first half of `Update` cancel the remembered countdown of the key. -/
def cancel (s : Bag K) (k : K) : Bag K :=
  { s with live := fun i => if s.latest k = some i then none else s.live i
           latest := fun x => if x = k then none else s.latest x }

/-- The second half of `Update` starts a countdown and remembers it. -/
def start (s : Bag K) (k : K) (d : Int) : Bag K :=
  { s with live := fun i => if i = s.count then some (k, d) else s.live i
           latest := fun x => if x = k then some s.count else s.latest x
           count := s.count + 1 }

/-- A tick ends all countdowns whose deadline has come, each once, earlier deadlines first, and fires their keys; these keys
remember nothing. -/
structure Tick (s : Bag K) (now : Int) (fired : List K) (s' : Bag K) (ended : List (Nat × K × Int)) : Prop where
  keys : fired = ended.map fun e => e.2.1
  exact : ∀ i k d, (i, k, d) ∈ ended ↔ s.live i = some (k, d) ∧ d ≤ now
  once : (ended.map fun e => e.1).Nodup
  ordered : ended.Pairwise fun a b => a.2.2 ≤ b.2.2
  live : ∀ i, s'.live i = if i ∈ (ended.map fun e => e.1) then none else s.live i
  latest : ∀ k, s'.latest k = if k ∈ fired then none else s.latest k
  same : s'.period = s.period ∧ s'.count = s.count ∧ s'.place = s.place

/-- One atomic step. -/
def Step (s : Bag K) (ev : Timer.Event K) (fired : List K) (s' : Bag K) : Prop :=
  match ev with
  | .begin i k now =>
    fired = [] ∧ s' = match s.place i with
      | none => { s with place := fun j => if j = i then some (.built k (dueAt now s.period)) else s.place j }
      | _ => s
  | .erase i =>
    fired = [] ∧ s' = match s.place i with
      | some (.built k d) => { s.cancel k with place := fun j => if j = i then some (.erased k d) else s.place j }
      | _ => s
  | .insert i =>
    fired = [] ∧ s' = match s.place i with
      | some (.erased k d) => { s.start k d with place := fun j => if j = i then none else s.place j }
      | _ => s
  | .remove k => fired = [] ∧ s' = s.cancel k
  | .setExpiration p => fired = [] ∧ s' = if p > 0 then { s with period := p } else s
  | .tick now => ∃ ended, Tick s now fired s' ended

/-- The keys fired by the steps of a schedule are right. -/
def Behaves (s : Bag K) : List (Timer.Event K) → List (List K) → Prop
  | [], fs => fs = []
  | _ :: _, [] => False
  | ev :: evs, f :: fs => ∃ s', Step s ev f s' ∧ Behaves s' evs fs

end Bag
end Verif.Spec

namespace Verif.Spec
variable {K : Type}

/-- The period in force after a sequential history that started with period `p`. -/
def periodAfter (p : Int) : List (Timer.Op K) → Int
  | [] => p
  | .setExpiration s :: ops => periodAfter (if s > 0 then s else p) ops
  | _ :: ops => periodAfter p ops

/-- The period in force after a schedule that started with period `p`. -/
def periodAfterEvents (p : Int) : List (Timer.Event K) → Int
  | [] => p
  | .setExpiration s :: evs => periodAfterEvents (if s > 0 then s else p) evs
  | _ :: evs => periodAfterEvents p evs

/-- In the schedule some goroutine called `Update(k)`, and the clock and period it read give the deadline `d`. -/
def Asked (p : Int) (evs : List (Timer.Event K)) (k : K) (d : Int) : Prop :=
  ∃ pre i now post, evs = pre ++ .begin i k now :: post ∧ d = dueAt now (periodAfterEvents p pre)

end Verif.Spec

namespace Verif.Spec
variable {K : Type} [DecidableEq K]

/-- What one can tell of a timer from the calls and from the keys that fired: which goroutine is in an `Update` of which key, and whether it has cancelled
the old countdown; and for which keys a countdown was started and since then neither cancelled nor fired. -/
structure Marks (K : Type) where
  place : Nat → Option (K × Bool) := fun _ => none
  running : K → Bool := fun _ => false

/-- The effect of a step in which these keys fired. -/
def Marks.next (s : Marks K) (ev : Timer.Event K) (fired : List K) : Marks K :=
  match ev with
  | .begin i k _ =>
    match s.place i with
    | none => { s with place := fun j => if j = i then some (k, false) else s.place j }
    | _ => s
  | .erase i =>
    match s.place i with
    | some (k, false) => { place := fun j => if j = i then some (k, true) else s.place j, running := fun x => if x = k then false else s.running x }
    | _ => s
  | .insert i =>
    match s.place i with
    | some (k, true) => { place := fun j => if j = i then none else s.place j, running := fun x => if x = k then true else s.running x }
    | _ => s
  | .remove k => { s with running := fun x => if x = k then false else s.running x }
  | .setExpiration _ => s
  | .tick _ => { s with running := fun x => if x ∈ fired then false else s.running x }

/-- No `Update` is disturbed by another one of its key: when it starts its countdown, none is running for the key. -/
def UpdatesApart (s : Marks K) : List (Timer.Event K) → List (List K) → Prop
  | ev :: evs, f :: fs => (∀ i k, ev = .insert i → s.place i = some (k, true) → s.running k = false) ∧ UpdatesApart (s.next ev f) evs fs
  | _, _ => True

end Verif.Spec
