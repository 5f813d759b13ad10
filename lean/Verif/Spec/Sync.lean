import Verif.Model.Sync
/-! # Data races and deadlocks

The memory model of Go: an action happens before another if both belong to one goroutine, which does them in this order, or if one of the
rules for locks, channels and `go` statements orders them, or through others in between. (Not all rules of the memory model are here: atomic operations,
`sync.Map` and `sync.WaitGroup` order actions as well. With fewer rules more counts as a race.) -/

namespace Verif.Spec
open Sync

/-- What was done, by whom, in this order. -/
abbrev History := List (Goroutine × Act)

/-- How many messages were put into the channel of the session. -/
def putsOn (s : Nat) (τ : History) : Nat := τ.countP fun (_, a) => match a with | .put t _ => t == s | _ => false

/-- How many messages were taken from it. -/
def takesFrom (s : Nat) (τ : History) : Nat := τ.countP fun (_, a) => match a with | .take t _ => t == s | _ => false

/-- `i` and `j` are positions in the history. -/
inductive HappensBefore (τ : History) : Nat → Nat → Prop
  /-- one goroutine does them one after the other -/
  | order {i j : Nat} {g : Goroutine} {a b : Act} : i < j → τ[i]? = some (g, a) → τ[j]? = some (g, b) → HappensBefore τ i j
  /-- a lock is released and taken later -/
  | mutex {i j : Nat} {g h : Goroutine} {m : Mutex} : i < j → τ[i]? = some (g, .unlock m) → τ[j]? = some (h, .lock m) → HappensBefore τ i j
  /-- a message is put into a channel and taken from it: the first that goes in is the first that comes out, and so on -/
  | channel {i j : Nat} {g h : Goroutine} {s b c : Nat} : τ[i]? = some (g, .put s b) → τ[j]? = some (h, .take s c) →
      putsOn s (τ.take i) = takesFrom s (τ.take j) → HappensBefore τ i j
  /-- a goroutine is started and does something -/
  | go {i j : Nat} {g h : Goroutine} {b : Act} : i < j → τ[i]? = some (g, .start h) → (∀ k < i, ∀ f, τ[k]? ≠ some (f, .start h)) →
      τ[j]? = some (h, b) → HappensBefore τ i j
  | trans {i j k : Nat} : HappensBefore τ i j → HappensBefore τ j k → HappensBefore τ i k

/-- The action uses the memory. -/
def Uses (c : Cell) : Act → Prop
  | .read d | .write d | .atomicRead d | .atomicWrite d => d = c
  | _ => False

/-- It changes it. -/
def Changes (c : Cell) : Act → Prop
  | .write d | .atomicWrite d => d = c
  | _ => False

/-- It uses it by an operation of `sync/atomic`. -/
def Atomically : Act → Prop
  | .atomicRead _ | .atomicWrite _ => True
  | _ => False

/-- A data race: the memory is used twice, at least once it is changed, not both times by atomic operations, and nothing puts the two uses in order. -/
def Race (τ : History) (c : Cell) : Prop :=
  ∃ i j g h a b, i < j ∧ τ[i]? = some (g, a) ∧ τ[j]? = some (h, b) ∧ Uses c a ∧ Uses c b ∧ (Changes c a ∨ Changes c b) ∧
    ¬ (Atomically a ∧ Atomically b) ∧ ¬ HappensBefore τ i j

/-- The history is one of the system, and this is the state it leads to. -/
def Happened (S : System) (τ : History) (σ : State) : Prop :=
  ∃ order, S.init.run order = some (τ, σ)

/-- After something of the first kind a goroutine does nothing of the second. -/
def NotAfter (acts : List Act) (first second : Act → Prop) : Prop :=
  acts.Pairwise fun a b => first a → ¬ second b

/-- Only one goroutine calls `Run` and `Stop`. -/
def OneRunner (S : System) : Prop :=
  ∃ g₀, ∀ g, g ≠ g₀ → ∀ a ∈ S.acts g, ¬ Uses .running a

/-- Types are registered by `main` only, before it starts the first goroutine. -/
def RegistersFirst (S : System) (types : Cell) : Prop :=
  (∀ g, g ≠ .program 0 → ∀ a ∈ S.acts g, ¬ Changes types a) ∧
    NotAfter (S.acts (.program 0)) (fun a => ∃ g, a = .start g) (Changes types)

/-- One goroutine looks at the key of the session and sends messages there, and it sets the key only before it sends the first one. -/
def KeyFirst (S : System) (s : Nat) : Prop :=
  ∃ g₀, (∀ g, g ≠ g₀ → g ≠ .sender s → ∀ a ∈ S.acts g, ¬ Uses (.publicKey s) a) ∧
    (∀ g, g ≠ g₀ → ∀ b, Act.put s b ∉ S.acts g) ∧
    NotAfter (S.acts g₀) (fun a => ∃ b, a = .put s b) (Changes (.publicKey s))

/-- One goroutine uses the body and sends it, as often and wherever it likes, and does not change it any more; and encoding does not change it. -/
def SharedUnchanged (S : System) (b : Nat) : Prop :=
  ∃ g₀, (∀ g, g ≠ g₀ → (∀ s, g ≠ .sender s) → ∀ a ∈ S.acts g, ¬ Uses (.body b) a) ∧
    (∀ g, g ≠ g₀ → ∀ s, Act.put s b ∉ S.acts g) ∧
    NotAfter (S.acts g₀) (fun a => ∃ s, a = .put s b) (Changes (.body b)) ∧
    ∀ s, ∀ a ∈ S.acts (.sender s), ¬ Changes (.body b) a

/-- One goroutine uses the body and sends it, to one session only, and does not touch it any more. -/
def HandedOver (S : System) (b : Nat) : Prop :=
  ∃ g₀ s, (∀ g, g ≠ g₀ → g ≠ .sender s → ∀ a ∈ S.acts g, ¬ Uses (.body b) a) ∧
    (∀ g, g ≠ g₀ → Act.put s b ∉ S.acts g) ∧
    NotAfter (S.acts g₀) (fun a => a = .put s b) (Uses (.body b))

/-- A program that does what is asked for above. -/
structure Careful (S : System) : Prop where
  running : OneRunner S
  bodyTypes : RegistersFirst S .bodyTypes
  extraTypes : RegistersFirst S .extraTypes
  keys : ∀ s, KeyFirst S s ∨ ∀ g, ∀ a ∈ S.acts g, ¬ Changes (.publicKey s) a
  bodies : ∀ b, SharedUnchanged S b ∨ HandedOver S b

/-- No close handler calls `Stop`. -/
def CloseWithoutStop (S : System) : Prop :=
  ∀ s found cs, S.closing s = some (found, some cs) → ∀ isRunning opened, Call.stop isRunning opened ∉ cs

/-- The close handler of a session calls `Stop` while the server runs, and link still has the other session (or the session itself), so that `Stop`
waits for the close handler of that one. -/
def CloseStops (S : System) (s t : Nat) : Prop :=
  ∃ found cs opened, S.closing s = some (found, some cs) ∧ Call.stop true opened ∈ cs ∧ t ∈ opened

/-- The close handlers do not wait for each other in a circle or without end: those for which the close handler of the session waits wait in their
turn only for such as do not. -/
inductive NoCircle (S : System) : Nat → Prop
  | intro {s : Nat} (h : ∀ t, CloseStops S s t → NoCircle S t) : NoCircle S s

/-- A goroutine that has something to do cannot do it now. -/
def Stuck (σ : State) (g : Goroutine) : Prop :=
  σ.started g = true ∧ σ.todo g ≠ [] ∧ σ.step g = none

/-- A run without end: at each moment one goroutine makes a step, or none does. -/
structure Course (S : System) where
  state : Nat → State
  who : Nat → Option Goroutine
  first : state 0 = S.init
  next : ∀ t, match who t with
    | none => state (t + 1) = state t
    | some g => ∃ a, (state t).step g = some (a, state (t + 1))

/-- The scheduler and the locks are fair: a goroutine that again and again can make a step makes one again and again. -/
def Course.Fair {S : System} (c : Course S) : Prop :=
  ∀ g, (∀ t, ∃ u, t ≤ u ∧ ((c.state u).step g).isSome = true) → ∀ t, ∃ u, t ≤ u ∧ c.who u = some g

end Verif.Spec
