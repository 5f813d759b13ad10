import Verif.Model.Basic
/-! # timer.go: the countdown timer

The queue is Go's `container/heap` over a slice of `*element`. `Key` and `Expire` of an element are written only when it is
created (`expirationQueue.Update`, timer.go:55-58, which changes `Expire`, is never called), so an element is modelled as an
`Entry` with its identity (the pointer), key and deadline; the field `Index`, which changes, is kept in a separate memory from
identities to indexes. Times are Unix seconds; their sum with the period wraps around as an int64. -/

namespace Verif

/-- timer.go:10-14 `element`, without `Index`; `id` stands for the pointer. -/
structure Entry (K : Type) where
  id : Nat
  key : K
  expire : Int
  deriving DecidableEq, Repr

/-- timer.go:17 `expirationQueue` and the `Index` fields of all elements. -/
structure Queue (K : Type) where
  items : List (Entry K) := []
  index : Nat → Int := fun _ => 0

namespace Queue
variable {K : Type}

/-- Write of one `Index` field (timer.go:25). -/
def setIndex (m : Nat → Int) (id : Nat) (i : Int) : Nat → Int := fun x => if x = id then i else m x

/-- timer.go:23-26 `Swap`. -/
def swap (q : Queue K) (i j : Nat) : Res (Queue K) :=
  match q.items[i]?, q.items[j]? with
  | some x, some y => .ok { items := (q.items.set i y).set j x, index := setIndex (setIndex q.index y.id i) x.id j }
  | _, _ => .panic

/-- timer.go:28-30 `Less`. -/
def less (q : Queue K) (i j : Nat) : Res Bool :=
  match q.items[i]?, q.items[j]? with
  | some x, some y => .ok (decide (x.expire < y.expire))
  | _, _ => .panic

/-- timer.go:32-39 `Pop`. -/
def pop (q : Queue K) : Res (Queue K × Entry K) :=
  match q.items.getLast? with
  | some x => .ok ({ items := q.items.dropLast, index := setIndex q.index x.id (-1) }, x)
  | none => .panic

/-- timer.go:41-46 `Push`. -/
def push (q : Queue K) (x : Entry K) : Queue K :=
  { items := q.items ++ [x], index := setIndex q.index x.id q.items.length }

/-- `container/heap`, `up(h, j)`: swap with the parent while smaller. `j` decreases, so `j + 1` rounds suffice (called through timer.go:57,
timer.go:61, timer.go:96). -/
def up : Nat → Queue K → Nat → Res (Queue K)
  | 0, q, _ => .ok q
  | fuel + 1, q, j =>
    let i := (j - 1) / 2
    if i = j then .ok q
    else do
      let l ← less q j i
      if !l then .ok q
      else do
        let q' ← swap q i j
        up fuel q' i

/-- `container/heap`, `down`: the smaller child of `i` within the first `n`, whose left child is `j1 < n` (called through timer.go:57, timer.go:61).
-/
def smallerChild (q : Queue K) (j1 n : Nat) : Res Nat :=
  if j1 + 1 < n then do
    let l ← less q (j1 + 1) j1
    .ok (if l then j1 + 1 else j1)
  else .ok j1

/-- `container/heap`, the loop of `down(h, i0, n)`; returns the queue and the final position. `i` increases, so `n` rounds
suffice.
(Called through timer.go:57, timer.go:61.) -/
def downLoop : Nat → Queue K → Nat → Nat → Res (Queue K × Nat)
  | 0, q, i, _ => .ok (q, i)
  | fuel + 1, q, i, n =>
    let j1 := 2 * i + 1
    if j1 ≥ n then .ok (q, i)
    else do
      let j ← smallerChild q j1 n
      let l ← less q j i
      if !l then .ok (q, i)
      else do
        let q' ← swap q i j
        downLoop fuel q' j n

/-- `container/heap`, `down(h, i0, n)`: the queue and whether the element moved (called through timer.go:57, timer.go:61). -/
def down (q : Queue K) (i0 n : Nat) : Res (Queue K × Bool) := do
  let (q', i) ← downLoop n q i0 n
  .ok (q', decide (i > i0))

/-- `container/heap`, `Push(h, x)` (timer.go:96). -/
def heapPush (q : Queue K) (x : Entry K) : Res (Queue K) :=
  let q' := push q x
  up q'.items.length q' (q'.items.length - 1)

/-- `container/heap`, `Remove(h, i)`: the part before `h.Pop()` (timer.go:61). -/
def sift (q : Queue K) (i n : Nat) : Res (Queue K) :=
  if n = i then .ok q
  else do
    let q1 ← swap q i n
    let (q2, moved) ← down q1 i n
    if moved then .ok q2 else up (i + 1) q2 i

/-- `container/heap`, `Remove(h, i)`. A negative index, or any index into an empty heap, panics in `Swap` or `Pop` (timer.go:61). -/
def heapRemove (q : Queue K) (i : Int) : Res (Queue K × Entry K) :=
  if i < 0 ∨ q.items.length = 0 then .panic
  else do
    let q' ← sift q i.toNat (q.items.length - 1)
    pop q'

/-- timer.go:60-62 `Remove`. -/
def remove (q : Queue K) (e : Entry K) : Res (Queue K) := do
  let (q', _) ← heapRemove q (q.index e.id)
  .ok q'

end Queue

/-- timer.go:65-71 `CountdownTimer`; `next` is the identity of the next element to be created. -/
structure Timer (K : Type) where
  seconds : Int
  q : Queue K := {}
  mapper : K → Option (Entry K) := fun _ => none
  next : Nat := 0

namespace Timer
variable {K : Type} [DecidableEq K]

/-- `delete(timer.mapper, key)` (timer.go:109, 141). -/
def unmap (m : K → Option (Entry K)) (k : K) : K → Option (Entry K) := fun x => if x = k then none else m x

/-- timer.go:101-111 `Remove`: one critical section. It is also the first critical section of `Update`. -/
def removeSection (t : Timer K) (k : K) : Res (Timer K) :=
  match t.mapper k with
  | none => .ok t
  | some e => do
    let q' ← t.q.remove e
    .ok { t with q := q', mapper := unmap t.mapper k }

/-- timer.go:94-97: the second critical section of `Update`, with the element created at timer.go:88-91. -/
def pushSection (t : Timer K) (k : K) (expire : Int) : Res (Timer K) := do
  let e : Entry K := { id := t.next, key := k, expire := expire }
  let q' ← t.q.heapPush e
  .ok { t with q := q', mapper := fun x => if x = k then some e else t.mapper x, next := t.next + 1 }

/-- timer.go:90: the sum of two `int64`, which wraps around. -/
def deadline (now seconds : Int) : Int := (now + seconds + 2 ^ 63) % 2 ^ 64 - 2 ^ 63

/-- timer.go:87-98 `Update` without interference, at time `now`. -/
def update (t : Timer K) (now : Int) (k : K) : Res (Timer K) := do
  let t' ← t.removeSection k
  t'.pushSection k (deadline now t.seconds)

/-- timer.go:114-118 `SetExpiration`. -/
def setExpiration (t : Timer K) (s : Int) : Timer K := if s > 0 then { t with seconds := s } else t

/-- timer.go:131-143: the loop of one tick; the keys collected so far are an argument. Every round removes an element. -/
def tickLoop (now : Int) : Nat → Timer K → List K → Res (Timer K × List K)
  | 0, t, ks => .ok (t, ks)
  | fuel + 1, t, ks =>
    match t.q.items.head? with
    | none => .ok (t, ks)
    | some top =>
      if top.expire > now then .ok (t, ks)
      else do
        let q' ← t.q.remove top
        tickLoop now fuel { t with q := q', mapper := unmap t.mapper top.key } (ks ++ [top.key])

/-- timer.go:126-144: the critical section of one tick at time `now`; returns the keys for which the callback is then called,
in order (timer.go:146-150). -/
def tick (t : Timer K) (now : Int) : Res (Timer K × List K) := tickLoop now (t.q.items.length + 1) t []

/-- timer.go:74-84 `NewCountdownTimer`. -/
def new (seconds : Int) : Timer K := { seconds := seconds }

end Timer
end Verif
