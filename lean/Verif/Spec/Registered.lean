import Verif.Model.Registered
/-! # Specification of registered types -/

namespace Verif.Spec

/-- What was registered last for an id, if anything. -/
def lastFor {K C : Type} [DecidableEq K] (id : K) (rs : List (K × C)) : Option C :=
  ((rs.filter fun r => r.1 = id).getLast?).map (·.2)

/-- The items of a list, of which each has an id and content, are read in order: an item that nobody knows is left out, every other one gives one
value, for which all of its content is used. -/
inductive ReadsAs {α : Type} (dec : UInt8 → Bytes → Res (α × Nat)) : List (UInt8 × Bytes) → List α → Prop
  | nil : ReadsAs dec [] []
  | unknown {id d is xs} : dec id d = .err .typeNotRegistered → ReadsAs dec is xs → ReadsAs dec ((id, d) :: is) xs
  | known {id d x is xs} : dec id d = .ok (x, d.length) → ReadsAs dec is xs → ReadsAs dec ((id, d) :: is) (x :: xs)

/-- Items on the wire: id, length, content. -/
def itemsWire (is : List (UInt8 × Bytes)) : Bytes := is.flatMap fun i => i.1 :: UInt8.ofNat i.2.length :: i.2

/-- What a receiver with decoder `dec` makes of an extra that is sent: nothing if it is nil or not known to the receiver, otherwise the value decoded
from all of its content. -/
def ExtraArrives {X : Type} (M : OwnExtra X) (dec : UInt8 → Bytes → Res (AnyExtra X × Nat)) : Option (AnyExtra X) → Option (AnyExtra X) → Prop
  | none, y => y = none
  | some (.builtin e), y => e.serialized.length < 256 ∧
      ((dec e.id e.serialized = .err .typeNotRegistered ∧ y = none) ∨ ∃ v, dec e.id e.serialized = .ok (v, e.serialized.length) ∧ y = some v)
  | some (.own x), y => M.pointer x = true ∧
      ((M.isNil x = true ∧ y = none) ∨ (M.isNil x = false ∧ (M.data x).length < 256 ∧
        ((dec (M.id x) (M.data x) = .err .typeNotRegistered ∧ y = none) ∨ ∃ v, dec (M.id x) (M.data x) = .ok (v, (M.data x).length) ∧ y = some v)))

/-- The extras of a report arrive, in order. -/
inductive ExtrasArrive {X : Type} (M : OwnExtra X) (dec : UInt8 → Bytes → Res (AnyExtra X × Nat)) :
    List (Option (AnyExtra X)) → List (AnyExtra X) → Prop
  | nil : ExtrasArrive M dec [] []
  | gone {x xs ys} : ExtraArrives M dec x none → ExtrasArrive M dec xs ys → ExtrasArrive M dec (x :: xs) ys
  | comes {x y xs ys} : ExtraArrives M dec x (some y) → ExtrasArrive M dec xs ys → ExtrasArrive M dec (x :: xs) (y :: ys)

/-- What an own type makes of the bytes of a body, from the value `x` that its creator returned: a type with `DecodePacket` gets them through that method
and has read all of them, another type through `Decode`. -/
def ownResult {X : Type} (M : OwnBody X) (x : X) (data : Bytes) : Res (AnyBody X × Nat) :=
  match M.decodePacket x, M.decode x data with
  | some f, _ => match f data with | .ok y => .ok (.own y, data.length) | .err e => .err e | .panic => .panic
  | none, .ok (y, n) => .ok (.own y, n)
  | none, .err e => .err e
  | none, .panic => .panic

/-- The ids of the protocol's answers, by which a session finds the request that is answered. -/
def answerIDs : List UInt16 := [0x0001, 0x0104, 0x0201, 0x0302, 0x0500, 0x0700, 0x0802, 0x0805]

end Verif.Spec
