import Verif.Model.Entity
/-! # The count a body decoder reports -/

namespace Verif.Spec

/-- Body types whose `Decode` reports another count than the number of bytes it was given: location reports stop before
the extras, and six types forget a leading byte. -/
def consumed (e : Entity) (len : Nat) : Nat :=
  match e with
  | .m0200 _ => 28
  | .m0201 _ => 30
  | .m0500 _ => 30
  | .m0303 _ => 1
  | .m8105 _ => len - 1
  | .m8300 _ => len - 1
  | .m8106 _ => len - 1
  | .m8601 _ => len - 1
  | .m8603 _ => len - 1
  | .m8605 _ => len - 1
  | _ => len

/-- The bodies whose encoding is miscounted: location reports with additional items, and all bodies of seven types. -/
def miscounted : Entity → Prop
  | .m0200 b => b.extras ≠ []
  | .m0201 b => b.result.extras ≠ []
  | .m0500 b => b.result.extras ≠ []
  | .m0303 _ => True
  | .m8105 _ => True
  | .m8300 _ => True
  | .m8106 _ => True
  | .m8601 _ => True
  | .m8603 _ => True
  | .m8605 _ => True
  | _ => False

/-- The count reported for a body of message `id` whose fields take `taken` bytes. -/
def reportedCount (id : UInt16) (taken : Nat) : Nat :=
  match id.toNat with
  | 0x0200 => 28
  | 0x0201 => 30
  | 0x0500 => 30
  | 0x0303 => taken - 1
  | 0x8105 => taken - 1
  | 0x8300 => taken - 1
  | 0x8106 => taken - 1
  | 0x8601 => taken - 1
  | 0x8603 => taken - 1
  | 0x8605 => taken - 1
  | _ => taken

end Verif.Spec
