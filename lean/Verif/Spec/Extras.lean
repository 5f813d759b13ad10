import Verif.Model.Extra
import Verif.Spec.Wire
/-! # Specification of the additional items of a location report -/

namespace Verif.Spec

/-- A 32-bit number, most significant byte first. -/
def be32 (n : Nat) : List UInt8 := be16 (n / 65536) ++ be16 n

/-- The content bytes of an item, from the JT/T 808 table. -/
def extraContent : ExtraVal → List UInt8
  | .x01 v => be32 v.toNat
  | .x02 v => be16 v.toNat
  | .x03 v => be16 v.toNat
  | .x04 v => be16 v.toNat
  | .x11 t none => [t]
  | .x11 t (some a) => t :: be32 a.toNat
  | .x12 t a d => t :: be32 a.toNat ++ [d]
  | .x13 r d x => be32 r.toNat ++ be16 d.toNat ++ [x]
  | .x25 v => be32 v.toNat
  | .x2a v => be16 v.toNat
  | .x2b v => be32 v.toNat
  | .x30 v => [v]
  | .x31 v => [v]

/-- The item id. -/
def extraID : ExtraVal → UInt8
  | .x01 _ => 0x01
  | .x02 _ => 0x02
  | .x03 _ => 0x03
  | .x04 _ => 0x04
  | .x11 _ _ => 0x11
  | .x12 _ _ _ => 0x12
  | .x13 _ _ _ => 0x13
  | .x25 _ => 0x25
  | .x2a _ => 0x2a
  | .x2b _ => 0x2b
  | .x30 _ => 0x30
  | .x31 _ => 0x31

/-- The length an item must have; item 0x11 has an area id unless its first byte is 0. `none`: unknown item. -/
def extraSize (id : UInt8) (data : List UInt8) : Option Nat :=
  if id = 0x01 ∨ id = 0x25 ∨ id = 0x2b then some 4
  else if id = 0x02 ∨ id = 0x03 ∨ id = 0x04 ∨ id = 0x2a then some 2
  else if id = 0x11 then some (if data.head? = some 0 then 1 else 5)
  else if id = 0x12 then some 6
  else if id = 0x13 then some 7
  else if id = 0x30 ∨ id = 0x31 then some 1
  else none

/-- One item on the wire: id, length, content. -/
def itemWire (id : UInt8) (data : List UInt8) : List UInt8 := id :: UInt8.ofNat data.length :: data

/-- An item of a report: one that the library knows, or another one. -/
inductive Item where
  | known (v : ExtraVal)
  | unknown (id : UInt8) (data : List UInt8)

/-- An item that can be on the wire. -/
def Item.OK : Item → Prop
  | .known (.x11 t a) => (t = 0 ↔ a = none)
  | .known _ => True
  | .unknown id data => extraSize id data = none ∧ data.length < 256

def Item.wire : Item → List UInt8
  | .known v => itemWire (extraID v) (extraContent v)
  | .unknown id data => itemWire id data

/-- The values of the known items, in order. -/
def knownValues : List Item → List ExtraVal
  | [] => []
  | .known v :: is => v :: knownValues is
  | .unknown _ _ :: is => knownValues is

end Verif.Spec
