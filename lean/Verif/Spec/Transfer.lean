import Verif.Spec.Ranges
import Verif.Spec.Wire
import Verif.Model.Entity
import Verif.Model.Message
/-! # What it means that a message was handed over and arrived -/

namespace Verif.Spec

/-- What a user hands to the sending side: an unencrypted message with a registered, in-range body of at most 1023 bytes and a
terminal number of 1 to 12 digits. -/
structure Sendable (env : Env) (m : Message Entity) (e : Entity) : Prop where
  body : m.body = .val e
  range : InRange env e
  icc0 : 0 < m.header.iccID.toNat
  icc1 : m.header.iccID.toNat < 10 ^ 12
  size : ∀ b e', Verif.Entity.encode env e = .ok (b, e') → b.length ≤ 1023
  plain : encryptFlag m.header.property.toNat = false
  packet : packetFlag m.header.property.toNat = true → m.header.packet.isSome

/-- The received message carries what was sent. -/
def Carries (m : Message Entity) (e : Entity) (d : Message Entity) : Prop :=
  d.body = .val (Entity.dropCache e) ∧ d.header.msgID = e.msgID ∧ d.header.serial = m.header.serial ∧
    d.header.iccID = m.header.iccID ∧ d.header.packet = m.header.packet ∧ packetFlag d.header.property.toNat = m.header.packet.isSome

end Verif.Spec
