import Verif.Spec.Transfer
import Verif.Spec.Rsa
import Verif.Spec.Converse
/-! # Messages a terminal sends in plain text or encrypted -/

namespace Verif.Spec
open Converse

/-- The message `m` with the body `e` can be sent in plain text (`how = none`), or encrypted with the public key `how = some k` of the server whose private key
is `key`. Every message has its own `k`, because encryption uses random bytes. -/
structure SendableAs (env : Env) (key : Option DecKey) (m : Message Entity) (e : Entity) (how : Option EncKey) : Prop where
  body : m.body = .val e
  range : InRange env e
  icc0 : 0 < m.header.iccID.toNat
  icc1 : m.header.iccID.toNat < 10 ^ 12
  packet : packetFlag m.header.property.toNat = true → m.header.packet.isSome
  plain : how = none → encryptFlag m.header.property.toNat = false ∧ ∀ b e', Verif.Entity.encode env e = .ok (b, e') → b.length ≤ 1023
  cipher : ∀ k, how = some k → ∃ d size, key = some d ∧ KeyPair k d size ∧
    ∀ b e', Verif.Entity.encode env e = .ok (b, e') → size * blockCount (size - 42) b.length ≤ 1023

/-- The lists have the same length, and elements at the same position are related. -/
inductive Each {α β : Type} (R : α → β → Prop) : List α → List β → Prop where
  | nil : Each R [] []
  | cons {a : α} {b : β} {as : List α} {bs : List β} : R a b → Each R as bs → Each R (a :: as) (b :: bs)

/-- The two messages differ at most in the encryption flag and the size of the body on the wire. -/
def SameContent (m m' : Message Entity) : Prop :=
  m.body = m'.body ∧ m.header.msgID = m'.header.msgID ∧ m.header.serial = m'.header.serial ∧ m.header.iccID = m'.header.iccID ∧
    m.header.packet = m'.header.packet ∧ packetFlag m.header.property.toNat = packetFlag m'.header.property.toNat

/-- Handlers and callbacks do not look at the encryption flag and the size of the body on the wire. -/
def Blind {σ : Type} (P : Program σ) : Prop :=
  ∀ m m', SameContent m m' → (∀ h u, P.handler h u m = P.handler h u m') ∧ ∀ cb u, P.callback cb u m = P.callback cb u m'

/-- The same thing happens, with messages of the same content. -/
inductive SameEvent : Ev → Ev → Prop where
  | same (x : Ev) : SameEvent x x
  | received {m m' : Message Entity} : SameContent m m' → SameEvent (.received m) (.received m')
  | ran (cb : Nat) {m m' : Message Entity} : SameContent m m' → SameEvent (.ran cb m) (.ran cb m')
  | handled (h : Nat) {m m' : Message Entity} : SameContent m m' → SameEvent (.handled h m) (.handled h m')
  | unhandled {m m' : Message Entity} : SameContent m m' → SameEvent (.unhandled m) (.unhandled m')

end Verif.Spec
