import Verif.Spec.Wire
import Verif.Spec.Rsa
/-! # What a receiver takes bytes for -/

namespace Verif.Spec

/-- The bytes of a header. -/
def headerOf (h : Header) : Bytes :=
  headerBytes h.msgID.toNat h.property.toNat h.iccID.toNat h.serial.toNat (h.packet.map fun p => (p.sum.toNat, p.seq.toNat))

/-- The bytes are a frame with this header and these body bytes: delimiters, escaped content (delimiters inside are taken as they are), check byte
(escaped or not). The terminal number is one of 1 to 999999999999, and there is packet information exactly if the property word says so. -/
def Arrives (data : Bytes) (h : Header) (body : Bytes) : Prop :=
  (∃ w u, data = [0x7e] ++ w ++ u ++ [0x7e] ∧ Unstuffed w (headerOf h ++ body) ∧ CheckByte u (xorAll (headerOf h ++ body))) ∧
  0 < h.iccID.toNat ∧ h.iccID.toNat < 10 ^ 12 ∧ packetFlag h.property.toNat = h.packet.isSome

/-- The body bytes before encryption. -/
def Decrypted (key : Option DecKey) (h : Header) (body plain : Bytes) : Prop :=
  if encryptFlag h.property.toNat then
    ∃ (k : DecKey) (chunks plains : List Bytes), key = some k ∧ Blocks k.size.toNat body chunks ∧ chunks.map k.dec = plains.map some ∧ plain = plains.flatten
  else plain = body

end Verif.Spec
