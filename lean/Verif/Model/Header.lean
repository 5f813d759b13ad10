import Verif.Model.Bit
import Verif.Model.Helpers
/-! # protocol/header.go -/

namespace Verif

/-- protocol/header.go:9-12 `Packet`. -/
structure Packet where
  sum : UInt16
  seq : UInt16
  deriving DecidableEq, Repr

/-- protocol/header.go:15-21 `Header`; the default values are Go's zero values. -/
structure Header where
  msgID : UInt16 := 0
  property : UInt16 := 0
  iccID : UInt64 := 0
  serial : UInt16 := 0
  packet : Option Packet := none
  deriving DecidableEq, Repr

namespace Header

/-- protocol/header.go:24-48 `Encode`; returns the bytes and the receiver (its packet flag may have been
set). Dereferencing a nil `Packet` panics. -/
def encode (h : Header) : Res (Bytes × Header) :=
  let prop := if h.packet.isSome then Property.enablePacket h.property else h.property
  let h' : Header := { h with property := prop }
  let base := put16 h.msgID ++ put16 prop ++ stringToBCD (fmtUint h.iccID.toNat) 6 ++ put16 h.serial
  if Property.isEnablePacket prop then
    match h.packet with
    | some p => .ok (base ++ put16 p.sum ++ put16 p.seq, h')
    | none => .panic
  else .ok (base, h')

/-- protocol/header.go:51-108 `Decode`; without the packet flag the receiver's `Packet` stays. -/
def decode (self : Header) (data : Bytes) : Res Header :=
  if data.length < 12 then .err .invalidHeader
  else
    match (do
      let i ← Rd.orErr Rd.u16 .invalidHeader
      let p ← Rd.orErr Rd.u16 .invalidHeader
      let t ← Rd.orErr (Rd.read 6) .invalidHeader
      let n ← Rd.lift (parseUint (bcdToString t))
      let sn ← Rd.orErr Rd.u16 .invalidHeader
      let pk ← if Property.isEnablePacket p then (do
          let a ← Rd.u16
          let b ← Rd.u16
          pure (some ⟨a, b⟩)) else pure self.packet
      pure { msgID := i, property := p, iccID := UInt64.ofNat n, serial := sn, packet := pk } : Rd Header) data with
    | .ok (h, _) => .ok h
    | .err e => .err e
    | .panic => .panic

end Header
end Verif
