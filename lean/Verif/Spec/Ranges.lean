import Verif.Model.Entity
import Verif.Spec.Calendar
/-! # Values that the wire format can carry

`InRange env e` says that every field of the body `e` fits its place on the wire. It is the hypothesis of the body
round trip (C16). -/

namespace Verif.Spec

/-- A fixed-width byte string: at most `n` bytes, none of them NUL. -/
def Plain (s : Bytes) (n : Nat) : Prop := s.length ≤ n ∧ 0 ∉ s

/-- Text without NUL that GB18030 can represent in at most `n` bytes: decoding the encoded bytes, with or without
NUL padding behind, gives the text back, and non-empty text has a non-empty encoding. -/
def Text (env : Env) (s : Bytes) (n : Nat) : Prop :=
  0 ∉ s ∧ ∃ b, env.gbEnc s = some b ∧ b.length ≤ n ∧ (s ≠ [] → b ≠ []) ∧
    ∀ k, env.gbDec (b ++ List.replicate k 0) = some (s ++ List.replicate k 0)

/-- Text of any length. -/
def AnyText (env : Env) (s : Bytes) : Prop := ∃ n, Text env s n

/-- Decimal digits without leading zero, at most `n`. -/
def Number (s : Bytes) (n : Nat) : Prop := s.length ≤ n ∧ (∀ c ∈ s, 48 ≤ c ∧ c ≤ 57) ∧ s.head? ≠ some 48

/-- A time from 2010 to 2099, local time. -/
def TimeOK (env : Env) (t : Time) : Prop := unix2010 ≤ t + env.tz ∧ t + env.tz < unix2100

/-- Local midnight of a day of the years 1000 to 9999. -/
def DateOK (env : Env) (t : Time) : Prop :=
  (t + env.tz) % 86400 = 0 ∧ -30610224000 ≤ t + env.tz ∧ t + env.tz < 253402300800

/-- A coordinate in whole millionths of a degree that fits 32 bits. -/
def Coord (d : Dec) : Prop := d.exp = -6 ∧ d.value.natAbs < 2 ^ 32

/-- The hemisphere bit of a status or attribute word agrees with the sign of the coordinate. -/
def Hemisphere (bit : Bool) (d : Dec) : Prop := (d.value < 0 → bit = true) ∧ (bit = true → d.value ≤ 0)

/-- The value of an extra, as the constructors `NewExtra_...` take it. -/
def ExtraOK (v : ExtraVal) : Prop :=
  match v with
  | .x11 t a => (t = 0 ↔ a = none)
  | _ => True

/-- A location report without its extras. -/
def BaseOK (env : Env) (e : T0200) : Prop :=
  Coord e.lat ∧ Coord e.lng ∧ Hemisphere (e.status.toNat.testBit 2) e.lat ∧ Hemisphere (e.status.toNat.testBit 3) e.lng ∧
    TimeOK env e.time

/-- A location report; every extra was made by its constructor. -/
def LocationOK (env : Env) (e : T0200) : Prop :=
  BaseOK env e ∧ ∀ x ∈ e.extras, ∃ v, ExtraOK v ∧ x = some (Extra.new v)

/-- Size of the extras of a location report on the wire. -/
def extrasSize (xs : List (Option Extra)) : Nat :=
  (xs.map fun x => match x with | some x => 2 + x.serialized.length | none => 0).sum

/-- The optional tail of an area: present when bit 0 of the attribute is set. -/
def TailOK (env : Env) (attr : UInt16) (start stop : Time) (maxSpeed : UInt16) (duration : UInt8) : Prop :=
  if attr.toNat.testBit 0 then TimeOK env start ∧ TimeOK env stop
  else start = zeroTime ∧ stop = zeroTime ∧ maxSpeed = 0 ∧ duration = 0

def CircleOK (env : Env) (a : CircleArea) : Prop :=
  Coord a.lat ∧ Coord a.lng ∧ Hemisphere (a.attr.toNat.testBit 6) a.lat ∧ Hemisphere (a.attr.toNat.testBit 7) a.lng ∧
    TailOK env a.attr a.startTime a.endTime a.maxSpeed a.duration

def RectOK (env : Env) (a : RectArea) : Prop :=
  Coord a.leftTopLat ∧ Coord a.leftTopLon ∧ Coord a.rightBottomLat ∧ Coord a.rightBottomLon ∧
    Hemisphere (a.attr.toNat.testBit 6) a.leftTopLat ∧ Hemisphere (a.attr.toNat.testBit 7) a.leftTopLon ∧
    Hemisphere (a.attr.toNat.testBit 6) a.rightBottomLat ∧ Hemisphere (a.attr.toNat.testBit 7) a.rightBottomLon ∧
    TailOK env a.attr a.startTime a.endTime a.maxSpeed a.duration

def VertexOK (attr : UInt16) (v : Vertex) : Prop :=
  Coord v.lat ∧ Coord v.lng ∧ Hemisphere (attr.toNat.testBit 6) v.lat ∧ Hemisphere (attr.toNat.testBit 7) v.lng

def PointOK (p : RoutePoint) : Prop :=
  Coord p.lat ∧ Coord p.lng ∧ Hemisphere (p.attr.toNat.testBit 2) p.lat ∧ Hemisphere (p.attr.toNat.testBit 3) p.lng ∧
    p.timeTooLong.isSome = p.attr.toNat.testBit 0 ∧ p.timeTooShort.isSome = p.attr.toNat.testBit 0 ∧
    p.maxSpeed.isSome = p.attr.toNat.testBit 1 ∧ p.overSpeedDuration.isSome = p.attr.toNat.testBit 1

def ParamsOK (ps : List Param) : Prop := ps ≠ [] ∧ ps.length < 256 ∧ ∀ p ∈ ps, p.serialized.length < 256

def KeyOK (k : Option PubKey) : Prop :=
  ∃ n e, k = some ⟨some n, e⟩ ∧ keySize n = 128 ∧ 0 ≤ e ∧ e < 2 ^ 32

/-- Every field of the body fits its place on the wire. -/
def InRange (env : Env) : Entity → Prop
  | .m0100 b => Plain b.manufactureID 5 ∧ Plain b.model 20 ∧ Plain b.terminalID 7 ∧ AnyText env b.licenseNo
  | .m0102 b => b.authKey ≠ [] ∧ AnyText env b.authKey
  | .m0104 b => ParamsOK b.params
  | .m0107 b => Plain b.manufactureID 5 ∧ Plain b.model 20 ∧ Plain b.terminalID 7 ∧ Number b.sim 20 ∧
      Plain b.hardwareVersion 255 ∧ Plain b.softwareVersion 255
  | .m0200 b => LocationOK env b
  | .m0201 b => LocationOK env b.result
  | .m0500 b => LocationOK env b.result
  | .m0702 b => TimeOK env b.time ∧ Text env b.driverName 255 ∧ Text env b.number 20 ∧ Text env b.companyName 255 ∧
      DateOK env b.expiryDate
  | .m0704 b => b.items.length < 65536 ∧ ∀ i ∈ b.items, LocationOK env i ∧ 28 + extrasSize i.extras < 65536
  | .m0705 b => 3600000000000 ≤ b.receiveTime ∧ b.receiveTime < 86400000000000 ∧ b.receiveTime % 1000000 = 0 ∧
      b.items.length < 65536 ∧ ∀ i ∈ b.items, i.id.length = 4 ∧ i.data.length = 8
  | .m0801 b => BaseOK env b.location ∧ b.location.extras = [] ∧ b.packet.isSome
  | .m0802 b => b.items.length < 65536 ∧ ∀ i ∈ b.items, BaseOK env i.location ∧ i.location.extras = []
  | .m0805 b => b.mediaIDs.length < 65536
  | .m8003 b => b.packetIDs.length < 256
  | .m8100 b => AnyText env b.authKey
  | .m8103 b => ParamsOK b.params
  | .m8105 b => AnyText env b.text
  | .m8300 b => AnyText env b.text
  | .m8106 b => b.ids.length < 256
  | .m8601 b => b.ids.length < 256
  | .m8603 b => b.ids.length < 256
  | .m8605 b => b.ids.length < 256
  | .m8607 b => b.ids.length < 256
  | .m8108 b => Plain b.manufactureID 5 ∧ Text env b.version 255
  | .m8301 b => b.events.length < 256 ∧ ∀ x ∈ b.events, Text env x.content 255
  | .m8302 b => Text env b.question 255 ∧ ∀ x ∈ b.answers, Text env x.content 255
  | .m8303 b => b.items.length < 256 ∧ ∀ x ∈ b.items, Text env x 65535
  | .m8304 b => Text env b.content 65535
  | .m8400 b => AnyText env b.number
  | .m8401 b => b.contacts.length < 256 ∧ ∀ x ∈ b.contacts, Text env x.number 255 ∧ Text env x.contact 255
  | .m8600 b => b.items ≠ [] ∧ b.items.length < 256 ∧ ∀ a ∈ b.items, CircleOK env a
  | .m8602 b => b.items ≠ [] ∧ b.items.length < 256 ∧ ∀ a ∈ b.items, RectOK env a
  | .m8604 b => (b.vertexes ≠ [] ∨ b.attr.toNat.testBit 0 = true) ∧ b.vertexes.length < 65536 ∧
      (∀ v ∈ b.vertexes, VertexOK b.attr v) ∧ TailOK env b.attr b.startTime b.endTime b.maxSpeed b.duration
  | .m8606 b => TimeOK env b.startTime ∧ TimeOK env b.endTime ∧ b.points.length < 65536 ∧ ∀ p ∈ b.points, PointOK p
  | .m8800 b => b.retryIDs.length < 256
  | .m8802 b => TimeOK env b.startTime ∧ TimeOK env b.endTime
  | .m8803 b => TimeOK env b.startTime ∧ TimeOK env b.endTime
  | .m0901 b => ∃ z, env.gzip b.uncompressed = some z ∧ env.gunzip z = some b.uncompressed ∧ z.length < 2 ^ 32
  | .m0a00 b => KeyOK b.publicKey
  | .m8a00 b => KeyOK b.publicKey
  | _ => True

/-- A location report without the cached encoding of its extras: `Data()` of a decoded extra is empty (C19), so two
reports are compared by the values of the extras. -/
def dropCache (e : T0200) : T0200 := { e with extras := e.extras.map fun x => x.map fun x => ⟨x.val, []⟩ }

/-- The same for every body that contains location reports. -/
def Entity.dropCache : Entity → Entity
  | .m0200 b => .m0200 (Spec.dropCache b)
  | .m0201 b => .m0201 { b with result := Spec.dropCache b.result }
  | .m0500 b => .m0500 { b with result := Spec.dropCache b.result }
  | .m0704 b => .m0704 { b with items := b.items.map Spec.dropCache }
  | e => e

end Verif.Spec
