import Verif.Model.Entity
import Verif.Spec.Calendar
import Verif.Spec.Extras
import Verif.Spec.Strings
import Verif.Spec.Wire
/-! # The bytes of every message body

Written field by field from the tables of the protocol (as repeated in the comments of the Go structures), without the encoders and decoders of
the model. Numbers are unsigned, most significant byte first; BCD is packed decimal. -/

namespace Verif.Spec

/-- A text in GB18030. -/
def text (env : Env) (s : Bytes) : Bytes := (env.gbEnc s).getD []

/-- A text that may be left out; an empty text has no bytes. -/
def textOrNothing (env : Env) (s : Bytes) : Bytes := if s = [] then [] else text env s

/-- Bytes behind their number in one byte. -/
def counted (b : Bytes) : Bytes := UInt8.ofNat b.length :: b

/-- Bytes behind their number in two bytes. -/
def counted16 (b : Bytes) : Bytes := be16 b.length ++ b

/-- The value of a string of decimal digits. -/
def numberOf (s : Bytes) : Nat := s.foldl (fun n c => 10 * n + (c.toNat - 48)) 0

/-- BCD[6]: local year, month, day, hour, minute, second, two digits each. -/
def timeBytes (env : Env) (t : Time) : Bytes :=
  let d := dateAfter ((t + env.tz - unix2000) / 86400).toNat
  let s := ((t + env.tz - unix2000) % 86400).toNat
  [bcdByte (d.year % 100), bcdByte d.month, bcdByte d.day, bcdByte (s / 3600), bcdByte (s / 60 % 60), bcdByte (s % 60)]

/-- The date `n` days after January 1 of the year 1. -/
def dateSinceOne : Nat → Date
  | 0 => ⟨1, 1, 1⟩
  | n + 1 => (dateSinceOne n).next

/-- Unix time of January 1 of the year 1, 00:00:00 UTC. -/
def unixOne : Int := -62135596800

/-- January 1, 2000 is 730119 days after January 1 of the year 1. -/
example : unix2000 = unixOne + 730119 * 86400 := by decide

/-- BCD[4]: the local date, four digits of the year, month and day. -/
def dateBytes (env : Env) (t : Time) : Bytes :=
  let d := dateSinceOne ((t + env.tz - unixOne) / 86400).toNat
  bcd 2 d.year ++ [bcdByte d.month, bcdByte d.day]

/-- BCD[5]: hours, minutes, seconds, and milliseconds with four digits, of a duration in nanoseconds. -/
def clockBytes (d : Int) : Bytes :=
  let ms := (d / 1000000).toNat
  [bcdByte (ms / 3600000), bcdByte (ms / 60000 % 60), bcdByte (ms / 1000 % 60)] ++ bcd 2 (ms % 1000)

/-- DWORD: a coordinate in millionths of a degree, without sign. -/
def coordBytes (d : Dec) : Bytes := be32 d.value.natAbs

/-- The additional items of a location report. -/
def extrasBytes (xs : List (Option Extra)) : Bytes :=
  xs.flatMap fun x => match x with
    | some x => itemWire (extraID x.val) (extraContent x.val)
    | none => []

/-- The 28 bytes of a location report. -/
def locationBase (env : Env) (e : T0200) : Bytes :=
  be32 e.alarm.toNat ++ be32 e.status.toNat ++ coordBytes e.lat ++ coordBytes e.lng ++ be16 e.altitude.toNat ++ be16 e.speed.toNat ++
    be16 e.direction.toNat ++ timeBytes env e.time

/-- A location report with its additional items. -/
def locationBytes (env : Env) (e : T0200) : Bytes := locationBase env e ++ extrasBytes e.extras

/-- A terminal parameter: id, length, value. -/
def paramBytes (p : Param) : Bytes := be32 p.id.toNat ++ counted p.serialized

/-- A list of terminal parameters behind its length. -/
def paramsBytes (ps : List Param) : Bytes := UInt8.ofNat ps.length :: ps.flatMap paramBytes

/-- A list of 32-bit numbers behind its length in one byte. -/
def idsBytes (ids : List UInt32) : Bytes := UInt8.ofNat ids.length :: ids.flatMap fun i => be32 i.toNat

/-- A list of 16-bit numbers behind its length in one byte. -/
def wordsBytes (ids : List UInt16) : Bytes := UInt8.ofNat ids.length :: ids.flatMap fun i => be16 i.toNat

/-- An id and a text behind its length. -/
def idTextBytes (env : Env) (x : IdText) : Bytes := x.id :: counted (text env x.content)

/-- Period, speed limit and duration of an area, present if bit 0 of the attributes is set. -/
def tailBytes (env : Env) (attr : UInt16) (start stop : Time) (maxSpeed : UInt16) (duration : UInt8) : Bytes :=
  if attr.toNat.testBit 0 then timeBytes env start ++ timeBytes env stop ++ be16 maxSpeed.toNat ++ [duration] else []

/-- A circular area. -/
def circleBytes (env : Env) (a : CircleArea) : Bytes :=
  be32 a.id.toNat ++ be16 a.attr.toNat ++ coordBytes a.lat ++ coordBytes a.lng ++ be32 a.radius.toNat ++
    tailBytes env a.attr a.startTime a.endTime a.maxSpeed a.duration

/-- A rectangular area: the upper left corner, then the lower right one. -/
def rectBytes (env : Env) (a : RectArea) : Bytes :=
  be32 a.id.toNat ++ be16 a.attr.toNat ++ coordBytes a.leftTopLat ++ coordBytes a.leftTopLon ++ coordBytes a.rightBottomLat ++
    coordBytes a.rightBottomLon ++ tailBytes env a.attr a.startTime a.endTime a.maxSpeed a.duration

/-- A 16-bit number that may be absent. -/
def wordIf : Option UInt16 → Bytes
  | some n => be16 n.toNat
  | none => []

/-- A byte that may be absent. -/
def byteIf : Option UInt8 → Bytes
  | some n => [n]
  | none => []

/-- A turning point of a route. -/
def pointBytes (p : RoutePoint) : Bytes :=
  be32 p.id.toNat ++ be32 p.sectionID.toNat ++ coordBytes p.lat ++ coordBytes p.lng ++ [p.width, p.attr] ++ wordIf p.timeTooLong ++
    wordIf p.timeTooShort ++ wordIf p.maxSpeed ++ byteIf p.overSpeedDuration

/-- `k` bytes, most significant first. -/
def beBytes : Nat → Nat → Bytes
  | 0, _ => []
  | k + 1, n => beBytes k (n / 256) ++ [UInt8.ofNat (n % 256)]

/-- An RSA key: exponent and modulus of 128 bytes. -/
def keyBytes : Option PubKey → Bytes
  | some ⟨some n, e⟩ => be32 e.toNat ++ beBytes 128 n
  | _ => []

/-- The bytes of a message body. -/
def bodyBytes (env : Env) : Entity → Bytes
  | .m0001 b => be16 b.replySerial.toNat ++ be16 b.replyID.toNat ++ [b.result]
  | .m0002 _ => []
  | .m0003 _ => []
  | .m0100 b => be16 b.provinceID.toNat ++ be16 b.cityID.toNat ++ padded 5 b.manufactureID ++ padded 20 b.model ++ padded 7 b.terminalID ++
      [b.plateColor] ++ textOrNothing env b.licenseNo
  | .m0102 b => text env b.authKey
  | .m0104 b => be16 b.replySerial.toNat ++ paramsBytes b.params
  | .m0107 b => be16 b.terminalType.toNat ++ padded 5 b.manufactureID ++ padded 20 b.model ++ padded 7 b.terminalID ++
      bcd 10 (numberOf b.sim) ++ counted b.hardwareVersion ++ counted b.softwareVersion ++ [b.gnss, b.comm]
  | .m0108 b => [b.type, b.result]
  | .m0200 b => locationBytes env b
  | .m0201 b => be16 b.replySerial.toNat ++ locationBytes env b.result
  | .m0301 b => [b.eventID]
  | .m0302 b => be16 b.replySerial.toNat ++ [b.answerID]
  | .m0303 b => [b.type, b.flag]
  | .m0500 b => be16 b.replySerial.toNat ++ locationBytes env b.result
  | .m0700 b => be16 b.replySerial.toNat ++ [b.cmd] ++ b.data
  | .m0701 b => be32 b.size.toNat ++ b.content
  | .m0702 b => [b.state] ++ timeBytes env b.time ++ [b.icCardResult] ++ counted (text env b.driverName) ++ padded 20 (text env b.number) ++
      counted (text env b.companyName) ++ dateBytes env b.expiryDate
  | .m0704 b => be16 b.items.length ++ [b.type] ++ b.items.flatMap fun i => counted16 (locationBytes env i)
  | .m0705 b => be16 b.items.length ++ clockBytes b.receiveTime ++ b.items.flatMap fun i => i.id ++ i.data
  | .m0800 b => be32 b.mediaID.toNat ++ [b.type, b.coding, b.event, b.channelID]
  | .m0801 b => be32 b.mediaID.toNat ++ [b.type, b.coding, b.event, b.channelID] ++ locationBase env b.location ++ b.packet.getD []
  | .m0802 b => be16 b.replySerial.toNat ++ be16 b.items.length ++
      b.items.flatMap fun i => be32 i.mediaID.toNat ++ [i.type, i.channelID, i.event] ++ locationBase env i.location
  | .m0805 b => be16 b.replySerial.toNat ++ [b.result] ++ be16 b.mediaIDs.length ++ b.mediaIDs.flatMap fun i => be32 i.toNat
  | .m8001 b => be16 b.replySerial.toNat ++ be16 b.replyID.toNat ++ [b.result]
  | .m8003 b => be16 b.msgSerial.toNat ++ wordsBytes b.packetIDs
  | .m8100 b => be16 b.msgSerial.toNat ++ [b.result] ++ textOrNothing env b.authKey
  | .m8103 b => paramsBytes b.params
  | .m8104 _ => []
  | .m8105 b => [b.code] ++ textOrNothing env b.text
  | .m8106 b => idsBytes b.ids
  | .m8107 _ => []
  | .m8108 b => [b.type] ++ padded 5 b.manufactureID ++ counted (text env b.version) ++ be32 b.size.toNat ++ b.data
  | .m8201 _ => []
  | .m8202 b => be16 b.interval.toNat ++ be32 b.expire.toNat
  | .m8203 b => be16 b.msgSerial.toNat ++ be32 b.type.toNat
  | .m8300 b => [b.code] ++ textOrNothing env b.text
  | .m8301 b => [b.type, UInt8.ofNat b.events.length] ++ b.events.flatMap (idTextBytes env)
  | .m8302 b => [b.flag] ++ counted (text env b.question) ++ b.answers.flatMap (idTextBytes env)
  | .m8303 b => [b.type, UInt8.ofNat b.items.length] ++ b.items.flatMap fun i => counted16 (text env i)
  | .m8304 b => [b.type] ++ counted16 (text env b.content)
  | .m8400 b => [b.flag] ++ text env b.number
  | .m8401 b => [b.type, UInt8.ofNat b.contacts.length] ++
      b.contacts.flatMap fun c => [c.flag] ++ counted (text env c.number) ++ counted (text env c.contact)
  | .m8500 b => [b.flag]
  | .m8600 b => [b.action, UInt8.ofNat b.items.length] ++ b.items.flatMap (circleBytes env)
  | .m8601 b => idsBytes b.ids
  | .m8602 b => [b.action, UInt8.ofNat b.items.length] ++ b.items.flatMap (rectBytes env)
  | .m8603 b => idsBytes b.ids
  | .m8604 b => be32 b.id.toNat ++ be16 b.attr.toNat ++ tailBytes env b.attr b.startTime b.endTime b.maxSpeed b.duration ++
      be16 b.vertexes.length ++ b.vertexes.flatMap fun v => coordBytes v.lat ++ coordBytes v.lng
  | .m8605 b => idsBytes b.ids
  | .m8606 b => be32 b.id.toNat ++ be16 b.attr.toNat ++ timeBytes env b.startTime ++ timeBytes env b.endTime ++ be16 b.points.length ++
      b.points.flatMap pointBytes
  | .m8607 b => idsBytes b.ids
  | .m8700 b => [b.cmd] ++ b.data
  | .m8701 b => [b.cmd] ++ b.data
  | .m8702 _ => []
  | .m8800 b => be32 b.mediaID.toNat ++ (if b.retryIDs = [] then [] else wordsBytes b.retryIDs)
  | .m8801 b => [b.channelID] ++ be16 b.cmd.toNat ++ be16 b.duration.toNat ++
      [b.save, b.resolution, b.quality, b.lighting, b.contrast, b.saturability, b.chroma]
  | .m8802 b => [b.type, b.channelID, b.event] ++ timeBytes env b.startTime ++ timeBytes env b.endTime
  | .m8803 b => [b.type, b.channelID, b.event] ++ timeBytes env b.startTime ++ timeBytes env b.endTime ++ [b.removeFlag]
  | .m8804 b => [b.cmd] ++ be16 b.duration.toNat ++ [b.save, b.audioSampleRate]
  | .m8805 b => be32 b.mediaID.toNat ++ [b.removeFlag]
  | .m8900 b => [b.type] ++ b.data
  | .m0900 b => [b.type] ++ b.data
  | .m0901 b => be32 ((env.gzip b.uncompressed).getD []).length ++ (env.gzip b.uncompressed).getD []
  | .m0a00 b => keyBytes b.publicKey
  | .m8a00 b => keyBytes b.publicKey

end Verif.Spec
