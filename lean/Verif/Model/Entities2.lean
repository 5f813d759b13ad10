import Verif.Model.Entities1
/-! # Message bodies, part 2: protocol/t808_0x8*.go

Same conventions as part 1. 0x8001 has the layout of 0x0001; 0x8104, 0x8107, 0x8201 and 0x8702 are empty
bodies; 0x8900 has the layout of 0x0900; 0x8a00 has the layout of 0x0a00. -/

namespace Verif

/-- Writing the items of a list through pointers: bytes and changed items (e.g. protocol/t808_0x8600.go:101-146). -/
def encListM {α : Type} (f : α → Res (Bytes × α)) : List α → Res (Bytes × List α)
  | [] => .ok ([], [])
  | a :: as => do
    let (b, a') ← f a
    let (bs, as') ← encListM f as
    .ok (b ++ bs, a' :: as')

/-! ## 0x8001 -/

/-- protocol/t808_0x8001.go:17-29 (the structure, lines 4-11, is that of 0x0001). -/
def T8001.encode (e : T0001) : Res Bytes := .ok (put16 e.replySerial ++ put16 e.replyID ++ [e.result])

/-- protocol/t808_0x8001.go:31-59. -/
def T8001.decode (_self : T0001) (data : Bytes) : Res (T0001 × Nat) :=
  decodeMin 5 (do
    let s ← Rd.u16
    let i ← Rd.u16
    let r ← Rd.byte
    pure { replySerial := s, replyID := i, result := r }) data

/-! ## 0x8003 -/

/-- protocol/t808_0x8003.go:4-9. -/
structure T8003 where
  msgSerial : UInt16 := 0
  packetIDs : List UInt16 := []
  deriving DecidableEq, Repr

/-- protocol/t808_0x8003.go:15-29. -/
def T8003.encode (e : T8003) : Res Bytes :=
  .ok (put16 e.msgSerial ++ [u8 e.packetIDs.length] ++ e.packetIDs.flatMap put16)

/-- protocol/t808_0x8003.go:31-59 (appends to the receiver's list). -/
def T8003.decode (self : T8003) (data : Bytes) : Res (T8003 × Nat) :=
  decodeMin 3 (do
    let s ← Rd.u16
    let n ← Rd.byte
    let is ← Rd.times n.toNat Rd.u16
    pure { msgSerial := s, packetIDs := self.packetIDs ++ is }) data

/-! ## 0x8100 -/

/-- protocol/t808_0x8100.go:20-27. -/
structure T8100 where
  msgSerial : UInt16 := 0
  result : UInt8 := 0
  authKey : Bytes := []
  deriving DecidableEq, Repr

/-- protocol/t808_0x8100.go:33-49. -/
def T8100.encode (env : Env) (e : T8100) : Res Bytes := do
  let k ← putStrNonempty env e.authKey
  .ok (put16 e.msgSerial ++ [e.result] ++ k)

/-- protocol/t808_0x8100.go:51-80. -/
def T8100.decode (env : Env) (self : T8100) (data : Bytes) : Res (T8100 × Nat) :=
  decodeMin 3 (do
    let s ← Rd.u16
    let r ← Rd.byte
    let k ← Rd.strIfMore env self.authKey
    pure { msgSerial := s, result := r, authKey := k }) data

/-! ## 0x8103 -/

/-- protocol/t808_0x8103.go:4-7. -/
structure T8103 where
  params : List Param := []
  deriving DecidableEq, Repr

/-- protocol/t808_0x8103.go:13-31. -/
def T8103.encode (e : T8103) : Res Bytes := do
  let ps ← encList Param.encodeItem e.params
  .ok ([u8 e.params.length] ++ ps)

/-- protocol/t808_0x8103.go:33-73. -/
def T8103.decode (_self : T8103) (data : Bytes) : Res (T8103 × Nat) :=
  decodeMin 4 (do
    let n ← Rd.byte
    let ps ← Rd.times n.toNat Param.decodeItem
    pure { params := ps }) data

/-! ## 0x8105, 0x8300: a byte and optional text -/

/-- protocol/t808_0x8105.go:4-9 (Cmd, Data) and protocol/t808_0x8300.go:4-9 (Flag, Text). -/
structure TByteText where
  code : UInt8 := 0
  text : Bytes := []
  deriving DecidableEq, Repr

/-- protocol/t808_0x8105.go:35-44, protocol/t808_0x8300.go:15-24. -/
def TByteText.encode (env : Env) (e : TByteText) : Res Bytes := do
  let t ← putStrNonempty env e.text
  .ok ([e.code] ++ t)

/-- protocol/t808_0x8105.go:46-62, protocol/t808_0x8300.go:26-41. The count leaves out the first byte. -/
def TByteText.decode (env : Env) (self : TByteText) (data : Bytes) : Res (TByteText × Nat) :=
  if data.length < 1 then .err .invalidBody
  else do
    let tail ← slice data 1 data.length
    let (t, rest) ← Rd.strIfMore env self.text tail
    let c ← idx data 0
    .ok ({ code := c, text := t }, data.length - rest.length - 1)

/-! ## 0x8106, 0x8601, 0x8603, 0x8605: lists of 32-bit numbers -/

/-- protocol/t808_0x8106.go:4-7 (Params), t808_0x8601.go:4-7, t808_0x8603.go:4-7, t808_0x8605.go:4-7 (IDs). -/
structure TIDs where
  ids : List UInt32 := []
  deriving DecidableEq, Repr

/-- protocol/t808_0x8106.go:13-20, t808_0x8601.go:13-24, t808_0x8603.go:13-24, t808_0x8605.go:13-24,
t808_0x8607.go:13-24. -/
def TIDs.encode (e : TIDs) : Res Bytes := .ok ([u8 e.ids.length] ++ e.ids.flatMap put32)

/-- protocol/t808_0x8106.go:22-38, t808_0x8601.go:26-42, t808_0x8603.go:26-42, t808_0x8605.go:26-42.
The count leaves out the first byte. -/
def TIDs.decode (_self : TIDs) (data : Bytes) : Res (TIDs × Nat) :=
  if data.length < 1 then .err .invalidBody
  else do
    let n ← idx data 0
    let tail ← slice data 1 data.length
    let (is, rest) ← Rd.times n.toNat Rd.u32 tail
    .ok ({ ids := is }, data.length - rest.length - 1)

/-- protocol/t808_0x8607.go:26-47 (structure, lines 4-7, and encoding as the other identifier lists; decoding
appends to the receiver's list and counts every byte). -/
def T8607.decode (self : TIDs) (data : Bytes) : Res (TIDs × Nat) :=
  decodeMin 1 (do
    let n ← Rd.byte
    let is ← Rd.times n.toNat Rd.u32
    pure { ids := self.ids ++ is }) data

/-! ## 0x8108 -/

/-- protocol/t808_0x8108.go:11-23. -/
structure T8108 where
  type : UInt8 := 0
  manufactureID : Bytes := []
  version : Bytes := []
  size : UInt32 := 0
  data : Bytes := []
  deriving DecidableEq, Repr

/-- protocol/t808_0x8108.go:29-58. -/
def T8108.encode (env : Env) (e : T8108) : Res Bytes := do
  let v ← putStr8 env e.version
  .ok ([e.type] ++ putFixed e.manufactureID 5 ++ v ++ put32 e.size ++ e.data)

/-- protocol/t808_0x8108.go:60-104. -/
def T8108.decode (env : Env) (_self : T8108) (data : Bytes) : Res (T8108 × Nat) :=
  decodeMin 11 (do
    let t ← Rd.byte
    let m ← Rd.read 5
    let v ← Rd.str8 env
    let s ← Rd.u32
    let d ← Rd.rest
    pure { type := t, manufactureID := bytesToString m, version := v, size := s, data := d }) data

/-! ## 0x8202, 0x8203 -/

/-- protocol/t808_0x8202.go:4-13. -/
structure T8202 where
  interval : UInt16 := 0
  expire : UInt32 := 0
  deriving DecidableEq, Repr

/-- protocol/t808_0x8202.go:19-28. -/
def T8202.encode (e : T8202) : Res Bytes := .ok (put16 e.interval ++ put32 e.expire)

/-- protocol/t808_0x8202.go:30-49. -/
def T8202.decode (_self : T8202) (data : Bytes) : Res (T8202 × Nat) :=
  decodeMin 4 (do
    let i ← Rd.u16
    let e ← Rd.u32
    pure { interval := i, expire := e }) data

/-- protocol/t808_0x8203.go:4-9. -/
structure T8203 where
  msgSerial : UInt16 := 0
  type : UInt32 := 0
  deriving DecidableEq, Repr

/-- protocol/t808_0x8203.go:15-24. -/
def T8203.encode (e : T8203) : Res Bytes := .ok (put16 e.msgSerial ++ put32 e.type)

/-- protocol/t808_0x8203.go:26-45. -/
def T8203.decode (_self : T8203) (data : Bytes) : Res (T8203 × Nat) :=
  decodeMin 4 (do
    let s ← Rd.u16
    let t ← Rd.u32
    pure { msgSerial := s, type := t }) data

/-! ## 0x8301, 0x8302 -/

/-- protocol/t808_0x8301.go:19-24 (event), protocol/t808_0x8302.go:21-26 (answer). -/
structure IdText where
  id : UInt8 := 0
  content : Bytes := []
  deriving DecidableEq, Repr

/-- protocol/t808_0x8301.go:41-54, protocol/t808_0x8302.go:52-65. -/
def IdText.encodeItem (env : Env) (x : IdText) : Res Bytes := do
  let c ← putStr8 env x.content
  .ok ([x.id] ++ c)

/-- protocol/t808_0x8301.go:80-98, protocol/t808_0x8302.go:101-119. -/
def IdText.decodeItem (env : Env) : Rd IdText := do
  let i ← Rd.byte
  let c ← Rd.str8 env
  pure { id := i, content := c }

/-- protocol/t808_0x8301.go:11-16. -/
structure T8301 where
  type : UInt8 := 0
  events : List IdText := []
  deriving DecidableEq, Repr

/-- protocol/t808_0x8301.go:30-57. -/
def T8301.encode (env : Env) (e : T8301) : Res Bytes := do
  let es ← encList (IdText.encodeItem env) e.events
  .ok ([e.type, u8 e.events.length] ++ es)

/-- protocol/t808_0x8301.go:59-102 (appends to the receiver's list). -/
def T8301.decode (env : Env) (self : T8301) (data : Bytes) : Res (T8301 × Nat) :=
  decodeMin 2 (do
    let t ← Rd.byte
    let n ← Rd.byte
    let es ← Rd.times n.toNat (IdText.decodeItem env)
    pure { type := t, events := self.events ++ es }) data

/-- protocol/t808_0x8302.go:11-18. -/
structure T8302 where
  flag : UInt8 := 0
  question : Bytes := []
  answers : List IdText := []
  deriving DecidableEq, Repr

/-- protocol/t808_0x8302.go:32-68. -/
def T8302.encode (env : Env) (e : T8302) : Res Bytes := do
  let q ← putStr8 env e.question
  let as ← encList (IdText.encodeItem env) e.answers
  .ok ([e.flag] ++ q ++ as)

/-- protocol/t808_0x8302.go:96-121: read answers until the reader is empty. Each round consumes at least two
bytes, so a fuel of the remaining length is enough. -/
def decodeAnswers (env : Env) : Nat → Rd (List IdText)
  | 0 => pure []
  | fuel + 1 => do
    let n ← Rd.len
    if n = 0 then pure []
    else do
      let a ← IdText.decodeItem env
      let as ← decodeAnswers env fuel
      pure (a :: as)

/-- protocol/t808_0x8302.go:70-124 (appends to the receiver's list). -/
def T8302.decode (env : Env) (self : T8302) (data : Bytes) : Res (T8302 × Nat) :=
  decodeMin 2 (do
    let f ← Rd.byte
    let q ← Rd.str8 env
    let n ← Rd.len
    let as ← decodeAnswers env n
    pure { flag := f, question := q, answers := self.answers ++ as }) data

/-! ## 0x8303, 0x8304 -/

/-- GB18030 text with a two-byte length prefix: protocol/t808_0x8303.go:53-64, t808_0x8304.go:29-38. -/
def putStr16 (env : Env) (s : Bytes) : Res Bytes := do
  let b ← putStr env s
  .ok (put16 (UInt16.ofNat b.length) ++ b)

/-- protocol/t808_0x8303.go:90-100, protocol/t808_0x8304.go:56-65. -/
def Rd.str16 (env : Env) : Rd Bytes := do
  let n ← Rd.u16
  Rd.str env n.toNat

/-- protocol/t808_0x8303.go:11-16, 33-36 (an item is its name). -/
structure T8303 where
  type : UInt8 := 0
  items : List Bytes := []
  deriving DecidableEq, Repr

/-- protocol/t808_0x8303.go:42-67. -/
def T8303.encode (env : Env) (e : T8303) : Res Bytes := do
  let is ← encList (putStr16 env) e.items
  .ok ([e.type, u8 e.items.length] ++ is)

/-- protocol/t808_0x8303.go:69-104 (appends to the receiver's list). -/
def T8303.decode (env : Env) (self : T8303) (data : Bytes) : Res (T8303 × Nat) :=
  decodeMin 2 (do
    let t ← Rd.byte
    let n ← Rd.byte
    let is ← Rd.times n.toNat (Rd.str16 env)
    pure { type := t, items := self.items ++ is }) data

/-- protocol/t808_0x8304.go:11-16. -/
structure T8304 where
  type : UInt8 := 0
  content : Bytes := []
  deriving DecidableEq, Repr

/-- protocol/t808_0x8304.go:22-40. -/
def T8304.encode (env : Env) (e : T8304) : Res Bytes := do
  let c ← putStr16 env e.content
  .ok ([e.type] ++ c)

/-- protocol/t808_0x8304.go:42-67. -/
def T8304.decode (env : Env) (_self : T8304) (data : Bytes) : Res (T8304 × Nat) :=
  decodeMin 3 (do
    let t ← Rd.byte
    let c ← Rd.str16 env
    pure { type := t, content := c }) data

/-! ## 0x8400, 0x8401, 0x8500 -/

/-- protocol/t808_0x8400.go:4-9. -/
structure T8400 where
  flag : UInt8 := 0
  number : Bytes := []
  deriving DecidableEq, Repr

/-- protocol/t808_0x8400.go:25-34: the error of `WritString` is ignored. -/
def T8400.encode (env : Env) (e : T8400) : Res Bytes :=
  .ok ([e.flag] ++ match putStr env e.number with | .ok b => b | _ => [])

/-- protocol/t808_0x8400.go:36-55. -/
def T8400.decode (env : Env) (_self : T8400) (data : Bytes) : Res (T8400 × Nat) :=
  decodeMin 1 (do
    let f ← Rd.byte
    let n ← Rd.strRest env
    pure { flag := f, number := n }) data

/-- protocol/t808_0x8401.go:33-40. -/
structure Contact where
  flag : UInt8 := 0
  number : Bytes := []
  contact : Bytes := []
  deriving DecidableEq, Repr

/-- protocol/t808_0x8401.go:69-94. -/
def Contact.encodeItem (env : Env) (c : Contact) : Res Bytes := do
  let n ← putStr8 env c.number
  let k ← putStr8 env c.contact
  .ok ([c.flag] ++ n ++ k)

/-- protocol/t808_0x8401.go:120-151. -/
def Contact.decodeItem (env : Env) : Rd Contact := do
  let f ← Rd.byte
  let n ← Rd.str8 env
  let k ← Rd.str8 env
  pure { flag := f, number := n, contact := k }

/-- protocol/t808_0x8401.go:11-16. -/
structure T8401 where
  type : UInt8 := 0
  contacts : List Contact := []
  deriving DecidableEq, Repr

/-- protocol/t808_0x8401.go:58-97. -/
def T8401.encode (env : Env) (e : T8401) : Res Bytes := do
  let cs ← encList (Contact.encodeItem env) e.contacts
  .ok ([e.type, u8 e.contacts.length] ++ cs)

/-- protocol/t808_0x8401.go:99-155 (appends to the receiver's list). -/
def T8401.decode (env : Env) (self : T8401) (data : Bytes) : Res (T8401 × Nat) :=
  decodeMin 1 (do
    let t ← Rd.byte
    let n ← Rd.byte
    let cs ← Rd.times n.toNat (Contact.decodeItem env)
    pure { type := t, contacts := self.contacts ++ cs }) data

/-- protocol/t808_0x8500.go:4-7. -/
structure T8500 where
  flag : UInt8 := 0
  deriving DecidableEq, Repr

/-- protocol/t808_0x8500.go:13-15 `SetLock`. -/
def T8500.setLock (e : T8500) (b : Bool) : Res T8500 := do
  let f ← setBitByte e.flag 0 b
  .ok { flag := f }

/-- protocol/t808_0x8500.go:21-23. -/
def T8500.encode (e : T8500) : Res Bytes := .ok [e.flag]

/-- protocol/t808_0x8500.go:25-31. -/
def T8500.decode (_self : T8500) (data : Bytes) : Res (T8500 × Nat) :=
  if data.length < 1 then .err .invalidBody
  else do
    let f ← idx data 0
    .ok ({ flag := f }, 1)

/-! ## Areas: 0x8600, 0x8602, 0x8604 -/

/-- `if x < 0 { attr.SetSouthLatitude(true) }` (bit 6) or `SetWestLongitude` (bit 7) on an area attribute:
protocol/t808_0x8600.go:13-20, 110-116; t808_0x8602.go:64-78; t808_0x8604.go:51-57. -/
def markIf (attr : UInt16) (neg : Bool) (bit : Int) : Res UInt16 :=
  if neg then setBitUint16 attr bit true else .ok attr

/-- The optional tail of an area, written when attribute bit 0 is set: protocol/t808_0x8600.go:130-145,
t808_0x8602.go:95-110, t808_0x8604.go:68-80. -/
def encodeAreaTail (env : Env) (attr : UInt16) (start stop : Time) (maxSpeed : UInt16) (duration : UInt8) : Bytes :=
  if attr &&& 1 = 0 then []
  else putTime env start ++ putTime env stop ++ put16 maxSpeed ++ [duration]

/-- protocol/t808_0x8600.go:208-236, t808_0x8602.go:183-211, t808_0x8604.go:117-141: without bit 0 the
previous values stay. -/
def decodeAreaTail (env : Env) (attr : UInt16) (old : Time × Time × UInt16 × UInt8) :
    Rd (Time × Time × UInt16 × UInt8) :=
  if attr &&& 1 = 0 then pure old
  else do
    let s ← Rd.bcdTime env
    let e ← Rd.bcdTime env
    let m ← Rd.u16
    let d ← Rd.byte
    pure (s, e, m, d)

/-- protocol/t808_0x8600.go:58-77. -/
structure CircleArea where
  id : UInt32 := 0
  attr : UInt16 := 0
  lat : Dec := ⟨0, 0⟩
  lng : Dec := ⟨0, 0⟩
  radius : UInt32 := 0
  startTime : Time := zeroTime
  endTime : Time := zeroTime
  maxSpeed : UInt16 := 0
  duration : UInt8 := 0
  deriving DecidableEq, Repr

/-- protocol/t808_0x8600.go:80-85. -/
structure T8600 where
  action : UInt8 := 0
  items : List CircleArea := []
  deriving DecidableEq, Repr

/-- protocol/t808_0x8600.go:102-145. -/
def CircleArea.encodeItem (env : Env) (a : CircleArea) : Res (Bytes × CircleArea) := do
  let lat := micro a.lat
  let at1 ← markIf a.attr (lat < 0) 6
  let lng := micro a.lng
  let at2 ← markIf at1 (lng < 0) 7
  .ok (put32 a.id ++ put16 at2 ++ put32 (absU32 lat) ++ put32 (absU32 lng) ++ put32 a.radius ++
    encodeAreaTail env at2 a.startTime a.endTime a.maxSpeed a.duration, { a with attr := at2 })

/-- protocol/t808_0x8600.go:91-148. -/
def T8600.encode (env : Env) (e : T8600) : Res (Bytes × T8600) := do
  let (b, is) ← encListM (CircleArea.encodeItem env) e.items
  .ok ([e.action, u8 e.items.length] ++ b, { e with items := is })

/-- protocol/t808_0x8600.go:172-237. -/
def CircleArea.decodeItem (env : Env) : Rd CircleArea := do
  let i ← Rd.u32
  let at' ← Rd.u16
  let lat ← Rd.u32
  let lng ← Rd.u32
  let south ← Rd.lift (getBitUint16 at' 6)
  let west ← Rd.lift (getBitUint16 at' 7)
  let p := getGeoPoint lat south lng west
  let r ← Rd.u32
  let t ← decodeAreaTail env at' (zeroTime, zeroTime, 0, 0)
  pure { id := i, attr := at', lat := p.1, lng := p.2, radius := r, startTime := t.1, endTime := t.2.1,
         maxSpeed := t.2.2.1, duration := t.2.2.2 }

/-- protocol/t808_0x8600.go:150-240. -/
def T8600.decode (env : Env) (_self : T8600) (data : Bytes) : Res (T8600 × Nat) :=
  decodeMin 20 (do
    let a ← Rd.byte
    let n ← Rd.byte
    let is ← Rd.times n.toNat (CircleArea.decodeItem env)
    pure { action := a, items := is }) data

/-- protocol/t808_0x8602.go:10-31. -/
structure RectArea where
  id : UInt32 := 0
  attr : UInt16 := 0
  leftTopLat : Dec := ⟨0, 0⟩
  leftTopLon : Dec := ⟨0, 0⟩
  rightBottomLat : Dec := ⟨0, 0⟩
  rightBottomLon : Dec := ⟨0, 0⟩
  startTime : Time := zeroTime
  endTime : Time := zeroTime
  maxSpeed : UInt16 := 0
  duration : UInt8 := 0
  deriving DecidableEq, Repr

/-- protocol/t808_0x8602.go:34-39. -/
structure T8602 where
  action : UInt8 := 0
  items : List RectArea := []
  deriving DecidableEq, Repr

/-- protocol/t808_0x8602.go:56-110. -/
def RectArea.encodeItem (env : Env) (a : RectArea) : Res (Bytes × RectArea) := do
  let leftLat := micro a.leftTopLat
  let at1 ← markIf a.attr (leftLat < 0) 6
  let leftLon := micro a.leftTopLon
  let at2 ← markIf at1 (leftLon < 0) 7
  let rightLat := micro a.rightBottomLat
  let at3 ← markIf at2 (rightLat < 0) 6
  let rightLon := micro a.rightBottomLon
  let at4 ← markIf at3 (rightLon < 0) 7
  .ok (put32 a.id ++ put16 at4 ++ put32 (absU32 leftLat) ++ put32 (absU32 leftLon) ++
    put32 (absU32 rightLat) ++ put32 (absU32 rightLon) ++
    encodeAreaTail env at4 a.startTime a.endTime a.maxSpeed a.duration, { a with attr := at4 })

/-- protocol/t808_0x8602.go:45-113. -/
def T8602.encode (env : Env) (e : T8602) : Res (Bytes × T8602) := do
  let (b, is) ← encListM (RectArea.encodeItem env) e.items
  .ok ([e.action, u8 e.items.length] ++ b, { e with items := is })

/-- protocol/t808_0x8602.go:137-212. -/
def RectArea.decodeItem (env : Env) : Rd RectArea := do
  let i ← Rd.u32
  let at' ← Rd.u16
  let lat1 ← Rd.u32
  let lng1 ← Rd.u32
  let lat2 ← Rd.u32
  let lng2 ← Rd.u32
  let south ← Rd.lift (getBitUint16 at' 6)
  let west ← Rd.lift (getBitUint16 at' 7)
  let p := getGeoPoint lat1 south lng1 west
  let q := getGeoPoint lat2 south lng2 west
  let t ← decodeAreaTail env at' (zeroTime, zeroTime, 0, 0)
  pure { id := i, attr := at', leftTopLat := p.1, leftTopLon := p.2, rightBottomLat := q.1,
         rightBottomLon := q.2, startTime := t.1, endTime := t.2.1, maxSpeed := t.2.2.1,
         duration := t.2.2.2 }

/-- protocol/t808_0x8602.go:115-215. -/
def T8602.decode (env : Env) (_self : T8602) (data : Bytes) : Res (T8602 × Nat) :=
  decodeMin 24 (do
    let a ← Rd.byte
    let n ← Rd.byte
    let is ← Rd.times n.toNat (RectArea.decodeItem env)
    pure { action := a, items := is }) data

/-- protocol/t808_0x8604.go:10-15. -/
structure Vertex where
  lat : Dec := ⟨0, 0⟩
  lng : Dec := ⟨0, 0⟩
  deriving DecidableEq, Repr

/-- protocol/t808_0x8604.go:18-33. -/
structure T8604 where
  id : UInt32 := 0
  attr : UInt16 := 0
  startTime : Time := zeroTime
  endTime : Time := zeroTime
  maxSpeed : UInt16 := 0
  duration : UInt8 := 0
  vertexes : List Vertex := []
  deriving DecidableEq, Repr

/-- protocol/t808_0x8604.go:48-62: the attribute after looking at every vertex (the sign of the decimal is
tested before the fraction is cut off). -/
def markVertexes (attr : UInt16) : List Vertex → Res UInt16
  | [] => .ok attr
  | v :: vs => do
    let at1 ← markIf attr (v.lat.mul Dec.million).isNeg 6
    let at2 ← markIf at1 (v.lng.mul Dec.million).isNeg 7
    markVertexes at2 vs

/-- protocol/t808_0x8604.go:39-94. -/
def T8604.encode (env : Env) (e : T8604) : Res (Bytes × T8604) := do
  let at' ← markVertexes e.attr e.vertexes
  .ok (put32 e.id ++ put16 at' ++ encodeAreaTail env at' e.startTime e.endTime e.maxSpeed e.duration ++
    put16 (UInt16.ofNat e.vertexes.length) ++
    e.vertexes.flatMap (fun v => put32 (absU32 (micro v.lat)) ++ put32 (absU32 (micro v.lng))),
    { e with attr := at' })

/-- protocol/t808_0x8604.go:152-169. -/
def Vertex.decodeItem (attr : UInt16) : Rd Vertex := do
  let lat ← Rd.u32
  let lng ← Rd.u32
  let south ← Rd.lift (getBitUint16 attr 6)
  let west ← Rd.lift (getBitUint16 attr 7)
  let p := getGeoPoint lat south lng west
  pure { lat := p.1, lng := p.2 }

/-- protocol/t808_0x8604.go:96-172. -/
def T8604.decode (env : Env) (self : T8604) (data : Bytes) : Res (T8604 × Nat) :=
  decodeMin 16 (do
    let i ← Rd.u32
    let at' ← Rd.u16
    let t ← decodeAreaTail env at' (self.startTime, self.endTime, self.maxSpeed, self.duration)
    let n ← Rd.u16
    let vs ← Rd.times n.toNat (Vertex.decodeItem at')
    pure { id := i, attr := at', startTime := t.1, endTime := t.2.1, maxSpeed := t.2.2.1,
           duration := t.2.2.2, vertexes := vs }) data

/-! ## 0x8606 -/

/-- protocol/t808_0x8606.go:73-94. -/
structure RoutePoint where
  id : UInt32 := 0
  sectionID : UInt32 := 0
  lat : Dec := ⟨0, 0⟩
  lng : Dec := ⟨0, 0⟩
  width : UInt8 := 0
  attr : UInt8 := 0
  timeTooLong : Option UInt16 := none
  timeTooShort : Option UInt16 := none
  maxSpeed : Option UInt16 := none
  overSpeedDuration : Option UInt8 := none
  deriving DecidableEq, Repr

/-- protocol/t808_0x8606.go:10-21. -/
structure T8606 where
  id : UInt32 := 0
  attr : UInt16 := 0
  startTime : Time := zeroTime
  endTime : Time := zeroTime
  points : List RoutePoint := []
  deriving DecidableEq, Repr

/-- protocol/t808_0x8606.go:129-131, 133-135: `if v < 0 { attr.Set...(true) }` on the attribute byte of a point. -/
def markByte (attr : UInt8) (v : Int) (bit : Int) : Res UInt8 :=
  if v < 0 then setBitByte attr bit true else .ok attr

/-- protocol/t808_0x8606.go:119-164; works on a copy of the point. -/
def RoutePoint.encodeItem (p : RoutePoint) : Res Bytes := do
  let lat := micro p.lat
  let at1 ← markByte p.attr lat 2
  let lng := micro p.lng
  let at2 ← markByte at1 lng 3
  let at3 ← setBitByte at2 0 (p.timeTooLong.isSome && p.timeTooShort.isSome)
  let at4 ← setBitByte at3 1 (p.maxSpeed.isSome && p.overSpeedDuration.isSome)
  let times := match p.timeTooLong, p.timeTooShort with
    | some l, some s => put16 l ++ put16 s
    | _, _ => []
  let speed := match p.maxSpeed, p.overSpeedDuration with
    | some m, some d => put16 m ++ [d]
    | _, _ => []
  .ok (put32 p.id ++ put32 p.sectionID ++ put32 (absU32 lat) ++ put32 (absU32 lng) ++ [p.width, at4] ++
    times ++ speed)

/-- protocol/t808_0x8606.go:100-166. -/
def T8606.encode (env : Env) (e : T8606) : Res Bytes := do
  let ps ← encList RoutePoint.encodeItem e.points
  .ok (put32 e.id ++ put16 e.attr ++ putTime env e.startTime ++ putTime env e.endTime ++
    put16 (UInt16.ofNat e.points.length) ++ ps)

/-- protocol/t808_0x8606.go:207-280. -/
def RoutePoint.decodeItem : Rd RoutePoint := do
  let i ← Rd.u32
  let s ← Rd.u32
  let lat ← Rd.u32
  let lng ← Rd.u32
  let w ← Rd.byte
  let at' ← Rd.byte
  let south ← Rd.lift (getBitByte at' 2)
  let west ← Rd.lift (getBitByte at' 3)
  let p := getGeoPoint lat south lng west
  let hasTime ← Rd.lift (getBitByte at' 0)
  let times ← if hasTime then (do
      let l ← Rd.u16
      let s ← Rd.u16
      pure (some l, some s)) else pure (none, none)
  let hasSpeed ← Rd.lift (getBitByte at' 1)
  let speed ← if hasSpeed then (do
      let m ← Rd.u16
      let d ← Rd.byte
      pure (some m, some d)) else pure (none, none)
  pure { id := i, sectionID := s, lat := p.1, lng := p.2, width := w, attr := at',
         timeTooLong := times.1, timeTooShort := times.2, maxSpeed := speed.1,
         overSpeedDuration := speed.2 }

/-- protocol/t808_0x8606.go:168-283 (appends to the receiver's list). -/
def T8606.decode (env : Env) (self : T8606) (data : Bytes) : Res (T8606 × Nat) :=
  decodeMin 20 (do
    let i ← Rd.u32
    let at' ← Rd.u16
    let s ← Rd.bcdTime env
    let e ← Rd.bcdTime env
    let n ← Rd.u16
    let ps ← Rd.times n.toNat RoutePoint.decodeItem
    pure { id := i, attr := at', startTime := s, endTime := e, points := self.points ++ ps }) data

/-! ## 0x8700, 0x8701 -/

/-- protocol/t808_0x8700.go:4-9, t808_0x8701.go:4-9. -/
structure T8700 where
  cmd : UInt8 := 0
  data : Bytes := []
  deriving DecidableEq, Repr

/-- protocol/t808_0x8700.go:15-24, t808_0x8701.go:15-24. -/
def T8700.encode (e : T8700) : Res Bytes := .ok ([e.cmd] ++ e.data)

/-- protocol/t808_0x8700.go:26-45, t808_0x8701.go:26-45. -/
def T8700.decode (_self : T8700) (data : Bytes) : Res (T8700 × Nat) :=
  decodeMin 1 (do
    let c ← Rd.byte
    let d ← Rd.rest
    pure { cmd := c, data := d }) data

/-! ## 0x8800 ... 0x8805 -/

/-- protocol/t808_0x8800.go:4-9. -/
structure T8800 where
  mediaID : UInt32 := 0
  retryIDs : List UInt16 := []
  deriving DecidableEq, Repr

/-- protocol/t808_0x8800.go:15-33. -/
def T8800.encode (e : T8800) : Res Bytes :=
  if e.retryIDs.length = 0 then .ok (put32 e.mediaID)
  else .ok (put32 e.mediaID ++ [u8 e.retryIDs.length] ++ e.retryIDs.flatMap put16)

/-- protocol/t808_0x8800.go:35-67 (appends to the receiver's list). -/
def T8800.decode (self : T8800) (data : Bytes) : Res (T8800 × Nat) :=
  decodeMin 4 (do
    let i ← Rd.u32
    let left ← Rd.len
    if left = 0 then pure { self with mediaID := i }
    else do
      let n ← Rd.byte
      let is ← Rd.times n.toNat Rd.u16
      pure { mediaID := i, retryIDs := self.retryIDs ++ is }) data

/-- protocol/t808_0x8801.go:4-27. -/
structure T8801 where
  channelID : UInt8 := 0
  cmd : UInt16 := 0
  duration : UInt16 := 0
  save : UInt8 := 0
  resolution : UInt8 := 0
  quality : UInt8 := 0
  lighting : UInt8 := 0
  contrast : UInt8 := 0
  saturability : UInt8 := 0
  chroma : UInt8 := 0
  deriving DecidableEq, Repr

/-- protocol/t808_0x8801.go:57-90. -/
def T8801.encode (e : T8801) : Res Bytes :=
  .ok ([e.channelID] ++ put16 e.cmd ++ put16 e.duration ++
    [e.save, e.resolution, e.quality, e.lighting, e.contrast, e.saturability, e.chroma])

/-- protocol/t808_0x8801.go:92-161. -/
def T8801.decode (_self : T8801) (data : Bytes) : Res (T8801 × Nat) :=
  decodeMin 12 (do
    let ch ← Rd.byte
    let c ← Rd.u16
    let d ← Rd.u16
    let s ← Rd.byte
    let r ← Rd.byte
    let q ← Rd.byte
    let l ← Rd.byte
    let co ← Rd.byte
    let sa ← Rd.byte
    let cr ← Rd.byte
    pure { channelID := ch, cmd := c, duration := d, save := s, resolution := r, quality := q,
           lighting := l, contrast := co, saturability := sa, chroma := cr }) data

/-- protocol/t808_0x8802.go:6-18. -/
structure T8802 where
  type : UInt8 := 0
  channelID : UInt8 := 0
  event : UInt8 := 0
  startTime : Time := zeroTime
  endTime : Time := zeroTime
  deriving DecidableEq, Repr

/-- protocol/t808_0x8802.go:24-42. -/
def T8802.encode (env : Env) (e : T8802) : Res Bytes :=
  .ok ([e.type, e.channelID, e.event] ++ putTime env e.startTime ++ putTime env e.endTime)

/-- protocol/t808_0x8802.go:44-81. -/
def T8802.decode (env : Env) (_self : T8802) (data : Bytes) : Res (T8802 × Nat) :=
  decodeMin 15 (do
    let t ← Rd.byte
    let c ← Rd.byte
    let e ← Rd.byte
    let s ← Rd.bcdTime env
    let f ← Rd.bcdTime env
    pure { type := t, channelID := c, event := e, startTime := s, endTime := f }) data

/-- protocol/t808_0x8803.go:6-21. -/
structure T8803 where
  type : UInt8 := 0
  channelID : UInt8 := 0
  event : UInt8 := 0
  startTime : Time := zeroTime
  endTime : Time := zeroTime
  removeFlag : UInt8 := 0
  deriving DecidableEq, Repr

/-- protocol/t808_0x8803.go:27-48. -/
def T8803.encode (env : Env) (e : T8803) : Res Bytes :=
  .ok ([e.type, e.channelID, e.event] ++ putTime env e.startTime ++ putTime env e.endTime ++ [e.removeFlag])

/-- protocol/t808_0x8803.go:50-93. -/
def T8803.decode (env : Env) (_self : T8803) (data : Bytes) : Res (T8803 × Nat) :=
  decodeMin 16 (do
    let t ← Rd.byte
    let c ← Rd.byte
    let e ← Rd.byte
    let s ← Rd.bcdTime env
    let f ← Rd.bcdTime env
    let r ← Rd.byte
    pure { type := t, channelID := c, event := e, startTime := s, endTime := f, removeFlag := r }) data

/-- protocol/t808_0x8804.go:4-15. -/
structure T8804 where
  cmd : UInt8 := 0
  duration : UInt16 := 0
  save : UInt8 := 0
  audioSampleRate : UInt8 := 0
  deriving DecidableEq, Repr

/-- protocol/t808_0x8804.go:31-46. -/
def T8804.encode (e : T8804) : Res Bytes := .ok ([e.cmd] ++ put16 e.duration ++ [e.save, e.audioSampleRate])

/-- protocol/t808_0x8804.go:48-81. -/
def T8804.decode (_self : T8804) (data : Bytes) : Res (T8804 × Nat) :=
  decodeMin 5 (do
    let c ← Rd.byte
    let d ← Rd.u16
    let s ← Rd.byte
    let a ← Rd.byte
    pure { cmd := c, duration := d, save := s, audioSampleRate := a }) data

/-- protocol/t808_0x8805.go:4-9. -/
structure T8805 where
  mediaID : UInt32 := 0
  removeFlag : UInt8 := 0
  deriving DecidableEq, Repr

/-- protocol/t808_0x8805.go:15-24. -/
def T8805.encode (e : T8805) : Res Bytes := .ok (put32 e.mediaID ++ [e.removeFlag])

/-- protocol/t808_0x8805.go:26-45. -/
def T8805.decode (_self : T8805) (data : Bytes) : Res (T8805 × Nat) :=
  decodeMin 3 (do
    let i ← Rd.u32
    let r ← Rd.byte
    pure { mediaID := i, removeFlag := r }) data

end Verif
