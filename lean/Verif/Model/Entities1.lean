import Verif.Model.Bit
import Verif.Model.Extra
/-! # Message bodies, part 1: protocol/t808_0x0*.go

Every body type has `encode` and `decode`. `decode env self data` is Go's `self.Decode(data)`: it takes the
receiver's previous value and returns the new value and the reported count. The receiver's contents after
a failed call are not modelled (Message.Decode drops them). Go integer-like named types (`Result`, `MsgID`,
`T808_0x0800_MediaType`, ...) are plain integers. nil and empty slices are identified. -/

namespace Verif

/-- Go conversion `byte(n)` of an `int` (e.g. protocol/t808_0x0104.go:30). -/
abbrev u8 (n : Nat) : UInt8 := UInt8.ofNat n

/-- Run a reader program over `data` and return `len(data) - reader.Len()` as the count (e.g. protocol/t808_0x0104.go:42-82). -/
def runDecode {α : Type} (p : Rd α) (data : Bytes) : Res (α × Nat) :=
  match p data with
  | .ok (a, rest) => .ok (a, data.length - rest.length)
  | .err e => .err e
  | .panic => .panic

/-- The shape `if len(data) < min { return ErrInvalidBody }; reader := ...; return len(data)-reader.Len()` (e.g. protocol/t808_0x0001.go:31-57). -/
def decodeMin {α : Type} (min : Nat) (p : Rd α) (data : Bytes) : Res (α × Nat) :=
  if data.length < min then .err .invalidBody else runDecode p data

/-- Writing the items of a list one after another (e.g. protocol/t808_0x0104.go:25-34). -/
def encList {α : Type} (f : α → Res Bytes) : List α → Res Bytes
  | [] => .ok []
  | a :: as => do
    let b ← f a
    let bs ← encList f as
    .ok (b ++ bs)

/-- `x, _ = reader.Read...()`: on error the zero value is stored and nothing is consumed (protocol/t808_0x0302.go:28-29). -/
def Rd.ignoreErr {α : Type} (x : Rd α) (zero : α) : Rd α := fun s =>
  match x s with
  | .ok r => .ok r
  | .err _ => .ok (zero, s)
  | .panic => .panic

/-! ## 0x0001 -/

/-- protocol/t808_0x0001.go:4-11. -/
structure T0001 where
  replySerial : UInt16 := 0
  replyID : UInt16 := 0
  result : UInt8 := 0
  deriving DecidableEq, Repr

/-- protocol/t808_0x0001.go:17-29. -/
def T0001.encode (e : T0001) : Res Bytes := .ok (put16 e.replySerial ++ put16 e.replyID ++ [e.result])

/-- protocol/t808_0x0001.go:31-57. -/
def T0001.decode (_self : T0001) (data : Bytes) : Res (T0001 × Nat) :=
  decodeMin 5 (do
    let s ← Rd.u16
    let i ← Rd.u16
    let r ← Rd.byte
    pure { replySerial := s, replyID := i, result := r }) data

/-! ## Empty bodies -/

/-- Bodies without fields: protocol/t808_0x0002.go:4-17, t808_0x0003.go:4-17, t808_0x8104.go:4-17,
t808_0x8107.go:4-17, t808_0x8201.go:4-17, t808_0x8702.go:4-17. -/
structure TEmpty where
  deriving DecidableEq, Repr

/-- protocol/t808_0x0002.go:11-13 and the same lines of the other empty bodies. -/
def TEmpty.encode (_ : TEmpty) : Res Bytes := .ok []

/-- protocol/t808_0x0002.go:15-17 and the same lines of the other empty bodies. -/
def TEmpty.decode (self : TEmpty) (_data : Bytes) : Res (TEmpty × Nat) := .ok (self, 0)

/-! ## 0x0100 -/

/-- protocol/t808_0x0100.go:4-19. -/
structure T0100 where
  provinceID : UInt16 := 0
  cityID : UInt16 := 0
  manufactureID : Bytes := []
  model : Bytes := []
  terminalID : Bytes := []
  plateColor : UInt8 := 0
  licenseNo : Bytes := []
  deriving DecidableEq, Repr

/-- `if len(s) > 0 { writer.WritString(s) }`, e.g. protocol/t808_0x0100.go:47-51. -/
def putStrNonempty (env : Env) (s : Bytes) : Res Bytes :=
  if s.length > 0 then putStr env s else .ok []

/-- protocol/t808_0x0100.go:25-53. -/
def T0100.encode (env : Env) (e : T0100) : Res Bytes := do
  let l ← putStrNonempty env e.licenseNo
  .ok (put16 e.provinceID ++ put16 e.cityID ++ putFixed e.manufactureID 5 ++ putFixed e.model 20 ++
    putFixed e.terminalID 7 ++ [e.plateColor] ++ l)

/-- `if reader.Len() > 0 { field, err = reader.ReadString() }`: otherwise the field keeps its old value (protocol/t808_0x0100.go:102,
protocol/t808_0x8100.go:70, protocol/t808_0x8105.go:52, protocol/t808_0x8300.go:33). -/
def Rd.strIfMore (env : Env) (old : Bytes) : Rd Bytes := do
  let n ← Rd.len
  if n > 0 then Rd.strRest env else pure old

/-- protocol/t808_0x0100.go:55-110. -/
def T0100.decode (env : Env) (self : T0100) (data : Bytes) : Res (T0100 × Nat) :=
  decodeMin 37 (do
    let p ← Rd.u16
    let c ← Rd.u16
    let m ← Rd.read 5
    let mo ← Rd.read 20
    let t ← Rd.read 7
    let pc ← Rd.byte
    let l ← Rd.strIfMore env self.licenseNo
    pure { provinceID := p, cityID := c, manufactureID := bytesToString m, model := bytesToString mo,
           terminalID := bytesToString t, plateColor := pc, licenseNo := l }) data

/-! ## 0x0102 -/

/-- protocol/t808_0x0102.go:4-7. -/
structure T0102 where
  authKey : Bytes := []
  deriving DecidableEq, Repr

/-- protocol/t808_0x0102.go:13-21. -/
def T0102.encode (env : Env) (e : T0102) : Res Bytes := putStrNonempty env e.authKey

/-- protocol/t808_0x0102.go:23-35. -/
def T0102.decode (env : Env) (_self : T0102) (data : Bytes) : Res (T0102 × Nat) :=
  if data.length = 0 then .err .invalidBody
  else runDecode (do let k ← Rd.strRest env; pure { authKey := k }) data

/-! ## 0x0104 -/

/-- protocol/t808_0x0104.go:4-9. The `[]*Param` holds non-nil pointers only (a nil entry makes `Encode`
panic). -/
structure T0104 where
  replySerial : UInt16 := 0
  params : List Param := []
  deriving DecidableEq, Repr

/-- One parameter item: protocol/t808_0x0104.go:26-33, t808_0x8103.go:21-28. -/
def Param.encodeItem (p : Param) : Res Bytes :=
  .ok (put32 p.id ++ [u8 p.serialized.length] ++ p.serialized)

/-- One parameter item: protocol/t808_0x0104.go:60-80, t808_0x8103.go:48-68. -/
def Param.decodeItem : Rd Param := do
  let i ← Rd.u32
  let n ← Rd.byte
  let v ← Rd.read n.toNat
  pure { id := i, serialized := v }

/-- protocol/t808_0x0104.go:15-36. -/
def T0104.encode (e : T0104) : Res Bytes := do
  let ps ← encList Param.encodeItem e.params
  .ok (put16 e.replySerial ++ [u8 e.params.length] ++ ps)

/-- protocol/t808_0x0104.go:38-83. -/
def T0104.decode (_self : T0104) (data : Bytes) : Res (T0104 × Nat) :=
  decodeMin 4 (do
    let s ← Rd.u16
    let n ← Rd.byte
    let ps ← Rd.times n.toNat Param.decodeItem
    pure { replySerial := s, params := ps }) data

/-! ## 0x0107 -/

/-- protocol/t808_0x0107.go:4-29. -/
structure T0107 where
  terminalType : UInt16 := 0
  manufactureID : Bytes := []
  model : Bytes := []
  terminalID : Bytes := []
  sim : Bytes := []
  hardwareVersion : Bytes := []
  softwareVersion : Bytes := []
  gnss : UInt8 := 0
  comm : UInt8 := 0
  deriving DecidableEq, Repr

/-- protocol/t808_0x0107.go:35-69. -/
def T0107.encode (e : T0107) : Res Bytes :=
  .ok (put16 e.terminalType ++ putFixed e.manufactureID 5 ++ putFixed e.model 20 ++
    putFixed e.terminalID 7 ++ stringToBCD e.sim 10 ++
    [u8 e.hardwareVersion.length] ++ e.hardwareVersion ++
    [u8 e.softwareVersion.length] ++ e.softwareVersion ++ [e.gnss, e.comm])

/-- protocol/t808_0x0107.go:71-150. -/
def T0107.decode (_self : T0107) (data : Bytes) : Res (T0107 × Nat) :=
  decodeMin 48 (do
    let t ← Rd.u16
    let m ← Rd.read 5
    let mo ← Rd.read 20
    let ti ← Rd.read 7
    let sim ← Rd.read 10
    let hn ← Rd.byte
    let h ← Rd.read hn.toNat
    let sn ← Rd.byte
    let s ← Rd.read sn.toNat
    let s ← Rd.lift (slice s 0 sn.toNat)
    let g ← Rd.byte
    let c ← Rd.byte
    pure { terminalType := t, manufactureID := bytesToString m, model := bytesToString mo,
           terminalID := bytesToString ti, sim := bcdToString sim, hardwareVersion := bytesToString h,
           softwareVersion := bytesToString s, gnss := g, comm := c }) data

/-! ## 0x0108 -/

/-- protocol/t808_0x0108.go:4-11. -/
structure T0108 where
  type : UInt8 := 0
  result : UInt8 := 0
  deriving DecidableEq, Repr

/-- protocol/t808_0x0108.go:17-19. -/
def T0108.encode (e : T0108) : Res Bytes := .ok [e.type, e.result]

/-- protocol/t808_0x0108.go:21-28. -/
def T0108.decode (_self : T0108) (data : Bytes) : Res (T0108 × Nat) :=
  if data.length < 2 then .err .invalidBody
  else do
    let t ← idx data 0
    let r ← idx data 1
    .ok ({ type := t, result := r }, 2)

/-! ## 0x0200 -/

/-- protocol/t808_0x0200.go:76-98. `extras` entries may be nil. -/
structure T0200 where
  alarm : UInt32 := 0
  status : UInt32 := 0
  lat : Dec := ⟨0, 0⟩
  lng : Dec := ⟨0, 0⟩
  altitude : UInt16 := 0
  speed : UInt16 := 0
  direction : UInt16 := 0
  time : Time := zeroTime
  extras : List (Option Extra) := []
  deriving DecidableEq, Repr

/-- `d.Mul(decimal.NewFromFloat(1000000)).IntPart()`, e.g. protocol/t808_0x0200.go:111-112. -/
def micro (d : Dec) : Int := (d.mul Dec.million).intPart

/-- protocol/t808_0x0200.go:143-153: one extra; the length byte wraps. -/
def encodeExtra (x : Option Extra) : Res Bytes :=
  match x with
  | none => .ok []
  | some x => .ok ([x.id, u8 x.serialized.length] ++ x.serialized)

/-- protocol/t808_0x0200.go:112-119: `if v < 0 { status = SetBitUint32(status, bit, true) }`. -/
def markNegative (st : UInt32) (v : Int) (bit : Int) : Res UInt32 :=
  if v < 0 then setBitUint32 st bit true else .ok st

/-- protocol/t808_0x0200.go:104-155; returns the bytes and the receiver, whose status word is changed. -/
def T0200.encode (env : Env) (e : T0200) : Res (Bytes × T0200) := do
  let lat := micro e.lat
  let st ← markNegative e.status lat 2
  let lng := micro e.lng
  let st ← markNegative st lng 3
  let xs ← encList encodeExtra e.extras
  .ok (put32 e.alarm ++ put32 st ++ put32 (absU32 lat) ++ put32 (absU32 lng) ++ put16 e.altitude ++
    put16 e.speed ++ put16 e.direction ++ putTime env e.time ++ xs, { e with status := st })

/-- protocol/t808_0x0200.go:218-246: the extras loop. Each round consumes at least two bytes, so a fuel of
the buffer's length is enough. -/
def decodeExtras : Nat → Bytes → Res (List (Option Extra))
  | 0, _ => .ok []
  | fuel + 1, buffer =>
    if buffer.length < 2 then .ok []
    else do
      let id ← idx buffer 0
      let n ← idx buffer 1
      let buffer ← slice buffer 2 buffer.length
      if buffer.length < n.toNat then .err .invalidExtraLength
      else do
        let d ← slice buffer 0 n.toNat
        let rest ← slice buffer n.toNat buffer.length
        match Extra.decode id d with
        | .err .typeNotRegistered => decodeExtras fuel rest
        | .err e => .err e
        | .panic => .panic
        | .ok (x, count) =>
          if count ≠ n.toNat then .err .invalidExtraLength
          else do
            let xs ← decodeExtras fuel rest
            .ok (some x :: xs)

/-- protocol/t808_0x0200.go:157-251. The count does not include the extras, which are decoded from a slice
of the data without advancing the reader. -/
def T0200.decode (env : Env) (self : T0200) (data : Bytes) : Res (T0200 × Nat) :=
  decodeMin 28 (do
    let a ← Rd.u32
    let st ← Rd.u32
    let lat ← Rd.u32
    let lng ← Rd.u32
    let south ← Rd.lift (getBitUint32 st 2)
    let west ← Rd.lift (getBitUint32 st 3)
    let p := getGeoPoint lat south lng west
    let al ← Rd.u16
    let sp ← Rd.u16
    let di ← Rd.u16
    let t ← Rd.bcdTime env
    let left ← Rd.len
    let buffer ← Rd.lift (slice data (data.length - left) data.length)
    let xs ← Rd.lift (decodeExtras buffer.length buffer)
    pure { alarm := a, status := st, lat := p.1, lng := p.2, altitude := al, speed := sp, direction := di,
           time := t, extras := if xs.length > 0 then xs else self.extras }) data

/-! ## 0x0201, 0x0500 -/

/-- protocol/t808_0x0201.go:4-9, t808_0x0500.go:4-9. -/
structure T0201 where
  replySerial : UInt16 := 0
  result : T0200 := {}
  deriving DecidableEq, Repr

/-- protocol/t808_0x0201.go:15-28, t808_0x0500.go:15-28. -/
def T0201.encode (env : Env) (e : T0201) : Res (Bytes × T0201) := do
  let (d, r) ← T0200.encode env e.result
  .ok (put16 e.replySerial ++ d, { e with result := r })

/-- protocol/t808_0x0201.go:30-53, t808_0x0500.go:30-53. -/
def T0201.decode (env : Env) (_self : T0201) (data : Bytes) : Res (T0201 × Nat) :=
  if data.length ≤ 3 then .err .invalidBody
  else do
    let (s, rest) ← Rd.u16 data
    let buf ← slice data (data.length - rest.length) data.length
    let (r, size) ← T0200.decode env {} buf
    .ok ({ replySerial := s, result := r }, data.length - rest.length + size)

/-! ## 0x0301, 0x0302, 0x0303 -/

/-- protocol/t808_0x0301.go:4-7. -/
structure T0301 where
  eventID : UInt8 := 0
  deriving DecidableEq, Repr

/-- protocol/t808_0x0301.go:13-15. -/
def T0301.encode (e : T0301) : Res Bytes := .ok [e.eventID]

/-- protocol/t808_0x0301.go:17-23. -/
def T0301.decode (_self : T0301) (data : Bytes) : Res (T0301 × Nat) :=
  if data.length < 1 then .err .invalidBody
  else do
    let b ← idx data 0
    .ok ({ eventID := b }, 1)

/-- protocol/t808_0x0302.go:4-9. -/
structure T0302 where
  replySerial : UInt16 := 0
  answerID : UInt8 := 0
  deriving DecidableEq, Repr

/-- protocol/t808_0x0302.go:15-20. -/
def T0302.encode (e : T0302) : Res Bytes := .ok (put16 e.replySerial ++ [e.answerID])

/-- protocol/t808_0x0302.go:22-31. -/
def T0302.decode (_self : T0302) (data : Bytes) : Res (T0302 × Nat) :=
  decodeMin 3 (do
    let s ← Rd.ignoreErr Rd.u16 0
    let a ← Rd.ignoreErr Rd.byte 0
    pure { replySerial := s, answerID := a }) data

/-- protocol/t808_0x0303.go:4-9. -/
structure T0303 where
  type : UInt8 := 0
  flag : UInt8 := 0
  deriving DecidableEq, Repr

/-- protocol/t808_0x0303.go:25-27. -/
def T0303.encode (e : T0303) : Res Bytes := .ok [e.type, e.flag]

/-- protocol/t808_0x0303.go:29-35 (reports one byte although two are read). -/
def T0303.decode (_self : T0303) (data : Bytes) : Res (T0303 × Nat) :=
  if data.length < 2 then .err .invalidBody
  else do
    let t ← idx data 0
    let f ← idx data 1
    .ok ({ type := t, flag := f }, 1)

/-! ## 0x0700, 0x0701 -/

/-- protocol/t808_0x0700.go:4-11. -/
structure T0700 where
  replySerial : UInt16 := 0
  cmd : UInt8 := 0
  data : Bytes := []
  deriving DecidableEq, Repr

/-- protocol/t808_0x0700.go:17-29. -/
def T0700.encode (e : T0700) : Res Bytes := .ok (put16 e.replySerial ++ [e.cmd] ++ e.data)

/-- protocol/t808_0x0700.go:31-56. -/
def T0700.decode (_self : T0700) (data : Bytes) : Res (T0700 × Nat) :=
  decodeMin 3 (do
    let s ← Rd.u16
    let c ← Rd.byte
    let d ← Rd.rest
    pure { replySerial := s, cmd := c, data := d }) data

/-- protocol/t808_0x0701.go:4-9. -/
structure T0701 where
  size : UInt32 := 0
  content : Bytes := []
  deriving DecidableEq, Repr

/-- protocol/t808_0x0701.go:15-24. -/
def T0701.encode (e : T0701) : Res Bytes := .ok (put32 e.size ++ e.content)

/-- protocol/t808_0x0701.go:26-45. -/
def T0701.decode (_self : T0701) (data : Bytes) : Res (T0701 × Nat) :=
  decodeMin 4 (do
    let s ← Rd.u32
    let c ← Rd.rest
    pure { size := s, content := c }) data

/-! ## 0x0702 -/

/-- protocol/t808_0x0702.go:12-35. -/
structure T0702 where
  state : UInt8 := 0
  time : Time := zeroTime
  icCardResult : UInt8 := 0
  driverName : Bytes := []
  number : Bytes := []
  companyName : Bytes := []
  expiryDate : Time := zeroTime
  deriving DecidableEq, Repr

/-- GB18030 text with a one-byte length prefix, e.g. protocol/t808_0x0702.go:54-61. -/
def putStr8 (env : Env) (s : Bytes) : Res Bytes := do
  let b ← putStr env s
  .ok ([u8 b.length] ++ b)

/-- protocol/t808_0x0702.go:41-85. `ExpiryDate.Format` uses the value's own location, taken to be local. -/
def T0702.encode (env : Env) (e : T0702) : Res Bytes := do
  let dn ← putStr8 env e.driverName
  let nu ← putStrFixed env e.number 20
  let cn ← putStr8 env e.companyName
  .ok ([e.state] ++ putTime env e.time ++ [e.icCardResult] ++ dn ++ nu ++ cn ++
    stringToBCD (fmt8 (civilOf env.tz e.expiryDate)) 4)

/-- GB18030 text with a one-byte length prefix, e.g. protocol/t808_0x0702.go:113-120. -/
def Rd.str8 (env : Env) : Rd Bytes := do
  let n ← Rd.byte
  Rd.str env n.toNat

/-- protocol/t808_0x0702.go:87-149. -/
def T0702.decode (env : Env) (_self : T0702) (data : Bytes) : Res (T0702 × Nat) :=
  decodeMin 34 (do
    let st ← Rd.byte
    let t ← Rd.bcdTime env
    let ic ← Rd.byte
    let dn ← Rd.str8 env
    let nu ← Rd.str env 20
    let cn ← Rd.str8 env
    let bcd ← Rd.read 4
    let ex ← Rd.lift (parse14 env.tz (bcdToString bcd ++ [48, 48, 48, 48, 48, 48]))
    pure { state := st, time := t, icCardResult := ic, driverName := dn, number := nu, companyName := cn,
           expiryDate := ex }) data

/-! ## 0x0704 -/

/-- protocol/t808_0x0704.go:4-10. -/
structure T0704 where
  type : UInt8 := 0
  items : List T0200 := []
  deriving DecidableEq, Repr

/-- protocol/t808_0x0704.go:26-33; encodes a copy, so the list itself is unchanged. -/
def T0704.encodeItem (env : Env) (p : T0200) : Res Bytes := do
  let (d, _) ← T0200.encode env p
  .ok (put16 (UInt16.ofNat d.length) ++ d)

/-- protocol/t808_0x0704.go:16-35. -/
def T0704.encode (env : Env) (e : T0704) : Res Bytes := do
  let is ← encList (T0704.encodeItem env) e.items
  .ok (put16 (UInt16.ofNat e.items.length) ++ [e.type] ++ is)

/-- protocol/t808_0x0704.go:58-73. -/
def T0704.decodeItem (env : Env) : Rd T0200 := do
  let n ← Rd.u16
  let buf ← Rd.read n.toNat
  let r ← Rd.lift (T0200.decode env {} buf)
  pure r.1

/-- protocol/t808_0x0704.go:37-76. -/
def T0704.decode (env : Env) (_self : T0704) (data : Bytes) : Res (T0704 × Nat) :=
  decodeMin 3 (do
    let n ← Rd.u16
    let t ← Rd.byte
    let is ← Rd.times n.toNat (T0704.decodeItem env)
    pure { type := t, items := is }) data

/-! ## 0x0705 -/

/-- protocol/t808_0x0705.go:19-28 (`[4]byte`, `[8]byte`). -/
structure CanItem where
  id : Bytes
  data : Bytes
  deriving DecidableEq, Repr

/-- protocol/t808_0x0705.go:11-16; the duration is in nanoseconds. -/
structure T0705 where
  receiveTime : Int := 0
  items : List CanItem := []
  deriving DecidableEq, Repr

/-- protocol/t808_0x0705.go:44-46: hour, minute, second and millisecond of `time.Time{}.Add(d)`. -/
def canTimeString (d : Int) : Bytes :=
  pad2 (d / 3600000000000 % 24).toNat ++ pad2 (d / 60000000000 % 60).toNat ++
    pad2 (d / 1000000000 % 60).toNat ++ pad4 (d % 1000000000 / 1000000).toNat

/-- protocol/t808_0x0705.go:34-55; returns the bytes and the receiver, whose time is clamped to a day. -/
def T0705.encode (e : T0705) : Res (Bytes × T0705) := do
  let t := if e.receiveTime > 86400000000000 then 86400000000000 else e.receiveTime
  let is ← encList (fun (i : CanItem) => .ok (i.id ++ i.data)) e.items
  .ok (put16 (UInt16.ofNat e.items.length) ++ putFixed (stringToBCD0 (canTimeString t)) 5 ++ is,
    { e with receiveTime := t })

/-- `n, _ := strconv.Atoi(s)` for a short string of characters at or above '0': 0 unless all are digits (protocol/t808_0x0705.go:78-81). -/
def atoi0 (s : Bytes) : Nat := if s.all isDigit then digitsVal s else 0

/-- protocol/t808_0x0705.go:90-103. -/
def CanItem.decodeItem : Rd CanItem := do
  let i ← Rd.read 4
  let d ← Rd.read 8
  pure { id := i, data := d }

/-- protocol/t808_0x0705.go:57-106. -/
def T0705.decode (_self : T0705) (data : Bytes) : Res (T0705 × Nat) :=
  decodeMin 7 (do
    let n ← Rd.u16
    let buf ← Rd.read 5
    let s := bcdToString buf true
    if s.length ≠ 10 then Rd.fail .other
    else do
      let h ← Rd.lift (slice s 0 2)
      let m ← Rd.lift (slice s 2 4)
      let sec ← Rd.lift (slice s 4 6)
      let ms ← Rd.lift (slice s 6 10)
      let is ← Rd.times n.toNat CanItem.decodeItem
      pure { receiveTime := (atoi0 h : Int) * 3600000000000 + atoi0 m * 60000000000 +
               atoi0 sec * 1000000000 + atoi0 ms * 1000000
             items := is }) data

/-! ## 0x0800, 0x0801, 0x0802, 0x0805 -/

/-- protocol/t808_0x0800.go:4-15. -/
structure T0800 where
  mediaID : UInt32 := 0
  type : UInt8 := 0
  coding : UInt8 := 0
  event : UInt8 := 0
  channelID : UInt8 := 0
  deriving DecidableEq, Repr

/-- protocol/t808_0x0800.go:41-59. -/
def T0800.encode (e : T0800) : Res Bytes := .ok (put32 e.mediaID ++ [e.type, e.coding, e.event, e.channelID])

/-- protocol/t808_0x0800.go:61-100. -/
def T0800.decode (_self : T0800) (data : Bytes) : Res (T0800 × Nat) :=
  decodeMin 8 (do
    let i ← Rd.u32
    let t ← Rd.byte
    let c ← Rd.byte
    let e ← Rd.byte
    let ch ← Rd.byte
    pure { mediaID := i, type := t, coding := c, event := e, channelID := ch }) data

/-- protocol/t808_0x0801.go:10-25. `packet` is the content still unread in the `io.Reader`
(`none` = nil); readers are taken to be in memory, so reading does not fail. -/
structure T0801 where
  mediaID : UInt32 := 0
  type : UInt8 := 0
  coding : UInt8 := 0
  event : UInt8 := 0
  channelID : UInt8 := 0
  location : T0200 := {}
  packet : Option Bytes := none
  deriving DecidableEq, Repr

/-- protocol/t808_0x0801.go:31-66; returns the bytes and the receiver (extras dropped, reader consumed). -/
def T0801.encode (env : Env) (e : T0801) : Res (Bytes × T0801) := do
  let (d, loc) ← T0200.encode env { e.location with extras := [] }
  let pk := match e.packet with | some p => p | none => []
  .ok (put32 e.mediaID ++ [e.type, e.coding, e.event, e.channelID] ++ d ++ pk,
    { e with location := loc, packet := e.packet.map (fun _ => []) })

/-- protocol/t808_0x0801.go:68-116. -/
def T0801.decode (env : Env) (self : T0801) (data : Bytes) : Res (T0801 × Nat) :=
  decodeMin 36 (do
    let i ← Rd.u32
    let t ← Rd.byte
    let c ← Rd.byte
    let e ← Rd.byte
    let ch ← Rd.byte
    let buf ← Rd.read 28
    let r ← Rd.lift (T0200.decode env self.location buf)
    pure { self with mediaID := i, type := t, coding := c, event := e, channelID := ch, location := r.1 }) data

/-- protocol/t808_0x0801.go:118-120 `GetTag`. -/
def T0801.getTag (e : T0801) : UInt32 := e.mediaID

/-- protocol/t808_0x0801.go:130-137 `DecodePacket`. -/
def T0801.decodePacket (env : Env) (self : T0801) (data : Bytes) : Res T0801 := do
  let (e, n) ← T0801.decode env self data
  let p ← slice data n data.length
  .ok { e with packet := some p }

/-- protocol/t808_0x0802.go:12-24. -/
structure MediaItem where
  mediaID : UInt32 := 0
  type : UInt8 := 0
  channelID : UInt8 := 0
  event : UInt8 := 0
  location : T0200 := {}
  deriving DecidableEq, Repr

/-- protocol/t808_0x0802.go:4-9. -/
structure T0802 where
  replySerial : UInt16 := 0
  items : List MediaItem := []
  deriving DecidableEq, Repr

/-- protocol/t808_0x0802.go:40-60; works on a copy of the item. -/
def MediaItem.encodeItem (env : Env) (i : MediaItem) : Res Bytes := do
  let (d, _) ← T0200.encode env { i.location with extras := [] }
  .ok (put32 i.mediaID ++ [i.type, i.channelID, i.event] ++ d)

/-- protocol/t808_0x0802.go:30-62. -/
def T0802.encode (env : Env) (e : T0802) : Res Bytes := do
  let is ← encList (MediaItem.encodeItem env) e.items
  .ok (put16 e.replySerial ++ put16 (UInt16.ofNat e.items.length) ++ is)

/-- protocol/t808_0x0802.go:86-122. -/
def MediaItem.decodeItem (env : Env) : Rd MediaItem := do
  let i ← Rd.u32
  let t ← Rd.byte
  let c ← Rd.byte
  let e ← Rd.byte
  let buf ← Rd.read 28
  let r ← Rd.lift (T0200.decode env {} buf)
  pure { mediaID := i, type := t, channelID := c, event := e, location := r.1 }

/-- protocol/t808_0x0802.go:64-125. -/
def T0802.decode (env : Env) (_self : T0802) (data : Bytes) : Res (T0802 × Nat) :=
  decodeMin 4 (do
    let s ← Rd.u16
    let n ← Rd.u16
    let is ← Rd.times n.toNat (MediaItem.decodeItem env)
    pure { replySerial := s, items := is }) data

/-- protocol/t808_0x0805.go:4-12. -/
structure T0805 where
  replySerial : UInt16 := 0
  result : UInt8 := 0
  mediaIDs : List UInt32 := []
  deriving DecidableEq, Repr

/-- protocol/t808_0x0805.go:30-47. -/
def T0805.encode (e : T0805) : Res Bytes :=
  .ok (put16 e.replySerial ++ [e.result] ++ put16 (UInt16.ofNat e.mediaIDs.length) ++
    e.mediaIDs.flatMap put32)

/-- protocol/t808_0x0805.go:49-85. -/
def T0805.decode (_self : T0805) (data : Bytes) : Res (T0805 × Nat) :=
  decodeMin 3 (do
    let s ← Rd.u16
    let r ← Rd.byte
    let n ← Rd.u16
    let is ← Rd.times n.toNat Rd.u32
    pure { replySerial := s, result := r, mediaIDs := is }) data

/-! ## 0x0900, 0x8900, 0x0901 -/

/-- protocol/t808_0x0900.go:4-15, t808_0x8900.go:4-9. -/
structure T0900 where
  type : UInt8 := 0
  data : Bytes := []
  deriving DecidableEq, Repr

/-- protocol/t808_0x0900.go:21-26, t808_0x8900.go:15-20. -/
def T0900.encode (e : T0900) : Res Bytes := .ok ([e.type] ++ e.data)

/-- protocol/t808_0x0900.go:27-33, t808_0x8900.go:22-28. -/
def T0900.decode (_self : T0900) (data : Bytes) : Res (T0900 × Nat) :=
  if data.length < 1 then .err .invalidBody
  else do
    let t ← idx data 0
    let d ← slice data 1 data.length
    .ok ({ type := t, data := d }, data.length)

/-- protocol/t808_0x0901.go:11-14. -/
structure T0901 where
  uncompressed : Bytes := []
  deriving DecidableEq, Repr

/-- protocol/t808_0x0901.go:20-35. Writing gzip data to memory does not fail; `env.gzip` returning `none` is
treated as an empty buffer. -/
def T0901.encode (env : Env) (e : T0901) : Res Bytes :=
  let z := (env.gzip e.uncompressed).getD []
  .ok (put32 (UInt32.ofNat z.length) ++ z)

/-- protocol/t808_0x0901.go:37-79; the read loop is part of `env.gunzip`. -/
def T0901.decode (env : Env) (_self : T0901) (data : Bytes) : Res (T0901 × Nat) :=
  decodeMin 4 (do
    let n ← Rd.u32
    let z ← Rd.read n.toNat
    match env.gunzip z with
    | none => Rd.fail .gzip
    | some u => pure { uncompressed := u }) data

/-! ## 0x0a00, 0x8a00 -/

/-- `rsa.PublicKey`: modulus pointer (non-negative) and exponent (protocol/t808_0x0a00.go:11). -/
structure PubKey where
  n : Option Nat
  e : Int
  deriving DecidableEq, Repr

/-- protocol/t808_0x0a00.go:10-12, t808_0x8a00.go:10-12. -/
structure T0A00 where
  publicKey : Option PubKey := none
  deriving DecidableEq, Repr

/-- `big.Int.Bytes()`: big-endian, no leading zero byte (protocol/t808_0x0a00.go:28). -/
def natBytesAux : Nat → Nat → Bytes
  | 0, _ => []
  | fuel + 1, n => if n = 0 then [] else natBytesAux fuel (n / 256) ++ [UInt8.ofNat n]

/-- `big.Int.Bytes()` (protocol/t808_0x0a00.go:28). -/
def natBytes (n : Nat) : Bytes := natBytesAux n n

/-- `big.Int.SetBytes` (protocol/t808_0x0a00.go:50). -/
def bytesNat (b : Bytes) : Nat := b.foldl (fun n x => n * 256 + x.toNat) 0

/-- `rsa.PublicKey.Size()`: `(BitLen + 7) / 8` (protocol/t808_0x0a00.go:22). -/
def keySize (n : Nat) : Nat := if n = 0 then 0 else (Nat.log2 n + 1 + 7) / 8

/-- protocol/t808_0x0a00.go:18-30, t808_0x8a00.go:18-30. -/
def T0A00.encode (e : T0A00) : Res Bytes :=
  match e.publicKey with
  | none => .err .other
  | some k =>
    match k.n with
    | none => .err .other
    | some n =>
      if keySize n ≠ 128 then .err .other
      else .ok (put32 (UInt32.ofInt k.e) ++ putFixed (natBytes n) 128)

/-- protocol/t808_0x0a00.go:32-53, t808_0x8a00.go:32-53. -/
def T0A00.decode (_self : T0A00) (data : Bytes) : Res (T0A00 × Nat) :=
  decodeMin 132 (do
    let e ← Rd.u32
    let n ← Rd.read 128
    pure { publicKey := some { n := some (bytesNat n), e := e.toNat } }) data

end Verif
