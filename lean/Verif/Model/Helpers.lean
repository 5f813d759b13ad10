import Verif.Model.Bufio
import Verif.Model.Time
/-! # protocol/helpers.go, and the string and time methods of protocol/bufio.go -/

namespace Verif

/-- External functions, as parameters of the model.
`gbEnc`/`gbDec`: golang.org/x/text GB18030 encoder/decoder over UTF-8 strings (`none` = transformer error).
`gzip`: output of compress/gzip for a payload; `gunzip`: bytes delivered by a gzip reader until it stops
(`none` = `gzip.NewReader` failed). `tz`: local UTC offset in seconds.
(Used at protocol/bufio.go:67-76, protocol/bufio.go:159-171, protocol/t808_0x0901.go:23-25, protocol/t808_0x0901.go:57-64, protocol/helpers.go:121-132.) -/
structure Env where
  gbEnc : Bytes → Option Bytes
  gbDec : Bytes → Option Bytes
  gzip : Bytes → Option Bytes
  gunzip : Bytes → Option Bytes
  tz : Int

/-- protocol/helpers.go:42-53 `bytesSplit`, the loop for a positive limit. -/
def splitLoop (limit : Nat) : Nat → Bytes → List Bytes
  | 0, _ => []
  | fuel + 1, data =>
    if data.length ≥ limit then data.take limit :: splitLoop limit fuel (data.drop limit)
    else if data.length > 0 then [data] else []

/-- protocol/helpers.go:42-53 `bytesSplit`. A limit of 0 divides by zero; a negative limit makes a negative
capacity or a negative slice bound. Each iteration removes `limit` bytes, so `len(data)+1` rounds suffice. -/
def bytesSplit (data : Bytes) (limit : Int) : Res (List Bytes) :=
  if limit ≤ 0 then .panic else .ok (splitLoop limit.toNat (data.length + 1) data)

/-- protocol/helpers.go:56-62 `bytesToString`: cut at the first NUL. -/
def bytesToString (data : Bytes) : Bytes := data.takeWhile (· ≠ 0)

/-- protocol/helpers.go:70-76: pairs of characters to packed bytes (byte arithmetic wraps). -/
def packBCD : Bytes → Bytes
  | a :: b :: t => (((a - 48) <<< 4) ||| (b - 48)) :: packBCD t
  | _ => []

/-- protocol/helpers.go:65-89 `stringToBCD` without size. -/
def stringToBCD0 (s : Bytes) : Bytes :=
  packBCD (if s.length % 2 = 1 then 48 :: s else s)

/-- protocol/helpers.go:65-89 `stringToBCD` with a size. -/
def stringToBCD (s : Bytes) (size : Nat) : Bytes :=
  let bcd := stringToBCD0 s
  if size < bcd.length then bcd.take size
  else List.replicate (size - bcd.length) 0 ++ bcd

/-- protocol/helpers.go:103-107: the two characters of a packed byte. -/
def unpackByte (b : UInt8) : Bytes := [((b &&& 0xf0) >>> 4) + 48, (b &&& 0x0f) + 48]

/-- protocol/helpers.go:92-117 `bcdToString`. -/
def bcdToString (data : Bytes) (ignorePadding : Bool := false) : Bytes :=
  let d := data.dropWhile (· = 0)
  let buf := d.flatMap unpackByte
  if ignorePadding then buf
  else if buf.all (· = 48) then buf
  else buf.dropWhile (· = 48)

/-- protocol/helpers.go:120-124 `toBCDTime`. -/
def toBCDTime (tz : Int) (t : Time) : Bytes := stringToBCD ((fmt14 (civilOf tz t)).drop 2) 6

/-- protocol/helpers.go:127-137 `fromBCDTime`. -/
def fromBCDTime (tz : Int) (bcd : Bytes) : Res Time :=
  if bcd.length ≠ 6 then .err .invalidBCDTime
  else parse14 tz ([50, 48] ++ bcdToString bcd)

/-! ## Decimal numbers (github.com/shopspring/decimal) -/

/-- `decimal.Decimal`: `value * 10 ^ exp` (used in protocol/helpers.go:140-151). -/
structure Dec where
  value : Int
  exp : Int
  deriving DecidableEq, Repr, Inhabited

namespace Dec

/-- `decimal.NewFromInt` (protocol/helpers.go:142-143). -/
def ofInt (n : Int) : Dec := ⟨n, 0⟩

/-- `decimal.NewFromFloat(1000000)`: shortest decimal digits, so `1 * 10^6` (protocol/helpers.go:141). -/
def million : Dec := ⟨1, 6⟩

/-- `decimal.Zero` (protocol/helpers.go:145-148). -/
def zero : Dec := ⟨0, 1⟩

/-- `d.rescale(exp)`: division truncates toward zero (inside the calls of protocol/helpers.go:142-150). -/
def rescale (d : Dec) (e : Int) : Dec :=
  if d.exp = e then d
  else if e > d.exp then ⟨d.value.tdiv (10 ^ (e - d.exp).toNat), e⟩
  else ⟨d.value * 10 ^ (d.exp - e).toNat, e⟩

/-- `d.Mul(d2)` (e.g. protocol/t808_0x0200.go:112). -/
def mul (a b : Dec) : Dec := ⟨a.value * b.value, a.exp + b.exp⟩

/-- `d.Sub(d2)`: rescale both to the smaller exponent, subtract (protocol/helpers.go:145-148). -/
def sub (a b : Dec) : Dec :=
  let e := min a.exp b.exp
  ⟨(a.rescale e).value - (b.rescale e).value, e⟩

/-- `d.Div(d2)` at the library's precision of 16 digits. The final rounding step of the library is not
modelled: the remainder is 0 in the only use (division of an integer by 10^6).
(protocol/helpers.go:142-143.) -/
def div (a b : Dec) : Dec :=
  let e := a.exp - b.exp + 16
  if e < 0 then ⟨a.value.tdiv (b.value * 10 ^ (-e).toNat), -16⟩
  else ⟨(a.value * 10 ^ e.toNat).tdiv b.value, -16⟩

/-- `d.Truncate(precision)` (protocol/helpers.go:150). -/
def truncate (d : Dec) (p : Nat) : Dec := if -(p : Int) > d.exp then d.rescale (-(p : Int)) else d

/-- `d.IntPart()`: truncation, low 64 bits as a signed integer (e.g. protocol/t808_0x0200.go:112). -/
def intPart (d : Dec) : Int := (d.rescale 0).value.bmod (2 ^ 64)

/-- `d.Cmp(decimal.Zero) < 0`, `d.IsNegative()` (protocol/t808_0x8604.go:51-55). -/
def isNeg (d : Dec) : Bool := d.value < 0

end Dec

/-- `uint32(math.Abs(float64(x)))` for an `int64`. Exact for `|x| < 2^32`; beyond that Go's
float-to-integer conversion is implementation defined and the model uses the low 32 bits.
(E.g. protocol/t808_0x0200.go:125.) -/
def absU32 (x : Int) : UInt32 := UInt32.ofNat x.natAbs

/-- protocol/helpers.go:140-151 `getGeoPoint`. -/
def getGeoPoint (lat : UInt32) (south : Bool) (lng : UInt32) (west : Bool) : Dec × Dec :=
  let fLat := (Dec.ofInt lat.toNat).div Dec.million
  let fLon := (Dec.ofInt lng.toNat).div Dec.million
  let fLat := if south then Dec.zero.sub fLat else fLat
  let fLon := if west then Dec.zero.sub fLon else fLon
  (fLat.truncate 6, fLon.truncate 6)

/-! ## Strings and times in the reader and writer -/

/-- protocol/bufio.go:67-76 `WritString(str)`. -/
def putStr (env : Env) (s : Bytes) : Res Bytes :=
  match env.gbEnc s with
  | some b => .ok b
  | none => .err .text

/-- protocol/bufio.go:67-76 `WritString(str, size)`. -/
def putStrFixed (env : Env) (s : Bytes) (size : Nat) : Res Bytes :=
  match env.gbEnc s with
  | some b => .ok (putFixed b size)
  | none => .err .text

/-- protocol/bufio.go:165-170: GB18030 decoding, then cut at NUL. -/
def decodeStr (env : Env) (data : Bytes) : Res Bytes :=
  match env.gbDec data with
  | some t => .ok (bytesToString t)
  | none => .err .text

/-- protocol/bufio.go:62-65 `WriteBcdTime`. -/
def putTime (env : Env) (t : Time) : Bytes := toBCDTime env.tz t

namespace Rd

/-- protocol/bufio.go:159-171 `ReadString(size)`. -/
def str (env : Env) (n : Nat) : Rd Bytes := Rd.bind (Rd.read n) fun d => Rd.lift (decodeStr env d)

/-- protocol/bufio.go:159-171 `ReadString()`. -/
def strRest (env : Env) : Rd Bytes := Rd.bind Rd.rest fun d => Rd.lift (decodeStr env d)

/-- protocol/bufio.go:143-157 `ReadBcdTime`. -/
def bcdTime (env : Env) : Rd Time := fun s =>
  if s.length < 6 then .err .unexpectedEOF
  else match fromBCDTime env.tz (s.take 6) with
    | .ok t => .ok (t, s.drop 6)
    | .err e => .err e
    | .panic => .panic

end Rd

end Verif
