import Verif.Model.Basic
/-! # Calendar time (package `time`, as used by the protocol)

`time.Time` is modelled by whole Unix seconds (`Int`): the protocol encoders drop the sub-second part
(`time.Unix(t.Unix(), 0)`), and the `Location` pointer does not affect the instant. The local time zone is a
fixed UTC offset in seconds (`tz`); zones with daylight saving transitions are not modelled. -/

namespace Verif

/-- An instant in whole Unix seconds (the time.Time of e.g. protocol/helpers.go:121). -/
abbrev Time := Int

/-- `time.Time{}`: January 1, year 1, 00:00:00 UTC (e.g. protocol/helpers.go:129). -/
def zeroTime : Time := -62135596800

/-- A calendar reading (for protocol/helpers.go:122). -/
structure Civil where
  year : Int
  month : Nat
  day : Nat
  hour : Nat
  minute : Nat
  second : Nat
  deriving DecidableEq, Repr, Inhabited

/-- Gregorian leap year (`time.isLeap`) (inside protocol/helpers.go:122). -/
def isLeap (y : Int) : Bool := y % 4 = 0 && (y % 100 ≠ 0 || y % 400 = 0)

/-- `time.daysIn` (inside protocol/helpers.go:131). -/
def daysIn (m : Nat) (y : Int) : Nat :=
  if m = 2 then (if isLeap y then 29 else 28)
  else if m = 4 ∨ m = 6 ∨ m = 9 ∨ m = 11 then 30 else 31

/-- Days from 1970-01-01 to the given date (`time.Date`), for `1 ≤ m ≤ 12`.
Years are counted from March so that the leap day is last.
(Inside protocol/helpers.go:131.) -/
def daysFromCivil (y : Int) (m d : Nat) : Int :=
  let y' : Int := if m ≤ 2 then y - 1 else y
  let mp : Int := if m ≤ 2 then (m : Int) + 9 else (m : Int) - 3
  365 * y' + y' / 4 - y' / 100 + y' / 400 + (153 * mp + 2) / 5 + (d : Int) - 1 - 719468

/-- Date of a day number (`Time.Date()`), days counted from 1970-01-01 (inside protocol/helpers.go:122). -/
def civilFromDays (z : Int) : Int × Nat × Nat :=
  let z := z + 719468
  let era := z / 146097
  let doe := z % 146097
  let yoe := (doe - doe / 1460 + doe / 36524 - doe / 146096) / 365
  let doy := doe - (365 * yoe + yoe / 4 - yoe / 100)
  let mp := (5 * doy + 2) / 153
  let d := doy - (153 * mp + 2) / 5 + 1
  let m := if mp < 10 then mp + 3 else mp - 9
  let y := yoe + era * 400 + (if m ≤ 2 then 1 else 0)
  (y, m.toNat, d.toNat)

/-- Local calendar reading of an instant (`t.Format` on a local time) (protocol/helpers.go:122). -/
def civilOf (tz : Int) (t : Time) : Civil :=
  let s := t + tz
  let r := s % 86400
  let ymd := civilFromDays (s / 86400)
  { year := ymd.1, month := ymd.2.1, day := ymd.2.2,
    hour := (r / 3600).toNat, minute := (r / 60 % 60).toNat, second := (r % 60).toNat }

/-- Instant of a local calendar reading (`time.Date(..., time.Local)`) (protocol/helpers.go:131). -/
def instantOf (tz : Int) (c : Civil) : Time :=
  daysFromCivil c.year c.month c.day * 86400 + c.hour * 3600 + c.minute * 60 + c.second - tz

/-- ASCII digit (inside protocol/helpers.go:122). -/
def digit (n : Nat) : UInt8 := UInt8.ofNat (48 + n)

/-- `%02d` for values below 100 (inside protocol/helpers.go:122, protocol/t808_0x0705.go:45). -/
def pad2 (n : Nat) : Bytes := [digit (n / 10 % 10), digit (n % 10)]

/-- `%04d` for values below 10000 (inside protocol/helpers.go:122, protocol/t808_0x0705.go:45). -/
def pad4 (n : Nat) : Bytes :=
  [digit (n / 1000 % 10), digit (n / 100 % 10), digit (n / 10 % 10), digit (n % 10)]

/-- Decimal digits, at least one, with recursion bounded by `fuel` (inside protocol/header.go:37). -/
def fmtAux : Nat → Nat → Bytes
  | 0, n => [digit (n % 10)]
  | fuel + 1, n => if n < 10 then [digit n] else fmtAux fuel (n / 10) ++ [digit (n % 10)]

/-- `strconv.FormatUint(n, 10)`, and `%d` of a non-negative integer (protocol/header.go:37, multipart.go:92). -/
def fmtUint (n : Nat) : Bytes := fmtAux n n

/-- The year part "2006" of a time layout: at least four digits, `-` for negative years (inside protocol/helpers.go:122). -/
def fmtYear (y : Int) : Bytes :=
  (if y < 0 then [45] else []) ++
    (if y.natAbs < 10000 then pad4 y.natAbs else fmtUint y.natAbs)

/-- `t.Format("20060102150405")` (protocol/helpers.go:122). -/
def fmt14 (c : Civil) : Bytes :=
  fmtYear c.year ++ pad2 c.month ++ pad2 c.day ++ pad2 c.hour ++ pad2 c.minute ++ pad2 c.second

/-- `t.Format("20060102")` (protocol/t808_0x0702.go:83). -/
def fmt8 (c : Civil) : Bytes := fmtYear c.year ++ pad2 c.month ++ pad2 c.day

/-- Is the byte an ASCII digit (inside protocol/header.go:74). -/
def isDigit (b : UInt8) : Bool := 48 ≤ b && b ≤ 57

/-- Value of a digit string (inside protocol/header.go:74). -/
def digitsVal (s : Bytes) : Nat := s.foldl (fun n b => n * 10 + (b.toNat - 48)) 0

/-- `strconv.ParseUint(s, 10, 64)`: non-empty, digits only, value below 2^64 (protocol/header.go:74). -/
def parseUint (s : Bytes) : Res Nat :=
  if s = [] then .err .num
  else if !s.all isDigit then .err .num
  else if digitsVal s ≥ 2 ^ 64 then .err .num
  else .ok (digitsVal s)

/-- `time.ParseInLocation("20060102150405", s, time.Local)`. The layout consumes a four digit year and five
two digit fields, so exactly the strings of 14 digits with all fields in range are accepted (the hour
field alone may be one digit, but then the minute field starts with the non-digit and fails).
(protocol/helpers.go:131-132.) -/
def parse14 (tz : Int) (s : Bytes) : Res Time :=
  if s.length ≠ 14 ∨ !s.all isDigit then .err .timeParse
  else
    let num (i n : Nat) := digitsVal ((s.drop i).take n)
    let y := num 0 4
    let mo := num 4 2
    let d := num 6 2
    let h := num 8 2
    let mi := num 10 2
    let se := num 12 2
    if mo < 1 ∨ 12 < mo ∨ d < 1 ∨ daysIn mo y < d ∨ 24 ≤ h ∨ 60 ≤ mi ∨ 60 ≤ se then .err .timeParse
    else .ok (instantOf tz ⟨y, mo, d, h, mi, se⟩)

end Verif
