import Verif.Model.Helpers
/-! # Time zones with changes of the offset (package `time`, as used for `time.Local`)

The rest of the model takes the local time to be a fixed offset from UTC (`Env.tz`). Here the local time zone is what it is in
Go: an offset for the time before the first change, and a list of changes (daylight saving and others). The conversions of
protocol/helpers.go:120-137 and of the date of protocol/t808_0x0702.go:83, 143-144 are modelled again for such zones. -/

namespace Verif

/-- A `time.Location` (as `time.Local` of protocol/helpers.go:132): the offset before the first change, and the changes as pairs of
the instant and of the offset from then on, in seconds. Simplification: the changes that newer Go versions compute from a rule are
part of the list. -/
structure Zone where
  first : Int
  changes : List (Int × Int)
  deriving DecidableEq, Repr

/-- The search of `(*Location).lookup` (inside protocol/helpers.go:121-122, 131-132): the offset in force at an instant, with the
instants from which and until which it is in force. Go uses a binary search for the last change that is not after the instant. -/
def lookupFrom (start : Option Int) (o : Int) : List (Int × Int) → Int → Int × Option Int × Option Int
  | [], _ => (o, start, none)
  | c :: cs, t => if t < c.1 then (o, start, some c.1) else lookupFrom (some c.1) c.2 cs t

/-- `(*Location).lookup` (inside protocol/helpers.go:121-122, 131-132). -/
def Zone.lookup (z : Zone) (t : Int) : Int × Option Int × Option Int := lookupFrom none z.first z.changes t

/-- The offset used by `Format` (protocol/helpers.go:122). -/
def Zone.offset (z : Zone) (t : Int) : Int := (z.lookup t).1

/-- The last part of `time.Date` (inside protocol/helpers.go:131-132): from the seconds `unix` of a reading taken as UTC to the
instant. `old` tells the versions of Go before the change of this function from the later ones: when the first guess is outside
of the time of its offset, the old ones take the offset of the neighbouring time, the new ones look the guess up again. -/
def Zone.date (z : Zone) (old : Bool) (unix : Int) : Int :=
  let (o, start, stop) := z.lookup unix
  if o = 0 then unix
  else
    let utc := unix - o
    let before := start.any (fun s => utc < s)
    let after := stop.any (fun e => e ≤ utc)
    if old then
      if before then unix - z.offset (start.getD 0 - 1)
      else if after then unix - z.offset (stop.getD 0)
      else utc
    else if before || after then unix - z.offset utc
    else utc

/-- protocol/helpers.go:120-124 `toBCDTime`, in a zone. -/
def toBCDTimeIn (z : Zone) (t : Time) : Bytes := toBCDTime (z.offset t) t

/-- protocol/helpers.go:127-137 `fromBCDTime`, in a zone: the digits are read as if they were UTC, and `time.Date` finds the
instant. -/
def fromBCDTimeIn (old : Bool) (z : Zone) (bcd : Bytes) : Res Time := do
  let u ← fromBCDTime 0 bcd
  .ok (z.date old u)

/-- protocol/t808_0x0702.go:83: the date is formatted in the location of the value, which need not be the local one. -/
def toBCDDateIn (own : Zone) (t : Time) : Bytes := stringToBCD (fmt8 (civilOf (own.offset t) t)) 4

/-- protocol/t808_0x0702.go:139-144: the date is read as local midnight. -/
def fromBCDDateIn (old : Bool) (z : Zone) (bcd : Bytes) : Res Time := do
  let u ← parse14 0 (bcdToString bcd ++ [48, 48, 48, 48, 48, 48])
  .ok (z.date old u)

end Verif
