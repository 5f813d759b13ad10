import Verif.Model.Entities2
/-! # Specification of coordinates in reports and areas -/

namespace Verif.Spec

/-- `n` millionths of a degree are the decimal `d`, cut toward zero. -/
def TruncMicro (d : Dec) (n : Int) : Prop :=
  if 0 ≤ d.exp + 6 then n = d.value * 10 ^ (d.exp + 6).toNat
  else if 0 ≤ d.value then 0 ≤ n ∧ n * 10 ^ (-(d.exp + 6)).toNat ≤ d.value ∧ d.value < (n + 1) * 10 ^ (-(d.exp + 6)).toNat
  else n ≤ 0 ∧ d.value ≤ n * 10 ^ (-(d.exp + 6)).toNat ∧ (n - 1) * 10 ^ (-(d.exp + 6)).toNat < d.value

/-- A coordinate that, cut to millionths, fits the 32-bit field. -/
def Fits (d : Dec) : Prop := ∃ n, TruncMicro d n ∧ n.natAbs < 2 ^ 32

/-- The decoded coordinate `c` is `d` cut to millionths, with its sign. -/
def SameCoord (d c : Dec) : Prop := TruncMicro d c.value ∧ c.exp = -6

/-- A coordinate next to a hemisphere bit: with the bit set it counts as negative. -/
def withBit (bit : Bool) (n : Int) : Int := if bit then -(n.natAbs : Int) else n

/-- Coordinates that share one hemisphere bit: if the bit was set beforehand or one of them is negative, none of them is
positive. -/
def OneSide (preset : Bool) (ds : List Dec) : Prop := (preset = true ∨ ∃ d ∈ ds, d.value < 0) → ∀ d ∈ ds, d.value ≤ 0

/-- Coordinates of a rectangle that share one hemisphere bit arrive as negative: the bit was set beforehand, or one of them is negative when cut to
millionths. -/
def Negative (preset : Bool) (ds : List Dec) : Prop := preset = true ∨ ∃ d ∈ ds, ∃ n, TruncMicro d n ∧ n < 0

/-- The same for the vertexes of a polygon, for which the sign before cutting counts. -/
def NegativeVertex (preset : Bool) (ds : List Dec) : Prop := preset = true ∨ ∃ d ∈ ds, d.value < 0

/-- None of the coordinates, cut to millionths, is positive. -/
def NonePositive (ds : List Dec) : Prop := ∀ d ∈ ds, ∃ n, TruncMicro d n ∧ n ≤ 0

/-- The decoded coordinate `c` is `d` cut to millionths, on the negative side if `neg` holds. -/
def Shown (neg : Prop) (d c : Dec) : Prop := ∃ n, TruncMicro d n ∧ c.exp = -6 ∧ (neg → c.value = withBit true n) ∧ (¬ neg → c.value = n)

/-- Same attribute word up to the hemisphere bits 6 and 7. -/
def SameAttr (a b : UInt16) : Prop := ∀ i, i ≠ 6 → i ≠ 7 → b.toNat.testBit i = a.toNat.testBit i

def SameCircle (a c : CircleArea) : Prop :=
  SameCoord a.lat c.lat ∧ SameCoord a.lng c.lng ∧ SameAttr a.attr c.attr ∧ c.id = a.id ∧ c.radius = a.radius ∧
    c.startTime = a.startTime ∧ c.endTime = a.endTime ∧ c.maxSpeed = a.maxSpeed ∧ c.duration = a.duration

def SameRect (a c : RectArea) : Prop :=
  SameCoord a.leftTopLat c.leftTopLat ∧ SameCoord a.leftTopLon c.leftTopLon ∧ SameCoord a.rightBottomLat c.rightBottomLat ∧
    SameCoord a.rightBottomLon c.rightBottomLon ∧ SameAttr a.attr c.attr ∧ c.id = a.id ∧ c.startTime = a.startTime ∧
    c.endTime = a.endTime ∧ c.maxSpeed = a.maxSpeed ∧ c.duration = a.duration

/-- What a rectangle is read back as: corners on the negative side of the equator (or of the meridian) if one of them is, everything else unchanged. -/
def ReadRect (a c : RectArea) : Prop :=
  Shown (Negative (a.attr.toNat.testBit 6) [a.leftTopLat, a.rightBottomLat]) a.leftTopLat c.leftTopLat ∧
  Shown (Negative (a.attr.toNat.testBit 7) [a.leftTopLon, a.rightBottomLon]) a.leftTopLon c.leftTopLon ∧
  Shown (Negative (a.attr.toNat.testBit 6) [a.leftTopLat, a.rightBottomLat]) a.rightBottomLat c.rightBottomLat ∧
  Shown (Negative (a.attr.toNat.testBit 7) [a.leftTopLon, a.rightBottomLon]) a.rightBottomLon c.rightBottomLon ∧
  SameAttr a.attr c.attr ∧ c.id = a.id ∧ c.startTime = a.startTime ∧ c.endTime = a.endTime ∧ c.maxSpeed = a.maxSpeed ∧ c.duration = a.duration

def SamePoint (p q : RoutePoint) : Prop :=
  SameCoord p.lat q.lat ∧ SameCoord p.lng q.lng ∧ (∀ i, 4 ≤ i → q.attr.toNat.testBit i = p.attr.toNat.testBit i) ∧ q.id = p.id ∧
    q.sectionID = p.sectionID ∧ q.width = p.width ∧ q.timeTooLong = p.timeTooLong ∧ q.timeTooShort = p.timeTooShort ∧
    q.maxSpeed = p.maxSpeed ∧ q.overSpeedDuration = p.overSpeedDuration

end Verif.Spec
