import Verif.Model.Access
import Verif.Model.Entity
/-! # Specification of the accessors of status words and attributes -/

namespace Verif.Spec

/-- The last of the values a list of calls gives to one flag; `said c` is the value that call `c` gives to it, if any. Without such a call it is the
value `before`. -/
def lastSaid {α : Type} (said : α → Option Bool) (before : Bool) (cs : List α) : Bool :=
  ((cs.filterMap said).getLast?).getD before

/-- The bit of a flag and its meaning in the table of status bits. -/
def Status.bitOf : Status.Call → Nat
  | .south _ => 2
  | .west _ => 3

def Status.value : Status.Call → Bool
  | .south b | .west b => b

/-- The bits of the flags of an area's attribute. -/
def AreaAttr.bitOf : AreaAttr.Call → Nat
  | .enterAlarm _ => 3
  | .exitAlarm _ => 5
  | .south _ => 6
  | .west _ => 7

def AreaAttr.value : AreaAttr.Call → Bool
  | .south b | .west b | .exitAlarm b | .enterAlarm b => b

/-- The bits of the flags of a section's attribute. -/
def SectionAttr.bitOf : SectionAttr.Call → Nat
  | .timeLimit _ => 0
  | .speedLimit _ => 1
  | .south _ => 2
  | .west _ => 3

def SectionAttr.value : SectionAttr.Call → Bool
  | .timeLimit b | .speedLimit b | .south b | .west b => b

/-- The value a call gives to bit `i`, if it concerns bit `i`. -/
def saidTo {α : Type} (bitOf : α → Nat) (value : α → Bool) (i : Nat) (c : α) : Option Bool :=
  if bitOf c = i then some (value c) else none

/-- A place in a message: what the accessors of its word return, and its coordinates. -/
structure Place where
  latType : Res Int
  lngType : Res Int
  lat : Dec
  lng : Dec

/-- The place of a location report. -/
def reportPlace (r : T0200) : Place := ⟨Status.getLatitudeType r.status, Status.getLongitudeType r.status, r.lat, r.lng⟩

/-- A place of an area. -/
def areaPlace (attr : UInt16) (lat lng : Dec) : Place := ⟨AreaAttr.getLatitudeType attr, AreaAttr.getLongitudeType attr, lat, lng⟩

/-- The place of a point of a route. -/
def routePlace (p : RoutePoint) : Place := ⟨SectionAttr.getLatitudeType p.attr, SectionAttr.getLongitudeType p.attr, p.lat, p.lng⟩

/-- All places of a body. -/
def placesOf : Entity → List Place
  | .m0200 b => [reportPlace b]
  | .m0201 b => [reportPlace b.result]
  | .m0500 b => [reportPlace b.result]
  | .m0704 b => b.items.map reportPlace
  | .m0801 b => [reportPlace b.location]
  | .m0802 b => b.items.map fun i => reportPlace i.location
  | .m8600 b => b.items.map fun a => areaPlace a.attr a.lat a.lng
  | .m8602 b => b.items.flatMap fun a => [areaPlace a.attr a.leftTopLat a.leftTopLon, areaPlace a.attr a.rightBottomLat a.rightBottomLon]
  | .m8604 b => b.vertexes.map fun v => areaPlace b.attr v.lat v.lng
  | .m8606 b => b.points.map routePlace
  | _ => []

/-- The type is that of the coordinate's side: 1 for the negative side (south, west), 0 for the positive side (north, east). For the coordinate 0 either
is right. -/
def TypeOf (t : Res Int) (d : Dec) : Prop :=
  (t = .ok 1 ∨ t = .ok 0) ∧ (d.value < 0 → t = .ok 1) ∧ (0 < d.value → t = .ok 0)

/-- The accessors agree with the coordinates. -/
def Place.Agrees (p : Place) : Prop := TypeOf p.latType p.lat ∧ TypeOf p.lngType p.lng

end Verif.Spec
