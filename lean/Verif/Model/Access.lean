import Verif.Model.Bit
/-! # The accessors of status words and attributes

Methods on values copy the word; methods on pointers change it in place and return the new word here. -/

namespace Verif

/-- protocol/t808_0x0200.go:15-23 `LatitudeType`: `NorthLatitudeType` and `SouthLatitudeType` are untyped constants, numbers. -/
def northLatitudeType : Int := 0

/-- protocol/t808_0x0200.go:22 -/
def southLatitudeType : Int := 1

/-- protocol/t808_0x0200.go:26-34 `LongitudeType`. -/
def eastLongitudeType : Int := 0

/-- protocol/t808_0x0200.go:33 -/
def westLongitudeType : Int := 1

/-! ## The status word of a location report -/

/-- protocol/t808_0x0200.go:40-42. -/
def Status.getAccState (st : UInt32) : Res Bool := getBitUint32 st 0

/-- protocol/t808_0x0200.go:45-47. -/
def Status.positioning (st : UInt32) : Res Bool := getBitUint32 st 1

/-- protocol/t808_0x0200.go:50-52. -/
def Status.setSouthLatitude (st : UInt32) (b : Bool) : Res UInt32 := setBitUint32 st 2 b

/-- protocol/t808_0x0200.go:55-57. -/
def Status.setWestLongitude (st : UInt32) (b : Bool) : Res UInt32 := setBitUint32 st 3 b

/-- protocol/t808_0x0200.go:60-65. -/
def Status.getLatitudeType (st : UInt32) : Res Int := do
  if ← getBitUint32 st 2 then .ok southLatitudeType else .ok northLatitudeType

/-- protocol/t808_0x0200.go:68-73. -/
def Status.getLongitudeType (st : UInt32) : Res Int := do
  if ← getBitUint32 st 3 then .ok westLongitudeType else .ok eastLongitudeType

/-! ## The attribute of an area -/

/-- protocol/t808_0x8600.go:13-15. -/
def AreaAttr.setSouthLatitude (a : UInt16) (b : Bool) : Res UInt16 := setBitUint16 a 6 b

/-- protocol/t808_0x8600.go:18-20. -/
def AreaAttr.setWestLongitude (a : UInt16) (b : Bool) : Res UInt16 := setBitUint16 a 7 b

/-- protocol/t808_0x8600.go:23-28. -/
def AreaAttr.getLatitudeType (a : UInt16) : Res Int := do
  if ← getBitUint16 a 6 then .ok southLatitudeType else .ok northLatitudeType

/-- protocol/t808_0x8600.go:31-36: the constants are those of latitudes. -/
def AreaAttr.getLongitudeType (a : UInt16) : Res Int := do
  if ← getBitUint16 a 7 then .ok southLatitudeType else .ok northLatitudeType

/-- protocol/t808_0x8600.go:39-41. -/
def AreaAttr.setExitAlarm (a : UInt16) (b : Bool) : Res UInt16 := setBitUint16 a 5 b

/-- protocol/t808_0x8600.go:44-46. -/
def AreaAttr.setEnterAlarm (a : UInt16) (b : Bool) : Res UInt16 := setBitUint16 a 3 b

/-! ## The attribute of a section of a route -/

/-- protocol/t808_0x8606.go:27-29. -/
def SectionAttr.hasTimeLimit (a : UInt8) : Res Bool := getBitByte a 0

/-- protocol/t808_0x8606.go:32-34. -/
def SectionAttr.hasSpeedLimit (a : UInt8) : Res Bool := getBitByte a 1

/-- protocol/t808_0x8606.go:37-39. -/
def SectionAttr.setTimeLimit (a : UInt8) (b : Bool) : Res UInt8 := setBitByte a 0 b

/-- protocol/t808_0x8606.go:42-44. -/
def SectionAttr.setSpeedLimit (a : UInt8) (b : Bool) : Res UInt8 := setBitByte a 1 b

/-- protocol/t808_0x8606.go:47-49. -/
def SectionAttr.setSouthLatitude (a : UInt8) (b : Bool) : Res UInt8 := setBitByte a 2 b

/-- protocol/t808_0x8606.go:52-54. -/
def SectionAttr.setWestLongitude (a : UInt8) (b : Bool) : Res UInt8 := setBitByte a 3 b

/-- protocol/t808_0x8606.go:57-62. -/
def SectionAttr.getLatitudeType (a : UInt8) : Res Int := do
  if ← getBitByte a 2 then .ok southLatitudeType else .ok northLatitudeType

/-- protocol/t808_0x8606.go:65-70. -/
def SectionAttr.getLongitudeType (a : UInt8) : Res Int := do
  if ← getBitByte a 3 then .ok westLongitudeType else .ok eastLongitudeType

/-! ## Calls of setters one after the other -/

/-- A call of a setter of a status word (protocol/t808_0x0200.go:49-57). -/
inductive Status.Call where
  | south (b : Bool)
  | west (b : Bool)
  deriving DecidableEq, Repr

/-- protocol/t808_0x0200.go:49-57: what one call does to the word. -/
def Status.call (st : UInt32) : Status.Call → Res UInt32
  | .south b => Status.setSouthLatitude st b
  | .west b => Status.setWestLongitude st b

/-- Calls one after the other on the same word (protocol/t808_0x0200.go:49-57). -/
def Status.calls (st : UInt32) : List Status.Call → Res UInt32
  | [] => .ok st
  | c :: cs => do Status.calls (← Status.call st c) cs

/-- A call of a setter of an area's attribute (protocol/t808_0x8600.go:12-20, 38-46). -/
inductive AreaAttr.Call where
  | south (b : Bool)
  | west (b : Bool)
  | exitAlarm (b : Bool)
  | enterAlarm (b : Bool)
  deriving DecidableEq, Repr

/-- protocol/t808_0x8600.go:12-20, 38-46: what one call does to the word. -/
def AreaAttr.call (a : UInt16) : AreaAttr.Call → Res UInt16
  | .south b => AreaAttr.setSouthLatitude a b
  | .west b => AreaAttr.setWestLongitude a b
  | .exitAlarm b => AreaAttr.setExitAlarm a b
  | .enterAlarm b => AreaAttr.setEnterAlarm a b

/-- Calls one after the other on the same word (protocol/t808_0x8600.go:12-20, 38-46). -/
def AreaAttr.calls (a : UInt16) : List AreaAttr.Call → Res UInt16
  | [] => .ok a
  | c :: cs => do AreaAttr.calls (← AreaAttr.call a c) cs

/-- A call of a setter of a section's attribute (protocol/t808_0x8606.go:36-54). -/
inductive SectionAttr.Call where
  | timeLimit (b : Bool)
  | speedLimit (b : Bool)
  | south (b : Bool)
  | west (b : Bool)
  deriving DecidableEq, Repr

/-- protocol/t808_0x8606.go:36-54: what one call does to the byte. -/
def SectionAttr.call (a : UInt8) : SectionAttr.Call → Res UInt8
  | .timeLimit b => SectionAttr.setTimeLimit a b
  | .speedLimit b => SectionAttr.setSpeedLimit a b
  | .south b => SectionAttr.setSouthLatitude a b
  | .west b => SectionAttr.setWestLongitude a b

/-- Calls one after the other on the same byte (protocol/t808_0x8606.go:36-54). -/
def SectionAttr.calls (a : UInt8) : List SectionAttr.Call → Res UInt8
  | [] => .ok a
  | c :: cs => do SectionAttr.calls (← SectionAttr.call a c) cs

end Verif
