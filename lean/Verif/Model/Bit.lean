import Verif.Model.Basic
/-! # protocol/bit.go and protocol/property.go -/

namespace Verif

/-- protocol/bit.go:3-8 `GetBitByte`. A shift by a negative count panics in Go. -/
def getBitByte (value : UInt8) (offset : Int) : Res Bool :=
  if offset ≥ 8 then .ok false
  else if offset < 0 then .panic
  else .ok (decide (value &&& ((1 : UInt8) <<< UInt8.ofNat offset.toNat) > 0))

/-- Go `1 << offset` at type `byte` for `offset ≥ 0`: counts of 8 or more give 0
(Lean's `<<<` would reduce the count modulo 8).
(protocol/bit.go:7-17.) -/
def shl1Byte (offset : Int) : UInt8 :=
  if offset ≥ 8 then 0 else (1 : UInt8) <<< UInt8.ofNat offset.toNat

/-- protocol/bit.go:10-19 `SetBitByte`; returns the new value of `*value`. -/
def setBitByte (value : UInt8) (offset : Int) (set : Bool) : Res UInt8 :=
  if offset ≥ 32 then .ok value
  else if offset < 0 then .panic
  else if set then .ok (value ||| shl1Byte offset)
  else .ok (value &&& ~~~ (shl1Byte offset))

/-- protocol/bit.go:21-26 `GetBitUint16`. -/
def getBitUint16 (value : UInt16) (offset : Int) : Res Bool :=
  if offset ≥ 16 then .ok false
  else if offset < 0 then .panic
  else .ok (decide (value &&& ((1 : UInt16) <<< UInt16.ofNat offset.toNat) > 0))

/-- Go `1 << offset` at type `uint16` for `offset ≥ 0` (protocol/bit.go:25-35). -/
def shl1Uint16 (offset : Int) : UInt16 :=
  if offset ≥ 16 then 0 else (1 : UInt16) <<< UInt16.ofNat offset.toNat

/-- protocol/bit.go:28-37 `SetBitUint16`. -/
def setBitUint16 (value : UInt16) (offset : Int) (set : Bool) : Res UInt16 :=
  if offset ≥ 32 then .ok value
  else if offset < 0 then .panic
  else if set then .ok (value ||| shl1Uint16 offset)
  else .ok (value &&& ~~~ (shl1Uint16 offset))

/-- protocol/bit.go:39-44 `GetBitUint32`. -/
def getBitUint32 (value : UInt32) (offset : Int) : Res Bool :=
  if offset ≥ 32 then .ok false
  else if offset < 0 then .panic
  else .ok (decide (value &&& ((1 : UInt32) <<< UInt32.ofNat offset.toNat) > 0))

/-- protocol/bit.go:46-55 `SetBitUint32`. -/
def setBitUint32 (value : UInt32) (offset : Int) (set : Bool) : Res UInt32 :=
  if offset ≥ 32 then .ok value
  else if offset < 0 then .panic
  else if set then .ok (value ||| ((1 : UInt32) <<< UInt32.ofNat offset.toNat))
  else .ok (value &&& ~~~ ((1 : UInt32) <<< UInt32.ofNat offset.toNat))

/-! ## protocol/property.go: the 16-bit message property word -/

/-- protocol/property.go:11-14 `enablePacket`. -/
def Property.enablePacket (val : UInt16) : UInt16 := val ||| ((1 : UInt16) <<< 13)

/-- protocol/property.go:17-20 `enableEncrypt`. -/
def Property.enableEncrypt (val : UInt16) : UInt16 := val ||| ((1 : UInt16) <<< 10)

/-- protocol/property.go:23-26 `IsEnablePacket`. -/
def Property.isEnablePacket (val : UInt16) : Bool := decide (val &&& ((1 : UInt16) <<< 13) > 0)

/-- protocol/property.go:29-32 `IsEnableEncrypt`. -/
def Property.isEnableEncrypt (val : UInt16) : Bool := decide (val &&& ((1 : UInt16) <<< 10) > 0)

/-- protocol/property.go:35-40 `GetBodySize`. -/
def Property.getBodySize (val : UInt16) : UInt16 := ((val <<< 6) >>> 6) &&& 0x3ff

/-- protocol/property.go:43-50 `SetBodySize`; returns the new property word. -/
def Property.setBodySize (val : UInt16) (size : UInt16) : Res UInt16 :=
  if size > 0x3ff then .err .bodyTooLong
  else .ok (((val >>> 10) <<< 10) ||| size)

end Verif
