import Verif.Model.Entities2
/-! # The message body types together: protocol/entity.go and the registry of protocol/register.go -/

namespace Verif

/-- protocol/entity.go:6-10 `Entity`, for the 65 body types of protocol/register.go:140-336; one
constructor per Go type `*T808_0x....` (non-nil pointer). Types registered by the application are not
included here (see Model/Registered.lean); the message layer is generic in the body type, so its theorems cover them. -/
inductive Entity where
  | m0001 (b : T0001)
  | m0002 (b : TEmpty)
  | m0003 (b : TEmpty)
  | m0100 (b : T0100)
  | m0102 (b : T0102)
  | m0104 (b : T0104)
  | m0107 (b : T0107)
  | m0108 (b : T0108)
  | m0200 (b : T0200)
  | m0201 (b : T0201)
  | m0301 (b : T0301)
  | m0302 (b : T0302)
  | m0303 (b : T0303)
  | m0500 (b : T0201)
  | m0700 (b : T0700)
  | m0701 (b : T0701)
  | m0702 (b : T0702)
  | m0704 (b : T0704)
  | m0705 (b : T0705)
  | m0800 (b : T0800)
  | m0801 (b : T0801)
  | m0802 (b : T0802)
  | m0805 (b : T0805)
  | m8001 (b : T0001)
  | m8003 (b : T8003)
  | m8100 (b : T8100)
  | m8103 (b : T8103)
  | m8104 (b : TEmpty)
  | m8105 (b : TByteText)
  | m8106 (b : TIDs)
  | m8107 (b : TEmpty)
  | m8108 (b : T8108)
  | m8201 (b : TEmpty)
  | m8202 (b : T8202)
  | m8203 (b : T8203)
  | m8300 (b : TByteText)
  | m8301 (b : T8301)
  | m8302 (b : T8302)
  | m8303 (b : T8303)
  | m8304 (b : T8304)
  | m8400 (b : T8400)
  | m8401 (b : T8401)
  | m8500 (b : T8500)
  | m8600 (b : T8600)
  | m8601 (b : TIDs)
  | m8602 (b : T8602)
  | m8603 (b : TIDs)
  | m8604 (b : T8604)
  | m8605 (b : TIDs)
  | m8606 (b : T8606)
  | m8607 (b : TIDs)
  | m8700 (b : T8700)
  | m8701 (b : T8700)
  | m8702 (b : TEmpty)
  | m8800 (b : T8800)
  | m8801 (b : T8801)
  | m8802 (b : T8802)
  | m8803 (b : T8803)
  | m8804 (b : T8804)
  | m8805 (b : T8805)
  | m8900 (b : T0900)
  | m0900 (b : T0900)
  | m0901 (b : T0901)
  | m0a00 (b : T0A00)
  | m8a00 (b : T0A00)
  deriving DecidableEq, Repr

namespace Entity

/-- The `MsgID()` methods (e.g. protocol/t808_0x0001.go:13-15) with the constants of
protocol/register.go:4-137. -/
def msgID : Entity → UInt16
  | m0001 _ => 0x0001
  | m0002 _ => 0x0002
  | m0003 _ => 0x0003
  | m0100 _ => 0x0100
  | m0102 _ => 0x0102
  | m0104 _ => 0x0104
  | m0107 _ => 0x0107
  | m0108 _ => 0x0108
  | m0200 _ => 0x0200
  | m0201 _ => 0x0201
  | m0301 _ => 0x0301
  | m0302 _ => 0x0302
  | m0303 _ => 0x0303
  | m0500 _ => 0x0500
  | m0700 _ => 0x0700
  | m0701 _ => 0x0701
  | m0702 _ => 0x0702
  | m0704 _ => 0x0704
  | m0705 _ => 0x0705
  | m0800 _ => 0x0800
  | m0801 _ => 0x0801
  | m0802 _ => 0x0802
  | m0805 _ => 0x0805
  | m8001 _ => 0x8001
  | m8003 _ => 0x8003
  | m8100 _ => 0x8100
  | m8103 _ => 0x8103
  | m8104 _ => 0x8104
  | m8105 _ => 0x8105
  | m8106 _ => 0x8106
  | m8107 _ => 0x8107
  | m8108 _ => 0x8108
  | m8201 _ => 0x8201
  | m8202 _ => 0x8202
  | m8203 _ => 0x8203
  | m8300 _ => 0x8300
  | m8301 _ => 0x8301
  | m8302 _ => 0x8302
  | m8303 _ => 0x8303
  | m8304 _ => 0x8304
  | m8400 _ => 0x8400
  | m8401 _ => 0x8401
  | m8500 _ => 0x8500
  | m8600 _ => 0x8600
  | m8601 _ => 0x8601
  | m8602 _ => 0x8602
  | m8603 _ => 0x8603
  | m8604 _ => 0x8604
  | m8605 _ => 0x8605
  | m8606 _ => 0x8606
  | m8607 _ => 0x8607
  | m8700 _ => 0x8700
  | m8701 _ => 0x8701
  | m8702 _ => 0x8702
  | m8800 _ => 0x8800
  | m8801 _ => 0x8801
  | m8802 _ => 0x8802
  | m8803 _ => 0x8803
  | m8804 _ => 0x8804
  | m8805 _ => 0x8805
  | m8900 _ => 0x8900
  | m0900 _ => 0x0900
  | m0901 _ => 0x0901
  | m0a00 _ => 0x0a00
  | m8a00 _ => 0x8a00

/-- Pair the bytes with the unchanged receiver (plumbing for the table below, which stands for calls through the interface of
protocol/entity.go:6-10). -/
def keep (r : Res Bytes) (e : Entity) : Res (Bytes × Entity) :=
  match r with
  | .ok b => .ok (b, e)
  | .err x => .err x
  | .panic => .panic

/-- Pair the bytes with the changed receiver (plumbing, see protocol/entity.go:8). -/
def wrapEnc {α : Type} (mk : α → Entity) (r : Res (Bytes × α)) : Res (Bytes × Entity) :=
  match r with
  | .ok (b, e) => .ok (b, mk e)
  | .err x => .err x
  | .panic => .panic

/-- The decoded receiver with the reported count (plumbing, see protocol/entity.go:9). -/
def wrapDec {α : Type} (mk : α → Entity) (r : Res (α × Nat)) : Res (Entity × Nat) :=
  match r with
  | .ok (e, n) => .ok (mk e, n)
  | .err x => .err x
  | .panic => .panic

/-- The `Encode()` methods: bytes and receiver afterwards (dynamic dispatch of protocol/entity.go:8; each type cites its own file). -/
def encode (env : Env) (e : Entity) : Res (Bytes × Entity) :=
  match e with
  | m0001 b => keep (T0001.encode b) e
  | m0002 b => keep (TEmpty.encode b) e
  | m0003 b => keep (TEmpty.encode b) e
  | m0100 b => keep (T0100.encode env b) e
  | m0102 b => keep (T0102.encode env b) e
  | m0104 b => keep (T0104.encode b) e
  | m0107 b => keep (T0107.encode b) e
  | m0108 b => keep (T0108.encode b) e
  | m0200 b => wrapEnc m0200 (T0200.encode env b)
  | m0201 b => wrapEnc m0201 (T0201.encode env b)
  | m0301 b => keep (T0301.encode b) e
  | m0302 b => keep (T0302.encode b) e
  | m0303 b => keep (T0303.encode b) e
  | m0500 b => wrapEnc m0500 (T0201.encode env b)
  | m0700 b => keep (T0700.encode b) e
  | m0701 b => keep (T0701.encode b) e
  | m0702 b => keep (T0702.encode env b) e
  | m0704 b => keep (T0704.encode env b) e
  | m0705 b => wrapEnc m0705 (T0705.encode b)
  | m0800 b => keep (T0800.encode b) e
  | m0801 b => wrapEnc m0801 (T0801.encode env b)
  | m0802 b => keep (T0802.encode env b) e
  | m0805 b => keep (T0805.encode b) e
  | m8001 b => keep (T8001.encode b) e
  | m8003 b => keep (T8003.encode b) e
  | m8100 b => keep (T8100.encode env b) e
  | m8103 b => keep (T8103.encode b) e
  | m8104 b => keep (TEmpty.encode b) e
  | m8105 b => keep (TByteText.encode env b) e
  | m8106 b => keep (TIDs.encode b) e
  | m8107 b => keep (TEmpty.encode b) e
  | m8108 b => keep (T8108.encode env b) e
  | m8201 b => keep (TEmpty.encode b) e
  | m8202 b => keep (T8202.encode b) e
  | m8203 b => keep (T8203.encode b) e
  | m8300 b => keep (TByteText.encode env b) e
  | m8301 b => keep (T8301.encode env b) e
  | m8302 b => keep (T8302.encode env b) e
  | m8303 b => keep (T8303.encode env b) e
  | m8304 b => keep (T8304.encode env b) e
  | m8400 b => keep (T8400.encode env b) e
  | m8401 b => keep (T8401.encode env b) e
  | m8500 b => keep (T8500.encode b) e
  | m8600 b => wrapEnc m8600 (T8600.encode env b)
  | m8601 b => keep (TIDs.encode b) e
  | m8602 b => wrapEnc m8602 (T8602.encode env b)
  | m8603 b => keep (TIDs.encode b) e
  | m8604 b => wrapEnc m8604 (T8604.encode env b)
  | m8605 b => keep (TIDs.encode b) e
  | m8606 b => keep (T8606.encode env b) e
  | m8607 b => keep (TIDs.encode b) e
  | m8700 b => keep (T8700.encode b) e
  | m8701 b => keep (T8700.encode b) e
  | m8702 b => keep (TEmpty.encode b) e
  | m8800 b => keep (T8800.encode b) e
  | m8801 b => keep (T8801.encode b) e
  | m8802 b => keep (T8802.encode env b) e
  | m8803 b => keep (T8803.encode env b) e
  | m8804 b => keep (T8804.encode b) e
  | m8805 b => keep (T8805.encode b) e
  | m8900 b => keep (T0900.encode b) e
  | m0900 b => keep (T0900.encode b) e
  | m0901 b => keep (T0901.encode env b) e
  | m0a00 b => keep (T0A00.encode b) e
  | m8a00 b => keep (T0A00.encode b) e

/-- The `Decode(data)` methods on a receiver (dynamic dispatch of protocol/entity.go:9; each type cites its own file). -/
def decode (env : Env) (e : Entity) (data : Bytes) : Res (Entity × Nat) :=
  match e with
  | m0001 b => wrapDec m0001 (T0001.decode b data)
  | m0002 b => wrapDec m0002 (TEmpty.decode b data)
  | m0003 b => wrapDec m0003 (TEmpty.decode b data)
  | m0100 b => wrapDec m0100 (T0100.decode env b data)
  | m0102 b => wrapDec m0102 (T0102.decode env b data)
  | m0104 b => wrapDec m0104 (T0104.decode b data)
  | m0107 b => wrapDec m0107 (T0107.decode b data)
  | m0108 b => wrapDec m0108 (T0108.decode b data)
  | m0200 b => wrapDec m0200 (T0200.decode env b data)
  | m0201 b => wrapDec m0201 (T0201.decode env b data)
  | m0301 b => wrapDec m0301 (T0301.decode b data)
  | m0302 b => wrapDec m0302 (T0302.decode b data)
  | m0303 b => wrapDec m0303 (T0303.decode b data)
  | m0500 b => wrapDec m0500 (T0201.decode env b data)
  | m0700 b => wrapDec m0700 (T0700.decode b data)
  | m0701 b => wrapDec m0701 (T0701.decode b data)
  | m0702 b => wrapDec m0702 (T0702.decode env b data)
  | m0704 b => wrapDec m0704 (T0704.decode env b data)
  | m0705 b => wrapDec m0705 (T0705.decode b data)
  | m0800 b => wrapDec m0800 (T0800.decode b data)
  | m0801 b => wrapDec m0801 (T0801.decode env b data)
  | m0802 b => wrapDec m0802 (T0802.decode env b data)
  | m0805 b => wrapDec m0805 (T0805.decode b data)
  | m8001 b => wrapDec m8001 (T8001.decode b data)
  | m8003 b => wrapDec m8003 (T8003.decode b data)
  | m8100 b => wrapDec m8100 (T8100.decode env b data)
  | m8103 b => wrapDec m8103 (T8103.decode b data)
  | m8104 b => wrapDec m8104 (TEmpty.decode b data)
  | m8105 b => wrapDec m8105 (TByteText.decode env b data)
  | m8106 b => wrapDec m8106 (TIDs.decode b data)
  | m8107 b => wrapDec m8107 (TEmpty.decode b data)
  | m8108 b => wrapDec m8108 (T8108.decode env b data)
  | m8201 b => wrapDec m8201 (TEmpty.decode b data)
  | m8202 b => wrapDec m8202 (T8202.decode b data)
  | m8203 b => wrapDec m8203 (T8203.decode b data)
  | m8300 b => wrapDec m8300 (TByteText.decode env b data)
  | m8301 b => wrapDec m8301 (T8301.decode env b data)
  | m8302 b => wrapDec m8302 (T8302.decode env b data)
  | m8303 b => wrapDec m8303 (T8303.decode env b data)
  | m8304 b => wrapDec m8304 (T8304.decode env b data)
  | m8400 b => wrapDec m8400 (T8400.decode env b data)
  | m8401 b => wrapDec m8401 (T8401.decode env b data)
  | m8500 b => wrapDec m8500 (T8500.decode b data)
  | m8600 b => wrapDec m8600 (T8600.decode env b data)
  | m8601 b => wrapDec m8601 (TIDs.decode b data)
  | m8602 b => wrapDec m8602 (T8602.decode env b data)
  | m8603 b => wrapDec m8603 (TIDs.decode b data)
  | m8604 b => wrapDec m8604 (T8604.decode env b data)
  | m8605 b => wrapDec m8605 (TIDs.decode b data)
  | m8606 b => wrapDec m8606 (T8606.decode env b data)
  | m8607 b => wrapDec m8607 (T8607.decode b data)
  | m8700 b => wrapDec m8700 (T8700.decode b data)
  | m8701 b => wrapDec m8701 (T8700.decode b data)
  | m8702 b => wrapDec m8702 (TEmpty.decode b data)
  | m8800 b => wrapDec m8800 (T8800.decode b data)
  | m8801 b => wrapDec m8801 (T8801.decode b data)
  | m8802 b => wrapDec m8802 (T8802.decode env b data)
  | m8803 b => wrapDec m8803 (T8803.decode env b data)
  | m8804 b => wrapDec m8804 (T8804.decode b data)
  | m8805 b => wrapDec m8805 (T8805.decode b data)
  | m8900 b => wrapDec m8900 (T0900.decode b data)
  | m0900 b => wrapDec m0900 (T0900.decode b data)
  | m0901 b => wrapDec m0901 (T0901.decode env b data)
  | m0a00 b => wrapDec m0a00 (T0A00.decode b data)
  | m8a00 b => wrapDec m8a00 (T0A00.decode b data)

/-- protocol/register.go:140-336 `entityMapper`: the creator's fresh value for a message id. -/
def create (id : UInt16) : Option Entity :=
  if id = 0x0001 then some (m0001 {})
  else if id = 0x0002 then some (m0002 {})
  else if id = 0x0003 then some (m0003 {})
  else if id = 0x0100 then some (m0100 {})
  else if id = 0x0102 then some (m0102 {})
  else if id = 0x0104 then some (m0104 {})
  else if id = 0x0107 then some (m0107 {})
  else if id = 0x0108 then some (m0108 {})
  else if id = 0x0200 then some (m0200 {})
  else if id = 0x0201 then some (m0201 {})
  else if id = 0x0301 then some (m0301 {})
  else if id = 0x0302 then some (m0302 {})
  else if id = 0x0303 then some (m0303 {})
  else if id = 0x0500 then some (m0500 {})
  else if id = 0x0700 then some (m0700 {})
  else if id = 0x0701 then some (m0701 {})
  else if id = 0x0702 then some (m0702 {})
  else if id = 0x0704 then some (m0704 {})
  else if id = 0x0705 then some (m0705 {})
  else if id = 0x0800 then some (m0800 {})
  else if id = 0x0801 then some (m0801 {})
  else if id = 0x0802 then some (m0802 {})
  else if id = 0x0805 then some (m0805 {})
  else if id = 0x8001 then some (m8001 {})
  else if id = 0x8003 then some (m8003 {})
  else if id = 0x8100 then some (m8100 {})
  else if id = 0x8103 then some (m8103 {})
  else if id = 0x8104 then some (m8104 {})
  else if id = 0x8105 then some (m8105 {})
  else if id = 0x8106 then some (m8106 {})
  else if id = 0x8107 then some (m8107 {})
  else if id = 0x8108 then some (m8108 {})
  else if id = 0x8201 then some (m8201 {})
  else if id = 0x8202 then some (m8202 {})
  else if id = 0x8203 then some (m8203 {})
  else if id = 0x8300 then some (m8300 {})
  else if id = 0x8301 then some (m8301 {})
  else if id = 0x8302 then some (m8302 {})
  else if id = 0x8303 then some (m8303 {})
  else if id = 0x8304 then some (m8304 {})
  else if id = 0x8400 then some (m8400 {})
  else if id = 0x8401 then some (m8401 {})
  else if id = 0x8500 then some (m8500 {})
  else if id = 0x8600 then some (m8600 {})
  else if id = 0x8601 then some (m8601 {})
  else if id = 0x8602 then some (m8602 {})
  else if id = 0x8603 then some (m8603 {})
  else if id = 0x8604 then some (m8604 {})
  else if id = 0x8605 then some (m8605 {})
  else if id = 0x8606 then some (m8606 {})
  else if id = 0x8607 then some (m8607 {})
  else if id = 0x8700 then some (m8700 {})
  else if id = 0x8701 then some (m8701 {})
  else if id = 0x8702 then some (m8702 {})
  else if id = 0x8800 then some (m8800 {})
  else if id = 0x8801 then some (m8801 {})
  else if id = 0x8802 then some (m8802 {})
  else if id = 0x8803 then some (m8803 {})
  else if id = 0x8804 then some (m8804 {})
  else if id = 0x8805 then some (m8805 {})
  else if id = 0x8900 then some (m8900 {})
  else if id = 0x0900 then some (m0900 {})
  else if id = 0x0901 then some (m0901 {})
  else if id = 0x0a00 then some (m0a00 {})
  else if id = 0x8a00 then some (m8a00 {})
  else none

/-- The `EntityPacket` type assertion (protocol/entity.go:13-19); only `*T808_0x0801` has these methods
(protocol/t808_0x0801.go:118-137). -/
def isPacket : Entity → Bool
  | m0801 _ => true
  | _ => false

/-- protocol/message.go:182-203 `Message.decode`. -/
def decodeBody (env : Env) (typ : UInt16) (data : Bytes) : Res (Entity × Nat) :=
  match create typ with
  | none => .err .typeNotRegistered
  | some e =>
    match e with
    | m0801 b =>
      match T0801.decodePacket env b data with
      | .ok b' => .ok (m0801 b', data.length)
      | .err x => .err x
      | .panic => .panic
    | e => decode env e data

end Entity
end Verif
