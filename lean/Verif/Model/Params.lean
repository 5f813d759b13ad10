import Verif.Model.Helpers
/-! # protocol/params.go: terminal parameters -/

namespace Verif

/-- protocol/params.go:12-15 `Param`. -/
structure Param where
  id : UInt32 := 0
  serialized : Bytes := []
  deriving DecidableEq, Repr

namespace Param

/-- protocol/params.go:23-27 `SetByte`. The setters overwrite both fields, so the receiver's old value is
not an argument. -/
def setByte (id : UInt32) (b : UInt8) : Param := ⟨id, [b]⟩

/-- protocol/params.go:30-36 `SetBytes`. -/
def setBytes (id : UInt32) (b : Bytes) : Param := ⟨id, b⟩

/-- protocol/params.go:39-45 `SetUint16`. -/
def setUint16 (id : UInt32) (n : UInt16) : Param := ⟨id, put16 n⟩

/-- protocol/params.go:48-54 `SetUint32`. -/
def setUint32 (id : UInt32) (n : UInt32) : Param := ⟨id, put32 n⟩

/-- protocol/params.go:57-64 `SetString`. The transformer's error is ignored; `ReadAll` then still returns
the part converted before the error, which the model takes to be empty. -/
def setString (env : Env) (id : UInt32) (s : Bytes) : Param :=
  if s.length = 0 then setBytes id []
  else match env.gbEnc s with
    | some d => setBytes id d
    | none => setBytes id []

/-- `binary.BigEndian.Uint16(data)`: panics when shorter than two bytes (protocol/params.go:86). -/
def be16 : Bytes → Res UInt16
  | a :: b :: _ => .ok (get16 a b)
  | _ => .panic

/-- `binary.BigEndian.Uint32(data)`: panics when shorter than four bytes (protocol/params.go:94). -/
def be32 : Bytes → Res UInt32
  | a :: b :: c :: d :: _ => .ok (get32 a b c d)
  | _ => .panic

/-- protocol/params.go:67-72 `GetByte`. -/
def getByte (p : Param) : Res UInt8 :=
  if p.serialized.length < 1 then .err .invalidBody else idx p.serialized 0

/-- protocol/params.go:75-79 `GetBytes`. -/
def getBytes (p : Param) : Res Bytes := .ok p.serialized

/-- protocol/params.go:82-87 `GetUint16`. -/
def getUint16 (p : Param) : Res UInt16 :=
  if p.serialized.length < 2 then .err .invalidBody
  else slice p.serialized 0 2 >>= be16

/-- protocol/params.go:90-95 `GetUint32`. -/
def getUint32 (p : Param) : Res UInt32 :=
  if p.serialized.length < 4 then .err .invalidBody
  else slice p.serialized 0 4 >>= be32

/-- protocol/params.go:98-105 `GetString` (not cut at NUL). -/
def getString (env : Env) (p : Param) : Res Bytes :=
  match env.gbDec p.serialized with
  | some t => .ok t
  | none => .err .text

end Param
end Verif
