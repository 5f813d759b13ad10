import Verif.Model.Params
/-! # protocol/extra: additional information items of location reports -/

namespace Verif

open Param (be16 be32)

/-- The `value` field of the twelve extra types in protocol/extra/0x*.go, tagged with the type. -/
inductive ExtraVal where
  /-- 0x01.go:9-12 -/ | x01 (v : UInt32)
  /-- 0x02.go:9-12 -/ | x02 (v : UInt16)
  /-- 0x03.go:9-12 -/ | x03 (v : UInt16)
  /-- 0x04.go:9-12 -/ | x04 (v : UInt16)
  /-- 0x11.go:10-18 -/ | x11 (type : UInt8) (areaID : Option UInt32)
  /-- 0x12.go:10-19 -/ | x12 (type : UInt8) (areaID : UInt32) (direction : UInt8)
  /-- 0x13.go:10-19 -/ | x13 (roadID : UInt32) (duration : UInt16) (result : UInt8)
  /-- 0x25.go:9-12 -/ | x25 (v : UInt32)
  /-- 0x2a.go:9-12 -/ | x2a (v : UInt16)
  /-- 0x2b.go:9-12 -/ | x2b (v : UInt32)
  /-- 0x30.go:8-11 -/ | x30 (v : UInt8)
  /-- 0x31.go:8-11 -/ | x31 (v : UInt8)
  deriving DecidableEq, Repr

/-- An extra: its value and the `serialized` bytes returned by `Data()` (protocol/extra/0x01.go:9-12 and the same in the other files of
protocol/extra). -/
structure Extra where
  val : ExtraVal
  serialized : Bytes
  deriving DecidableEq, Repr

namespace Extra

/-- The `ID()` methods, e.g. protocol/extra/0x01.go:25-27, with the constants of register.go:6-31. -/
def id (e : Extra) : UInt8 :=
  match e.val with
  | .x01 _ => 0x01 | .x02 _ => 0x02 | .x03 _ => 0x03 | .x04 _ => 0x04
  | .x11 _ _ => 0x11 | .x12 _ _ _ => 0x12 | .x13 _ _ _ => 0x13
  | .x25 _ => 0x25 | .x2a _ => 0x2a | .x2b _ => 0x2b | .x30 _ => 0x30 | .x31 _ => 0x31

/-- The constructors `NewExtra_0x..`: 0x01.go:14-23, 0x02.go:14-23, 0x03.go:14-23, 0x04.go:14-23, 0x11.go:20-34,
0x12.go:21-37, 0x13.go:21-38, 0x25.go:14-23, 0x2a.go:14-23, 0x2b.go:14-23, 0x30.go:13-19, 0x31.go:13-19. -/
def new (v : ExtraVal) : Extra :=
  { val := v
    serialized := match v with
      | .x01 v => put32 v
      | .x02 v => put16 v
      | .x03 v => put16 v
      | .x04 v => put16 v
      | .x11 t a => t :: (if t ≠ 0 then (match a with | some a => put32 a | none => []) else [])
      | .x12 t a d => t :: put32 a ++ [d]
      | .x13 r d x => put32 r ++ put16 d ++ [x]
      | .x25 v => put32 v
      | .x2a v => put16 v
      | .x2b v => put32 v
      | .x30 v => [v]
      | .x31 v => [v] }

/-- A decoded extra: value filled in, `serialized` left nil (no `Decode` method sets it) (e.g. protocol/extra/0x01.go:37-43). -/
def decoded (v : ExtraVal) : Extra := ⟨v, []⟩

/-- Four-byte integer extras: 0x01.go:37-43, 0x25.go:37-43, 0x2b.go:37-43. -/
def dec32 (mk : UInt32 → ExtraVal) (data : Bytes) : Res (Extra × Nat) :=
  if data.length < 4 then .err .invalidExtraLength
  else be32 data >>= fun v => .ok (decoded (mk v), 4)

/-- Two-byte integer extras: 0x02.go:37-43, 0x03.go:37-43, 0x04.go:37-43, 0x2a.go:37-43. -/
def dec16 (mk : UInt16 → ExtraVal) (data : Bytes) : Res (Extra × Nat) :=
  if data.length < 2 then .err .invalidExtraLength
  else be16 data >>= fun v => .ok (decoded (mk v), 2)

/-- One-byte extras: 0x30.go:33-39, 0x31.go:33-39. -/
def dec8 (mk : UInt8 → ExtraVal) (data : Bytes) : Res (Extra × Nat) :=
  if data.length < 1 then .err .invalidExtraLength
  else idx data 0 >>= fun v => .ok (decoded (mk v), 1)

/-- 0x11.go:48-64. -/
def dec11 (data : Bytes) : Res (Extra × Nat) :=
  if data.length < 1 then .err .invalidExtraLength
  else do
    let t ← idx data 0
    if t = 0 then .ok (decoded (.x11 0 none), 1)
    else do
      let tail ← slice data 1 data.length
      if tail.length < 4 then .err .invalidExtraLength
      else do
        let a ← be32 tail
        .ok (decoded (.x11 t (some a)), 5)

/-- 0x12.go:51-60. -/
def dec12 (data : Bytes) : Res (Extra × Nat) :=
  if data.length < 6 then .err .invalidExtraLength
  else do
    let t ← idx data 0
    let a ← slice data 1 5 >>= be32
    let d ← idx data 5
    .ok (decoded (.x12 t a d), 6)

/-- 0x13.go:52-61. -/
def dec13 (data : Bytes) : Res (Extra × Nat) :=
  if data.length < 7 then .err .invalidExtraLength
  else do
    let r ← slice data 0 4 >>= be32
    let d ← slice data 4 6 >>= be16
    let x ← idx data 6
    .ok (decoded (.x13 r d x), 7)

/-- protocol/extra/extra.go:17-33 `Decode` with the default registry of register.go:34-71
(for extras registered by the application through `Register` see Model/Registered.lean). -/
def decode (typ : UInt8) (data : Bytes) : Res (Extra × Nat) :=
  if typ = 0x01 then dec32 .x01 data
  else if typ = 0x02 then dec16 .x02 data
  else if typ = 0x03 then dec16 .x03 data
  else if typ = 0x04 then dec16 .x04 data
  else if typ = 0x11 then dec11 data
  else if typ = 0x12 then dec12 data
  else if typ = 0x13 then dec13 data
  else if typ = 0x25 then dec32 .x25 data
  else if typ = 0x2a then dec16 .x2a data
  else if typ = 0x2b then dec32 .x2b data
  else if typ = 0x30 then dec8 .x30 data
  else if typ = 0x31 then dec8 .x31 data
  else .err .typeNotRegistered

end Extra
end Verif
