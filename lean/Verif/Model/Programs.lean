import Verif.Model.Converse
import Verif.Model.Example
import Verif.Model.Params
/-! # example/server/server.go: the handlers of the example server; example/client/client.go: the example client

Printing and logging (example/server/server.go:59-61, 69-89, 102; example/client/client.go:241-245) are left out, except for what can panic there. -/

namespace Verif.Programs
open Converse

/-- The handlers, and what they keep: `session.SetPublicKey` (example/server/server.go:113) sets the key of the session's codec. No message the session sends has the flag
that would make the codec use it (C45). -/
abbrev Data := Option PubKey

/-- example/server/server.go:52-63 `handleAuthentication`. The results of `Reply` and `Request` are not looked at. The callback has the number 0. -/
def authentication (u : Data) (m : Message Entity) : Code Data :=
  .send (.m8001 { replySerial := m.header.serial, replyID := m.header.msgID, result := 0 }) fun _ =>
    .request (.m8104 {}) 0 fun _ => .returns u

/-- example/server/server.go:57-62: the callback. The type assertion panics for any other body. -/
def parameters (u : Data) (m : Message Entity) : Code Data :=
  match m.body with
  | .val (.m0104 _) => .returns u
  | _ => .panics u

/-- example/server/server.go:66-93 `handleReportLocation`. The type assertion panics for any other body, `ext.ID()` (line 82) for a nil interface; the assertions of lines
84 and 86 hold, since the id belongs to the type. -/
def reportLocation (u : Data) (m : Message Entity) : Code Data :=
  match m.body with
  | .val (.m0200 b) =>
    if b.extras.any (·.isNone) then .panics u
    else .send (.m8001 { replySerial := m.header.serial, replyID := m.header.msgID, result := 0 }) fun _ => .returns u
  | _ => .panics u

/-- example/server/server.go:96-107 `handleUploadMediaPacket`. `entity.Packet.Read` (line 101) panics for a nil interface. What is read is not used. -/
def uploadMedia (u : Data) (m : Message Entity) : Code Data :=
  match m.body with
  | .val (.m0801 b) =>
    match b.packet with
    | some _ => .send (.m8800 { mediaID := b.mediaID }) fun _ => .returns u
    | none => .panics u
  | _ => .panics u

/-- example/server/server.go:110-125 `handleUploadRsaPublicKey`. `own` is the public half of the server's key (lines 119-124; nil without key). -/
def uploadKey (own : Option PubKey) (u : Data) (m : Message Entity) : Code Data :=
  match m.body with
  | .val (.m0a00 b) =>
    .send (.m8001 { replySerial := m.header.serial, replyID := m.header.msgID, result := 0 }) fun _ =>
      match own with
      | some k => .send (.m8a00 { publicKey := some k }) fun _ => .returns b.publicKey
      | none => .returns b.publicKey
  | _ => .panics u

/-- example/server/server.go:139-142: the handlers registered. -/
def server (own : Option PubKey) : Program Data where
  handlers id :=
    if id = 0x0102 then some 0 else if id = 0x0200 then some 1 else if id = 0x0801 then some 2 else if id = 0x0a00 then some 3 else none
  handler h u m :=
    match h with
    | 0 => authentication u m
    | 1 => reportLocation u m
    | 2 => uploadMedia u m
    | _ => uploadKey own u m
  callback _ u m := parameters u m

/-- The example server on the bytes it reads from one connection, for `turns` turns of the loop, with nothing refused by the connection (example/server/server.go:133-143,
`AutoMergePacket`) and file operations succeeding: what it sends. `key` and `pub` are the keys of the codec. -/
def serverSends (env : Env) (key : Option DecKey) (pub : Option EncKey) (own : Option PubKey) (endErr : Err) (turns : Nat) (reads : List Bytes) : Res Bytes := do
  let (_, log) ← ({ user := none } : State Data).serve env key endErr true (server own) (List.replicate turns (.ok, .ok)) ⟨[], reads⟩
  .ok (wire env pub (log.filterMap fun | .sent m => some m | _ => none))

/-! ## The client -/

/-- example/client/client.go:75, 93, 118, 156, 220. -/
def icc : UInt64 := 19901234567

/-- example/client/client.go:96-105, 171-180: the location, with the time of the clock in whole seconds. -/
def location (now : Time) : T0200 :=
  { alarm := 2342, status := 0, lat := ⟨23562345, -6⟩, lng := ⟨-128323123, -6⟩, altitude := 2345, speed := 160, direction := 72, time := now }

/-- example/client/client.go:165-182: the media data. -/
def media (now : Time) : T0801 := { mediaID := 1024, type := 1, coding := 0, event := 13, channelID := 28, location := location now }

/-- example/client/client.go:79: the text "12345678". -/
def authKey : Bytes := [49, 50, 51, 52, 53, 54, 55, 56]

/-- example/client/client.go:73-192: the messages the client sends first. `now` is the clock, `key` the public half of its key (lines 116-125), `file` the content
uploaded (line 136: 2048 zero bytes). -/
def opening (now : Nat → Time) (key : PubKey) (file : Bytes) : Res (List (Message Entity)) := do
  let parts ← Example.upload file 0 512
  .ok ({ header := { iccID := icc, serial := 1 }, body := .val (.m0102 { authKey := authKey }) } ::
    { header := { iccID := icc, serial := 2 }, body := .val (.m0200 (location (now 0))) } ::
    { header := { iccID := icc, serial := 3 }, body := .val (.m0a00 { publicKey := some key }) } ::
    parts.zipIdx.map fun p => Example.message icc (media (now (p.2 + 1))) p.1)

/-- example/client/client.go:230: the text of the last parameter, in UTF-8. -/
def plate : Bytes := [0xe8, 0xbd, 0xa6, 0xe7, 0x89, 0x8c, 0xe5, 0x8f, 0xb7, 0xe7, 0xa0, 0x81]

/-- example/client/client.go:217-245: what the client sends for a received message. -/
def answer (env : Env) (m : Message Entity) : Option (Message Entity) :=
  if m.header.msgID = 0x8104 then
    some { header := { iccID := icc, serial := 1000 },
           body := .val (.m0104 { replySerial := m.header.serial,
                                  params := [Param.setByte 0x0084 24, Param.setBytes 0x0110 [1, 2, 3, 4, 5, 6, 7, 8], Param.setUint16 0x0031 100,
                                             Param.setUint32 0x0046 64000, Param.setString env 0x0083 plate] }) }
  else none

/-- example/client/client.go:209-214: the messages received until `Receive` fails, `turns` at most. The codec has no key (line 204). -/
def listen (env : Env) (endErr : Err) : Nat → RecvState → Res (List (Message Entity))
  | 0, _ => .ok []
  | n + 1, c =>
    match Codec.receive (entityCodec env) none endErr c with
    | (.ok m, c) => do
      let ms ← listen env endErr n c
      .ok (m :: ms)
    | (.err _, _) => .ok []
    | (.panic, _) => .panic

/-- `message.Encode()` and `conn.Write` for each of the messages (example/client/client.go:83-88 and so on): an error of `Encode` is a panic. -/
def encodeAll (env : Env) : List (Message Entity) → Res Bytes
  | [] => .ok []
  | m :: ms => do
    let b ← match Message.encode (entityCodec env) none m with
      | .ok (b, _) => .ok b
      | _ => .panic
    let bs ← encodeAll env ms
    .ok (b ++ bs)

/-- The example client on the bytes it reads: what it sends. -/
def clientSends (env : Env) (now : Nat → Time) (key : PubKey) (file : Bytes) (endErr : Err) (turns : Nat) (reads : List Bytes) : Res Bytes := do
  let first ← opening now key file
  let ms ← listen env endErr turns ⟨[], reads⟩
  encodeAll env (first ++ ms.filterMap (answer env))

end Verif.Programs
