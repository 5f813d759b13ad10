import Verif.Model.Converse
/-! # README.md: the three servers shown there

Printing and logging are left out where they only read; what the callback of the second server prints and what the handler of the third one reads is kept as
data of the program. -/

namespace Verif.Readme
open Converse

/-- What the servers show of the messages: the parameter ids printed (README.md:89-91) and the buffers read (README.md:119-120), in order. -/
structure Seen where
  printed : List UInt32 := []
  buffers : List Bytes := []
  deriving DecidableEq, Repr

/-- `session.Reply(message, protocol.T808_0x8100_ResultSuccess)` (README.md:58, 84; session.go:88-95): the body. -/
def success (m : Message Entity) : Entity := .m8001 { replySerial := m.header.serial, replyID := m.header.msgID, result := 0 }

/-- README.md:32-59 `handleReportLocation`. The type assertion (line 34) panics for any other body, `ext.ID()` (line 48) for a nil interface; the assertions
of lines 50 and 52 hold, since the id belongs to the type. -/
def reportLocation (u : Seen) (m : Message Entity) : Code Seen :=
  match m.body with
  | .val (.m0200 b) => if b.extras.any (·.isNone) then .panics u else .send (success m) fun _ => .returns u
  | _ => .panics u

/-- README.md:82-93 `handleAuthentication`. The callback has the number 0. -/
def authentication (u : Seen) (m : Message Entity) : Code Seen :=
  .send (success m) fun _ => .request (.m8104 {}) 0 fun _ => .returns u

/-- README.md:87-92: the callback. The type assertion panics for any other body. The parameters of a decoded message are not nil (protocol/t808_0x0104.go:77-80). -/
def parameters (u : Seen) (m : Message Entity) : Code Seen :=
  match m.body with
  | .val (.m0104 b) => .returns { u with printed := u.printed ++ b.params.map (·.id) }
  | _ => .panics u

/-- README.md:119: 1024*1024 bytes. -/
def bufferSize : Nat := 1048576

/-- README.md:119-120: the buffer after one `Read`. `most` is the number of bytes that one call of `Read` gives at most, as far as the reader is concerned. -/
def readOnce (most : Nat) (content : Bytes) : Bytes :=
  let got := content.take (min most bufferSize)
  got ++ List.replicate (bufferSize - got.length) 0

/-- README.md:115-125 `handleUploadMediaPacket`. `entity.Packet.Read` (line 120) panics for a nil interface. -/
def uploadMedia (most : Nat) (u : Seen) (m : Message Entity) : Code Seen :=
  match m.body with
  | .val (.m0801 b) =>
    match b.packet with
    | some content =>
      .send (.m8800 { mediaID := b.mediaID }) fun _ => .returns { u with buffers := u.buffers ++ [readOnce most content] }
    | none => .panics u
  | _ => .panics u

/-- README.md:61-67: the first server. It makes no requests. -/
def first : Program Seen where
  handlers id := if id = 0x0200 then some 0 else none
  handler _ u m := reportLocation u m
  callback _ u _ := .returns u

/-- README.md:95-101: the second server. The handler is registered for 0x0200 (line 99). -/
def second : Program Seen where
  handlers id := if id = 0x0200 then some 0 else none
  handler _ u m := authentication u m
  callback _ u m := parameters u m

/-- README.md:127-134: the third server. It makes no requests. -/
def third (most : Nat) : Program Seen where
  handlers id := if id = 0x0801 then some 0 else none
  handler _ u m := uploadMedia most u m
  callback _ u _ := .returns u

end Verif.Readme
