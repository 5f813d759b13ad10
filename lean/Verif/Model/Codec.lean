import Verif.Model.Message
import Verif.Model.Entity
/-! # protocol.go: the connection codec -/

namespace Verif

/-- The methods of the registered body types (protocol/register.go:140-336), for the message layer. -/
def entityCodec (env : Env) : BodyCodec Entity where
  msgID := Entity.msgID
  encode := Entity.encode env
  decode := Entity.decodeBody env

/-- The receiving side of a codec (protocol.go:32-39). `buffer` is `bufferReceiving`; `reads` are the results
of the coming `io.ReadAtLeast(codec.r, buffer[:], 1)` calls, each with 1 to 128 bytes; when they are
used up the call fails with the connection's error. -/
structure RecvState where
  buffer : Bytes
  reads : List Bytes
  deriving DecidableEq, Repr

namespace Codec
variable {E : Type}

/-- protocol.go:136-185 `readFromBuffer`: the outcome (`ok none` = no complete frame yet) and the buffer
afterwards. The private key and the body codec are parameters. A panic leaves the buffer as it was. -/
def readFromBuffer (C : BodyCodec E) (key : Option DecKey) (data : Bytes) : Res (Option (Message E)) × Bytes :=
  match data with
  | [] => (.ok none, [])
  | b :: t =>
    if b ≠ 0x7e then (.err .notFoundPrefixID, data.dropWhile (· ≠ 0x7e))
    else
      let inner := t.takeWhile (· ≠ 0x7e)
      if inner.length = t.length then (.ok none, data)
      else
        match Message.decode C key {} (data.take (inner.length + 2)) with
        | .ok m => (.ok (some m), data.drop (inner.length + 2))
        | .err e => (.err e, data.drop (inner.length + 2))
        | .panic => (.panic, data)

/-- protocol.go:111-132: the read loop. `endErr` is the error of the connection when no reads are left. -/
def recvLoop (C : BodyCodec E) (key : Option DecKey) (endErr : Err) :
    List Bytes → Bytes → Res (Message E) × RecvState
  | [], buf => (.err endErr, ⟨buf, []⟩)
  | chunk :: reads, buf =>
    let buf := buf ++ chunk
    if buf.length = 0 then recvLoop C key endErr reads buf
    else if buf.length > 0xffff then (.err .bodyTooLong, ⟨buf, reads⟩)
    else
      match readFromBuffer C key buf with
      | (.ok (some m), buf') => (.ok m, ⟨buf', reads⟩)
      | (.ok none, buf') => recvLoop C key endErr reads buf'
      | (.err e, buf') => (.err e, ⟨buf', reads⟩)
      | (.panic, buf') => (.panic, ⟨buf', reads⟩)

/-- protocol.go:101-133 `Receive`. -/
def receive (C : BodyCodec E) (key : Option DecKey) (endErr : Err) (s : RecvState) : Res (Message E) × RecvState :=
  match readFromBuffer C key s.buffer with
  | (.ok (some m), buf) => (.ok m, { s with buffer := buf })
  | (.ok none, buf) => recvLoop C key endErr s.reads buf
  | (.err e, buf) => (.err e, { s with buffer := buf })
  | (.panic, buf) => (.panic, { s with buffer := buf })

/-- protocol.go:60-98 `Send` of a `protocol.Message`, up to `codec.w.Write`: the bytes written. (Any other
argument type gives ErrInvalidMessage.) -/
def sendBytes (C : BodyCodec E) (publicKey : Option EncKey) (m : Message E) : Res Bytes :=
  match publicKey with
  | none => (Message.encode C none m).bind fun r => .ok r.1
  | some k =>
    if !Property.isEnableEncrypt m.header.property then (Message.encode C none m).bind fun r => .ok r.1
    else (Message.encode C (some k) m).bind fun r => .ok r.1

end Codec
end Verif
