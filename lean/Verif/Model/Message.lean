import Verif.Model.Header
/-! # protocol/message.go and the RSA helpers of protocol/helpers.go

The message layer does not depend on the concrete bodies, so it is modelled for any body type `E` with any
codec; `Verif.Model.Entity` supplies the registered types. -/

namespace Verif

/-! ## RSA-OAEP -/

/-- `rsa.PublicKey` as used for encryption. `size` is `Size()`; `enc i block` is the result of encrypting
a block (`none` = error). Encryption is randomised, so it may depend on the position `i` of the call.
(protocol/helpers.go:14-25.) -/
structure EncKey where
  size : Int
  enc : Nat → Bytes → Option Bytes

/-- `rsa.PrivateKey` as used for decryption (protocol/helpers.go:28-39). -/
structure DecKey where
  size : Int
  dec : Bytes → Option Bytes

/-- protocol/helpers.go:17-23: the encryption loop. -/
def encryptLoop (k : EncKey) : Nat → List Bytes → Res Bytes
  | _, [] => .ok []
  | i, c :: cs =>
    match k.enc i c with
    | none => .err .rsa
    | some x => do
      let rest ← encryptLoop k (i + 1) cs
      .ok (x ++ rest)

/-- protocol/helpers.go:14-25 `EncryptOAEP` with SHA-1 (`hash.Size() = 20`), as called in message.go:34. -/
def encryptOAEP (k : EncKey) (msg : Bytes) : Res Bytes := do
  let chunks ← bytesSplit msg (k.size - 2 * 20 - 2)
  encryptLoop k 0 chunks

/-- protocol/helpers.go:31-37: the decryption loop. -/
def decryptLoop (k : DecKey) : List Bytes → Res Bytes
  | [] => .ok []
  | c :: cs =>
    match k.dec c with
    | none => .err .rsa
    | some x => do
      let rest ← decryptLoop k cs
      .ok (x ++ rest)

/-- protocol/helpers.go:28-39 `DecryptOAEP`. -/
def decryptOAEP (k : DecKey) (cipher : Bytes) : Res Bytes := do
  let chunks ← bytesSplit cipher k.size
  decryptLoop k chunks

/-! ## Messages -/

/-- The methods of a family of body types that the message layer uses: `MsgID()`, `Encode()` (bytes and
receiver afterwards) and `Message.decode` (protocol/message.go:182-203). -/
structure BodyCodec (E : Type) where
  msgID : E → UInt16
  encode : E → Res (Bytes × E)
  decode : UInt16 → Bytes → Res (E × Nat)

/-- The interface value `Message.Body`: nil, a nil pointer of the type with the given id, or a value (protocol/message.go:16). -/
inductive Body (E : Type) where
  | nil
  | nilPtr (id : UInt16)
  | val (e : E)
  deriving DecidableEq, Repr

/-- protocol/message.go:14-17 `Message`. -/
structure Message (E : Type) where
  header : Header := {}
  body : Body E := .nil
  deriving DecidableEq, Repr

/-- protocol/message.go:206-219 `write`: the bytes appended for `data`. -/
def escape (data : Bytes) : Bytes :=
  data.flatMap fun b => if b = 0x7e then [0x7d, 0x02] else if b = 0x7d then [0x7d, 0x01] else [b]

/-- protocol/message.go:222-232 `computeChecksum`. The second result (`count`) only presizes a buffer and
is left out. -/
def computeChecksum (data : Bytes) (checkSum : UInt8) : UInt8 := data.foldl (fun c b => c ^^^ b) checkSum

/-- protocol/message.go:94-120: the unescape loop, with the remaining data, the running checksum and the
buffer as loop state. -/
def unescapeLoop : Bytes → UInt8 → Bytes → Res (UInt8 × Bytes)
  | [], c, buf => .ok (c, buf)
  | b :: t, c, buf =>
    if b ≠ 0x7d then unescapeLoop t (c ^^^ b) (buf ++ [b])
    else match t with
      | [] => .err .invalidMessage
      | b' :: t' =>
        if b' = 0x01 then unescapeLoop t' (c ^^^ 0x7d) (buf ++ [0x7d])
        else if b' = 0x02 then unescapeLoop t' (c ^^^ 0x7e) (buf ++ [0x7e])
        else .err .invalidMessage

/-- protocol/message.go:79-91: the check byte and the data before it. -/
def splitChecksum (data : Bytes) : Res (UInt8 × Bytes) := do
  let n := data.length
  let last ← idx data ((n : Int) - 1)
  let before ← idx data ((n : Int) - 2)
  if before ≠ 0x7d then do
    let d ← slice data 0 (n - 1)
    .ok (last, d)
  else if last = 0x01 then do
    let d ← slice data 0 (n - 2)
    .ok (0x7d, d)
  else if last = 0x02 then do
    let d ← slice data 0 (n - 2)
    .ok (0x7e, d)
  else .err .invalidMessage

namespace Message
variable {E : Type}

/-- protocol/message.go:24-43: the body bytes, the header and the body after encoding the body. -/
def encodeBody (C : BodyCodec E) (key : Option EncKey) (m : Message E) : Res (Bytes × Header × Body E) :=
  match m.body with
  | .val e => do
    let (b, e') ← C.encode e
    match key with
    | none => .ok (b, m.header, .val e')
    | some k => do
      let x ← encryptOAEP k b
      .ok (x, { m.header with property := Property.enableEncrypt m.header.property }, .val e')
  | b => .ok ([], m.header, b)

/-- `message.Body.MsgID()`: panics on a nil interface; the methods of the registered types do not look at
the receiver, so a nil pointer is fine.
(protocol/message.go:47.) -/
def bodyMsgID (C : BodyCodec E) : Body E → Res UInt16
  | .nil => .panic
  | .nilPtr id => .ok id
  | .val e => .ok (C.msgID e)

/-- protocol/message.go:20-65 `Encode`; returns the frame and the message afterwards. -/
def encode (C : BodyCodec E) (key : Option EncKey) (m : Message E) : Res (Bytes × Message E) := do
  let (body, hdr, b') ← encodeBody C key m
  let sum := computeChecksum body 0
  let id ← bodyMsgID C m.body
  let prop ← Property.setBodySize hdr.property (UInt16.ofNat body.length)
  let (hb, hdr') ← Header.encode { hdr with msgID := id, property := prop }
  let sum := computeChecksum hb sum
  .ok ([0x7e] ++ escape hb ++ escape body ++ escape [sum] ++ [0x7e], { header := hdr', body := b' })

/-- protocol/message.go:70-135: envelope, escaping, checksum and header; returns the header and the content
bytes. -/
def decodeEnvelope (data : Bytes) : Res (Header × Bytes) := do
  let n := data.length
  if n < 2 then .err .invalidMessage
  else do
    let first ← idx data 0
    let last ← idx data ((n : Int) - 1)
    if first ≠ 0x7e ∨ last ≠ 0x7e then .err .invalidMessage
    else do
      let inner ← slice data 1 (n - 1)
      if inner.length = 0 then .err .invalidMessage
      else do
        let (sum, d) ← splitChecksum inner
        let (c, buffer) ← unescapeLoop d 0 []
        if buffer.length = 0 ∨ c ≠ sum then .err .invalidCheckSum
        else if buffer.length < 12 then .err .invalidHeader
        else do
          let h ← Header.decode {} buffer
          .ok (h, buffer)

/-- protocol/message.go:136-140: the bytes behind the header. -/
def contentOf (h : Header) (buffer : Bytes) : Res Bytes :=
  if Property.isEnablePacket h.property then slice buffer 16 buffer.length
  else slice buffer 12 buffer.length

/-- protocol/message.go:150-167: the decrypted body bytes. -/
def plainContent (key : Option DecKey) (h : Header) (content : Bytes) : Res Bytes :=
  if Property.isEnableEncrypt h.property then
    match key with
    | none => .err .decryptFailed
    | some k => (decryptOAEP k content).mapErr fun _ => .decryptFailed
  else .ok content

/-- protocol/message.go:169-177: body decoding; the body afterwards. An error of the body decoder is logged
and leaves the body as it was. -/
def decodeContent (C : BodyCodec E) (old : Body E) (h : Header) (content : Bytes) : Res (Body E) :=
  match C.decode h.msgID content with
  | .ok (e, _) => .ok (.val e)
  | .err _ => .ok old
  | .panic => .panic

/-- protocol/message.go:68-181 `Decode` on the receiver `self`. The receiver is unchanged on error. -/
def decode (C : BodyCodec E) (key : Option DecKey) (self : Message E) (data : Bytes) : Res (Message E) := do
  let (h, buffer) ← decodeEnvelope data
  let content ← contentOf h buffer
  if UInt16.ofNat content.length ≠ Property.getBodySize h.property then
    .ok { header := h, body := self.body }
  else do
    let plain ← plainContent key h content
    let b ← decodeContent C self.body h plain
    .ok { header := h, body := b }

end Message
end Verif
