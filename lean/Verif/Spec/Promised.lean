import Verif.Spec.Converse
import Verif.Spec.Deliveries
/-! # What a terminal gets from a server whose answers depend on the messages alone

`answers m` are the bodies that the handlers send for a message `m`. The specification says which messages the server sends, from the messages it receives; it
knows neither sessions nor requests. -/

namespace Verif.Spec
open Converse Handler

/-- The terminal number a session goes by after the message. -/
def terminalAfter (icc : UInt64) (m : Message Entity) : UInt64 := if m.header.iccID = 0 then icc else m.header.iccID

/-- The server's own answer to a message. -/
def resultTo (m : Message Entity) (result : UInt8) : Entity := .m8001 { replySerial := m.header.serial, replyID := m.header.msgID, result := result }

/-- Whether the part just stored completes its upload: it has the highest number and all parts are stored. If so: the merged content, if merging succeeds. `h` are
the calls on the storage so far, with this part. -/
def mergeDue (u : Upload) (p : Packet) (o : Outcome × Outcome) (h : List FileOp) : Option (Option Bytes) :=
  if o.1 = .ok ∧ p.seq = p.sum ∧ allStored u p.sum.toNat h = true then some (if o.2 = .ok then mergedIn u (.merge u .ok :: h) else none) else none

/-- The bodies that go out for the messages received, in order, with the terminal numbers they are addressed to. Every message comes with what the operating
system does to the write and the merge it may lead to. `icc` is the terminal number so far, `h` the calls on the storage so far. A message without body gets
"unsupported"; a part of an upload gets "success" or "failure"; when it completes the upload, the merged message gets the answers of the handlers; any other
message gets the answers of the handlers. -/
def promised (answers : Message Entity → List Entity) (auto : Bool) :
    UInt64 → List FileOp → List (Message Entity × Outcome × Outcome) → List (UInt64 × Entity)
  | _, _, [] => []
  | icc, h, (m, o) :: ms =>
    if hasBody m = false then (icc, resultTo m 3) :: promised answers auto icc h ms
    else
      match partOf auto m with
      | none => (answers m).map (terminalAfter icc m, ·) ++ promised answers auto (terminalAfter icc m) h ms
      | some (u, p, data) =>
        (icc, resultTo m (if o.1 = .ok then 0 else 1)) ::
          match mergeDue u p o (.write u p.seq data o.1 :: h) with
          | none => promised answers auto icc (.write u p.seq data o.1 :: h) ms
          | some none => promised answers auto icc (.merge u o.2 :: .write u p.seq data o.1 :: h) ms
          | some (some content) =>
            (answers (withContent m content)).map (terminalAfter icc m, ·) ++
              promised answers auto (terminalAfter icc m) (.merge u o.2 :: .write u p.seq data o.1 :: h) ms

/-- The messages given to the handlers, in order. -/
def givenTo (auto : Bool) : List FileOp → List (Message Entity × Outcome × Outcome) → List (Message Entity)
  | _, [] => []
  | h, (m, o) :: ms =>
    if hasBody m = false then givenTo auto h ms
    else
      match partOf auto m with
      | none => m :: givenTo auto h ms
      | some (u, p, data) =>
        match mergeDue u p o (.write u p.seq data o.1 :: h) with
        | none => givenTo auto (.write u p.seq data o.1 :: h) ms
        | some none => givenTo auto (.merge u o.2 :: .write u p.seq data o.1 :: h) ms
        | some (some content) => withContent m content :: givenTo auto (.merge u o.2 :: .write u p.seq data o.1 :: h) ms

/-- The messages with these bodies and terminal numbers, numbered from the first message of a session on. -/
def numbered (xs : List (UInt64 × Entity)) : List (Message Entity) := xs.zipIdx.map fun x => outgoing x.1.1 x.2 x.1.2

/-- The messages received, in order. -/
def receivedOf (log : List Ev) : List (Message Entity) := log.filterMap fun | .received m => some m | _ => none

/-- The code sends these bodies, one after the other, and leaves the data `u`, whatever the results of the calls are. -/
inductive Sends {σ : Type} (u : σ) : Code σ → List Entity → Prop where
  | returns : Sends u (.returns u) []
  | panics : Sends u (.panics u) []
  | send {e : Entity} {next : Option UInt16 → Code σ} {es : List Entity} : (∀ r, Sends u (next r) es) → Sends u (.send e next) (e :: es)
  | request {e : Entity} {cb : Nat} {next : Option UInt16 → Code σ} {es : List Entity} : (∀ r, Sends u (next r) es) → Sends u (.request e cb next) (e :: es)

/-- The message is as the decoder delivers it, and a location report has no nil among its additional items. -/
def Decoded (m : Message Entity) : Prop := Delivered m ∧ ∀ b, m.body = .val (.m0200 b) → none ∉ b.extras

/-! ## What the README and the example promise -/

/-- README.md, first server: every location report is answered with "success". -/
def readmeFirst (m : Message Entity) : List Entity := if m.header.msgID = 0x0200 then [resultTo m 0] else []

/-- README.md, second server: every location report is answered with "success" and a query for the terminal's parameters. -/
def readmeSecond (m : Message Entity) : List Entity := if m.header.msgID = 0x0200 then [resultTo m 0, .m8104 {}] else []

/-- The media id of an upload. -/
def mediaOf (m : Message Entity) : Option UInt32 := match m.body with | .val (.m0801 b) => some b.mediaID | _ => none

/-- The content of an upload. -/
def contentOf (m : Message Entity) : Option Bytes := match m.body with | .val (.m0801 b) => b.packet | _ => none

/-- README.md, third server: every upload is acknowledged with its media id. -/
def readmeThird (m : Message Entity) : List Entity := (mediaOf m).toList.map fun id => .m8800 { mediaID := id }

/-- example/server: authentication is answered with "success" and a query for the parameters, location reports with "success", uploads with an acknowledgement,
public keys with "success" and, if the server has a key, with its public half. -/
def exampleAnswers (own : Option PubKey) (m : Message Entity) : List Entity :=
  if m.header.msgID = 0x0102 then [resultTo m 0, .m8104 {}]
  else if m.header.msgID = 0x0200 then [resultTo m 0]
  else if m.header.msgID = 0x0801 then readmeThird m
  else if m.header.msgID = 0x0a00 then resultTo m 0 :: own.toList.map fun k => .m8a00 { publicKey := some k }
  else []

end Verif.Spec
