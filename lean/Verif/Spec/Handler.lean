import Verif.Model.Handler
import Verif.Spec.Multipart
import Verif.Spec.Wire
/-! # What the receive loop should do -/

namespace Verif.Spec
open Handler

/-- The handler registered last for a message id. -/
def lastRegistered (id : UInt16) (log : List Act) : Option Nat :=
  log.foldl (fun h a => match a with
    | .registered id' h' => if id' = id then some h' else h
    | _ => h) none

/-- The messages offered to the handlers, in order. -/
def offered (log : List Act) : List (Message Entity) :=
  log.filterMap fun
    | .handle _ m => some m
    | .unhandled m => some m
    | _ => none

/-- The replies sent by the loop, in order. -/
def replies (log : List Act) : List (UInt16 × UInt16 × UInt8) :=
  log.filterMap fun
    | .reply s i r => some (s, i, r)
    | _ => none

/-- The calls on the storage, in order. -/
def fileOps (log : List Act) : List FileOp :=
  log.filterMap fun
    | .wrote f seq data o => some (.write ⟨f.icc, f.msgID, f.tag⟩ seq data o)
    | .merged f o => some (.merge ⟨f.icc, f.msgID, f.tag⟩ o)
    | _ => none

/-- The messages a session receives until the first error, with what happens around them. -/
def receivedIn : List Input → List (Message Entity × Around)
  | [] => []
  | .outside _ :: is => receivedIn is
  | .receive (.ok m) a :: is => (m, a) :: receivedIn is
  | .receive _ _ :: _ => []

/-- The message is one part of an upload that the server puts together: automatic merging is on, the packet flag is set and the body is of
type 0x0801. -/
def isPart (auto : Bool) (m : Message Entity) : Bool :=
  auto && packetFlag m.header.property.toNat && match m.body with | .val (.m0801 _) => true | _ => false

/-- The body was decoded. -/
def hasBody (m : Message Entity) : Bool := match m.body with | .val _ => true | _ => false

/-- The reply due to a received message: to an undecodable one "unsupported" (3), to a part of an upload "success" (0) or "failure" (1) depending on
whether it was stored, to other messages none (their handlers reply). -/
def due (auto : Bool) (m : Message Entity) (a : Around) : List (UInt16 × UInt16 × UInt8) :=
  if !hasBody m then [(m.header.serial, m.header.msgID, 3)]
  else if isPart auto m then [(m.header.serial, m.header.msgID, if a.write = .ok then 0 else 1)]
  else []

/-- The message as the decoder delivers it: the body belongs to the message id, a header with packet flag has packet information, and an upload has a
content. -/
structure Delivered (m : Message Entity) : Prop where
  type : ∀ e, m.body = .val e → e.msgID = m.header.msgID
  packet : packetFlag m.header.property.toNat = true → m.header.packet.isSome
  content : ∀ b, m.body = .val (.m0801 b) → b.packet.isSome

/-- The input is possible: a received message was delivered by the decoder, and receiving did not crash. -/
def Arrived : Input → Prop
  | .outside _ => True
  | .receive (.ok m) _ => Delivered m
  | .receive (.err _) _ => True
  | .receive .panic _ => False

/-- The upload, packet information and content of a message that is a part of an upload. -/
def partOf (auto : Bool) (m : Message Entity) : Option (Upload × Packet × Bytes) :=
  if isPart auto m then
    match m.body, m.header.packet with
    | .val (.m0801 b), some p => b.packet.map fun data => (⟨m.header.iccID, m.header.msgID, b.mediaID⟩, p, data)
    | _, _ => none
  else none

/-- The message with header of `m`, the fields of `b` and the merged content. -/
abbrev mergedMessage (m : Message Entity) (b : T0801) (content : Bytes) : Message Entity :=
  { m with body := .val (.m0801 { b with packet := some content }) }

/-- The message is a part of the upload, or the merged upload. -/
def belongs (auto : Bool) (u : Upload) (m : Message Entity) : Bool := (partOf auto m).map (·.1) == some u

/-- The parts of an upload among the received messages, as calls that store them. -/
def partWrites (auto : Bool) (u : Upload) (ms : List (Message Entity × Around)) : List FileOp :=
  ms.filterMap fun (m, a) => (partOf auto m).bind fun (u', p, data) => if u' = u then some (.write u p.seq data a.write) else none

/-- A step of another goroutine is about the storage of the upload. -/
def concerns (u : Upload) : Outside → Bool
  | .write f _ _ _ => (⟨f.icc, f.msgID, f.tag⟩ : Upload) == u
  | .merge f _ => (⟨f.icc, f.msgID, f.tag⟩ : Upload) == u
  | _ => false

/-- No other goroutine touches the storage of the upload while a message is handled. -/
def Quiet (u : Upload) (a : Around) : Prop := ∀ x ∈ a.afterWrite ++ a.afterCheck ++ a.afterMerge ++ a.beforeDispatch, concerns u x = false

/-- No other goroutine touches the storage of the upload. -/
def Undisturbed (u : Upload) : Input → Prop
  | .outside x => concerns u x = false
  | .receive _ a => Quiet u a

/-- The same history with all code of the user returning. -/
def calm : Input → Input
  | .outside x => .outside x
  | .receive r a => .receive r { a with callback := .returns, handler := .returns }

end Verif.Spec
