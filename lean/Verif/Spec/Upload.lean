import Verif.Spec.Transfer
import Verif.Spec.Handler
/-! # Uploads as a terminal sends them -/

namespace Verif.Spec
open Handler

/-- The message, as the terminal hands it over, is a part of an upload: which upload, which part of how many, and its content. -/
def sentPart (x : Message Entity × Entity) : Option (Upload × Packet × Bytes) :=
  match x.2, x.1.header.packet with
  | .m0801 b, some p => b.packet.map fun data => (⟨x.1.header.iccID, 0x0801, b.mediaID⟩, p, data)
  | _, _ => none

/-- The content of a part of the upload, as it was sent last. -/
def lastSent (u : Upload) (xs : List (Message Entity × Entity)) (seq : UInt16) : Option Bytes :=
  ((xs.filterMap sentPart).reverse.find? fun y => y.1 == u && y.2.1.seq == seq).map fun y => y.2.2

/-- "Success" for every part, with its serial number and message id. -/
def successes (xs : List (Message Entity × Entity)) : List (UInt16 × UInt16 × UInt8) :=
  xs.filterMap fun x => (sentPart x).map fun _ => (x.1.header.serial, 0x0801, 0)

/-- The message was given to the handler registered last for its message id, if there is one. -/
def Given (log : List Act) (d : Message Entity) : Prop :=
  ∃ before after, log = before ++ (match lastRegistered d.header.msgID before with
    | some h => .handle h d
    | none => .unhandled d) :: after

/-- While a message is awaited and handled, storing and merging succeeds and nobody else touches the upload. -/
def Smooth (u : Upload) (t : List Outside × Around) : Prop :=
  t.2.write = .ok ∧ t.2.merge = .ok ∧ (∀ x ∈ t.1, concerns u x = false) ∧ Quiet u t.2

/-- The message of the part with number `i + 1` of `n`: serial number and content of the part are given. -/
def partMessage (icc : UInt64) (b : T0801) (n i : Nat) (part : UInt16 × Bytes) : Message Entity :=
  { header := { iccID := icc, serial := part.1, packet := some ⟨UInt16.ofNat n, UInt16.ofNat (i + 1)⟩ },
    body := .val (.m0801 { b with packet := some part.2 }) }

/-- The messages by which a terminal uploads a file with the media data `b`: the parts (with the serial numbers of their messages) in order. -/
def uploadMessages (icc : UInt64) (b : T0801) (parts : List (UInt16 × Bytes)) : List (Message Entity × Entity) :=
  parts.zipIdx.map fun x => (partMessage icc b parts.length x.2 x.1, .m0801 { b with packet := some x.1.2 })

/-- A terminal's number, the media data of a file, and the file cut into parts (with the serial numbers of their messages). -/
structure FileUpload where
  icc : UInt64 := 1
  media : T0801
  parts : List (UInt16 × Bytes) := []

/-- The identification of the upload. -/
def FileUpload.upload (f : FileUpload) : Upload := ⟨f.icc, 0x0801, f.media.mediaID⟩

/-- The messages of the upload. -/
def FileUpload.messages (f : FileUpload) : List (Message Entity × Entity) := uploadMessages f.icc f.media f.parts

/-- The upload can be sent: a terminal number of 1 to 12 digits, a location in range, at most 65535 parts of at most 987 bytes. -/
structure FileUpload.OK (env : Env) (f : FileUpload) : Prop where
  icc0 : 0 < f.icc.toNat
  icc1 : f.icc.toNat < 10 ^ 12
  location : BaseOK env f.media.location
  extras : f.media.location.extras = []
  count : f.parts.length ≤ 65535
  sizes : ∀ p ∈ f.parts, p.2.length ≤ 987

end Verif.Spec
