import Verif.Model.Lives
import Verif.Spec.Syscall
import Verif.Spec.Upload
/-! # What is kept when the server ends and is started again -/

namespace Verif.Spec
open Syscall Codec Handler

/-- The observation is the beginning of storing part `i` of the upload. -/
def Storing (u : Upload) (i : UInt16) : Item → Prop
  | .file (.began _ (.write m j _)) => uploadOf m = u ∧ j = i
  | _ => False

instance (u : Upload) (i : UInt16) : DecidablePred (Storing u i)
  | .file (.began _ (.write m j _)) => inferInstanceAs (Decidable (uploadOf m = u ∧ j = i))
  | .file (.began _ (.isFull _)) | .file (.began _ (.merge _)) | .file (.opened _ _) | .file (.closed _ _) | .file (.wrote _ _ _ _ _) => .isFalse id
  | .file (.checked _ _ _) | .file (.merged _ _ _) | .file (.unlisted _ _) | .file (.got _ _) | .file (.eof _) | .file (.released _) | .act _ _ => .isFalse id

/-- Part `i` of the upload was stored with content `d` and without error, and this was the last attempt to store it. -/
def KeptIn (u : Upload) (i : UInt16) (d : Bytes) (log : List Item) : Prop :=
  ∃ before k m after, log = before ++ .file (.wrote k m i d .ok) :: after ∧ uploadOf m = u ∧ ∀ x ∈ after, ¬ Storing u i x

/-- One of the processes stored part `i` of the upload with content `d` and without error, and neither it nor a later one tried to store it again. -/
def Kept (u : Upload) (i : UInt16) (d : Bytes) (logs : List (List Item)) : Prop :=
  ∃ earlier log later, logs = earlier ++ log :: later ∧ KeptIn u i d log ∧ ∀ l ∈ later, ∀ x ∈ l, ¬ Storing u i x

/-- Of the messages that arrive by these reads, only part `i` of the upload has this serial number. -/
def SerialOf (env : Env) (key : Option DecKey) (endErr : Err) (u : Upload) (i : UInt16) (reads : List Bytes) (serial : UInt16) : Prop :=
  ∀ m, ArrivesOn env key endErr reads m → m.header.serial = serial → ∃ p d, partOf true m = some (u, p, d) ∧ p.seq = i

/-- In this process part `i` of the upload was answered with "success", and then nobody tried to store it again. -/
def AnsweredIn (env : Env) (key : Option DecKey) (endErr : Err) (u : Upload) (i : UInt16) (l : Life) (log : List Item) : Prop :=
  ∃ before k serial after, log = before ++ .act k (.reply serial 0x0801 0) :: after ∧ SerialOf env key endErr u i (l.reads k) serial ∧
    ∀ x ∈ after, ¬ Storing u i x

/-- One of the processes answered part `i` of the upload with "success", and neither it nor a later one tried to store it again. -/
def Answered (env : Env) (key : Option DecKey) (endErr : Err) (u : Upload) (i : UInt16) (ls : List Life) (logs : List (List Item)) : Prop :=
  ∃ earlier l log later, ls.zip logs = earlier ++ (l, log) :: later ∧ AnsweredIn env key endErr u i l log ∧ ∀ y ∈ later, ∀ x ∈ y.2, ¬ Storing u i x

/-- The content of part number `i + 1` of the file. -/
def FileUpload.content (f : FileUpload) (i : Nat) : Bytes := (f.parts.map (·.2)).getD i []

/-- The message with part number `i + 1` of the file, with this serial number. -/
def FileUpload.message (f : FileUpload) (i : Nat) (serial : UInt16) : Message Entity × Entity :=
  (partMessage f.icc f.media f.parts.length i (serial, f.content i), .m0801 { f.media with packet := some (f.content i) })

/-- The message is a part of another upload, or none, or a part of this file. -/
def FileUpload.Fits (f : FileUpload) (m : Message Entity) : Prop :=
  ∀ p d, partOf true m = some (f.upload, p, d) → ∃ i, i < f.parts.length ∧ p.seq.toNat = i + 1 ∧ d = f.content i

end Verif.Spec
