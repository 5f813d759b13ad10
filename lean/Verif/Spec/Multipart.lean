import Verif.Model.Multipart
/-! # What storing the parts of an upload should mean

An upload is identified by terminal, message id and tag. The specification looks only at the history of calls. -/

namespace Verif.Spec

/-- Terminal number, message id, tag. -/
structure Upload where
  icc : UInt64
  msgID : UInt16
  tag : UInt32
  deriving DecidableEq, Repr

/-- A completed call of `Write` or `Merge` for an upload, and what the operating system did to it. -/
inductive FileOp where
  | write (u : Upload) (seq : UInt16) (data : Bytes) (o : Outcome)
  | merge (u : Upload) (o : Outcome)
  deriving DecidableEq, Repr

/-- The upload a call is for. -/
def FileOp.upload : FileOp → Upload
  | .write u _ _ _ => u
  | .merge u _ => u

/-- What a `Write` leaves in the part's file: all data, or the beginning if it broke off, or nothing new. -/
def leaves (data : Bytes) : Outcome → Option Bytes
  | .ok => some data
  | .torn n => some (data.take n)
  | _ => none

/-- The latest content of a part of an upload; the calls are given latest first. -/
def latestIn (u : Upload) (seq : UInt16) : List FileOp → Option Bytes
  | [] => none
  | .write u' s data o :: ops =>
    if u' = u ∧ s = seq then (leaves data o).or (latestIn u seq ops) else latestIn u seq ops
  | .merge _ _ :: ops => latestIn u seq ops

/-- The latest content of a part of an upload after a history of calls. -/
def latest (ops : List FileOp) (u : Upload) (seq : UInt16) : Option Bytes := latestIn u seq ops.reverse

/-- The contents of the parts from `lo` on, `n` of them, in order of their numbers; missing parts count as empty. -/
def joined (f : UInt16 → Option Bytes) (lo n : Nat) : Bytes :=
  (List.range' lo n).flatMap fun i => (f (UInt16.ofNat i)).getD []

/-- The model's call for an upload; `sum` does not matter for these calls. -/
def Upload.multipart (u : Upload) (sum : UInt16) : Multipart := { icc := u.icc, msgID := u.msgID, tag := u.tag, sum := sum }

/-- The effect of a history of calls on the storage. A `Merge` for a terminal without directory panics. -/
def storage : List FileOp → FS → Res FS
  | [], fs => .ok fs
  | .write u seq data o :: ops, fs => storage ops ((u.multipart 0).write o seq data fs).1
  | .merge u o :: ops, fs => do
    let (fs', _) ← (u.multipart 0).merge o fs
    storage ops fs'

/-- Some call for the terminal made its directory. -/
def hasDir (ops : List FileOp) (icc : UInt64) : Prop := ∃ op ∈ ops, op.upload.icc = icc ∧ ∃ u s d o, op = .write u s d o ∧ o ≠ .noDir

/-- What `Merge` left behind in the upload's merged file; the calls are given latest first. A merge writes the contents of all parts over the old
file, without truncating it. -/
def mergedIn (u : Upload) : List FileOp → Option Bytes
  | [] => none
  | .merge u' o :: ops =>
    if u' = u then
      (leaves (joined (fun s => latestIn u s ops) 0 65536) o).elim (mergedIn u ops)
        fun new => some (new ++ ((mergedIn u ops).getD []).drop new.length)
    else mergedIn u ops
  | .write _ _ _ _ :: ops => mergedIn u ops

/-- What the merged file of an upload holds after a history of calls; `none`: there is no such file. -/
def merged (ops : List FileOp) (u : Upload) : Option Bytes := mergedIn u ops.reverse

/-- Storage that does not exist yet. -/
def empty : FS := fun _ => none

end Verif.Spec
