import Verif.Model.Files
import Verif.Spec.Multipart
/-! # What overlapping calls on stored uploads should mean

Everything here looks only at what can be observed, in its order: which calls began, which returned and how, what was read from merged files, and which
files were opened and closed. -/

namespace Verif.Spec

open Files

/-- The upload of a `MultipartFile` value. -/
def uploadOf (m : Multipart) : Upload := ⟨m.icc, m.msgID, m.tag⟩

/-- The upload a call is for. -/
def callUpload : Call → Upload
  | .write m _ _ => uploadOf m
  | .isFull m => uploadOf m
  | .merge m => uploadOf m

/-- Two calls for one upload get in each other's way, unless they write different parts or both only ask whether the upload is complete. -/
def Conflict : Call → Call → Prop
  | .write _ s _, .write _ s' _ => s = s'
  | .isFull _, .isFull _ => False
  | _, _ => True

/-- The call goroutine `k` is in, after one more observation. A `Merge` that succeeded counts until the returned file is closed. -/
def progress (k : Nat) (now : Option Call) : Obs → Option Call
  | .began k' c => if k' = k then some c else now
  | .wrote k' _ _ _ _ => if k' = k then none else now
  | .checked k' _ _ => if k' = k then none else now
  | .merged k' _ o => if k' = k ∧ o ≠ .ok then none else now
  | .released k' => if k' = k then none else now
  | _ => now

/-- The call goroutine `k` is in. -/
def inProgress (k : Nat) (log : List Obs) : Option Call := log.foldl (progress k) none

/-- Calls for the upload begin only when no call in progress gets in their way. -/
def InTurn (u : Upload) (log : List Obs) : Prop :=
  ∀ l1 k c l2, log = l1 ++ .began k c :: l2 → callUpload c = u → ∀ k' c', inProgress k' l1 = some c' → callUpload c' = u → ¬ Conflict c c'

/-- The directory could be read each time it was read for the upload. -/
def Listed (u : Upload) (log : List Obs) : Prop := ∀ k m, .unlisted k m ∈ log → uploadOf m ≠ u

/-- The completed call of `Write` or `Merge` in an observation. -/
def opOf : Obs → Option FileOp
  | .wrote _ m s d o => some (.write (uploadOf m) s d o)
  | .merged _ m o => some (.merge (uploadOf m) o)
  | _ => none

/-- The completed calls of `Write` and `Merge`, in the order of their return. -/
def opsOf (log : List Obs) : List FileOp := log.filterMap opOf

/-- What goroutine `k` has read so far from its merged file, after one more observation. -/
def hear (k : Nat) (sofar : Bytes) : Obs → Bytes
  | .merged k' _ _ => if k' = k then [] else sofar
  | .got k' chunk => if k' = k then sofar ++ chunk else sofar
  | _ => sofar

/-- What goroutine `k` has read since its last `Merge` returned. -/
def heard (k : Nat) (log : List Obs) : Bytes := log.foldl (hear k) []

/-- How many times goroutine `k` opened the file. -/
def openedBy (k : Nat) (f : File) (log : List Obs) : Nat := log.count (.opened k f)

/-- How many times goroutine `k` closed the file. -/
def closedBy (k : Nat) (f : File) (log : List Obs) : Nat := log.count (.closed k f)

end Verif.Spec
