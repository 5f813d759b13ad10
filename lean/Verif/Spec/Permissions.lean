import Verif.Model.Permissions
import Verif.Spec.Converse
/-! # Who may store parts -/

namespace Verif.Spec
open Permissions Converse

/-- The process may store this file in the directory of the terminal: it is privileged, or the directory is there, it may search it and those above it, and it
may write to the file if that is there, and to the directory otherwise. -/
def MayStore (u : User) (t : Tree) (icc : UInt64) (name : Bytes) : Prop :=
  u.privileged = true ∨
  t.tmp.search = true ∧ ∃ g a files, t.go808 = some g ∧ t.dirs icc = some (a, files) ∧ g.search = true ∧ a.search = true ∧
    match files.find? fun f => f.1 = name with
    | some f => f.2.writable = true
    | none => a.write = true

/-- Nobody has prepared a directory of a terminal: if there are any, the process may not search them. (If there is none at all, this is so.) -/
def Unprepared (t : Tree) : Prop := t.go808 = none ∨ ∀ icc a files, t.dirs icc = some (a, files) → a.search = false

/-- The messages of a session with what the operating system does: to the writes of parts what the permissions say, to merges what is given. -/
def permitted (u : User) (auto : Bool) : Tree → List (Message Entity × Outcome) → List (Message Entity × Outcome × Outcome)
  | _, [] => []
  | t, (m, o) :: ms =>
    match partOf auto m with
    | none => (m, .ok, o) :: permitted u auto t ms
    | some (up, p, data) => (m, (t.write u (up.file p) p.seq data).2, o) :: permitted u auto (t.write u (up.file p) p.seq data).1 ms

end Verif.Spec
