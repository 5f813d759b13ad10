import Verif.Model.Multipart
/-! # Whether the operating system lets a server store parts: permissions

What `Model/Multipart.lean` leaves to an `Outcome`, as far as it depends on permissions of Unix: a call that names a file needs permission to search every
directory on the way, creating an entry needs permission to write to its directory, and opening a file for writing needs permission to write to it.
A privileged process (root) needs no permission. Left out: everything else that makes calls fail (`Outcome.torn` and other causes of the rest), changes by
other processes. Directories above the temporary directory can be searched. -/

namespace Verif.Permissions

/-- The user the process runs as: whether it is privileged, and the mode bits that new files and directories do not get (the umask of the process; os.MkdirAll,
os.OpenFile: multipart.go:99, 104). -/
structure User where
  privileged : Bool
  umask : UInt32
  deriving DecidableEq, Repr

/-- What the permission bits of a directory allow to the process: to search it, to write to it (multipart.go:99, 104). -/
structure Access where
  search : Bool
  write : Bool
  deriving DecidableEq, Repr

/-- A file in the directory of a terminal: whether the permission bits allow the process to write to it, and its content (multipart.go:104). -/
structure File where
  writable : Bool
  content : Bytes
  deriving DecidableEq, Repr

/-- The temporary directory, the directory go808 in it, and the directories of the terminals in that, with their files (multipart.go:90-94, 103). The entries
`dirs` mean nothing while there is no directory go808. -/
structure Tree where
  tmp : Access
  go808 : Option Access
  dirs : UInt64 → Option (Access × List (Bytes × File))

/-- What the system checks (multipart.go:99, 104): a privileged process may do everything. -/
def User.may (u : User) (bit : Bool) : Bool := u.privileged || bit

/-- The access to a directory that the process creates with these permission bits: it belongs to the process, so the bits of the owner count
(multipart.go:99). -/
def User.newDir (u : User) (perm : UInt32) : Access where
  search := (perm &&& ~~~u.umask) &&& 0o100 != 0
  write := (perm &&& ~~~u.umask) &&& 0o200 != 0

/-- Whether the process can write to a file that it creates with these permission bits, when it opens it again (multipart.go:104). -/
def User.newFile (u : User) (perm : UInt32) : Bool := (perm &&& ~~~u.umask) &&& 0o200 != 0

/-- The content of the directory as the storage model has it (multipart.go:90-94). -/
def contents (files : List (Bytes × File)) : Dir := files.map fun f => (f.1, f.2.content)

/-- The directories of the terminals as the storage model has them (multipart.go:90-94). -/
def Tree.view (t : Tree) : FS := fun icc =>
  match t.go808 with
  | none => none
  | some _ => (t.dirs icc).map fun d => contents d.2

namespace Tree

/-- Whether `os.Stat` and `os.Lstat` find the directory go808 (os.MkdirAll, multipart.go:99). -/
def seesRoot (u : User) (t : Tree) : Bool := u.may t.tmp.search && t.go808.isSome

/-- Whether `os.Stat` and `os.Lstat` find the directory of the terminal (os.MkdirAll, multipart.go:99). -/
def seesDir (u : User) (t : Tree) (icc : UInt64) : Bool :=
  u.may t.tmp.search &&
  match t.go808 with
  | none => false
  | some g => u.may g.search && (t.dirs icc).isSome

/-- `os.MkdirAll` of the directory go808 (called by that of the directory of a terminal, multipart.go:99): nothing if it is there, otherwise `os.Mkdir`. -/
def mkdirRoot (u : User) (perm : UInt32) (t : Tree) : Tree × Bool :=
  if t.seesRoot u then (t, true)
  else if u.may t.tmp.search && u.may t.tmp.write && t.go808.isNone then ({ t with go808 := some (u.newDir perm), dirs := fun _ => none }, true)
  else (t, false)

/-- multipart.go:99: `os.MkdirAll` of the directory of a terminal: nothing if `os.Stat` finds it, otherwise the same for the directory above, then
`os.Mkdir`; if this fails, success if `os.Lstat` finds it. -/
def mkdirAll (u : User) (perm : UInt32) (icc : UInt64) (t : Tree) : Tree × Bool :=
  if t.seesDir u icc then (t, true)
  else
    match t.mkdirRoot u perm with
    | (t, false) => (t, false)
    | (t, true) =>
      match t.go808 with
      | none => (t, false)
      | some g =>
        if u.may t.tmp.search && u.may g.search && u.may g.write && (t.dirs icc).isNone then
          ({ t with dirs := fun x => if x = icc then some (u.newDir perm, []) else t.dirs x }, true)
        else (t, t.seesDir u icc)

/-- The entry of a file replaced or added (multipart.go:104). -/
def putFile (name : Bytes) (file : File) : List (Bytes × File) → List (Bytes × File)
  | [] => [(name, file)]
  | f :: fs => if f.1 = name then (name, file) :: fs else f :: putFile name file fs

/-- multipart.go:104: `ioutil.WriteFile`: an existing file keeps its permission bits, a new one gets `perm`. -/
def writeFile (u : User) (perm : UInt32) (icc : UInt64) (name data : Bytes) (t : Tree) : Tree × Bool :=
  match t.go808, t.dirs icc with
  | some g, some (a, files) =>
    if u.may t.tmp.search && u.may g.search && u.may a.search then
      match files.find? fun f => f.1 = name with
      | some f =>
        if u.may f.2.writable then
          ({ t with dirs := fun x => if x = icc then some (a, putFile name { f.2 with content := data } files) else t.dirs x }, true)
        else (t, false)
      | none =>
        if u.may a.write then
          ({ t with dirs := fun x => if x = icc then some (a, putFile name { writable := u.newFile perm, content := data } files) else t.dirs x }, true)
        else (t, false)
    else (t, false)
  | _, _ => (t, false)

/-- multipart.go:97-105 `Write`, and the `Outcome` it is in the storage model. -/
def write (u : User) (m : Multipart) (seq : UInt16) (data : Bytes) (t : Tree) : Tree × Outcome :=
  match t.mkdirAll u 0o644 m.icc with
  | (t, false) => (t, .noDir)
  | (t, true) =>
    match t.writeFile u 0o644 m.icc (m.partName seq) data with
    | (t, false) => (t, .noFile)
    | (t, true) => (t, .ok)

/-- Writes one after the other (multipart.go:97-105), with their outcomes. -/
def writes (u : User) (t : Tree) : List (Multipart × UInt16 × Bytes) → Tree × List Outcome
  | [] => (t, [])
  | w :: ws =>
    let r := t.write u w.1 w.2.1 w.2.2
    let r' := r.1.writes u ws
    (r'.1, r.2 :: r'.2)

end Tree
end Verif.Permissions
