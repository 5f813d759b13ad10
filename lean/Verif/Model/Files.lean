import Verif.Model.Multipart
/-! # multipart.go, system call by system call

In `Model/Multipart.lean` each call of `Write`, `IsFull` and `Merge` is one step. Here the calls of any number of goroutines overlap: every system call is
a step of its own, and the schedule decides which goroutine makes the next one and what the operating system answers. No file is ever removed or renamed,
so an open file is its directory (the number of the terminal) and its name; positions belong to the goroutine that opened it.

`filepath.Walk` (multipart.go:111) is modelled from the source of the standard library: it calls `os.Lstat` for the directory, reads the names in it, and calls
`os.Lstat` for each. An error of the first `Lstat`, or of one for a file, is given to the callback together with a nil `FileInfo`, and `info.IsDir()`
panics. If the names cannot be read, the callback is called once more for the directory and ignores the error (multipart.go:112-114), so that `Walk`
returns without an error, as for an empty directory. -/

namespace Verif.Files

/-- A file: the terminal whose directory it is in, and its name (multipart.go:73, 90-94, 103). -/
abbrev File := UInt64 × Bytes

/-- The content of a file, `none` if it does not exist (multipart.go:54, 86). -/
def content (fs : FS) (f : File) : Option Bytes := (fs f.1).bind fun d => d.get f.2

/-- The names of the files in a directory (multipart.go:111: read by `filepath.Walk`). -/
def names (fs : FS) (icc : UInt64) : List Bytes := ((fs icc).getD []).map (·.1)

/-- A file gets a content; its directory exists (multipart.go:74, 104). -/
def store (fs : FS) (f : File) (c : Bytes) : FS := fs.set f.1 (((fs f.1).getD []).put f.2 c)

/-- The content of a file after `chunk` was written at position `pos`, which is not behind its end (`write` system call of multipart.go:82, 104). -/
def writeAt (old : Bytes) (pos : Nat) (chunk : Bytes) : Bytes := old.take pos ++ chunk ++ old.drop (pos + chunk.length)

/-- The calls a goroutine makes (session_handler.go:81, 94, 98). -/
inductive Call where
  | write (m : Multipart) (seq : UInt16) (data : Bytes)
  | isFull (m : Multipart)
  | merge (m : Multipart)
  deriving DecidableEq, Repr

/-- Where a goroutine is in its call: before which system call. `merging` tells `Merge` from `IsFull`; `found` are the parts seen so far, with their file
names, the latest first; `Merge` has them open. -/
inductive Job where
  /-- multipart.go:99 `os.MkdirAll` -/
  | mkdir (m : Multipart) (seq : UInt16) (data : Bytes)
  /-- multipart.go:104: `ioutil.WriteFile` opens the file, creating or truncating it -/
  | create (m : Multipart) (seq : UInt16) (data : Bytes)
  /-- multipart.go:104: `ioutil.WriteFile` writes, `done` bytes are written -/
  | put (m : Multipart) (seq : UInt16) (data : Bytes) (done : Nat)
  /-- multipart.go:104: `ioutil.WriteFile` closes the file -/
  | shut (m : Multipart) (seq : UInt16) (data : Bytes) (done : Nat) (ok : Bool)
  /-- multipart.go:111: `os.Lstat` of the directory -/
  | stat (m : Multipart) (merging : Bool)
  /-- multipart.go:111: reading the names in the directory; `before` are those it had when this began -/
  | list (m : Multipart) (merging : Bool) (before : List Bytes)
  /-- multipart.go:111-132: `os.Lstat` of the next of the files `todo`, then the callback -/
  | visit (m : Multipart) (merging : Bool) (todo : List Bytes) (found : List (UInt16 × Bytes))
  /-- multipart.go:54: `Merge` opens a part -/
  | openPart (m : Multipart) (seq : UInt16) (name : Bytes) (todo : List Bytes) (found : List (UInt16 × Bytes))
  /-- multipart.go:74: `Merge` opens the merged file -/
  | createFull (m : Multipart) (found : List (UInt16 × Bytes))
  /-- multipart.go:81-85: `Merge` copies the parts; `todo` are those not completely copied, `pos` is the position in the first of them, `out` the position in
  the merged file -/
  | copy (m : Multipart) (found todo : List (UInt16 × Bytes)) (pos out : Nat)
  /-- multipart.go:86: `Merge` opens the merged file for reading -/
  | reopen (m : Multipart) (found : List (UInt16 × Bytes)) (out : Nat)
  deriving DecidableEq, Repr

/-- What the operating system answers (system calls of multipart.go). -/
inductive Answer where
  /-- success -/
  | ok
  /-- an error -/
  | fail
  /-- so many bytes are written or copied (at least one is asked for) -/
  | bytes (n : Nat)
  /-- these names are read from a directory -/
  | names (l : List Bytes)
  deriving DecidableEq, Repr

/-- What can be observed: files opened and closed, results of calls, and what is read from a merged file (multipart.go, session_handler.go:81-112). -/
inductive Obs where
  /-- a call begins -/
  | began (k : Nat) (c : Call)
  | opened (k : Nat) (f : File)
  | closed (k : Nat) (f : File)
  /-- `Write` returned; an error unless the outcome is `ok` -/
  | wrote (k : Nat) (m : Multipart) (seq : UInt16) (data : Bytes) (o : Outcome)
  /-- `IsFull` returned -/
  | checked (k : Nat) (m : Multipart) (b : Bool)
  /-- `Merge` returned; an error unless the outcome is `ok` -/
  | merged (k : Nat) (m : Multipart) (o : Outcome)
  /-- the names in the directory could not be read -/
  | unlisted (k : Nat) (m : Multipart)
  /-- goroutine `k` read these bytes from its merged file -/
  | got (k : Nat) (chunk : Bytes)
  /-- goroutine `k` found the end of its merged file -/
  | eof (k : Nat)
  /-- goroutine `k` has closed its merged file -/
  | released (k : Nat)
  deriving DecidableEq, Repr

/-- A step of goroutine `k` (session_handler.go:81-112). -/
inductive Event where
  /-- it calls `Write`, `IsFull` or `Merge`, if it is not in a call -/
  | call (k : Nat) (c : Call)
  /-- it makes the next system call of its call -/
  | step (k : Nat) (a : Answer)
  /-- the handler reads at most `n + 1` bytes of the merged file it was given -/
  | read (k : Nat) (n : Nat)
  /-- session_handler.go:112: the merged file is closed -/
  | release (k : Nat)
  deriving DecidableEq, Repr

/-- The files, where every goroutine is, and the uploads whose merged file was returned and is not yet closed, with the position in it
(multipart.go, session_handler.go:98-112). -/
structure State where
  fs : FS := fun _ => none
  job : Nat → Option Job := fun _ => none
  reader : Nat → Option (Multipart × Nat) := fun _ => none

/-- Goroutine `k` goes on (session_handler.go:81-112). -/
def State.goto (s : State) (k : Nat) (j : Option Job) : State := { s with job := fun i => if i = k then j else s.job i }

/-- The merged file that goroutine `k` has open (session_handler.go:98-112). -/
def State.setReader (s : State) (k : Nat) (r : Option (Multipart × Nat)) : State := { s with reader := fun i => if i = k then r else s.reader i }

/-- The parts in the order of their numbers (multipart.go:80: `sort.Sort`). -/
def inOrder (found : List (UInt16 × Bytes)) : List (UInt16 × Bytes) := Multipart.sortParts found

/-- The path of the file in which the parts are merged (multipart.go:73). -/
def fullFile (m : Multipart) : File := (m.icc, m.fullName)

/-- The path of the file of a part (multipart.go:103). -/
def partFile (m : Multipart) (seq : UInt16) : File := (m.icc, m.partName seq)

/-- The open parts are closed (multipart.go:62-66, deferred). -/
def closeParts (k : Nat) (m : Multipart) (found : List (UInt16 × Bytes)) : List Obs := found.map fun p => .closed k (m.icc, p.2)

/-- The walk is over: `IsFull` returns (multipart.go:47), `Merge` goes on (multipart.go:72). -/
def walked (s : State) (k : Nat) (m : Multipart) (merging : Bool) (found : List (UInt16 × Bytes)) : State × List Obs :=
  if merging then (s.goto k (some (.createFull m found)), [])
  else (s.goto k none, [.checked k m ((List.range m.sum.toNat).all fun i => found.any fun p => p.1 = UInt16.ofNat (i + 1))])

/-- One system call of goroutine `k`, with its answer; an answer that does not fit the system call does nothing. Closing a file has no effect on
files: the deferred closes of `Merge` belong to the step before its return. An error when nothing is left to write is an error of the close. Reading a piece of a part and writing it to the merged file are one step. -/
def State.advance (s : State) (k : Nat) (a : Answer) : Job → Res (State × List Obs)
  | .mkdir m seq data =>
    match a with
    | .ok => .ok ({ s with fs := s.fs.set m.icc ((s.fs m.icc).getD []) }.goto k (some (.create m seq data)), [])
    | .fail => .ok (s.goto k none, [.wrote k m seq data .noDir])
    | _ => .ok (s, [])
  | .create m seq data =>
    match a with
    | .ok => .ok ({ s with fs := store s.fs (partFile m seq) [] }.goto k (some (.put m seq data 0)), [.opened k (partFile m seq)])
    | .fail => .ok (s.goto k none, [.wrote k m seq data .noFile])
    | _ => .ok (s, [])
  | .put m seq data done =>
    if data.length ≤ done then .ok (s.goto k (some (.shut m seq data done true)), [])
    else
      match a with
      | .bytes n =>
        let chunk := (data.drop done).take n
        .ok ({ s with fs := store s.fs (partFile m seq) (writeAt ((content s.fs (partFile m seq)).getD []) done chunk) }.goto k
          (some (.put m seq data (done + chunk.length))), [])
      | .fail => .ok (s.goto k (some (.shut m seq data done false)), [])
      | _ => .ok (s, [])
  | .shut m seq data done ok =>
    match a with
    | .ok => .ok (s.goto k none, [.closed k (partFile m seq), .wrote k m seq data (if ok then .ok else .torn done)])
    | .fail => .ok (s.goto k none, [.closed k (partFile m seq), .wrote k m seq data (.torn done)])
    | _ => .ok (s, [])
  | .stat m merging =>
    match a with
    | .ok => match s.fs m.icc with
      | none => .panic
      | some _ => .ok (s.goto k (some (.list m merging (names s.fs m.icc))), [])
    | .fail => .panic
    | _ => .ok (s, [])
  | .list m merging before =>
    match a with
    | .names l =>
      if l.Nodup ∧ (∀ n ∈ before, n ∈ l) ∧ ∀ n ∈ l, n ∈ names s.fs m.icc then .ok (s.goto k (some (.visit m merging l [])), [])
      else .ok (s, [])
    | .fail => match walked s k m merging [] with | (s', l) => .ok (s', .unlisted k m :: l)
    | _ => .ok (s, [])
  | .visit m merging [] found => .ok (walked s k m merging found)
  | .visit m merging (n :: todo) found =>
    match a with
    | .ok => match m.partSeq n with
      | none => .ok (s.goto k (some (.visit m merging todo found)), [])
      | some seq =>
        if merging then .ok (s.goto k (some (.openPart m seq n todo found)), [])
        else .ok (s.goto k (some (.visit m merging todo ((seq, n) :: found))), [])
    | .fail => .panic
    | _ => .ok (s, [])
  | .openPart m seq n todo found =>
    match a with
    | .ok => .ok (s.goto k (some (.visit m true todo ((seq, n) :: found))), [.opened k (m.icc, n)])
    | .fail => .ok (s.goto k none, closeParts k m found ++ [.merged k m .noFile])
    | _ => .ok (s, [])
  | .createFull m found =>
    match a with
    | .ok => .ok ({ s with fs := store s.fs (fullFile m) ((content s.fs (fullFile m)).getD []) }.goto k (some (.copy m found (inOrder found) 0 0)),
        [.opened k (fullFile m)])
    | .fail => .ok (s.goto k none, closeParts k m found ++ [.merged k m .noFile])
    | _ => .ok (s, [])
  | .copy m found [] _ out => .ok (s.goto k (some (.reopen m found out)), [])
  | .copy m found ((seq, n) :: todo) pos out =>
    let part := (content s.fs (m.icc, n)).getD []
    match a with
    | .bytes b =>
      if part.length ≤ pos then .ok (s.goto k (some (.copy m found todo 0 out)), [])
      else
        let chunk := (part.drop pos).take b
        .ok ({ s with fs := store s.fs (fullFile m) (writeAt ((content s.fs (fullFile m)).getD []) out chunk) }.goto k
          (some (.copy m found ((seq, n) :: todo) (pos + chunk.length) (out + chunk.length))), [])
    | .fail => .ok (s.goto k none, .closed k (fullFile m) :: closeParts k m found ++ [.merged k m (.torn out)])
    | _ => .ok (s, [])
  | .reopen m found out =>
    match a with
    | .ok => .ok ((s.goto k none).setReader k (some (m, 0)),
        .opened k (fullFile m) :: .closed k (fullFile m) :: closeParts k m found ++ [.merged k m .ok])
    | .fail => .ok (s.goto k none, .closed k (fullFile m) :: closeParts k m found ++ [.merged k m (.torn out)])
    | _ => .ok (s, [])

/-- The first step of a call (multipart.go:37, 51, 97). -/
def Call.start : Call → Job
  | .write m seq data => .mkdir m seq data
  | .isFull m => .stat m false
  | .merge m => .stat m true

/-- One step of the goroutines (multipart.go, session_handler.go:81-112). A goroutine makes one call at a time, and closes a merged file before it makes the next
call (session_handler.go:112). -/
def State.step (s : State) : Event → Res (State × List Obs)
  | .call k c =>
    match s.job k, s.reader k with
    | none, none => .ok (s.goto k (some c.start), [.began k c])
    | _, _ => .ok (s, [])
  | .step k a =>
    match s.job k with
    | some j => s.advance k a j
    | none => .ok (s, [])
  | .read k n =>
    match s.reader k with
    | some (m, pos) =>
      let c := (content s.fs (fullFile m)).getD []
      if c.length ≤ pos then .ok (s, [.eof k])
      else .ok (s.setReader k (some (m, pos + ((c.drop pos).take (n + 1)).length)), [.got k ((c.drop pos).take (n + 1))])
    | none => .ok (s, [])
  | .release k =>
    match s.reader k with
    | some (m, _) => .ok (s.setReader k none, [.closed k (fullFile m), .released k])
    | none => .ok (s, [])

/-- A schedule of steps (session_handler.go:81-112). -/
def State.run (s : State) : List Event → Res (State × List Obs)
  | [] => .ok (s, [])
  | ev :: evs => do
    let (s', l) ← s.step ev
    let (t, l') ← s'.run evs
    .ok (t, l ++ l')

end Verif.Files
