import Verif.Model.Time
/-! # multipart.go: storage of multi-part uploads

The directory `TempDir/go808/<IccID>` of a terminal is a list of named files, or missing. Distinct terminal numbers have distinct
directories because `%d` is injective (`Props/Paths.lean`), so the file system is a map from terminal numbers. Sub-directories are not modelled (the code
creates none). The order in which `filepath.Walk` visits the files is the order of the list; Go uses lexical order, which the result
does not depend on because `Merge` sorts. Each call is one atomic step; `Model/Files.lean` has the system calls of several goroutines one by one, and
`C80_atomic_partial` says when the difference does not matter. What the operating system may do to a call is an explicit argument (`Outcome`). -/

namespace Verif

/-- `strings.Split(s, sep)` for a one-byte separator (multipart.go:120). -/
def splitOn (sep : UInt8) : Bytes → List Bytes
  | [] => [[]]
  | b :: t =>
    if b = sep then [] :: splitOn sep t
    else match splitOn sep t with
      | [] => [[b]]
      | p :: ps => (b :: p) :: ps

/-- `filepath.Ext(name)`: from the last dot on, empty without a dot (multipart.go:116). -/
def extension (name : Bytes) : Bytes :=
  if name.contains 46 then 46 :: (name.reverse.takeWhile (· ≠ 46)).reverse else []

/-- The value returned by `strconv.Atoi(s)` (64-bit `int`), which is also set when there is an error: 0 for a syntax error, the nearest bound
when out of range.
(multipart.go:125-130.) -/
def atoi (s : Bytes) : Int :=
  let neg := s.head? = some 45
  let t := if s.head? = some 45 ∨ s.head? = some 43 then s.tail else s
  if t = [] ∨ !t.all isDigit then 0
  else
    let v : Int := digitsVal t
    if neg then (if v > 2 ^ 63 then -(2 ^ 63) else -v) else (if v ≥ 2 ^ 63 then 2 ^ 63 - 1 else v)

/-- The files of a directory: names and contents (the directory of multipart.go:90-94). -/
abbrev Dir := List (Bytes × Bytes)

/-- The content of a file (multipart.go:54). -/
def Dir.get (d : Dir) (name : Bytes) : Option Bytes := (d.find? fun f => f.1 = name).map (·.2)

/-- Replace the content of a file, or create it (multipart.go:104). -/
def Dir.put (name content : Bytes) : Dir → Dir
  | [] => [(name, content)]
  | f :: d => if f.1 = name then (name, content) :: d else f :: Dir.put name content d

/-- The directories of the terminals; `none`: the directory does not exist (multipart.go:92). -/
abbrev FS := UInt64 → Option Dir

/-- The file system with one directory changed (multipart.go:99-104). -/
def FS.set (fs : FS) (icc : UInt64) (d : Dir) : FS := fun x => if x = icc then some d else fs x

/-- multipart.go:29-34 `MultipartFile`. -/
structure Multipart where
  icc : UInt64
  msgID : UInt16
  tag : UInt32
  sum : UInt16
  deriving DecidableEq, Repr

/-- What the operating system does to a writing call (multipart.go:99-104, multipart.go:74-86). -/
inductive Outcome where
  /-- success -/ | ok
  /-- the directory cannot be created -/ | noDir
  /-- the file cannot be opened -/ | noFile
  /-- after the first `n` bytes were written an error occurs -/ | torn (n : Nat)
  deriving DecidableEq, Repr

namespace Multipart

/-- multipart.go:103: "%d-%d-%d.part". -/
def partName (m : Multipart) (seq : UInt16) : Bytes :=
  fmtUint m.msgID.toNat ++ [45] ++ fmtUint m.tag.toNat ++ [45] ++ fmtUint seq.toNat ++ [46, 112, 97, 114, 116]

/-- multipart.go:73: "%d-%d.full". -/
def fullName (m : Multipart) : Bytes := fmtUint m.msgID.toNat ++ [45] ++ fmtUint m.tag.toNat ++ [46, 102, 117, 108, 108]

/-- multipart.go:90-94 `rootDir`: "%s/go808/%d". `tmp` is `os.TempDir()`; the separator is the one of Unix. -/
def rootDir (tmp : Bytes) (m : Multipart) : Bytes := tmp ++ [47, 103, 111, 56, 48, 56, 47] ++ fmtUint m.icc.toNat

/-- multipart.go:103: the path of the file of a part. -/
def partPath (tmp : Bytes) (m : Multipart) (seq : UInt16) : Bytes := m.rootDir tmp ++ [47] ++ m.partName seq

/-- multipart.go:73: the path of the merged file. -/
def fullPath (tmp : Bytes) (m : Multipart) : Bytes := m.rootDir tmp ++ [47] ++ m.fullName

/-- multipart.go:112-131: is the file a part of the upload, and which. -/
def partSeq (m : Multipart) (name : Bytes) : Option UInt16 :=
  if extension name ≠ [46, 112, 97, 114, 116] then none
  else
    match splitOn 45 ((splitOn 46 name).head?.getD []) with
    | [a, b, c] =>
      if a ≠ fmtUint m.msgID.toNat then none
      else if UInt32.ofInt (atoi b) ≠ m.tag then none
      else some (UInt16.ofInt (atoi c))
    | _ => none

/-- multipart.go:108-133 `walkParts`, with a callback that never fails: the parts found, with their contents. If the directory is missing,
`filepath.Walk` calls back with a nil `info`, and `info.IsDir()` panics. -/
def walkParts (m : Multipart) (fs : FS) : Res (List (UInt16 × Bytes)) :=
  match fs m.icc with
  | none => .panic
  | some d => .ok (d.filterMap fun f => (m.partSeq f.1).map fun s => (s, f.2))

/-- multipart.go:37-48 `IsFull`: no number of 1..Sum is left over. (A callback error cannot occur.) -/
def isFull (m : Multipart) (fs : FS) : Res Bool := do
  let ps ← m.walkParts fs
  .ok ((List.range m.sum.toNat).all fun i => ps.any fun p => p.1 = UInt16.ofNat (i + 1))

/-- Insertion into a list sorted by part number (multipart.go:80). -/
def insertPart (p : UInt16 × Bytes) : List (UInt16 × Bytes) → List (UInt16 × Bytes)
  | [] => [p]
  | q :: ps => if p.1 ≤ q.1 then p :: q :: ps else q :: insertPart p ps

/-- multipart.go:80 `sort.Sort(inputs)`. Go's sort is not stable, but the part numbers are distinct for files written by `Write`. -/
def sortParts (ps : List (UInt16 × Bytes)) : List (UInt16 × Bytes) := ps.foldr insertPart []

/-- Content of a file after writing `new` from its start without truncation (multipart.go:74: no O_TRUNC). -/
def overwrite (old new : Bytes) : Bytes := new ++ old.drop new.length

/-- multipart.go:51-87 `Merge`: the file system afterwards and the content of the returned reader, `none` for an error. `noDir` and `noFile` stand
for a file that cannot be opened, `torn n` for an error after `n` bytes were copied. -/
def merge (o : Outcome) (m : Multipart) (fs : FS) : Res (FS × Option Bytes) := do
  let ps ← m.walkParts fs
  let content := (sortParts ps).flatMap (·.2)
  let d := (fs m.icc).getD []
  let old := (d.get m.fullName).getD []
  match o with
  | .ok => .ok (fs.set m.icc (d.put m.fullName (overwrite old content)), some (overwrite old content))
  | .torn n => .ok (fs.set m.icc (d.put m.fullName (overwrite old (content.take n))), none)
  | _ => .ok (fs, none)

/-- multipart.go:97-105 `Write`: the file system afterwards and whether it succeeded. `ioutil.WriteFile` truncates. -/
def write (o : Outcome) (m : Multipart) (seq : UInt16) (data : Bytes) (fs : FS) : FS × Bool :=
  let d := (fs m.icc).getD []
  match o with
  | .ok => (fs.set m.icc (d.put (m.partName seq) data), true)
  | .noDir => (fs, false)
  | .noFile => (fs.set m.icc d, false)
  | .torn n => (fs.set m.icc (d.put (m.partName seq) (data.take n)), false)

end Multipart
end Verif
