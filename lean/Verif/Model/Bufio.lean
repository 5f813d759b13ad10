import Verif.Model.Basic
/-! # protocol/bufio.go: Writer and Reader

The writer appends to a byte buffer, so every write method is modelled by the bytes it appends.
The reader is a state monad over the unread bytes (`reader.r`); `reader.Len()` is the length of
that state. Strings and times are in `Verif.Model.Helpers`. -/

namespace Verif

/-- protocol/bufio.go:48-53 `WriteUint16` (big endian). -/
def put16 (n : UInt16) : Bytes := [UInt8.ofNat (n.toNat / 256), UInt8.ofNat n.toNat]

/-- protocol/bufio.go:55-60 `WriteUint32` (big endian). -/
def put32 (n : UInt32) : Bytes :=
  [UInt8.ofNat (n.toNat / 16777216), UInt8.ofNat (n.toNat / 65536),
   UInt8.ofNat (n.toNat / 256), UInt8.ofNat n.toNat]

/-- `binary.BigEndian.Uint16`, used in protocol/bufio.go:124. -/
def get16 (a b : UInt8) : UInt16 := UInt16.ofNat (a.toNat * 256 + b.toNat)

/-- `binary.BigEndian.Uint32`, used in protocol/bufio.go:140. -/
def get32 (a b c d : UInt8) : UInt32 :=
  UInt32.ofNat (a.toNat * 16777216 + b.toNat * 65536 + c.toNat * 256 + d.toNat)

/-- protocol/bufio.go:25-41 `Write(p, size)`: cut to `size` bytes or pad with zero bytes.
(`Write(p)` without a size appends `p` itself.) -/
def putFixed (p : Bytes) (size : Nat) : Bytes :=
  if p.length ≥ size then p.take size else p ++ List.replicate (size - p.length) 0

/-- A reading operation: unread bytes to result and remaining unread bytes (a program over the `Reader` of protocol/bufio.go:78-81). -/
abbrev Rd (α : Type) := Bytes → Res (α × Bytes)

namespace Rd
variable {α β : Type}

/-- Sequencing of reader operations; an error or panic stops (e.g. protocol/t808_0x0001.go:39-54). -/
def bind (x : Rd α) (f : α → Rd β) : Rd β := fun s =>
  match x s with
  | .ok (a, s') => f a s'
  | .err e => .err e
  | .panic => .panic

/-- No reading (plumbing for programs such as protocol/t808_0x0001.go:31-57). -/
def pure (a : α) : Rd α := fun s => .ok (a, s)

instance : Monad Rd where
  pure := Rd.pure
  bind := Rd.bind

/-- `return err` (e.g. protocol/t808_0x0001.go:41). -/
def fail (e : Err) : Rd α := fun _ => .err e

/-- Run a computation that does not read (e.g. protocol/t808_0x0201.go:44). -/
def lift (r : Res α) : Rd α := fun s =>
  match r with
  | .ok a => .ok (a, s)
  | .err e => .err e
  | .panic => .panic

/-- `x, err := reader.Read...(); if err != nil { return e }` (e.g. protocol/header.go:58-61). -/
def orErr (x : Rd α) (e : Err) : Rd α := fun s => (x s).mapErr fun _ => e

/-- protocol/bufio.go:87-89 `Len`. -/
def len : Rd Nat := fun s => .ok (s.length, s)

/-- protocol/bufio.go:107-109 `ReadByte` (bytes.Reader returns io.EOF at the end). -/
def byte : Rd UInt8 := fun s =>
  match s with
  | [] => .err .eof
  | b :: s' => .ok (b, s')

/-- protocol/bufio.go:91-105 `Read(size)`. Sizes in the modelled code are never negative. -/
def read (n : Nat) : Rd Bytes := fun s =>
  if n > s.length then .err .unexpectedEOF else .ok (s.take n, s.drop n)

/-- protocol/bufio.go:91-105 `Read()` without size: all remaining bytes. -/
def rest : Rd Bytes := fun s => .ok (s, [])

/-- protocol/bufio.go:111-125 `ReadUint16`. -/
def u16 : Rd UInt16 := fun s =>
  match s with
  | a :: b :: s' => .ok (get16 a b, s')
  | _ => .err .unexpectedEOF

/-- protocol/bufio.go:127-141 `ReadUint32`. -/
def u32 : Rd UInt32 := fun s =>
  match s with
  | a :: b :: c :: d :: s' => .ok (get32 a b c d, s')
  | _ => .err .unexpectedEOF

/-- `for i := 0; i < n; i++ { ...; append(list, item) }` (e.g. protocol/t808_0x0104.go:58-81). -/
def times (n : Nat) (item : Rd α) : Rd (List α) :=
  match n with
  | 0 => Rd.pure []
  | n + 1 => Rd.bind item fun a => Rd.bind (times n item) fun as => Rd.pure (a :: as)

end Rd

end Verif
