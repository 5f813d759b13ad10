/-!
# Basic vocabulary of the model

Go values: `[]byte` and `string` are `List UInt8`. A Go function returning `(T, error)` that may
also panic is modelled by `Res T`.
-/

namespace Verif

/-- Byte strings; models Go `[]byte` and `string` (aliasing and capacity are not modelled) (e.g. protocol/message.go:20). -/
abbrev Bytes := List UInt8

/-- The errors returned by the modelled code.
errors/errors.go:7-28 and protocol/errors.go:7-26 (the two packages declare separate error values of
the same names; the model identifies them), plus library errors that the code passes through. -/
inductive Err where
  /-- errors.ErrInvalidMessage -/ | invalidMessage
  /-- errors.ErrInvalidCheckSum -/ | invalidCheckSum
  /-- errors.ErrInvalidHeader -/ | invalidHeader
  /-- errors.ErrInvalidBody -/ | invalidBody
  /-- errors.ErrBodyTooLong -/ | bodyTooLong
  /-- errors.ErrNotFoundPrefixID -/ | notFoundPrefixID
  /-- errors.ErrTypeNotRegistered -/ | typeNotRegistered
  /-- errors.ErrInvalidExtraLength -/ | invalidExtraLength
  /-- errors.ErrInvalidBCDTime -/ | invalidBCDTime
  /-- errors.ErrDecryptMessageFailed -/ | decryptFailed
  /-- io.ErrUnexpectedEOF -/ | unexpectedEOF
  /-- io.EOF -/ | eof
  /-- a `*strconv.NumError` -/ | num
  /-- a `*time.ParseError` -/ | timeParse
  /-- an error of the GB18030 transformer -/ | text
  /-- an error of crypto/rsa -/ | rsa
  /-- an error of compress/gzip -/ | gzip
  /-- an `errors.New("...")` value created in place -/ | other
  /-- an error of the network connection -/ | net
  /-- an error of the file system -/ | fs
  deriving DecidableEq, Repr, Inhabited

/-- Outcome of a Go call: a value, a returned error, or a run-time panic (e.g. protocol/message.go:20-65, whose results are `([]byte, error)`). -/
inductive Res (α : Type) where
  | ok (a : α)
  | err (e : Err)
  | panic
  deriving DecidableEq, Repr

namespace Res
variable {α β : Type}

/-- Sequencing: errors and panics stop the computation (Go's `if err != nil { return err }`) (e.g. protocol/message.go:27-30). -/
@[inline] def bind (x : Res α) (f : α → Res β) : Res β :=
  match x with
  | ok a => f a
  | err e => err e
  | panic => panic

instance : Monad Res where
  pure := ok
  bind := bind

@[simp] theorem ok_bind (a : α) (f : α → Res β) : (Res.ok a >>= f) = f a := rfl
@[simp] theorem err_bind (e : Err) (f : α → Res β) : ((Res.err e : Res α) >>= f) = Res.err e := rfl
@[simp] theorem panic_bind (f : α → Res β) : ((Res.panic : Res α) >>= f) = Res.panic := rfl
@[simp] theorem pure_eq (a : α) : (pure a : Res α) = Res.ok a := rfl
@[simp] theorem map_eq (f : α → β) (x : Res α) : f <$> x = x >>= fun a => Res.ok (f a) := rfl

/-- The call returned normally (`err == nil`, e.g. protocol/message.go:170). -/
def isOk : Res α → Bool
  | ok _ => true
  | _ => false

/-- The error that results when a call's error is replaced by another one
(`if err != nil { return otherErr }`).
(E.g. protocol/message.go:160-165.) -/
def mapErr (x : Res α) (g : Err → Err) : Res α :=
  match x with
  | ok a => ok a
  | err e => err (g e)
  | panic => panic

end Res

/-- Go index expression `xs[i]`; the index is a Go `int`, so it can be negative.
Panics when out of range.
(E.g. protocol/message.go:79-80.) -/
def idx {α : Type} (xs : List α) (i : Int) : Res α :=
  if i < 0 then .panic
  else match xs[i.toNat]? with
    | some a => .ok a
    | none => .panic

/-- Go slice expression `xs[lo:hi]` (panics unless `lo ≤ hi ≤ len xs`; the model identifies
capacity with length, which is exact for every slice expression in the modelled code because
each one is bounded by `len`).
(E.g. protocol/message.go:73-90.) -/
def slice {α : Type} (xs : List α) (lo hi : Nat) : Res (List α) :=
  if lo ≤ hi ∧ hi ≤ xs.length then .ok ((xs.take hi).drop lo) else .panic

end Verif
