import Verif.Spec.Calendar
import Verif.Spec.Extras
import Verif.Model.Helpers
/-! # Which bytes are a message body

A small grammar of fields, and for every message id the fields its body must begin with. Nothing of the decoders of the model is used. -/

namespace Verif.Spec

/-- A shape describes the beginning of a byte string: `sh s r` says that `s` begins with the fields of `sh` and that `r` is left after them. -/
abbrev Shape := Bytes → Bytes → Prop

/-- One shape after the other. -/
def seq (a b : Shape) : Shape := fun s r => ∃ m, a s m ∧ b m r

@[inherit_doc] scoped infixr:65 " ⨾ " => seq

/-- No bytes. -/
def nothing : Shape := fun s r => r = s

/-- `n` bytes with a property. -/
def field (n : Nat) (ok : Bytes → Prop) : Shape := fun s r => ∃ f, s = f ++ r ∧ f.length = n ∧ ok f

/-- Any `n` bytes. -/
def bytes (n : Nat) : Shape := field n fun _ => True

def byte : Shape := bytes 1
def word : Shape := bytes 2
def dword : Shape := bytes 4

/-- The value of bytes as an unsigned number, most significant byte first. -/
def valueOf (b : Bytes) : Nat := b.foldl (fun n x => 256 * n + x.toNat) 0

/-- A number of `k` bytes that decides what follows. -/
def number (k : Nat) (next : Nat → Shape) : Shape := fun s r => ∃ f m, s = f ++ m ∧ f.length = k ∧ next (valueOf f) m r

/-- `n` times the same. -/
def repeated : Nat → Shape → Shape
  | 0, _ => nothing
  | n + 1, sh => sh ⨾ repeated n sh

/-- Any number of times the same. -/
def many (sh : Shape) : Shape := fun s r => ∃ n, repeated n sh s r

/-- All that is left, with a property. -/
def toEnd (ok : Bytes → Prop) : Shape := fun s r => r = [] ∧ ok s

/-- All that is left. -/
def anything : Shape := toEnd fun _ => True

/-- Exactly `n` bytes, and they begin with a shape. -/
def inside (n : Nat) (sh : Shape) : Shape := field n fun b => ∃ r, sh b r

/-- At least `n` bytes must be there. -/
def atLeast (n : Nat) (sh : Shape) : Shape := fun s r => n ≤ s.length ∧ sh s r

/-- GB18030 text in `n` bytes. -/
def textOf (env : Env) (n : Nat) : Shape := field n fun b => (env.gbDec b).isSome

/-- GB18030 text up to the end. -/
def textToEnd (env : Env) : Shape := toEnd fun b => (env.gbDec b).isSome

/-- GB18030 text up to the end, which may be missing. -/
def textIfAny (env : Env) : Shape := toEnd fun b => b = [] ∨ (env.gbDec b).isSome

/-- GB18030 text behind its length in one byte. -/
def shortText (env : Env) : Shape := number 1 (textOf env)

/-- GB18030 text behind its length in two bytes. -/
def longText (env : Env) : Shape := number 2 (textOf env)

/-- A time of the years 2010 to 2099 that exists. -/
def IsTime (b : Bytes) : Prop := ∃ y mo d h mi s, b = [bcdByte y, bcdByte mo, bcdByte d, bcdByte h, bcdByte mi, bcdByte s] ∧
  10 ≤ y ∧ y ≤ 99 ∧ 1 ≤ mo ∧ mo ≤ 12 ∧ 1 ≤ d ∧ d ≤ monthLength (2000 + y) mo ∧ h < 24 ∧ mi < 60 ∧ s < 60

/-- BCD[6]. -/
def time : Shape := field 6 IsTime

/-- A date of the years 1000 to 9999 that exists. -/
def IsDate (b : Bytes) : Prop := ∃ c y mo d, b = [bcdByte c, bcdByte y, bcdByte mo, bcdByte d] ∧
  10 ≤ c ∧ c ≤ 99 ∧ y ≤ 99 ∧ 1 ≤ mo ∧ mo ≤ 12 ∧ 1 ≤ d ∧ d ≤ monthLength (100 * c + y) mo

/-- BCD[4]. -/
def date : Shape := field 4 IsDate

/-- An additional item of a location report: id, length, content. The items the library knows must have their proper length. -/
def item : Shape := fun s r => ∃ id n d, s = id :: n :: d ++ r ∧ d.length = n.toNat ∧ ∀ k, extraSize id d = some k → d.length = k

/-- The 28 bytes of a location. -/
def place : Shape := dword ⨾ dword ⨾ dword ⨾ dword ⨾ word ⨾ word ⨾ word ⨾ time

/-- A location report: the location and additional items; one byte may be left over. -/
def report : Shape := place ⨾ fun s r => many item s r ∧ r.length < 2

/-- A terminal parameter. -/
def parameter : Shape := dword ⨾ number 1 bytes

/-- Period and speed limit of an area, there if bit 0 of the attributes is set. -/
def limits (attr : Nat) : Shape := if attr.testBit 0 then time ⨾ time ⨾ word ⨾ byte else nothing

/-- A circular area. -/
def circle : Shape := dword ⨾ number 2 fun attr => dword ⨾ dword ⨾ dword ⨾ limits attr

/-- A rectangular area. -/
def rectangle : Shape := dword ⨾ number 2 fun attr => dword ⨾ dword ⨾ dword ⨾ dword ⨾ limits attr

/-- A turning point of a route. -/
def turningPoint : Shape := dword ⨾ dword ⨾ dword ⨾ dword ⨾ byte ⨾ number 1 fun attr =>
  (if attr.testBit 0 then word ⨾ word else nothing) ⨾ (if attr.testBit 1 then word ⨾ byte else nothing)

/-- A list of 32-bit numbers behind its length. -/
def dwords : Shape := number 1 fun n => repeated n dword

/-- A list of 16-bit numbers behind its length. -/
def words : Shape := number 1 fun n => repeated n word

/-- What the body of a message must begin with. Bytes after it are ignored. The lower limits in 0x0104, 0x8103, 0x8600, 0x8602 and 0x8604 reject
some bodies with empty lists; all other limits of the code follow from the fields. -/
def bodyShape (env : Env) (id : UInt16) : Shape :=
  match id.toNat with
  | 0x0001 => word ⨾ word ⨾ byte
  | 0x0002 => nothing
  | 0x0003 => nothing
  | 0x0100 => word ⨾ word ⨾ bytes 5 ⨾ bytes 20 ⨾ bytes 7 ⨾ byte ⨾ textIfAny env
  | 0x0102 => atLeast 1 (textToEnd env)
  | 0x0104 => atLeast 4 (word ⨾ number 1 fun n => repeated n parameter)
  | 0x0107 => word ⨾ bytes 5 ⨾ bytes 20 ⨾ bytes 7 ⨾ bytes 10 ⨾ number 1 bytes ⨾ number 1 bytes ⨾ byte ⨾ byte
  | 0x0108 => byte ⨾ byte
  | 0x0200 => report
  | 0x0201 => word ⨾ report
  | 0x0301 => byte
  | 0x0302 => word ⨾ byte
  | 0x0303 => byte ⨾ byte
  | 0x0500 => word ⨾ report
  | 0x0700 => word ⨾ byte ⨾ anything
  | 0x0701 => dword ⨾ anything
  | 0x0702 => byte ⨾ time ⨾ byte ⨾ shortText env ⨾ textOf env 20 ⨾ shortText env ⨾ date
  | 0x0704 => number 2 fun n => byte ⨾ repeated n (number 2 fun k => inside k report)
  | 0x0705 => number 2 fun n => field 5 (fun b => b.head? ≠ some 0) ⨾ repeated n (bytes 4 ⨾ bytes 8)
  | 0x0800 => dword ⨾ byte ⨾ byte ⨾ byte ⨾ byte
  | 0x0801 => dword ⨾ byte ⨾ byte ⨾ byte ⨾ byte ⨾ place ⨾ anything
  | 0x0802 => word ⨾ number 2 fun n => repeated n (dword ⨾ byte ⨾ byte ⨾ byte ⨾ place)
  | 0x0805 => word ⨾ byte ⨾ number 2 fun n => repeated n dword
  | 0x8001 => word ⨾ word ⨾ byte
  | 0x8003 => word ⨾ words
  | 0x8100 => word ⨾ byte ⨾ textIfAny env
  | 0x8103 => atLeast 4 (number 1 fun n => repeated n parameter)
  | 0x8104 => nothing
  | 0x8105 => byte ⨾ textIfAny env
  | 0x8106 => dwords
  | 0x8107 => nothing
  | 0x8108 => byte ⨾ bytes 5 ⨾ shortText env ⨾ dword ⨾ anything
  | 0x8201 => nothing
  | 0x8202 => word ⨾ dword
  | 0x8203 => word ⨾ dword
  | 0x8300 => byte ⨾ textIfAny env
  | 0x8301 => byte ⨾ number 1 fun n => repeated n (byte ⨾ shortText env)
  | 0x8302 => byte ⨾ shortText env ⨾ fun s r => r = [] ∧ many (byte ⨾ shortText env) s r
  | 0x8303 => byte ⨾ number 1 fun n => repeated n (longText env)
  | 0x8304 => byte ⨾ longText env
  | 0x8400 => byte ⨾ textToEnd env
  | 0x8401 => byte ⨾ number 1 fun n => repeated n (byte ⨾ shortText env ⨾ shortText env)
  | 0x8500 => byte
  | 0x8600 => atLeast 20 (byte ⨾ number 1 fun n => repeated n circle)
  | 0x8601 => dwords
  | 0x8602 => atLeast 24 (byte ⨾ number 1 fun n => repeated n rectangle)
  | 0x8603 => dwords
  | 0x8604 => atLeast 16 (dword ⨾ number 2 fun attr => limits attr ⨾ number 2 fun n => repeated n (dword ⨾ dword))
  | 0x8605 => dwords
  | 0x8606 => dword ⨾ word ⨾ time ⨾ time ⨾ number 2 fun n => repeated n turningPoint
  | 0x8607 => dwords
  | 0x8700 => byte ⨾ anything
  | 0x8701 => byte ⨾ anything
  | 0x8702 => nothing
  | 0x8800 => dword ⨾ fun s r => (s = [] ∧ r = []) ∨ words s r
  | 0x8801 => byte ⨾ word ⨾ word ⨾ byte ⨾ byte ⨾ byte ⨾ byte ⨾ byte ⨾ byte ⨾ byte
  | 0x8802 => byte ⨾ byte ⨾ byte ⨾ time ⨾ time
  | 0x8803 => byte ⨾ byte ⨾ byte ⨾ time ⨾ time ⨾ byte
  | 0x8804 => byte ⨾ word ⨾ byte ⨾ byte
  | 0x8805 => dword ⨾ byte
  | 0x8900 => byte ⨾ anything
  | 0x0900 => byte ⨾ anything
  | 0x0901 => number 4 fun n => field n fun b => (env.gunzip b).isSome
  | 0x0a00 => dword ⨾ bytes 128
  | 0x8a00 => dword ⨾ bytes 128
  | _ => fun _ _ => False

/-- The bytes are a body of a message with this id. -/
def Accepts (env : Env) (id : UInt16) (data : Bytes) : Prop := ∃ r, bodyShape env id data r

end Verif.Spec
