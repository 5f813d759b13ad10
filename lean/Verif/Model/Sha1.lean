import Verif.Model.Basic

/-! # SHA-1

The hash function that encrypted messages use (protocol/message.go:34 and 159, `sha1.New()`). It is part of the standard library of Go; the model follows
the standard (FIPS 180-4). -/

namespace Verif
namespace Sha1

/-- A word shifted around by `k` bits (crypto/sha1, called from protocol/message.go:34). -/
def rotl (x : UInt32) (k : UInt32) : UInt32 := (x <<< k) ||| (x >>> (32 - k))

/-- The five words of the state (crypto/sha1, called from protocol/message.go:34). -/
structure State where
  a : UInt32
  b : UInt32
  c : UInt32
  d : UInt32
  e : UInt32
  deriving DecidableEq, Repr

/-- The state at the beginning (crypto/sha1, called from protocol/message.go:34). -/
def init : State := ⟨0x67452301, 0xEFCDAB89, 0x98BADCFE, 0x10325476, 0xC3D2E1F0⟩

/-- The text with one bit, zero bits up to a multiple of 64 bytes but eight, and its length in bits (crypto/sha1, called from protocol/message.go:34). -/
def pad (msg : Bytes) : Bytes :=
  msg ++ 0x80 :: List.replicate ((119 - msg.length % 64) % 64) 0 ++
    (List.range 8).map fun i => UInt8.ofNat (msg.length * 8 / 256 ^ (7 - i))

/-- The bytes of a block as words, the most significant byte first (crypto/sha1, called from protocol/message.go:34). -/
def words : Bytes → List UInt32
  | w :: x :: y :: z :: rest => ((w.toUInt32 <<< 24) ||| (x.toUInt32 <<< 16) ||| (y.toUInt32 <<< 8) ||| z.toUInt32) :: words rest
  | _ => []

/-- The words of the rounds, newest first: each new one from the 3rd, 8th, 14th and 16th before it (crypto/sha1, called from protocol/message.go:34). -/
def extend : Nat → List UInt32 → List UInt32
  | 0, w => w
  | n + 1, w => extend n (rotl (w.getD 2 0 ^^^ w.getD 7 0 ^^^ w.getD 13 0 ^^^ w.getD 15 0) 1 :: w)

/-- One round, number `t` with the word `w` (crypto/sha1, called from protocol/message.go:34). -/
def round (s : State) (t : Nat) (w : UInt32) : State :=
  let fk : UInt32 × UInt32 :=
    if t < 20 then ((s.b &&& s.c) ||| (~~~s.b &&& s.d), 0x5A827999)
    else if t < 40 then (s.b ^^^ s.c ^^^ s.d, 0x6ED9EBA1)
    else if t < 60 then ((s.b &&& s.c) ||| (s.b &&& s.d) ||| (s.c &&& s.d), 0x8F1BBCDC)
    else (s.b ^^^ s.c ^^^ s.d, 0xCA62C1D6)
  { a := rotl s.a 5 + fk.1 + s.e + w + fk.2, b := s.a, c := rotl s.b 30, d := s.c, e := s.d }

/-- The rounds from number `t` on (crypto/sha1, called from protocol/message.go:34). -/
def rounds : Nat → List UInt32 → State → State
  | _, [], s => s
  | t, w :: ws, s => rounds (t + 1) ws (round s t w)

/-- One block of 64 bytes (crypto/sha1, called from protocol/message.go:34). -/
def block (s : State) (b : Bytes) : State :=
  let r := rounds 0 (extend 64 (words b).reverse).reverse s
  ⟨s.a + r.a, s.b + r.b, s.c + r.c, s.d + r.d, s.e + r.e⟩

/-- All blocks, at most `n` (crypto/sha1, called from protocol/message.go:34). -/
def blocks : Nat → State → Bytes → State
  | 0, s, _ => s
  | n + 1, s, b => if b.isEmpty then s else blocks n (block s (b.take 64)) (b.drop 64)

/-- The bytes of a word, the most significant first (crypto/sha1, called from protocol/message.go:34). -/
def bytes (x : UInt32) : Bytes := [(x >>> 24).toUInt8, (x >>> 16).toUInt8, (x >>> 8).toUInt8, x.toUInt8]

/-- The 20 bytes of the hash of a text (crypto/sha1, called from protocol/message.go:34). -/
def sum (msg : Bytes) : Bytes :=
  let s := blocks (msg.length + 2) init (pad msg)
  bytes s.a ++ bytes s.b ++ bytes s.c ++ bytes s.d ++ bytes s.e

end Sha1
end Verif
