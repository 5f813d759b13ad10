import Verif.Model.Sha1
import Verif.Model.Message
import Verif.Model.Entities1

/-! # RSA-OAEP

`rsa.EncryptOAEP` and `rsa.DecryptOAEP` of the standard library of Go, as protocol/helpers.go calls them for one block, with SHA-1 and no label
(protocol/message.go:34 and 159). They follow RFC 8017; the model follows the source of Go. `PubKey` and `PrivKey` thereby give an `EncKey` and a `DecKey`,
which are parameters elsewhere. -/

namespace Verif
namespace Oaep

/-- `big.Int.Exp`: `b ^ e` modulo `n` by squaring; `fuel` bounds the number of bits of `e` (crypto/rsa, called from protocol/helpers.go:18 and 32). -/
def powModAux (n : Nat) : Nat → Nat → Nat → Nat
  | 0, _, _ => 1 % n
  | fuel + 1, b, e =>
    if e = 0 then 1 % n
    else if e % 2 = 1 then b * powModAux n fuel (b * b % n) (e / 2) % n
    else powModAux n fuel (b * b % n) (e / 2)

/-- `big.Int.Exp` (crypto/rsa, called from protocol/helpers.go:18 and 32). -/
def powMod (n b e : Nat) : Nat := powModAux n (Nat.log2 e + 1) b e

/-- A number in `size` bytes, with zeros in front (`FillBytes` or `leftPad`; crypto/rsa, called from protocol/helpers.go:18 and 32). -/
def leftPad (b : Bytes) (size : Nat) : Bytes := List.replicate (size - b.length) 0 ++ b

/-- `mgf1XOR`: the bytes are XORed with hashes of the seed and a counter, 20 bytes with each (crypto/rsa, called from protocol/helpers.go:18 and 32). -/
def maskAux (seed : Bytes) : Nat → Nat → Bytes → Bytes
  | 0, _, out => out
  | fuel + 1, counter, out =>
    if out.isEmpty then []
    else List.zipWith (· ^^^ ·) (out.take 20) (Sha1.sum (seed ++ put32 (UInt32.ofNat counter))) ++ maskAux seed fuel (counter + 1) (out.drop 20)

/-- `mgf1XOR` (crypto/rsa, called from protocol/helpers.go:18 and 32). -/
def mask (seed out : Bytes) : Bytes := maskAux seed out.length 0 out

/-- `checkPub`: the exponent is a number from 2 up to 2^31 - 1 (crypto/rsa, called from protocol/helpers.go:18 and 32). -/
def exponentOK (e : Int) : Bool := 2 ≤ e && e ≤ 2 ^ 31 - 1

/-- The block before the exponentiation (crypto/rsa, called from protocol/helpers.go:18): a zero, the masked seed, and masked: the hash of the (empty) label,
zeros, a one and the text. -/
def pack (size : Nat) (seed msg : Bytes) : Bytes :=
  let db := Sha1.sum [] ++ List.replicate (size - msg.length - 42) 0 ++ 1 :: msg
  let maskedDB := mask seed db
  0 :: mask maskedDB seed ++ maskedDB

/-- protocol/helpers.go:18: `rsa.EncryptOAEP` with the random `seed` (20 bytes). `none` is an error. -/
def encrypt (k : PubKey) (seed msg : Bytes) : Option Bytes :=
  match k.n with
  | none => none
  | some n =>
    if exponentOK k.e = false then none
    else if keySize n < msg.length + 42 then none
    else some (leftPad (natBytes (powMod n (bytesNat (pack (keySize n) seed msg)) k.e.toNat)) (keySize n))

/-- The search for the one before the text (crypto/rsa, called from protocol/helpers.go:32). The source looks at all bytes, for equal running times. -/
def afterOne : Bytes → Option Bytes
  | [] => none
  | b :: rest => if b = 0 then afterOne rest else if b = 1 then some rest else none

/-- What follows the exponentiation (crypto/rsa, called from protocol/helpers.go:32). -/
def unpack (em : Bytes) : Option Bytes :=
  let maskedDB := em.drop 21
  let seed := mask maskedDB ((em.drop 1).take 20)
  let db := mask seed maskedDB
  if em.headD 0 = 0 ∧ db.take 20 = Sha1.sum [] then afterOne (db.drop 20) else none

/-- `rsa.PrivateKey`: the public key and the exponent `D` (protocol/helpers.go:28). The primes only serve to compute faster. -/
structure PrivKey where
  pub : PubKey
  d : Nat
  deriving DecidableEq, Repr

/-- protocol/helpers.go:32: `rsa.DecryptOAEP`. `none` is an error. -/
def decrypt (k : PrivKey) (c : Bytes) : Option Bytes :=
  match k.pub.n with
  | none => none
  | some n =>
    if exponentOK k.pub.e = false then none
    else if keySize n < c.length ∨ keySize n < 42 then none
    else if n < bytesNat c then none
    else unpack (leftPad (natBytes (powMod n (bytesNat c) k.d)) (keySize n))

end Oaep

/-- The key of protocol/helpers.go:14, with the random bytes of every call. (`Size()` of a key without modulus panics; the size here is then 0, for which
`EncryptOAEP` panics as well.) -/
def PubKey.encKey (k : PubKey) (seeds : Nat → Bytes) : EncKey where
  size := keySize (k.n.getD 0)
  enc i msg := Oaep.encrypt k (seeds i) msg

/-- The key of protocol/helpers.go:28; see `PubKey.encKey`. -/
def Oaep.PrivKey.decKey (k : Oaep.PrivKey) : DecKey where
  size := keySize (k.pub.n.getD 0)
  dec c := Oaep.decrypt k c

end Verif
