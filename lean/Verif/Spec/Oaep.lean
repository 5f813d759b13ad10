import Verif.Model.Oaep
import Verif.Model.Entity
import Mathlib.Data.Nat.Prime.Defs

/-! # Keys that are RSA keys -/

namespace Verif.Spec

/-- An RSA key: the modulus is the product of different primes, and the exponents undo each other: their product is 1 modulo each prime minus 1. (This is what
`rsa.PrivateKey.Validate` checks, but for the primality.) -/
structure RsaKey (k : Oaep.PrivKey) (primes : List Nat) : Prop where
  prime : ∀ p ∈ primes, p.Prime
  different : primes.Nodup
  modulus : k.pub.n = some (primes.foldr (· * ·) 1)
  exponent : 2 ≤ k.pub.e ∧ k.pub.e ≤ 2 ^ 31 - 1
  positive : 0 < k.d
  inverse : ∀ p ∈ primes, k.pub.e.toNat * k.d % (p - 1) = 1 % (p - 1)

/-- The randomness of encryption: 20 bytes for every block. -/
def Seeds (seeds : Nat → Bytes) : Prop := ∀ i, (seeds i).length = 20

/-- The key that a message brings: the key of a terminal (0x0A00) or of the platform (0x8A00). -/
def uploadedKey : Body Entity → Option PubKey
  | .val (.m0a00 b) => b.publicKey
  | .val (.m8a00 b) => b.publicKey
  | _ => none

end Verif.Spec
