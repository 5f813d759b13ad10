import Verif.Model.Message
/-! # Specification of block-wise encryption -/

namespace Verif.Spec

/-- `chunks` is `data` cut into blocks of exactly `limit` bytes, except that the last one may be shorter (but not
empty). -/
def Blocks (limit : Nat) (data : Bytes) (chunks : List Bytes) : Prop :=
  chunks.flatten = data ∧ (∀ c ∈ chunks, 0 < c.length ∧ c.length ≤ limit) ∧ ∀ c ∈ chunks.dropLast, c.length = limit

/-- Assumption on RSA-OAEP with SHA-1: a private key belongs to a public key of `size` bytes when every block of at most
`size - 42` bytes encrypts, with any randomness, to `size` bytes that decrypt to the block. -/
structure KeyPair (k : EncKey) (d : DecKey) (size : Nat) : Prop where
  big : 42 < size
  encSize : k.size = size
  decSize : d.size = size
  inverse : ∀ i block, block.length ≤ size - 42 → ∃ x, k.enc i block = some x ∧ x.length = size ∧ d.dec x = some block

/-- Number of blocks of `limit` bytes needed for `n` bytes. -/
def blockCount (limit n : Nat) : Nat := (n + limit - 1) / limit

end Verif.Spec
