import Verif.Spec.Ranges
/-! # Which decoded bodies can be encoded again

The conditions that a decoder does not establish by itself. Everything else that `InRange` demands (coordinates, hemispheres, times, widths and counts)
holds of every decoded body (C68). -/

namespace Verif.Spec

/-- What a decoded body must satisfy in addition to having been decoded, so that it can be encoded and decoded again.
* Texts must be representable in GB18030 within the room of their field: decoding replaces invalid bytes, and the replacement may be longer.
* Lists of parameters, circles and rectangles, and authentication keys, must not be empty: the decoders refuse the short bodies.
* The number of a SIM card must consist of decimal digits (a sufficient condition, kept simple).
* The time of CAN data must lie between one o'clock and midnight.
* Location reports must have no extras: their encodings are lost in decoding (C19).
* Compressed data must survive being compressed again, and RSA moduli must have 1024 bits. -/
def Relayable (env : Env) : Entity → Prop
  | .m0100 b => AnyText env b.licenseNo
  | .m0102 b => b.authKey ≠ [] ∧ AnyText env b.authKey
  | .m0104 b => b.params ≠ []
  | .m0107 b => ∀ c ∈ b.sim, c ≤ 57
  | .m0200 b => b.extras = []
  | .m0201 b => b.result.extras = []
  | .m0500 b => b.result.extras = []
  | .m0702 b => Text env b.driverName 255 ∧ Text env b.number 20 ∧ Text env b.companyName 255
  | .m0704 b => ∀ i ∈ b.items, i.extras = []
  | .m0705 b => 3600000000000 ≤ b.receiveTime ∧ b.receiveTime < 86400000000000
  | .m8100 b => AnyText env b.authKey
  | .m8103 b => b.params ≠ []
  | .m8105 b => AnyText env b.text
  | .m8300 b => AnyText env b.text
  | .m8108 b => Text env b.version 255
  | .m8301 b => ∀ x ∈ b.events, Text env x.content 255
  | .m8302 b => Text env b.question 255 ∧ ∀ x ∈ b.answers, Text env x.content 255
  | .m8303 b => ∀ x ∈ b.items, Text env x 65535
  | .m8304 b => Text env b.content 65535
  | .m8400 b => AnyText env b.number
  | .m8401 b => ∀ x ∈ b.contacts, Text env x.number 255 ∧ Text env x.contact 255
  | .m8600 b => b.items ≠ []
  | .m8602 b => b.items ≠ []
  | .m8604 b => b.vertexes ≠ [] ∨ b.attr.toNat.testBit 0 = true
  | .m0901 b => ∃ z, env.gzip b.uncompressed = some z ∧ env.gunzip z = some b.uncompressed ∧ z.length < 2 ^ 32
  | .m0a00 b => ∀ k n, b.publicKey = some k → k.n = some n → keySize n = 128
  | .m8a00 b => ∀ k n, b.publicKey = some k → k.n = some n → keySize n = 128
  | _ => True

end Verif.Spec
