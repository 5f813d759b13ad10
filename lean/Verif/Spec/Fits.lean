import Verif.Spec.Relay
import Verif.Model.Entity
/-! # Exactly which bodies come back

`BodyFits env e` is `InRange env e` with the two conditions relaxed that are only sufficient there: the SIM number of 0x0107 and the licence number of 0x0702. -/

namespace Verif.Spec

/-- What is assumed of the GB18030 and gzip libraries for the exact statements.
* `empty`: the empty text is encoded by no bytes.
* `whole`: a text that comes back from its own bytes can be carried, also with NUL padding behind.
* `cut`: a text does not come back from its bytes if seven or more are missing at the end. (A few may be missing: a replacement character is also what an
  incomplete character is read as.)
* `zip`, `zipCut`: compressing succeeds, and compressed bytes with some missing at the end do not decompress to the same. -/
structure Codecs (env : Env) : Prop where
  empty : Text env [] 0
  whole : ∀ s b t, env.gbEnc s = some b → env.gbDec b = some t → bytesToString t = s → Text env s b.length
  cut : ∀ s b k t, env.gbEnc s = some b → k + 7 ≤ b.length → env.gbDec (b.take k) = some t → bytesToString t ≠ s
  zip : ∀ u, ∃ z, env.gzip u = some z
  zipCut : ∀ u z k, env.gzip u = some z → k < z.length → env.gunzip (z.take k) ≠ some u

/-- Text in a field of exactly `n` bytes: what is left of the encoded bytes, padded with NUL, is read as the same text. -/
def FixedText (env : Env) (s : Bytes) (n : Nat) : Prop :=
  ∃ b t, env.gbEnc s = some b ∧ env.gbDec ((b ++ List.replicate n 0).take n) = some t ∧ bytesToString t = s

/-- Characters of one nibble each, from `0` to `?`, without leading zero, at most `n`. -/
def Nibbles (s : Bytes) (n : Nat) : Prop := s.length ≤ n ∧ (∀ c ∈ s, 48 ≤ c ∧ c ≤ 63) ∧ s.head? ≠ some 48

/-- Every field of the body is read back as it was. -/
def BodyFits (env : Env) : Entity → Prop
  | .m0107 b => Plain b.manufactureID 5 ∧ Plain b.model 20 ∧ Plain b.terminalID 7 ∧ Nibbles b.sim 20 ∧
      Plain b.hardwareVersion 255 ∧ Plain b.softwareVersion 255
  | .m0702 b => TimeOK env b.time ∧ Text env b.driverName 255 ∧ FixedText env b.number 20 ∧ Text env b.companyName 255 ∧
      DateOK env b.expiryDate
  | e => InRange env e

/-- The extras that an application can put into a location report: a nil pointer, one made by its constructor, or one that was received or made
without constructor, whose encoding is empty. -/
def Constructible (x : Option Extra) : Prop := ∀ y, x = some y → ∃ v, y = Extra.new v ∨ y = ⟨v, []⟩

/-- All extras in the body are of that kind. -/
def ExtrasConstructible : Entity → Prop
  | .m0200 b => ∀ x ∈ b.extras, Constructible x
  | .m0201 b => ∀ x ∈ b.result.extras, Constructible x
  | .m0500 b => ∀ x ∈ b.result.extras, Constructible x
  | .m0704 b => ∀ i ∈ b.items, ∀ x ∈ i.extras, Constructible x
  | _ => True

/-- The body can be encoded, and decoding the bytes under its message type gives it back. -/
def ComesBack (env : Env) (e : Entity) : Prop :=
  ∃ b e' n, Verif.Entity.encode env e = .ok (b, e') ∧ Verif.Entity.decodeBody env e.msgID b = .ok (Entity.dropCache e, n)

/-- What a received body must satisfy in addition, so that it can be passed on. It is `Relayable` without the two conditions that are only sufficient
there. -/
def Survives (env : Env) : Entity → Prop
  | .m0107 _ => True
  | .m0702 b => Text env b.driverName 255 ∧ FixedText env b.number 20 ∧ Text env b.companyName 255
  | e => Relayable env e

end Verif.Spec
