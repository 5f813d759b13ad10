import Verif.Lemmas.Rsa
/-! # C27: block splitting, C28: encrypted messages -/

namespace Verif

open Spec

variable {E : Type}

/-! ## C27 -/

/-- C27: any data is split into blocks of the limit with a shorter last one, which concatenate to the data; the number
of blocks is the least possible. A limit that is not positive panics (it cannot occur with keys of 43 bytes or more). -/
theorem C27_split (data : Bytes) (limit : Int) :
    (0 < limit → ∃ chunks, bytesSplit data limit = .ok chunks ∧ Blocks limit.toNat data chunks ∧
      chunks.length = blockCount limit.toNat data.length) ∧ (limit ≤ 0 → bytesSplit data limit = .panic) := by
  constructor
  · intro h
    obtain ⟨h1, h2⟩ := splitLoop_blocks limit.toNat (by omega) (data.length + 1) data (by omega)
    exact ⟨_, by unfold bytesSplit; rw [if_neg (by omega)], h1, h2⟩
  · intro h
    unfold bytesSplit
    rw [if_pos h]

/-- C27: with a matching pair of keys, any text encrypts to whole cipher blocks and decrypts to itself. -/
theorem C27_encrypt_decrypt (k : EncKey) (d : DecKey) (size : Nat) (hk : KeyPair k d size) (msg : Bytes) : ∃ x,
    encryptOAEP k msg = .ok x ∧ x.length = size * blockCount (size - 42) msg.length ∧ decryptOAEP d x = .ok msg :=
  encrypt_decrypt hk msg

/-- A toy pair of keys that satisfies the assumption: one length byte and NUL padding, 1024 bits. -/
def Sample.encKey : EncKey where
  size := 128
  enc _ b := if b.length ≤ 86 then some (UInt8.ofNat b.length :: (b ++ List.replicate (127 - b.length) 0)) else none

/-- See `Sample.encKey`. -/
def Sample.decKey : DecKey where
  size := 128
  dec x := match x with
    | n :: t => some (t.take n.toNat)
    | [] => none

/-- Non-trivial case: key pairs exist. -/
theorem Sample.keyPair : KeyPair Sample.encKey Sample.decKey 128 where
  big := by decide
  encSize := rfl
  decSize := rfl
  inverse := by
    intro i b h
    refine ⟨_, if_pos h, by simp; omega, ?_⟩
    simp only [decKey, Option.some.injEq]
    exact List.take_left' (by simp; omega)

/-! ## C28 -/

/-- C28: a message encoded with a public key, whose cipher text fits the size field, decodes with the matching private key
to the same body and header data, with the encryption flag set; without a private key, or with one that fails, `Decode`
reports the decryption error. -/
theorem C28_encrypted_round_trip (C : BodyCodec E) (m : Message E) (e e1 e2 : E) (b : Bytes) (n : Nat)
    (hm : m.body = .val e) (henc : C.encode e = .ok (b, e1)) (hdec : C.decode (C.msgID e) b = .ok (e2, n))
    (hicc0 : 0 < m.header.iccID.toNat) (hicc1 : m.header.iccID.toNat < 10 ^ 12)
    (hpacket : packetFlag m.header.property.toNat = true → m.header.packet.isSome)
    (k : EncKey) (d : DecKey) (size : Nat) (hk : KeyPair k d size) (hsize : size * blockCount (size - 42) b.length ≤ 1023)
    (self : Message E) :
    ∃ frame m' r, Message.encode C (some k) m = .ok (frame, m') ∧ Message.decode C (some d) self frame = .ok r ∧
      r.body = .val e2 ∧ r.header.msgID = C.msgID e ∧ r.header.serial = m.header.serial ∧ r.header.iccID = m.header.iccID ∧
      r.header.packet = m.header.packet ∧ encryptFlag r.header.property.toNat = true ∧
      packetFlag r.header.property.toNat = m.header.packet.isSome ∧
      sizeField r.header.property.toNat = size * blockCount (size - 42) b.length ∧
      Message.decode C none self frame = .err .decryptFailed ∧
      ∀ (d' : DecKey) (x : Bytes) (err : Err), encryptOAEP k b = .ok x → decryptOAEP d' x = .err err →
        Message.decode C (some d') self frame = .err .decryptFailed := by
  obtain ⟨x, x1, x2, x3⟩ := encrypt_decrypt hk b
  have h1 : Message.encodeBody C (some k) m = .ok (x, { m.header with property := Property.enableEncrypt m.header.property }, .val e1) := by
    simp [Message.encodeBody, hm, henc, x1]
  have hflag : encryptFlag (Property.enableEncrypt m.header.property).toNat = true := by
    rw [← Property.isEnableEncrypt_spec, Property.isEnableEncrypt_testBit, Property.enableEncrypt_toNat, Nat.testBit_or, Nat.testBit_two_pow]
    simp
  have hpk : packetFlag (Property.enableEncrypt m.header.property).toNat = packetFlag m.header.property.toNat := by
    rw [← Property.isEnablePacket_spec, ← Property.isEnablePacket_spec, Property.isEnablePacket_testBit, Property.isEnablePacket_testBit,
      Property.enableEncrypt_toNat, Nat.testBit_or, Nat.testBit_two_pow]
    simp
  have gen := fun dkey => Message.round_trip_gen C m e e1 e2 x b n (some k) _ hm h1 hdec hicc0 hicc1 (by omega) (by rw [hpk]; exact hpacket) dkey self
  obtain ⟨frame, m', h', g1, g2, g3, g4, g5, g6, g7, g8, g9, g10⟩ := gen (some d)
  have hen : Property.isEnableEncrypt h'.property = true := by rw [Property.isEnableEncrypt_spec, g8, hflag]
  have hp : Message.plainContent (some d) h' x = .ok b := by simp [Message.plainContent, hen, x3, Res.mapErr]
  have hres := g2 _ hp
  simp only [if_true] at hres
  refine ⟨frame, m', _, g1, hres, rfl, g3, g4, g5, g6, g8.trans hflag, g9, g7.trans x2, ?_, ?_⟩
  · obtain ⟨frame', m'', h'', k1, k2, -, -, -, -, -, k8, -, k10⟩ := gen none
    rw [g1] at k1
    obtain ⟨rfl, rfl⟩ : frame = frame' ∧ m' = m'' := by simpa using k1
    obtain rfl : h' = h'' := g10.symm.trans k10
    exact k2 (.err .decryptFailed) (by simp [Message.plainContent, hen])
  · intro d' x' err hx hd
    rw [x1] at hx
    obtain rfl : x = x' := by simpa using hx
    obtain ⟨frame', m'', h'', k1, k2, -, -, -, -, -, k8, -, k10⟩ := gen (some d')
    rw [g1] at k1
    obtain ⟨rfl, rfl⟩ : frame = frame' ∧ m' = m'' := by simpa using k1
    obtain rfl : h' = h'' := g10.symm.trans k10
    exact k2 (.err .decryptFailed) (by simp [Message.plainContent, hen, hd, Res.mapErr])

/-- C28 (exact limit): with a key of `size` bytes, `Encode` reports body-too-long exactly when the length of the cipher text modulo
65536 exceeds 1023. -/
theorem C28_limit_partial (C : BodyCodec E) (m : Message E) (e e' : E) (b : Bytes) (k : EncKey) (d : DecKey) (size : Nat)
    (hk : KeyPair k d size) (hm : m.body = .val e) (henc : C.encode e = .ok (b, e')) :
    Message.encode C (some k) m = .err .bodyTooLong ↔ 1023 < size * blockCount (size - 42) b.length % 65536 := by
  obtain ⟨x, x1, x2, x3⟩ := encrypt_decrypt hk b
  unfold Message.encode
  simp only [Message.encodeBody, hm, henc, Res.ok_bind, Message.bodyMsgID, x1]
  have hmod : (UInt16.ofNat x.length).toNat = x.length % 65536 := by simp
  rw [← x2]
  by_cases hs : 1023 < x.length % 65536
  · rw [Property.setBodySize_err _ _ (by omega)]
    simp [hs]
  · obtain ⟨w, hw, -⟩ := Property.setBodySize_toNat (Property.enableEncrypt m.header.property) _ (show (UInt16.ofNat x.length).toNat < 1024 by omega)
    rw [hw]
    simp only [Res.ok_bind, hs, iff_false]
    generalize hx : Header.encode _ = r
    have : r ≠ .err .bodyTooLong := by
      rw [← hx]
      unfold Header.encode
      simp only
      generalize (if m.header.packet.isSome then Property.enablePacket w else w) = prop
      split
      · cases m.header.packet <;> simp
      · simp
    cases r with
    | ok _ => simp
    | err e => simpa using this
    | panic => simp

/-- C28: with a 1024-bit key, bodies of up to 602 bytes can be encrypted and longer ones, up to 43946 bytes, are refused. Missing:
longer bodies, for which the limit is false (`C28_refuted`). -/
theorem C28_limit_1024_bit_partial (C : BodyCodec E) (m : Message E) (e e' : E) (b : Bytes) (k : EncKey) (d : DecKey)
    (hk : KeyPair k d 128) (hm : m.body = .val e) (henc : C.encode e = .ok (b, e')) (hb : b.length ≤ 43946) :
    Message.encode C (some k) m = .err .bodyTooLong ↔ 602 < b.length := by
  rw [C28_limit_partial C m e e' b k d 128 hk hm henc]
  have h1 : blockCount (128 - 42) b.length = (b.length + 85) / 86 := by unfold blockCount; rfl
  rw [h1]
  omega

/-- C28 is false of the code for very long bodies: the length of the cipher text wraps around, and a body of 44032 bytes is
sent with a size field of zero. -/
theorem C28_refuted (k : EncKey) (d : DecKey) (hk : KeyPair k d 128) : ∃ (m : Message Entity) (e : Entity) (b f : Bytes) (m' : Message Entity),
    m.body = .val e ∧ Sample.codec.encode e = .ok (b, e) ∧ b.length = 44032 ∧
    Message.encode Sample.codec (some k) m = .ok (f, m') ∧ sizeField m'.header.property.toNat = 0 := by
  let e : Entity := .m0700 { replySerial := 1, cmd := 0, data := List.replicate 44029 0 }
  let m : Message Entity := { header := Sample.header, body := .val e }
  have hl : (put16 1 ++ [0] ++ List.replicate 44029 (0 : UInt8)).length = 44032 := by
    simp only [List.length_append, List.length_replicate, put16_length, List.length_cons, List.length_nil]
  obtain ⟨x, x1, x2, x3⟩ := encrypt_decrypt hk (put16 1 ++ [0] ++ List.replicate 44029 (0 : UInt8))
  rw [hl, show 128 * blockCount (128 - 42) 44032 = 65536 from by decide] at x2
  have hs : Property.setBodySize (Property.enableEncrypt Sample.header.property) (UInt16.ofNat x.length) = .ok 1024 := by
    rw [x2]; rfl
  have he : Message.encodeBody Sample.codec (some k) m =
      .ok (x, { Sample.header with property := Property.enableEncrypt Sample.header.property }, .val e) := by
    show (encryptOAEP k _ >>= fun x => _) = _
    rw [x1]
    rfl
  exact ⟨m, e, _, _, _, rfl, rfl, hl, Message.encode_ok (C := Sample.codec) (key := some k) (m := m)
    (id := 0x0700) he rfl hs rfl, by decide⟩

/-- Non-trivial case: the sample message encrypted and decrypted with the toy key. -/
example : ∃ frame m' r, Message.encode Sample.codec (some Sample.encKey) Sample.message = .ok (frame, m') ∧
    Message.decode Sample.codec (some Sample.decKey) {} frame = .ok r ∧ r.body = .val Sample.body := by
  obtain ⟨f, m', r, h1, h2, h3, -⟩ := C28_encrypted_round_trip Sample.codec Sample.message Sample.body
    Sample.body Sample.body _ 7 rfl rfl rfl (by decide) (by decide) (by decide) Sample.encKey Sample.decKey 128 Sample.keyPair (by decide) {}
  exact ⟨f, m', r, h1, h2, h3⟩

end Verif
