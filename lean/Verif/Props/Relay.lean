import Verif.Lemmas.RelayAll
import Verif.Props.RoundTrip
import Verif.Props.Header
import Verif.Props.Rsa
/-! # C68: received messages can be passed on -/

namespace Verif

open Spec

/-- Bodies without extras are compared exactly. -/
theorem dropCache_relayable {env : Env} {e : Entity} (h : Relayable env e) : Spec.Entity.dropCache e = e := by
  have hd : ∀ t : T0200, t.extras = [] → Spec.dropCache t = t := by
    intro t ht
    cases t
    simp only at ht
    subst ht
    rfl
  cases e <;> try rfl
  case m0200 b => exact congrArg _ (hd b h)
  case m0201 b =>
    cases b
    exact congrArg (fun r => Entity.m0201 ⟨_, r⟩) (hd _ h)
  case m0500 b =>
    cases b
    exact congrArg (fun r => Entity.m0500 ⟨_, r⟩) (hd _ h)
  case m0704 b =>
    obtain ⟨t, is⟩ := b
    have : is.map Spec.dropCache = is := by
      have h' : ∀ i ∈ is, i.extras = [] := h
      clear h
      induction is with
      | nil => rfl
      | cons i is ih =>
        rw [List.map_cons, hd i (h' i (by simp)), ih fun j hj => h' j (by simp [hj])]
    exact congrArg (fun r => Entity.m0704 ⟨t, r⟩) this

/-- C68 for bodies: whatever bytes a body was decoded from, if it meets the conditions of `Spec.Relayable` it can be encoded, and decoding the new
bytes gives the same body. Missing from the property: bodies that do not meet the conditions (`C68_refuted`). -/
theorem C68_body_relay_partial (env : Env) (id : UInt16) (data : Bytes) (e : Entity) (n : Nat) (h : Entity.decodeBody env id data = .ok (e, n))
    (hr : Relayable env e) : ∃ b e' n', Entity.encode env e = .ok (b, e') ∧ Entity.decodeBody env id b = .ok (e, n') := by
  obtain ⟨b, e', n', h1, h2⟩ := C16_body_round_trip_partial env e (decoded_inRange h hr)
  rw [dropCache_relayable hr, Entity.decodeBody_msgID h] at h2
  exact ⟨b, e', n', h1, h2⟩

/-- Non-trivial cases: a media upload over the southern Atlantic, with content; the attributes of a terminal. -/
example : ∃ e n, Entity.decodeBody Sample.env 0x0801 ([0, 0, 0, 9, 0, 1, 2, 3] ++ [0, 0, 0, 1, 0, 0, 0, 15, 2, 4, 0xcb, 0x14, 1, 0x31, 0x2d, 1, 0, 5, 2, 0x58, 0, 90,
    0x23, 0x11, 0x15, 0x06, 0x13, 0x20] ++ [0xff, 0xd8, 0x7e]) = .ok (e, n) ∧ Relayable Sample.env e := ⟨_, _, rfl, True.intro⟩
example : ∃ e n, Entity.decodeBody Sample.env 0x0107 ([0, 1] ++ List.replicate 5 0x41 ++ List.replicate 20 0x42 ++ List.replicate 7 0x43 ++
    [0, 0, 0x13, 0x80, 0x01, 0x38, 0, 0, 0, 0x01] ++ [2, 0x31, 0x2e] ++ [1, 0x32] ++ [3, 4]) = .ok (e, n) ∧ Relayable Sample.env e := by
  refine ⟨.m0107 ⟨1, List.replicate 5 0x41, List.replicate 20 0x42, List.replicate 7 0x43,
    [49, 51, 56, 48, 48, 49, 51, 56, 48, 48, 48, 48, 48, 48, 48, 49], [0x31, 0x2e], [0x32], 3, 4⟩, 51, by decide, ?_⟩
  show ∀ c ∈ ([49, 51, 56, 48, 48, 49, 51, 56, 48, 48, 48, 48, 48, 48, 48, 49] : Bytes), c ≤ 57
  decide

/-- The header of a received message names a terminal that can be written again. -/
theorem Header.decode_icc {self h : Header} {data : Bytes} (hd : Header.decode self data = .ok h) : 0 < h.iccID.toNat ∧ h.iccID.toNat < 10 ^ 12 := by
  have hlen : 12 ≤ data.length := by
    unfold Header.decode at hd
    split at hd
    · simp at hd
    · omega
  obtain ⟨id, prop, serial, icc, tail, hi, rfl⟩ := header_split data hlen
  rw [Header.decode_bytes _ _ _ _ _ _ hi] at hd
  by_cases hg : (∀ b ∈ icc, DecimalByte b) ∧ decimalValue icc ≠ 0
  · have hlt := decimalValue_lt icc hg.1
    rw [hi] at hlt
    rw [(parseUint_field icc hi).1 hg] at hd
    have hicc : h.iccID.toNat = decimalValue icc := by
      simp only [Res.bind] at hd
      split at hd
      · rw [Rd.bind_apply] at hd
        cases h1 : Rd.u16 tail with
        | err e => simp [h1] at hd
        | panic => simp [h1] at hd
        | ok r =>
          obtain ⟨a, t1⟩ := r
          simp only [h1] at hd
          rw [Rd.bind_apply] at hd
          cases h2 : Rd.u16 t1 with
          | err e => simp [h2] at hd
          | panic => simp [h2] at hd
          | ok r2 =>
            simp only [h2, Rd.pure_apply, Res.ok.injEq] at hd
            rw [← hd]
            simp; omega
      · simp only [Res.ok.injEq] at hd
        rw [← hd]
        simp; omega
    have := hg.2
    omega
  · rw [(parseUint_field icc hi).2 hg] at hd
    simp [Res.bind] at hd

/-- C68 for messages: a message received in an unencrypted frame, with a body that meets the conditions and fits a frame, can be sent on: it encodes, and
whoever decodes the frame gets the same body, message id, serial number, terminal number and packet numbers. -/
theorem C68_message_relay_partial (env : Env) (key : Option DecKey) (data : Bytes) (m : Message Entity) (e : Entity)
    (h : Message.decode (entityCodec env) key {} data = .ok m) (hm : m.body = .val e) (hr : Relayable env e)
    (hplain : encryptFlag m.header.property.toNat = false)
    (hsize : ∀ b e', Entity.encode env e = .ok (b, e') → b.length ≤ 1023) (key' : Option DecKey) (self : Message Entity) :
    ∃ frame m' d, Message.encode (entityCodec env) none m = .ok (frame, m') ∧ Message.decode (entityCodec env) key' self frame = .ok d ∧
      d.body = m.body ∧ d.header.msgID = m.header.msgID ∧ d.header.serial = m.header.serial ∧ d.header.iccID = m.header.iccID ∧
      d.header.packet = m.header.packet := by
  obtain ⟨content, plain, e', n, henv, -, hdec, hbody⟩ := Message.decode_body_inv rfl h (by rw [hm]; simp)
  rw [hm] at hbody
  simp only [Body.val.injEq] at hbody
  subst hbody
  obtain ⟨-, -, -, -, -, -, -, -, hh⟩ := decodeEnvelope_ok henv
  have hicc := Header.decode_icc hh
  obtain ⟨f, m', d, h1, h2, h3, h4, h5, h6, h7, -⟩ := C01_registered_round_trip env m e hm (decoded_inRange hdec hr) hicc.1 hicc.2 hsize hplain
    (fun hp => Header.decode_packet hh (by rw [Property.isEnablePacket_spec]; exact hp)) key' self
  refine ⟨f, m', d, h1, h2, ?_, ?_, h5, h6, h7⟩
  · rw [h3, hm, dropCache_relayable hr]
  · rw [h4, Entity.decodeBody_msgID hdec]

/-- Non-trivial case: the sample message, as received. -/
example : ∃ f m0 m, Message.encode Sample.codec none Sample.message = .ok (f, m0) ∧ Message.decode Sample.codec none {} f = .ok m ∧
    m.body = .val Sample.body ∧ Relayable Sample.env Sample.body ∧ encryptFlag m.header.property.toNat = false ∧
    (∀ b e', Entity.encode Sample.env Sample.body = .ok (b, e') → b.length ≤ 1023) := by
  refine ⟨_, _, _, rfl, rfl, rfl, True.intro, by decide, ?_⟩
  intro b e' h
  cases h
  decide

/-- What becomes of a body that is decoded, encoded and decoded again. -/
def relayed (env : Env) (id : UInt16) (data : Bytes) : Res Entity := do
  let (e, _) ← Entity.decodeBody env id data
  let (b, _) ← Entity.encode env e
  let (e', _) ← Entity.decodeBody env id b
  .ok e'

/-- Is the body accepted, but refused when it is passed on? -/
def lostInRelay (env : Env) (id : UInt16) (data : Bytes) : Bool :=
  match Entity.decodeBody env id data with
  | .ok (e, _) =>
    match Entity.encode env e with
    | .ok (b, _) => match Entity.decodeBody env id b with | .err _ => true | _ => false
    | .err _ => true
    | .panic => false
  | _ => false

/-- The part of GB18030 that matters for bytes that are no text: they are read as the replacement character U+FFFD, which has three bytes in UTF-8 and
four in GB18030. -/
def Sample.lossyDec : Bytes → Bytes
  | 0x84 :: 0x31 :: 0xa4 :: 0x37 :: t => [0xef, 0xbf, 0xbd] ++ Sample.lossyDec t
  | c :: t => (if c < 128 then [c] else [0xef, 0xbf, 0xbd]) ++ Sample.lossyDec t
  | [] => []

/-- See `Sample.lossyDec`. -/
def Sample.lossyEnc : Bytes → Bytes
  | 0xef :: 0xbf :: 0xbd :: t => [0x84, 0x31, 0xa4, 0x37] ++ Sample.lossyEnc t
  | c :: t => c :: Sample.lossyEnc t
  | [] => []

/-- See `Sample.lossyDec`. -/
def Sample.lossyEnv : Env := { Sample.env with gbDec := fun b => some (Sample.lossyDec b), gbEnc := fun s => some (Sample.lossyEnc s) }

/-- C68 is false of the code as stated. The following bodies are accepted, but what was decoded from them is refused when it is passed on: an
authentication whose key is a NUL byte, a parameter answer and a parameter setting with count 0 and a byte behind, a location report with a mileage, CAN
data of 25 o'clock, circles and rectangles with count 0 and padding behind, a polygon without vertexes and times with padding behind, and a short RSA key. -/
theorem C68_refuted : ∀ p ∈ [((0x0102 : UInt16), ([0] : Bytes)), (0x0104, [0, 1, 0, 0]), (0x8103, [0, 0, 0, 0]),
      (0x0200, [0, 0, 0, 1, 0, 0, 0, 15, 2, 4, 0xcb, 0x14, 1, 0x31, 0x2d, 1, 0, 5, 2, 0x58, 0, 90, 0x23, 0x11, 0x15, 0x06, 0x13, 0x20, 1, 4, 0, 0, 0, 77]),
      (0x0705, [0, 0, 0x25, 0, 0, 0, 0]), (0x8600, List.replicate 20 0), (0x8602, List.replicate 24 0), (0x8604, List.replicate 16 0),
      (0x0a00, [0, 1, 0, 1] ++ List.replicate 64 0 ++ List.replicate 64 0xff)],
    lostInRelay Sample.env p.1 p.2 = true := by
  decide +kernel

/-- C68 is false in another way: a driver's number of six bytes that are no text is accepted, and passed on it has changed: five replacement
characters instead of six. -/
theorem C68_refuted_text : ∃ (data : Bytes) (e e' : T0702) (n : Nat), Entity.decodeBody Sample.lossyEnv 0x0702 data = .ok (.m0702 e, n) ∧
    relayed Sample.lossyEnv 0x0702 data = .ok (.m0702 e') ∧ e.number.length = 18 ∧ e'.number.length = 15 := by
  refine ⟨[1, 0x23, 0x11, 0x15, 0x06, 0x13, 0x20, 0, 1, 0x41, 0xff, 0xff, 0xff, 0xff, 0xff, 0xff] ++ List.replicate 14 0 ++ [1, 0x42, 0x20, 0x30, 0x01, 0x31],
    _, _, _, rfl, rfl, rfl, rfl⟩

/-- C68 is false in a third way: a message received in an encrypted frame and sent on without key is still marked as encrypted, but its body is in the
clear. Its receiver fails to decrypt it: without private key, and with any private key that does not happen to decrypt the plain bytes. -/
theorem C68_refuted_encrypted : ∃ f m0 m b e', Message.encode Sample.codec (some Sample.encKey) Sample.message = .ok (f, m0) ∧
    Message.decode Sample.codec (some Sample.decKey) {} f = .ok m ∧ m.body = .val Sample.body ∧ Relayable Sample.env Sample.body ∧
    Entity.encode Sample.env Sample.body = .ok (b, e') ∧ ∃ f' m1, Message.encode Sample.codec none m = .ok (f', m1) ∧
    Message.decode Sample.codec none {} f' = .err .decryptFailed ∧
    ∀ d err, decryptOAEP d b = .err err → Message.decode Sample.codec (some d) {} f' = .err .decryptFailed := by
  obtain ⟨f, m0, m, h1, h2, h3, h4, h5, h6, h7, h8, h9, -⟩ := C28_encrypted_round_trip Sample.codec Sample.message Sample.body
    Sample.body Sample.body _ 7 rfl rfl rfl (by decide) (by decide) (by decide) Sample.encKey Sample.decKey 128 Sample.keyPair (by decide) {}
  have gen := fun dkey => Message.round_trip_gen Sample.codec m Sample.body Sample.body Sample.body [0x7e, 0x7d, 0x7d, 0x7e, 0x01, 0x02, 0x7d]
    [0x7e, 0x7d, 0x7d, 0x7e, 0x01, 0x02, 0x7d] 7 none m.header.property h3
    (by rw [Message.encodeBody, h3]; rfl) rfl (by rw [h6]; decide) (by rw [h6]; decide) (by decide) (by rw [h9, h7]; exact id) dkey {}
  obtain ⟨f', m1, h', g1, g2, -, -, -, -, -, g8, -, g10⟩ := gen none
  have hen : Property.isEnableEncrypt h'.property = true := by rw [Property.isEnableEncrypt_spec, g8, h8]
  refine ⟨f, m0, m, [0x7e, 0x7d, 0x7d, 0x7e, 0x01, 0x02, 0x7d], _, h1, h2, h3, True.intro, rfl, f', m1, g1, g2 (.err .decryptFailed) (by simp [Message.plainContent, hen]), ?_⟩
  intro d err hd
  obtain ⟨f'', m2, h'', k1, k2, -, -, -, -, -, k8, -, k10⟩ := gen (some d)
  rw [g1] at k1
  obtain ⟨rfl, rfl⟩ : f' = f'' ∧ m1 = m2 := by simpa using k1
  obtain rfl : h' = h'' := g10.symm.trans k10
  exact k2 (.err .decryptFailed) (by simp [Message.plainContent, hen, hd, Res.mapErr])

end Verif
