import Verif.Lemmas.Message
import Verif.Props.Sample
/-! # C01, C02, C03, C05, C06, C10: the message envelope

All theorems hold for any family of body types `E` with any codec `C`. -/

namespace Verif
open Spec

variable {E : Type}

/-! ## C02 -/

/-- C02: whatever the header and body bytes are, an encoded message is a frame of header bytes and body bytes
in the sense of the wire format: delimited, stuffed, followed by the XOR. -/
theorem C02_frame_layout (C : BodyCodec E) (key : Option EncKey) (m m' : Message E) (f : Bytes)
    (h : Message.encode C key m = .ok (f, m')) :
    ∃ hb body, Frame f (hb ++ body) ∧ hb.length = (if packetFlag m'.header.property.toNat then 16 else 12) ∧
      (∃ hdr b', Message.encodeBody C key m = .ok (body, hdr, b')) := by
  obtain ⟨body, hdr, b', id, prop, hb, h1, h2, h3, h4, h5, hf⟩ := Message.encode_inv h
  refine ⟨hb, body, ⟨_, hf, stuffed_escape _⟩, ?_, ⟨hdr, b', h1⟩⟩
  rw [← Property.isEnablePacket_spec]
  exact Header.encode_length _ _ _ h4

/-- C02: for a terminal number of at most twelve digits the header part is the header layout of the protocol
with the id of the body, the serial number, terminal number and packet information of the message, and the
size field counts the body bytes modulo 65536. -/
theorem C02_header_layout (C : BodyCodec E) (key : Option EncKey) (m m' : Message E) (f : Bytes)
    (hicc : m.header.iccID.toNat < 10 ^ 12) (h : Message.encode C key m = .ok (f, m')) :
    ∃ prop body, Frame f (headerBytes m'.header.msgID.toNat prop m.header.iccID.toNat m.header.serial.toNat
        (m.header.packet.map fun p => (p.sum.toNat, p.seq.toNat)) ++ body) ∧
      Message.bodyMsgID C m.body = .ok m'.header.msgID ∧ packetFlag prop = m.header.packet.isSome ∧
      sizeField prop = body.length % 65536 ∧ prop = m'.header.property.toNat ∧ prop < 65536 := by
  obtain ⟨body, hdr, b', id, prop, hb, h1, h2, h3, h4, h5, hf⟩ := Message.encode_inv h
  have hhdr : hdr.iccID = m.header.iccID ∧ hdr.serial = m.header.serial ∧ hdr.packet = m.header.packet := by
    unfold Message.encodeBody at h1
    split at h1
    · rename_i e he
      cases hx : C.encode e with
      | err _ => simp [hx] at h1
      | panic => simp [hx] at h1
      | ok r =>
        obtain ⟨b0, e0⟩ := r
        simp only [hx, Res.ok_bind] at h1
        cases key with
        | none =>
          simp only [Res.ok.injEq, Prod.mk.injEq] at h1
          rw [← h1.2.1]; simp
        | some k =>
          simp only at h1
          cases hy : encryptOAEP k b0 with
          | err _ => simp [hy] at h1
          | panic => simp [hy] at h1
          | ok x =>
            simp only [hy, Res.ok_bind, Res.ok.injEq, Prod.mk.injEq] at h1
            rw [← h1.2.1]; simp
    · simp only [Res.ok.injEq, Prod.mk.injEq] at h1
      rw [← h1.2.1]; simp
  obtain ⟨hlay, hh', hprop', hpk'⟩ := Header.encode_layout _ (by simpa [hhdr.1] using hicc) _ _ h4
  have hid : m'.header.msgID = id := by rw [hh']
  have hicc' : m'.header.iccID = m.header.iccID := by rw [hh']; exact hhdr.1
  have hser' : m'.header.serial = m.header.serial := by rw [hh']; exact hhdr.2.1
  have hpkt' : m'.header.packet = m.header.packet := by rw [hh']; exact hhdr.2.2
  rw [hicc', hser', hpkt'] at hlay
  refine ⟨m'.header.property.toNat, body, ⟨_, by rw [hf, hlay], stuffed_escape _⟩, by rw [h2, hid],
    by rw [← Property.isEnablePacket_spec, hpk', hpkt'], ?_, rfl, UInt16.toNat_lt _⟩
  have hs : (UInt16.ofNat body.length).toNat < 1024 := by
    apply Decidable.byContradiction
    intro hc
    rw [Property.setBodySize_err _ _ (by omega)] at h3
    simp at h3
  obtain ⟨w, hw, hwn⟩ := Property.setBodySize_toNat hdr.property _ hs
  rw [h3] at hw
  simp only [Res.ok.injEq] at hw
  subst hw
  have hmod : (UInt16.ofNat body.length).toNat = body.length % 65536 := by simp
  rw [hprop', sizeField]
  simp only
  split
  · rw [Property.enablePacket_toNat]
    have : (prop.toNat ||| 2 ^ 13) % 2 ^ 10 = prop.toNat % 2 ^ 10 := by
      rw [Nat.or_mod_two_pow]; simp
    have h10 : (2 : Nat) ^ 10 = 1024 := by decide
    rw [h10] at this
    rw [this]; omega
  · omega

/-- C02: the other bits of the property word. The encryption flag is set when a key is given for a body that is there, and otherwise as the
caller's header has it; the bits 11, 12, 14 and 15 are those of the caller's header. With `C02_header_layout` this determines the whole word. -/
theorem C02_property_bits (C : BodyCodec E) (key : Option EncKey) (m m' : Message E) (f : Bytes)
    (h : Message.encode C key m = .ok (f, m')) :
    encryptFlag m'.header.property.toNat =
      (encryptFlag m.header.property.toNat || (key.isSome && match m.body with | .val _ => true | _ => false)) ∧
    ∀ i ∈ [11, 12, 14, 15], m'.header.property.toNat.testBit i = m.header.property.toNat.testBit i := by
  obtain ⟨body, hdr, b', id, prop, hb, h1, h2, h3, h4, h5, hf⟩ := Message.encode_inv h
  have hs : (UInt16.ofNat body.length).toNat < 1024 := by
    apply Decidable.byContradiction
    intro hc
    rw [Property.setBodySize_err _ _ (by omega)] at h3
    simp at h3
  obtain ⟨w, hw, hwn⟩ := Property.setBodySize_toNat hdr.property _ hs
  rw [h3] at hw
  simp only [Res.ok.injEq] at hw
  subst hw
  have hhigh : ∀ i, 10 ≤ i → prop.toNat.testBit i = hdr.property.toNat.testBit i := by
    intro i hi
    obtain ⟨j, rfl⟩ : ∃ j, i = j + 10 := ⟨i - 10, by omega⟩
    rw [← Nat.testBit_div_two_pow, ← Nat.testBit_div_two_pow, hwn]
    congr 1
    have : (2 : Nat) ^ 10 = 1024 := by decide
    rw [this]; omega
  have hprop' : m'.header.property = if hdr.packet.isSome then Property.enablePacket prop else prop := by
    unfold Header.encode at h4
    cases hp : hdr.packet with
    | none =>
      simp only [hp, Option.isSome_none, Bool.false_eq_true, if_false] at h4
      split at h4
      · simp at h4
      · simp only [Res.ok.injEq, Prod.mk.injEq] at h4
        rw [← h4.2]; simp
    | some p =>
      simp only [hp, Option.isSome_some, if_true] at h4
      split at h4
      · simp only [Res.ok.injEq, Prod.mk.injEq] at h4
        rw [← h4.2]; simp
      · simp only [Res.ok.injEq, Prod.mk.injEq] at h4
        rw [← h4.2]; simp
  have hnew : ∀ i, 10 ≤ i → i ≠ 13 → m'.header.property.toNat.testBit i = hdr.property.toNat.testBit i := by
    intro i hi hn
    rw [← hhigh i hi, hprop']
    split
    · rw [Property.enablePacket_toNat, Nat.testBit_or, Nat.testBit_two_pow]
      simp; omega
    · rfl
  have hold : hdr.property.toNat = m.header.property.toNat ||| (if (key.isSome && match m.body with | .val _ => true | _ => false) then 2 ^ 10 else 0) := by
    unfold Message.encodeBody at h1
    cases hm : m.body with
    | nil => simp [hm] at h1; rw [← h1.2.1]; simp
    | nilPtr id => simp [hm] at h1; rw [← h1.2.1]; simp
    | val e =>
      simp only [hm] at h1
      cases hx : C.encode e with
      | err _ => simp [hx] at h1
      | panic => simp [hx] at h1
      | ok r =>
        obtain ⟨b0, e0⟩ := r
        simp only [hx, Res.ok_bind] at h1
        cases key with
        | none =>
          simp only [Res.ok.injEq, Prod.mk.injEq] at h1
          rw [← h1.2.1]; simp
        | some k =>
          simp only at h1
          cases hy : encryptOAEP k b0 with
          | err _ => simp [hy] at h1
          | panic => simp [hy] at h1
          | ok x =>
            simp only [hy, Res.ok_bind, Res.ok.injEq, Prod.mk.injEq] at h1
            rw [← h1.2.1]; simp [Property.enableEncrypt_toNat]
  generalize (key.isSome && match m.body with | .val _ => true | _ => false) = q at hold ⊢
  constructor
  · rw [← Property.isEnableEncrypt_spec, ← Property.isEnableEncrypt_spec, Property.isEnableEncrypt_testBit, Property.isEnableEncrypt_testBit,
      hnew 10 (by omega) (by omega), hold, Nat.testBit_or]
    cases q
    · simp
    · simp only [if_true, Nat.testBit_two_pow]; simp
  · intro i hi
    have hi' : 10 < i ∧ i ≠ 13 := by
      simp at hi; omega
    rw [hnew i (by omega) hi'.2, hold, Nat.testBit_or]
    cases q
    · simp
    · simp only [if_true, Nat.testBit_two_pow]; simp; omega

/-- A word with the bits 11 and 15 set keeps them, and gets the encryption flag. -/
example : (match Message.encode Sample.codec (some { size := 128, enc := fun _ b => some b })
      { Sample.message with header := { Sample.header with property := 0x8800 } } with
    | .ok (_, m') => m'.header.property.toNat / 1024
    | _ => 0) = 0x8c00 / 1024 := by decide

/-- C02: a frame starts and ends with the delimiter and contains no other delimiter. -/
theorem C02_delimiters (f content : Bytes) (h : Frame f content) :
    ∃ w, f = [0x7e] ++ w ++ [0x7e] ∧ (0x7e : UInt8) ∉ w := by
  obtain ⟨w, hf, hw⟩ := h
  refine ⟨w, hf, ?_⟩
  rw [(stuffed_iff w _).1 hw]
  exact escape_no_flag _

/-- C02: the content of a frame is determined by its bytes, so removing the escaping recovers it exactly. -/
theorem C02_content_unique (f c1 c2 : Bytes) (h1 : Frame f c1) (h2 : Frame f c2) : c1 = c2 := by
  obtain ⟨w1, hf1, hw1⟩ := h1
  obtain ⟨w2, hf2, hw2⟩ := h2
  have hw : w1 = w2 := by
    rw [hf1] at hf2
    simpa using hf2
  subst hw
  have key : ∀ w a b, Stuffed w a → Stuffed w b → a = b := by
    intro w a b ha
    induction ha generalizing b with
    | nil => intro hb; cases hb; rfl
    | flag _ ih =>
      intro hb
      cases hb with
      | flag h => rw [ih _ h]
      | plain _ h _ => exact absurd rfl h
    | esc _ ih =>
      intro hb
      cases hb with
      | esc h => rw [ih _ h]
      | plain _ h _ => exact absurd rfl h
    | plain h1 h2 _ ih =>
      intro hb
      cases hb with
      | flag h => exact absurd rfl h2
      | esc h => exact absurd rfl h2
      | plain _ _ h => rw [ih _ h]
  have := key _ _ _ hw1 hw2
  have := congrArg List.dropLast this
  simpa using this

/-- Non-trivial case: a message whose serial, command and data all contain delimiter and escape bytes. -/
example : ∃ f m', Message.encode Sample.codec none Sample.message = .ok (f, m') ∧ f.length = 27 := by
  refine ⟨_, _, rfl, ?_⟩
  decide

/-! ## C01 -/

/-- C01: for every message whose body the codec can encode into at most 1023 bytes and decode again, and every
terminal number of 1 to 12 digits, `Encode` succeeds and `Decode` of the result (into any receiver, with any
key) gives back message id, serial number, terminal number, packet information and body. -/
theorem C01_message_round_trip (C : BodyCodec E) (m : Message E) (e e1 e2 : E) (b : Bytes) (n : Nat)
    (hm : m.body = .val e) (henc : C.encode e = .ok (b, e1)) (hdec : C.decode (C.msgID e) b = .ok (e2, n))
    (hicc0 : 0 < m.header.iccID.toNat) (hicc1 : m.header.iccID.toNat < 10 ^ 12) (hsize : b.length ≤ 1023)
    (hplain : encryptFlag m.header.property.toNat = false)
    (hpacket : packetFlag m.header.property.toNat = true → m.header.packet.isSome)
    (key : Option DecKey) (self : Message E) :
    ∃ frame m' d, Message.encode C none m = .ok (frame, m') ∧ Message.decode C key self frame = .ok d ∧
      d.body = .val e2 ∧ d.header.msgID = C.msgID e ∧ d.header.serial = m.header.serial ∧
      d.header.iccID = m.header.iccID ∧ d.header.packet = m.header.packet ∧
      sizeField d.header.property.toNat = b.length ∧ encryptFlag d.header.property.toNat = false ∧
      packetFlag d.header.property.toNat = m.header.packet.isSome ∧ d.header = m'.header := by
  have hb16 : (UInt16.ofNat b.length).toNat = b.length := by simp; omega
  have h1 : Message.encodeBody C none m = .ok (b, m.header, .val e1) := by
    simp [Message.encodeBody, hm, henc]
  have h2 : Message.bodyMsgID C m.body = .ok (C.msgID e) := by rw [hm]; rfl
  obtain ⟨prop, h3, hprop⟩ := Property.setBodySize_toNat m.header.property (UInt16.ofNat b.length) (by omega)
  rw [hb16] at hprop
  have hpk : packetFlag prop.toNat = packetFlag m.header.property.toNat := by
    unfold packetFlag; rw [hprop]; congr 1; omega
  have hen : encryptFlag prop.toNat = encryptFlag m.header.property.toNat := by
    unfold encryptFlag; rw [hprop]; congr 1; omega
  obtain ⟨hb, h', h4⟩ : ∃ hb h', Header.encode { m.header with msgID := C.msgID e, property := prop } = .ok (hb, h') := by
    unfold Header.encode
    cases hp : m.header.packet with
    | none =>
      have : Property.isEnablePacket prop = false := by
        rw [Property.isEnablePacket_spec, hpk]
        cases hx : packetFlag m.header.property.toNat with
        | false => rfl
        | true => have := hpacket hx; rw [hp] at this; simp at this
      simp [this]
    | some p =>
      simp only [Option.isSome_some, if_true]
      split
      · exact ⟨_, _, rfl⟩
      · exact ⟨_, _, rfl⟩
  have hfull := Message.encode_ok h1 h2 h3 h4
  obtain ⟨hlay, hh', hprop', hpk'⟩ := Header.encode_layout _ (by exact hicc1) _ _ h4
  have hround := Header.decode_encode _ (by exact hicc0) (by exact hicc1) _ _ h4
  have hlen := Header.encode_length _ _ _ h4
  have hsz : sizeField h'.property.toNat = b.length := by
    rw [hprop', sizeField]
    simp only
    split
    · rw [Property.enablePacket_toNat]
      have : (prop.toNat ||| 2 ^ 13) % 2 ^ 10 = prop.toNat % 2 ^ 10 := by
        rw [Nat.or_mod_two_pow]; simp
      have h10 : (2 : Nat) ^ 10 = 1024 := by decide
      rw [h10] at this
      rw [this, hprop]; omega
    · rw [hprop]; omega
  have hen' : Property.isEnableEncrypt h'.property = false := by
    rw [hprop', Property.isEnableEncrypt_testBit]
    have hbase : prop.toNat.testBit 10 = false := by
      rw [← Property.isEnableEncrypt_testBit, Property.isEnableEncrypt_spec, hen, hplain]
    simp only
    split
    · rw [Property.enablePacket_toNat, Nat.testBit_or, hbase, Nat.testBit_two_pow]; rfl
    · exact hbase
  have hid : h'.msgID = C.msgID e := by rw [hh']
  have hpkt : h'.packet = m.header.packet := by rw [hh']
  refine ⟨_, _, { header := h', body := .val e2 }, hfull, ?_, rfl, hid, by rw [hh'], by rw [hh'], hpkt, hsz,
    by rw [← Property.isEnableEncrypt_spec]; exact hen',
    by rw [← Property.isEnablePacket_spec, hpk', hpkt], rfl⟩
  rw [Message.decode_frame (by simp only [List.length_append, hlen]; split <;> omega) (hround b)]
  rw [Message.decodeRest_split hlen]
  have hsz' : Property.getBodySize h'.property = UInt16.ofNat b.length := by
    apply UInt16.toNat.inj
    rw [Property.getBodySize_toNat, hb16, ← hsz, sizeField]
  rw [hsz']
  simp [Message.plainContent, hen', Res.bind, Message.decodeContent, hid, hdec]

/-- Non-trivial case for C01: a body full of delimiter and escape bytes, in the second of three packets. -/
example : ∃ frame m' d, Message.encode Sample.codec none { Sample.message with header := Sample.packedHeader } = .ok (frame, m') ∧
    Message.decode Sample.codec none {} frame = .ok d ∧ d.body = .val Sample.body ∧ d.header.packet = some ⟨3, 2⟩ := by
  have h := C01_message_round_trip Sample.codec { Sample.message with header := Sample.packedHeader } Sample.body
    Sample.body Sample.body _ 7 rfl rfl rfl (by decide) (by decide) (by decide) (by decide) (by decide) none {}
  obtain ⟨f, m', d, h1, h2, h3, -, -, -, h4, -⟩ := h
  exact ⟨f, m', d, h1, h2, h3, h4⟩

/-! ## C03 -/

/-- C03: changing one byte of the unescaped content or of the check byte of a frame, to any other value, makes
`Decode` fail. -/
theorem C03_altered_content_rejected (C : BodyCodec E) (key : Option DecKey) (self : Message E)
    (content bad w : Bytes) (hc : content ≠ []) (hbad : OneByteChanged (content ++ [xorAll content]) bad)
    (hw : Stuffed w bad) :
    Message.decode C key self ([0x7e] ++ w ++ [0x7e]) = .err .invalidCheckSum := by
  rw [(stuffed_iff _ _).1 hw]
  obtain ⟨a, x, y, b, hxy, hg, hb⟩ := hbad
  have hx0 : xorAll (a ++ x :: b) = 0 := by
    rw [← hg, xorAll_append]; simp [xorAll]
  have hy : xorAll bad ≠ 0 := by
    intro h
    apply hxy
    rw [hb] at h
    simp only [xorAll_append, xorAll] at h hx0
    have := h.trans hx0.symm
    exact ((UInt8.xor_left_inj _).1 ((UInt8.xor_right_inj _).1 this)).symm
  have hne : bad ≠ [] := by rw [hb]; simp
  have hlen : bad.length = content.length + 1 := by
    have := congrArg List.length hg
    rw [hb]; simp at this ⊢; omega
  rw [← List.dropLast_concat_getLast hne] at hy ⊢
  have hd : bad.dropLast ≠ [] := by
    intro h
    have := congrArg List.length h
    simp [hlen] at this
    exact hc this
  rw [Message.decode_eq, decodeEnvelope_frame _ _ hd, if_pos, Res.bind]
  intro h
  apply hy
  rw [xorAll_append, h]; simp [xorAll]

/-- Non-trivial case for C03: one altered byte in an encoded message. -/
example : OneByteChanged ([1, 2, 3] ++ [xorAll [1, 2, 3]]) [1, 0x7e, 3, 0] :=
  ⟨[1], 2, 0x7e, [3, 0], by decide, by decide, rfl⟩

/-- C03: whatever the input, `Decode` succeeds only if the check byte is the XOR of the unescaped bytes before
it. -/
theorem C03_accepts_only_matching_check_byte (C : BodyCodec E) (key : Option DecKey) (self d : Message E)
    (data : Bytes) (h : Message.decode C key self data = .ok d) :
    ∃ w u content s, data = [0x7e] ++ w ++ u ++ [0x7e] ∧ Unstuffed w content ∧ CheckByte u s ∧
      s = xorAll content ∧ 12 ≤ content.length ∧ Header.decode {} content = .ok d.header := by
  obtain ⟨content, he⟩ := Message.decode_ok_header h
  obtain ⟨w, u, s, h1, h2, h3, h4, h5, h6⟩ := decodeEnvelope_ok he
  exact ⟨w, u, content, s, h1, h2, h3, h4, h5, h6⟩

/-- Non-trivial case: the frame of the sample message is accepted. -/
example : ∃ f m' d, Message.encode Sample.codec none Sample.message = .ok (f, m') ∧ Message.decode Sample.codec none {} f = .ok d ∧
    d.header.serial = 7 := ⟨_, _, _, rfl, rfl, rfl⟩

/-! ## C05 -/

/-- C05 (exact): if the body codec never panics and the private key has a positive size, `Decode` panics exactly
on a single byte between two delimiters. -/
theorem C05_decode_panics_iff_partial (C : BodyCodec E) (hC : ∀ id b, C.decode id b ≠ .panic) (key : Option DecKey)
    (hkey : ∀ k, key = some k → 0 < k.size) (self : Message E) (data : Bytes) :
    Message.decode C key self data = .panic ↔ ∃ x, data = [0x7e, x, 0x7e] := by
  rw [← decodeEnvelope_panic_iff, Message.decode_eq]
  cases he : Message.decodeEnvelope data with
  | err e => simp [Res.bind]
  | panic => simp [Res.bind]
  | ok r =>
    obtain ⟨h, c⟩ := r
    obtain ⟨w, u, s, h1, h2, h3, h4, h5, h6⟩ := decodeEnvelope_ok he
    simp only [Res.bind, Message.decodeRest, reduceCtorEq, iff_false]
    have hl := Header.decode_length h6
    obtain ⟨b, hb⟩ : ∃ b, Message.contentOf h c = .ok b := by
      unfold Message.contentOf
      split
      · rename_i hp; rw [if_pos hp] at hl
        exact ⟨_, slice_to_end _ _ hl⟩
      · rename_i hp; rw [if_neg hp] at hl
        exact ⟨_, slice_to_end _ _ hl⟩
    rw [hb]
    simp only [Res.ok_bind]
    split
    · simp
    · have hp : Message.plainContent key h b ≠ .panic := by
        unfold Message.plainContent
        split
        · cases key with
          | none => simp
          | some k =>
            have hk := hkey k rfl
            have hd : ∀ cs, decryptLoop k cs ≠ .panic := by
              intro cs
              induction cs with
              | nil => simp [decryptLoop]
              | cons c cs ih =>
                unfold decryptLoop
                cases k.dec c with
                | none => simp
                | some x =>
                  cases hx : decryptLoop k cs with
                  | ok _ => simp
                  | err _ => simp
                  | panic => exact absurd hx ih
            simp only [decryptOAEP, bytesSplit, if_neg (show ¬ k.size ≤ 0 by omega), Res.ok_bind]
            generalize hx : decryptLoop k _ = r
            cases r with
            | ok _ => simp [Res.mapErr]
            | err _ => simp [Res.mapErr]
            | panic => exact absurd hx (hd _)
        · simp
      cases hq : Message.plainContent key h b with
      | err e => simp
      | panic => exact absurd hq hp
      | ok p =>
        simp only [Res.ok_bind]
        unfold Message.decodeContent
        cases hd : C.decode h.msgID p with
        | ok r => simp
        | err e => simp
        | panic => exact absurd hd (hC _ _)

/-- The hypotheses are met without a key and by a key of 128 bytes: the bytes `7e 7d 7e` panic, the bytes `7e 7e` do not. -/
example (dec : Bytes → Option Bytes) : Message.decode (⟨fun _ => 0, fun e => .ok ([], e), fun _ _ => .err .eof⟩ : BodyCodec Unit) (some ⟨128, dec⟩) {} [0x7e, 0x7d, 0x7e] = .panic ∧
    Message.decode (⟨fun _ => 0, fun e => .ok ([], e), fun _ _ => .err .eof⟩ : BodyCodec Unit) (some ⟨128, dec⟩) {} [0x7e, 0x7e] ≠ .panic := by
  have h := fun data => C05_decode_panics_iff_partial (⟨fun _ => 0, fun e => .ok ([], e), fun _ _ => .err .eof⟩ : BodyCodec Unit) (fun _ _ => by simp)
    (some ⟨128, dec⟩) (fun k hk => by cases hk; exact (by decide : (0 : Int) < 128)) {} data
  refine ⟨(h _).2 ⟨_, rfl⟩, fun hp => ?_⟩
  obtain ⟨x, hx⟩ := (h _).1 hp
  simp at hx

/-- C05 is false of the code: `7e 00 7e` makes `Decode` panic, whatever the registered bodies are. -/
theorem C05_refuted (C : BodyCodec E) (key : Option DecKey) (self : Message E) :
    ∃ data, Message.decode C key self data = .panic := by
  refine ⟨[0x7e, 0x00, 0x7e], ?_⟩
  rw [Message.decode_eq, (decodeEnvelope_panic_iff _).2 ⟨0, rfl⟩]
  rfl

/-! ## C06 -/

/-- C06 (exact): once the body is encoded, `Encode` reports body-too-long exactly when the body length modulo
65536 exceeds 1023. -/
theorem C06_too_long_iff_partial (C : BodyCodec E) (m : Message E) (e e' : E) (b : Bytes)
    (hm : m.body = .val e) (henc : C.encode e = .ok (b, e')) :
    Message.encode C none m = .err .bodyTooLong ↔ 1023 < b.length % 65536 := by
  unfold Message.encode
  simp only [Message.encodeBody, hm, henc, Res.ok_bind, Message.bodyMsgID]
  have hmod : (UInt16.ofNat b.length).toNat = b.length % 65536 := by simp
  by_cases hs : 1023 < b.length % 65536
  · rw [Property.setBodySize_err _ _ (by omega)]
    simp [hs]
  · obtain ⟨w, hw, -⟩ := Property.setBodySize_toNat m.header.property _ (show (UInt16.ofNat b.length).toNat < 1024 by omega)
    rw [hw]
    simp only [Res.ok_bind, hs, iff_false]
    generalize hx : Header.encode _ = r
    have : r ≠ .err .bodyTooLong := by
      rw [← hx]
      unfold Header.encode
      simp only
      generalize (if m.header.packet.isSome then Property.enablePacket w else w) = prop
      split
      · cases m.header.packet <;> simp
      · simp
    cases r with
    | ok _ => simp
    | err e => simpa using this
    | panic => simp

/-- C06 for every body that is shorter than 65536 bytes. -/
theorem C06_limit_below_64k_partial (C : BodyCodec E) (m : Message E) (e e' : E) (b : Bytes)
    (hm : m.body = .val e) (henc : C.encode e = .ok (b, e')) (hb : b.length < 65536) :
    Message.encode C none m = .err .bodyTooLong ↔ 1023 < b.length := by
  rw [C06_too_long_iff_partial C m e e' b hm henc, Nat.mod_eq_of_lt hb]

/-- Non-trivial case: a driving record upload of 1024 bytes. -/
example : Message.encode Sample.codec none
    { Sample.message with body := .val (.m0700 { replySerial := 1, cmd := 0, data := List.replicate 1021 0 }) } =
    .err .bodyTooLong := by
  have hl : (put16 1 ++ [0] ++ List.replicate 1021 (0 : UInt8)).length = 1024 := by
    simp only [List.length_append, List.length_replicate, put16_length, List.length_cons, List.length_nil]
  rw [C06_limit_below_64k_partial Sample.codec _ _ _ _ rfl rfl (Nat.lt_of_le_of_lt (Nat.le_of_eq hl) (by decide))]
  exact Nat.lt_of_lt_of_le (by decide) (Nat.le_of_eq hl.symm)

/-- C06 is false of the code: a body of 65536 bytes is encoded, with 0 in the size field. -/
theorem C06_refuted : ∃ (m : Message Entity) (e : Entity) (b f : Bytes) (m' : Message Entity), m.body = .val e ∧
    Sample.codec.encode e = .ok (b, e) ∧ b.length = 65536 ∧
    Message.encode Sample.codec none m = .ok (f, m') ∧ sizeField m'.header.property.toNat = 0 := by
  let e : Entity := .m0700 { replySerial := 1, cmd := 0, data := List.replicate 65533 0 }
  let m : Message Entity := { header := Sample.header, body := .val e }
  have hl : (put16 1 ++ [0] ++ List.replicate 65533 (0 : UInt8)).length = 65536 := by
    simp only [List.length_append, List.length_replicate, put16_length, List.length_cons, List.length_nil]
  have hs : Property.setBodySize Sample.header.property
      (UInt16.ofNat (put16 1 ++ [0] ++ List.replicate 65533 (0 : UInt8)).length) = .ok 0 := by
    rw [hl]; rfl
  exact ⟨m, e, _, _, _, rfl, rfl, hl, Message.encode_ok (C := Sample.codec) (key := none) (m := m) (hdr := Sample.header)
    (id := 0x0700) rfl rfl hs rfl, by decide⟩

/-! ## C10 -/

/-- C10: for a frame with correct check byte, valid header and unencrypted body, `Decode` into a fresh message
succeeds with the header filled in; the body is what the body decoder returns if the size field matches, and
nil if the size field does not match or the body decoder reports an error. (The code compares the size field
with the body length as a 16-bit number; the stream codec never passes 65536 bytes or more.) -/
theorem C10_header_always_delivered (C : BodyCodec E) (key : Option DecKey) (f body : Bytes) (id prop serial : UInt16)
    (icc : UInt64) (packet : Option Packet) (h0 : 0 < icc.toNat) (h1 : icc.toNat < 10 ^ 12)
    (hpk : packetFlag prop.toNat = packet.isSome) (hC : C.decode id body ≠ .panic) (hplain : encryptFlag prop.toNat = false)
    (hf : Frame f (headerBytes id.toNat prop.toNat icc.toNat serial.toNat
      (packet.map fun p => (p.sum.toNat, p.seq.toNat)) ++ body)) :
    Message.decode C key {} f = .ok {
      header := { msgID := id, property := prop, iccID := icc, serial := serial, packet := packet }
      body :=
        if body.length % 65536 = sizeField prop.toNat then
          match C.decode id body with
          | .ok (e, _) => .val e
          | _ => .nil
        else .nil } := by
  rw [Message.decode_known C key {} f body ⟨id, prop, icc, serial, packet⟩ h0 h1 hpk hf]
  by_cases hs : body.length % 65536 = sizeField prop.toNat
  · have hp : Message.plainContent key ⟨id, prop, icc, serial, packet⟩ body = .ok body := by
      simp [Message.plainContent, Property.isEnableEncrypt_spec, hplain]
    simp only [hs, ne_eq, not_true_eq_false, if_false, hp, Res.bind, if_true, Message.decodeContent]
    cases hd : C.decode id body with
    | ok r => rfl
    | err e => rfl
    | panic => exact absurd hd hC
  · simp [hs]

/-- C10, encrypted bodies: without a key `Decode` reports the decryption error; with a key it reports it if
decryption fails, and otherwise delivers the header and the body decoded from the plain bytes. -/
theorem C10_encrypted_bodies (C : BodyCodec E) (key : Option DecKey) (f body : Bytes) (id prop serial : UInt16)
    (icc : UInt64) (packet : Option Packet) (h0 : 0 < icc.toNat) (h1 : icc.toNat < 10 ^ 12)
    (hpk : packetFlag prop.toNat = packet.isSome) (henc : encryptFlag prop.toNat = true)
    (hs : body.length % 65536 = sizeField prop.toNat)
    (hf : Frame f (headerBytes id.toNat prop.toNat icc.toNat serial.toNat
      (packet.map fun p => (p.sum.toNat, p.seq.toNat)) ++ body)) :
    (key = none → Message.decode C key {} f = .err .decryptFailed) ∧
    (∀ k e, key = some k → decryptOAEP k body = .err e → Message.decode C key {} f = .err .decryptFailed) ∧
    (∀ k plain, key = some k → decryptOAEP k body = .ok plain → C.decode id plain ≠ .panic →
      Message.decode C key {} f = .ok {
        header := { msgID := id, property := prop, iccID := icc, serial := serial, packet := packet }
        body := match C.decode id plain with
          | .ok (e, _) => .val e
          | _ => .nil }) := by
  rw [Message.decode_known C key {} f body ⟨id, prop, icc, serial, packet⟩ h0 h1 hpk hf]
  have he : Property.isEnableEncrypt prop = true := by rw [Property.isEnableEncrypt_spec, henc]
  simp only [hs, ne_eq, not_true_eq_false, if_false]
  refine ⟨?_, ?_, ?_⟩
  · rintro rfl
    simp [Message.plainContent, he, Res.bind]
  · rintro k e rfl hd
    simp [Message.plainContent, he, Res.bind, hd, Res.mapErr]
  · rintro k plain rfl hd hC
    simp only [Message.plainContent, he, if_true, Res.bind, hd, Res.mapErr, Message.decodeContent]
    cases hx : C.decode id plain with
    | ok r => rfl
    | err e => rfl
    | panic => exact absurd hx hC

/-- Non-trivial case for encrypted bodies: without a private key nothing is delivered. -/
example : Message.decode Sample.codec none {}
    ([0x7e] ++ escape (headerBytes 0x0700 0x0403 42 9 none ++ [1, 0x7e, 2] ++ [xorAll (headerBytes 0x0700 0x0403 42 9 none ++ [1, 0x7e, 2])]) ++ [0x7e]) =
    .err .decryptFailed :=
  (C10_encrypted_bodies Sample.codec none _ [1, 0x7e, 2] 0x0700 0x0403 9 42 none (by decide) (by decide) rfl (by decide) (by decide)
    ⟨_, rfl, stuffed_escape _⟩).1 rfl

/-- Non-trivial case for C10: an unregistered message id with a body of three bytes and a matching size. -/
example : Message.decode Sample.codec none {} ([0x7e] ++ escape (headerBytes 0x1234 3 42 9 none ++ [1, 0x7e, 2] ++
    [xorAll (headerBytes 0x1234 3 42 9 none ++ [1, 0x7e, 2])]) ++ [0x7e]) =
    .ok { header := { msgID := 0x1234, property := 3, iccID := 42, serial := 9 }, body := .nil } := by
  exact C10_header_always_delivered Sample.codec none _ [1, 0x7e, 2] 0x1234 3 9 42 none (by decide) (by decide) rfl
    (by decide) rfl ⟨_, rfl, stuffed_escape _⟩

end Verif
