import Verif.Lemmas.RoundTrip
import Verif.Props.Frame
import Verif.Props.Rsa
/-! # C16, C48: body round trip and consumed byte counts; C01 for the registered body types -/

namespace Verif

/-- C16 for all 65 registered body types: a body whose fields fit the wire format (`Spec.InRange`) encodes, and
decoding the bytes by message id yields the same field values. Extras of location reports are compared by value
(`Spec.Entity.dropCache` forgets the cached encoding, see C19). Missing from the property: values that a user may take
to be in range but that do not round trip are listed in `C16_refuted`, C22 and C23. -/
theorem C16_body_round_trip_partial (env : Env) (e : Entity) (h : Spec.InRange env e) :
    ∃ b e' n, Entity.encode env e = .ok (b, e') ∧ Entity.decodeBody env e.msgID b = .ok (Spec.Entity.dropCache e, n) := by
  obtain ⟨b, e', h1, h2⟩ := Entity.round_trip env e h
  exact ⟨b, e', _, h1, h2⟩

/-- Bodies without location reports come back exactly. -/
theorem C16_body_round_trip_exact_partial (env : Env) (e : Entity) (h : Spec.InRange env e)
    (hloc : ∀ id ∈ [0x0200, 0x0201, 0x0500, 0x0704], e.msgID ≠ id) :
    ∃ b e' n, Entity.encode env e = .ok (b, e') ∧ Entity.decodeBody env e.msgID b = .ok (e, n) := by
  obtain ⟨b, e', h1, h2⟩ := Entity.round_trip env e h
  have : Spec.Entity.dropCache e = e := by
    cases e <;> first | rfl | exact absurd rfl (hloc _ (by simp [Entity.msgID]))
  rw [this] at h2
  exact ⟨b, e', _, h1, h2⟩

/-- The hypotheses hold for a location report over the southern Atlantic with three extras, for a driver record, a
question with answers, a route with two points and a list of parameters. -/
example : Spec.InRange Sample.env (.m0200 {
    alarm := 1, status := 15, lat := ⟨-33868820, -6⟩, lng := ⟨-20000001, -6⟩
    altitude := 5, speed := 600, direction := 90, time := 1700000000
    extras := [some (Extra.new (.x01 77)), some (Extra.new (.x11 1 (some 5))), some (Extra.new (.x30 9))] }) := by
  refine ⟨⟨⟨rfl, by decide⟩, ⟨rfl, by decide⟩, ⟨fun _ => rfl, by decide⟩, ⟨fun _ => rfl, by decide⟩, by
    show (_ : Int) ≤ (1700000000 : Int) + 28800 ∧ (1700000000 : Int) + 28800 < (_ : Int)
    decide⟩, ?_⟩
  intro x hx
  simp only [List.mem_cons, List.not_mem_nil, or_false] at hx
  rcases hx with rfl | rfl | rfl
  · exact ⟨.x01 77, by simp [Spec.ExtraOK], rfl⟩
  · exact ⟨.x11 1 (some 5), by simp [Spec.ExtraOK], rfl⟩
  · exact ⟨.x30 9, by simp [Spec.ExtraOK], rfl⟩

/-- ASCII text without NUL is `Text` in the sample environment. -/
theorem sample_text (s : Bytes) (n : Nat) (h0 : 0 ∉ s) (h1 : s.all (· < 128) = true) (h2 : s.length ≤ n) : Spec.Text Sample.env s n := by
  refine ⟨h0, s, ?_, h2, id, ?_⟩
  · show (if s.all (· < 128) then some s else none) = _
    rw [if_pos h1]
  · intro k
    show (if (s ++ List.replicate k 0).all (· < 128) then some (s ++ List.replicate k 0) else none) = _
    rw [if_pos]
    rw [List.all_append, h1, Bool.true_and, List.all_eq_true]
    intro x hx
    rw [(List.mem_replicate.1 hx).2]
    decide

example : Spec.InRange Sample.env (.m8302 { flag := 1, question := [81, 63], answers := [⟨1, [121]⟩, ⟨2, [110, 111]⟩] }) := by
  refine ⟨sample_text _ _ (by decide) (by decide) (by decide), ?_⟩
  intro x hx
  simp only [List.mem_cons, List.not_mem_nil, or_false] at hx
  rcases hx with rfl | rfl <;> exact sample_text _ _ (by decide) (by decide) (by decide)

example : Spec.InRange Sample.env (.m8606 { id := 1, attr := 3, startTime := 1700000000, endTime := 1700003600, points :=
    [{ id := 1, sectionID := 2, lat := ⟨30000000, -6⟩, lng := ⟨120000000, -6⟩, width := 4, attr := 1, timeTooLong := some 60, timeTooShort := some 5 },
     { id := 2, sectionID := 3, lat := ⟨-30000000, -6⟩, lng := ⟨120000000, -6⟩, width := 4, attr := 6, maxSpeed := some 80, overSpeedDuration := some 10 }] }) := by
  refine ⟨?_, ?_, by decide, ?_⟩
  · show (_ : Int) ≤ (1700000000 : Int) + 28800 ∧ (1700000000 : Int) + 28800 < (_ : Int)
    decide
  · show (_ : Int) ≤ (1700003600 : Int) + 28800 ∧ (1700003600 : Int) + 28800 < (_ : Int)
    decide
  intro x hx
  simp only [List.mem_cons, List.not_mem_nil, or_false] at hx
  rcases hx with rfl | rfl
  · exact ⟨⟨rfl, by decide⟩, ⟨rfl, by decide⟩, ⟨by decide, by decide⟩, ⟨by decide, by decide⟩, rfl, rfl, rfl, rfl⟩
  · exact ⟨⟨rfl, by decide⟩, ⟨rfl, by decide⟩, ⟨by decide, by decide⟩, ⟨by decide, by decide⟩, rfl, rfl, rfl, rfl⟩

/-- C16 is false of the code as stated: six kinds of bodies encode without error to bytes that their own decoder
refuses. They are a parameter answer and a parameter setting without parameters, an authentication without key, an
empty list of circles or rectangles, and a polygon without vertexes and times. -/
theorem C16_refuted (env : Env) (serial : UInt16) (action : UInt8) (id : UInt32) :
    ∀ e ∈ [Entity.m0104 { replySerial := serial }, .m8103 {}, .m0102 {}, .m8600 { action := action }, .m8602 { action := action },
      .m8604 { id := id }],
    ∃ b e', Entity.encode env e = .ok (b, e') ∧ Entity.decodeBody env e.msgID b = .err .invalidBody := by
  intro e he
  simp only [List.mem_cons, List.not_mem_nil, or_false] at he
  rcases he with rfl | rfl | rfl | rfl | rfl | rfl
  · exact ⟨_, _, rfl, rfl⟩
  · exact ⟨_, _, rfl, rfl⟩
  · exact ⟨_, _, rfl, rfl⟩
  · exact ⟨_, _, rfl, rfl⟩
  · exact ⟨_, _, rfl, rfl⟩
  · refine ⟨put32 id ++ [0, 0, 0, 0], .m8604 { id := id }, ?_, ?_⟩
    · have h : T8604.encode env { id := id } = .ok (put32 id ++ [0, 0, 0, 0], { id := id }) := by
        unfold T8604.encode
        simp [markVertexes, encodeAreaTail, put16]
      show Entity.wrapEnc Entity.m8604 (T8604.encode env { id := id }) = _
      rw [h]
      rfl
    show Entity.wrapDec Entity.m8604 (T8604.decode env {} (put32 id ++ [0, 0, 0, 0])) = _
    unfold T8604.decode decodeMin
    rw [if_pos (by simp)]
    rfl

/-! ## C48 -/

/-- C48 for all body types except location reports, answers that carry one, and seven types that miscount: the
reported count is the number of bytes. -/
theorem C48_consumed_all_partial (env : Env) (e : Entity) (h : Spec.InRange env e)
    (hid : ∀ id ∈ [0x0200, 0x0201, 0x0500, 0x0303, 0x8105, 0x8300, 0x8106, 0x8601, 0x8603, 0x8605], e.msgID ≠ id) :
    ∃ b e' d, Entity.encode env e = .ok (b, e') ∧ Entity.decodeBody env e.msgID b = .ok (d, b.length) := by
  obtain ⟨b, e', h1, h2⟩ := Entity.round_trip env e h
  have : Spec.consumed e b.length = b.length := by
    cases e <;> first | rfl | exact absurd rfl (hid _ (by simp [Entity.msgID]))
  rw [this] at h2
  exact ⟨b, e', _, h1, h2⟩

/-- Non-trivial case: a driving record. -/
example : ∃ b e' d, Entity.encode Sample.env Sample.body = .ok (b, e') ∧ Entity.decodeBody Sample.env 0x0700 b = .ok (d, b.length) :=
  C48_consumed_all_partial Sample.env Sample.body trivial (by decide)

/-- A location report without extras is counted completely too. -/
theorem C48_consumed_location_partial (env : Env) (e : T0200) (h : Spec.LocationOK env e) (hx : e.extras = []) :
    ∃ b d, T0200.encode env e = .ok (b, e) ∧ T0200.decode env {} b = .ok (d, b.length) := by
  obtain ⟨b, h1, h2, h3⟩ := T0200.round_trip env e h
  refine ⟨b, Spec.dropCache e, h1, ?_⟩
  rw [h3, h2, hx]
  rfl

/-- Non-trivial case: a report from the southern hemisphere. -/
example : Spec.LocationOK Sample.env { status := 4, lat := ⟨-33868820, -6⟩, lng := ⟨151209290, -6⟩, time := 1700000000 } :=
  ⟨⟨⟨rfl, by decide⟩, ⟨rfl, by decide⟩, ⟨fun _ => rfl, fun _ => by decide⟩, ⟨fun h => absurd h (by decide), fun h => absurd h (by decide)⟩,
    by simp [Spec.TimeOK, Sample.env, Spec.unix2010, Spec.unix2100]⟩, by simp⟩

/-- C48 is false of the code: the decoder of an event or information demand (0x0303) reports one byte of two, the
control, text, query and delete commands report one byte too few, and a location report does not count its extras. -/
theorem C48_refuted (env : Env) : (∀ e : T0303, ∃ b, T0303.encode e = .ok b ∧ T0303.decode {} b = .ok (e, b.length - 1) ∧ b.length = 2) ∧
    (∀ e : TByteText, Spec.AnyText env e.text → ∃ b, TByteText.encode env e = .ok b ∧ 0 < b.length ∧
      TByteText.decode env {} b = .ok (e, b.length - 1)) ∧
    (∀ e : TIDs, e.ids.length < 256 → ∃ b, TIDs.encode e = .ok b ∧ 0 < b.length ∧ TIDs.decode {} b = .ok (e, b.length - 1)) ∧
    (∀ e : T0200, Spec.LocationOK env e → e.extras ≠ [] → ∃ b n d, T0200.encode env e = .ok (b, e) ∧
      T0200.decode env {} b = .ok (d, n) ∧ n < b.length) := by
  refine ⟨?_, fun e h => TByteText.round_trip env e h, fun e h => TIDs.round_trip e h, ?_⟩
  · intro e
    obtain ⟨b, h1, h2, h3⟩ := T0303.round_trip e
    exact ⟨b, h1, by rw [h3, h2], h2⟩
  · intro e h hx
    obtain ⟨b, h1, h2, h3⟩ := T0200.round_trip env e h
    refine ⟨b, 28, _, h1, h3, ?_⟩
    obtain ⟨x, xs, hxs⟩ := List.exists_cons_of_ne_nil hx
    obtain ⟨v, -, hv⟩ := h.2 x (by rw [hxs]; simp)
    rw [h2, hxs, hv]
    simp [Spec.extrasSize]
    omega

/-! ## C01 for the registered bodies -/

/-- C01 for the registered body types: a message with an in-range body of at most 1023 bytes, encoded and decoded,
comes back with the same header values and the same body. -/
theorem C01_registered_round_trip (env : Env) (m : Message Entity) (e : Entity) (hm : m.body = .val e) (hr : Spec.InRange env e)
    (hicc0 : 0 < m.header.iccID.toNat) (hicc1 : m.header.iccID.toNat < 10 ^ 12)
    (hsize : ∀ b e', Entity.encode env e = .ok (b, e') → b.length ≤ 1023)
    (hplain : Spec.encryptFlag m.header.property.toNat = false)
    (hpacket : Spec.packetFlag m.header.property.toNat = true → m.header.packet.isSome)
    (key : Option DecKey) (self : Message Entity) :
    ∃ frame m' d, Message.encode (entityCodec env) none m = .ok (frame, m') ∧
      Message.decode (entityCodec env) key self frame = .ok d ∧
      d.body = .val (Spec.Entity.dropCache e) ∧ d.header.msgID = e.msgID ∧ d.header.serial = m.header.serial ∧
      d.header.iccID = m.header.iccID ∧ d.header.packet = m.header.packet ∧
      Spec.packetFlag d.header.property.toNat = m.header.packet.isSome := by
  obtain ⟨b, e', h1, h2⟩ := Entity.round_trip env e hr
  obtain ⟨f, m', d, g1, g2, g3, g4, g5, g6, g7, -, -, g8, -⟩ := C01_message_round_trip (entityCodec env) m e e' _ b _ hm h1 h2 hicc0 hicc1
    (hsize b e' h1) hplain hpacket key self
  exact ⟨f, m', d, g1, g2, g3, g4, g5, g6, g7, g8⟩

/-- The hypotheses hold for the sample message. -/
example : Sample.message.body = .val Sample.body ∧ Spec.InRange Sample.env Sample.body ∧
    (∀ b e', Entity.encode Sample.env Sample.body = .ok (b, e') → b.length ≤ 1023) ∧
    Spec.encryptFlag Sample.message.header.property.toNat = false := by
  refine ⟨rfl, trivial, ?_, by decide⟩
  intro b e' h
  cases h
  decide

/-- C01 for the registered body types, encrypted with a 1024-bit key: a message with an in-range body of at most 602 bytes comes back with the same
header values and the same body, decoded with the matching private key. -/
theorem C01_registered_encrypted (env : Env) (m : Message Entity) (e : Entity) (hm : m.body = .val e) (hr : Spec.InRange env e)
    (hicc0 : 0 < m.header.iccID.toNat) (hicc1 : m.header.iccID.toNat < 10 ^ 12)
    (hsize : ∀ b e', Entity.encode env e = .ok (b, e') → b.length ≤ 602)
    (hpacket : Spec.packetFlag m.header.property.toNat = true → m.header.packet.isSome) (k : EncKey) (d : DecKey) (hk : Spec.KeyPair k d 128)
    (self : Message Entity) :
    ∃ frame m' r, Message.encode (entityCodec env) (some k) m = .ok (frame, m') ∧ Message.decode (entityCodec env) (some d) self frame = .ok r ∧
      r.body = .val (Spec.Entity.dropCache e) ∧ r.header.msgID = e.msgID ∧ r.header.serial = m.header.serial ∧
      r.header.iccID = m.header.iccID ∧ r.header.packet = m.header.packet ∧ Spec.encryptFlag r.header.property.toNat = true ∧
      Spec.packetFlag r.header.property.toNat = m.header.packet.isSome := by
  obtain ⟨b, e', h1, h2⟩ := Entity.round_trip env e hr
  have hb := hsize b e' h1
  have hs : 128 * Spec.blockCount (128 - 42) b.length ≤ 1023 := by
    have : Spec.blockCount (128 - 42) b.length = (b.length + 85) / 86 := by unfold Spec.blockCount; rfl
    rw [this]
    omega
  obtain ⟨f, m', r, g1, g2, g3, g4, g5, g6, g7, g8, g9, -⟩ := C28_encrypted_round_trip (entityCodec env) m e e' _ b _ hm h1 h2 hicc0 hicc1 hpacket k d 128 hk hs
    self
  exact ⟨f, m', r, g1, g2, g3, g4, g5, g6, g7, g8, g9⟩

/-- The hypotheses hold for the sample message and the toy key. -/
example : Sample.message.body = .val Sample.body ∧ Spec.InRange Sample.env Sample.body ∧
    (∀ b e', Entity.encode Sample.env Sample.body = .ok (b, e') → b.length ≤ 602) ∧ Spec.KeyPair Sample.encKey Sample.decKey 128 := by
  refine ⟨rfl, trivial, ?_, Sample.keyPair⟩
  intro b e' h
  cases h
  decide

end Verif
