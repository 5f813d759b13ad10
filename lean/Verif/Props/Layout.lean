import Verif.Lemmas.LayoutAll
import Verif.Props.RoundTrip
/-! # C52: message bodies have the documented layout

The round trips (C01, C16) would also hold for an encoder and a decoder that agree on a wrong order of fields. Here both
are compared with the tables of `Spec/Layout.lean`. -/

namespace Verif

open Spec (Frame headerBytes packetFlag sizeField encryptFlag)

/-- C52: a body of any of the 65 types whose fields are in range is encoded to the bytes of its table. -/
theorem C52_body_written (env : Env) (e : Entity) (h : Spec.InRange env e) :
    ∃ e', Entity.encode env e = .ok (Spec.bodyBytes env e, e') := Entity.encode_layout env e h

/-- C52: the bytes of the table decode to the values of the fields (extras of location reports are compared by value,
see C19). -/
theorem C52_body_read (env : Env) (e : Entity) (h : Spec.InRange env e) :
    ∃ n, Entity.decodeBody env e.msgID (Spec.bodyBytes env e) = .ok (Spec.Entity.dropCache e, n) := by
  obtain ⟨e', h1⟩ := Entity.encode_layout env e h
  obtain ⟨b, e'', g1, g2⟩ := Entity.round_trip env e h
  rw [h1] at g1
  cases g1
  exact ⟨_, g2⟩

/-- C52, written messages: the frame of an unencrypted message contains the header of the protocol and then the bytes of
the body's table, and the length in the header is that of the body. -/
theorem C52_message_written (env : Env) (m m' : Message Entity) (e : Entity) (f : Bytes) (hm : m.body = .val e)
    (hr : Spec.InRange env e) (hicc : m.header.iccID.toNat < 10 ^ 12) (hs : (Spec.bodyBytes env e).length ≤ 1023)
    (h : Message.encode (entityCodec env) none m = .ok (f, m')) :
    ∃ prop, Frame f (headerBytes e.msgID.toNat prop m.header.iccID.toNat m.header.serial.toNat
        (m.header.packet.map fun p => (p.sum.toNat, p.seq.toNat)) ++ Spec.bodyBytes env e) ∧
      packetFlag prop = m.header.packet.isSome ∧ sizeField prop = (Spec.bodyBytes env e).length := by
  obtain ⟨e', h1⟩ := Entity.encode_layout env e hr
  obtain ⟨prop, body, g1, g2, g3, g4, g5, -⟩ := C02_header_layout (entityCodec env) none m m' f hicc h
  obtain ⟨hb, body', k1, k2, hdr, b', k3⟩ := C02_frame_layout (entityCodec env) none m m' f h
  have hbody : body' = Spec.bodyBytes env e := by
    unfold Message.encodeBody at k3
    rw [hm] at k3
    have : (entityCodec env).encode e = .ok (Spec.bodyBytes env e, e') := h1
    simp only [this, Res.ok_bind] at k3
    simp at k3
    exact k3.1.symm
  have hid : m'.header.msgID = e.msgID := by
    unfold Message.bodyMsgID at g2
    rw [hm] at g2
    simp at g2
    exact g2.symm
  have hu := C02_content_unique f _ _ g1 k1
  have hlen : (headerBytes m'.header.msgID.toNat prop m.header.iccID.toNat m.header.serial.toNat
      (m.header.packet.map fun p => (p.sum.toNat, p.seq.toNat))).length = hb.length := by
    rw [k2, ← g5, g3]
    cases m.header.packet <;> simp [headerBytes, Spec.be16, bcd_length]
  have hb2 := (List.append_inj hu hlen).2
  rw [hb2, hbody] at g1 g4
  rw [hid] at g1
  exact ⟨prop, g1, g3, by omega⟩

/-- C52, read messages: every frame that contains a header of the protocol and then the bytes of the table of a body in
range is decoded to that header and that body, by any receiver. -/
theorem C52_message_read (env : Env) (key : Option DecKey) (e : Entity) (hr : Spec.InRange env e) (f : Bytes) (prop serial : UInt16)
    (icc : UInt64) (packet : Option Packet) (h0 : 0 < icc.toNat) (h1 : icc.toNat < 10 ^ 12)
    (hpk : packetFlag prop.toNat = packet.isSome) (hplain : encryptFlag prop.toNat = false)
    (hs : sizeField prop.toNat = (Spec.bodyBytes env e).length)
    (hf : Frame f (headerBytes e.msgID.toNat prop.toNat icc.toNat serial.toNat
      (packet.map fun p => (p.sum.toNat, p.seq.toNat)) ++ Spec.bodyBytes env e)) :
    Message.decode (entityCodec env) key {} f = .ok {
      header := { msgID := e.msgID, property := prop, iccID := icc, serial := serial, packet := packet }
      body := .val (Spec.Entity.dropCache e) } := by
  obtain ⟨n, hn⟩ := C52_body_read env e hr
  have hd : (entityCodec env).decode e.msgID (Spec.bodyBytes env e) = .ok (Spec.Entity.dropCache e, n) := hn
  rw [C10_header_always_delivered (entityCodec env) key f (Spec.bodyBytes env e) e.msgID prop serial icc packet h0 h1 hpk
    (by rw [hd]; simp) hplain hf, hd]
  have : (Spec.bodyBytes env e).length < 1024 := by rw [← hs]; unfold sizeField; omega
  rw [if_pos (by omega)]

/-- The bytes of a location over the southern Atlantic with one additional item, as the table says. -/
example : Spec.bodyBytes Sample.env (.m0200 {
      alarm := 1, status := 15, lat := ⟨-33868820, -6⟩, lng := ⟨-20000001, -6⟩
      altitude := 5, speed := 600, direction := 90, time := 946684800 - 28800 + 31 * 86400 + 3723
      extras := [some (Extra.new (.x01 77))] }) =
    [0, 0, 0, 1, 0, 0, 0, 15, 0x02, 0x04, 0xcc, 0x14, 0x01, 0x31, 0x2d, 0x01, 0, 5, 2, 0x58, 0, 90, 0x00, 0x02, 0x01, 0x01, 0x02, 0x03,
      1, 4, 0, 0, 0, 77] := by decide +kernel

/-- A driver record in range. -/
example : Spec.InRange Sample.env (.m0702 {
      state := 1, time := 1700000000, icCardResult := 0, driverName := [76, 105], number := [49, 50]
      companyName := [67], expiryDate := 1893456000 - 28800 }) := by
  refine ⟨?_, sample_text _ _ (by decide) (by decide) (by decide), sample_text _ _ (by decide) (by decide) (by decide),
    sample_text _ _ (by decide) (by decide) (by decide), ?_⟩
  · show (_ : Int) ≤ (1700000000 : Int) + 28800 ∧ (1700000000 : Int) + 28800 < (_ : Int)
    decide
  · show ((1893456000 - 28800 : Int) + 28800) % 86400 = 0 ∧ (-30610224000 : Int) ≤ (1893456000 - 28800 : Int) + 28800 ∧
      (1893456000 - 28800 : Int) + 28800 < (253402300800 : Int)
    decide

/-- The hypotheses of the message theorems hold for the sample message and its frame. -/
example : ∃ f m', Message.encode (entityCodec Sample.env) none Sample.message = .ok (f, m') ∧ Spec.InRange Sample.env Sample.body ∧
    (Spec.bodyBytes Sample.env Sample.body).length ≤ 1023 ∧ Sample.message.header.iccID.toNat < 10 ^ 12 ∧
    sizeField m'.header.property.toNat = (Spec.bodyBytes Sample.env Sample.body).length := by
  refine ⟨_, _, rfl, trivial, by decide, by decide, by decide⟩

end Verif
