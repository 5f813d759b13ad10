import Verif.Lemmas.LongLists
import Verif.Props.Lists
import Verif.Props.Oversized
/-! # C17 for whole messages: which lists that are too long arrive shortened -/

namespace Verif
open Spec Codec

/-- **C17 for messages.** A list of 32-bit ids, parameters, reports, CAN items, media items, areas, vertexes or points that has too many items for its count
field is too long for a message as well. It never arrives shortened: `Encode` refuses it, or a receiver of this package reports an error when it comes to the frame. Missing for the full
property: the types of `C17_refuted_messages`. -/
theorem C17_long_lists_partial (env : Env) (m : Message Entity) (e : Entity) (hm : m.body = .val e) (hl : LongList e) (f : Bytes) (m' : Message Entity)
    (h : Message.encode (entityCodec env) none m = .ok (f, m')) (key : Option DecKey) (endErr : Err) (s : RecvState) (rest : Bytes)
    (hs : s.buffer ++ s.reads.flatten = f ++ rest) (hbuf : s.buffer.length ≤ 65535) :
    (receive (entityCodec env) key endErr s).1 = .err .bodyTooLong := by
  cases he : (entityCodec env).encode e with
  | err x => simp [Message.encode, Message.encodeBody, hm, he] at h
  | panic => simp [Message.encode, Message.encodeBody, hm, he] at h
  | ok r =>
    obtain ⟨b, e'⟩ := r
    exact C06_never_received_partial (entityCodec env) m m' e e' b f hm he (longList_length hl he) h key endErr s rest hs hbuf

/-- Lists of 256 to 16382 ids are refused. -/
example (env : Env) (hdr : Header) (x : TIDs) (h1 : 256 ≤ x.ids.length) (h2 : x.ids.length < 16383) :
    LongList (.m8601 x) ∧ Message.encode (entityCodec env) none { header := hdr, body := .val (.m8601 x) } = .err .bodyTooLong := by
  refine ⟨h1, (C06_limit_below_64k_partial (entityCodec env) _ (.m8601 x) (.m8601 x) _ rfl rfl ?_).2 (longList_length (env := env) (e := .m8601 x) h1 rfl)⟩
  have := flatMap_length_eq put32 4 (fun _ => put32_length _) x.ids
  simp only [List.length_append, List.length_cons, List.length_nil]
  omega

/-- Some list is not refused: 16384 ids. -/
example : ∃ f m', LongList (.m8601 { ids := List.replicate 16384 7 }) ∧
    Message.encode Sample.codec none { header := Sample.header, body := .val (.m8601 { ids := List.replicate 16384 7 }) } = .ok (f, m') := by
  have hl := flatMap_length_eq put32 4 (fun _ => put32_length _) (List.replicate 16384 (7 : UInt32))
  rw [List.length_replicate] at hl
  have hb : ([u8 16384] ++ (List.replicate 16384 (7 : UInt32)).flatMap put32).length = 65537 := by
    simp only [List.length_append, List.length_cons, List.length_nil, hl]
  have he : Sample.codec.encode (.m8601 { ids := List.replicate 16384 7 }) =
      .ok ([u8 16384] ++ (List.replicate 16384 (7 : UInt32)).flatMap put32, .m8601 { ids := List.replicate 16384 7 }) := by
    show Entity.keep (TIDs.encode _) _ = _
    simp only [TIDs.encode, List.length_replicate, Entity.keep]
  have hbody : Message.encodeBody Sample.codec none { header := Sample.header, body := .val (.m8601 { ids := List.replicate 16384 7 }) } =
      .ok ([u8 16384] ++ (List.replicate 16384 (7 : UInt32)).flatMap put32, Sample.header, .val (.m8601 { ids := List.replicate 16384 7 })) := by
    simp only [Message.encodeBody, he, Res.ok_bind]
  have hs : Property.setBodySize Sample.header.property (UInt16.ofNat ([u8 16384] ++ (List.replicate 16384 (7 : UInt32)).flatMap put32).length) = .ok 1 := by
    rw [hb]; rfl
  refine ⟨_, _, ?_, Message.encode_ok (C := Sample.codec) (key := none) (id := 0x8601) hbody rfl hs rfl⟩
  show 256 ≤ (List.replicate 16384 (7 : UInt32)).length
  rw [List.length_replicate]
  decide

/-- 0x8303: menus. -/
theorem C17_menus (env : Env) (e : T8303) (h : ∀ x ∈ e.items, Text env x 65535) : ∃ b, T8303.encode env e = .ok b ∧ ∃ n,
    T8303.decode env {} b = .ok ({ e with items := e.items.take (e.items.length % 256) }, n) := by
  obtain ⟨bs, g1, g2, rest, g3⟩ := encList_take (putStr16 env) (Rd.str16 env) 2 e.items (fun p hp => putStr16_item env p (h p hp))
    (e.items.length % 256) (Nat.mod_le _ _)
  refine ⟨_, by unfold T8303.encode; rw [g1]; rfl, ?_⟩
  unfold T8303.decode
  refine decodeMin_some (a := { e with items := e.items.take (e.items.length % 256) }) (rest := rest) ?_ ?_
  · simp
  simp only [List.cons_append, List.nil_append, Rd.bind_byte_cons]
  rw [u8_mod, Rd.bind_ok _ g3]
  rfl

/-- **C17 is false for messages** with lists of items of fewer than four bytes. A resend request for 256 to 510 packets, one for 256 to 509 packets of a
media message, 256 or more events or menu entries with short texts and phone books of 256 or more entries with hardly any text: all are sent without error, and the
terminal receives them, without error, with 256 items less. -/
theorem C17_refuted_messages (env : Env) (hdr : Header) (h0 : 0 < hdr.iccID.toNat) (h1 : hdr.iccID.toNat < 10 ^ 12)
    (hplain : encryptFlag hdr.property.toNat = false) (hpacket : packetFlag hdr.property.toNat = true → hdr.packet.isSome)
    (key : Option DecKey) :
    (∀ x : T8003, 256 ≤ x.packetIDs.length → x.packetIDs.length ≤ 510 → ∃ f m' d,
      Message.encode (entityCodec env) none { header := hdr, body := .val (.m8003 x) } = .ok (f, m') ∧
      Message.decode (entityCodec env) key {} f = .ok d ∧ d.body = .val (.m8003 { x with packetIDs := x.packetIDs.take (x.packetIDs.length - 256) })) ∧
    (∀ x : T8800, 256 ≤ x.retryIDs.length → x.retryIDs.length ≤ 509 → ∃ f m' d,
      Message.encode (entityCodec env) none { header := hdr, body := .val (.m8800 x) } = .ok (f, m') ∧
      Message.decode (entityCodec env) key {} f = .ok d ∧ d.body = .val (.m8800 { x with retryIDs := x.retryIDs.take (x.retryIDs.length - 256) })) ∧
    (∀ x : T8301, (∀ y ∈ x.events, Text env y.content 255) → 256 ≤ x.events.length → x.events.length < 512 →
      (∀ b, T8301.encode env x = .ok b → b.length ≤ 1023) → ∃ f m' d,
      Message.encode (entityCodec env) none { header := hdr, body := .val (.m8301 x) } = .ok (f, m') ∧
      Message.decode (entityCodec env) key {} f = .ok d ∧ d.body = .val (.m8301 { x with events := x.events.take (x.events.length - 256) })) ∧
    (∀ x : T8401, (∀ y ∈ x.contacts, Text env y.number 255 ∧ Text env y.contact 255) → 256 ≤ x.contacts.length → x.contacts.length < 512 →
      (∀ b, T8401.encode env x = .ok b → b.length ≤ 1023) → ∃ f m' d,
      Message.encode (entityCodec env) none { header := hdr, body := .val (.m8401 x) } = .ok (f, m') ∧
      Message.decode (entityCodec env) key {} f = .ok d ∧ d.body = .val (.m8401 { x with contacts := x.contacts.take (x.contacts.length - 256) })) ∧
    (∀ x : T8303, (∀ y ∈ x.items, Text env y 65535) → 256 ≤ x.items.length → x.items.length < 512 →
      (∀ b, T8303.encode env x = .ok b → b.length ≤ 1023) → ∃ f m' d,
      Message.encode (entityCodec env) none { header := hdr, body := .val (.m8303 x) } = .ok (f, m') ∧
      Message.decode (entityCodec env) key {} f = .ok d ∧ d.body = .val (.m8303 { x with items := x.items.take (x.items.length - 256) })) := by
  have main : ∀ (e e2 : Entity) (b : Bytes) (n : Nat), (entityCodec env).encode e = .ok (b, e) → (entityCodec env).decode e.msgID b = .ok (e2, n) →
      b.length ≤ 1023 → ∃ f m' d, Message.encode (entityCodec env) none { header := hdr, body := .val e } = .ok (f, m') ∧
      Message.decode (entityCodec env) key {} f = .ok d ∧ d.body = .val e2 := by
    intro e e2 b n he hd hb
    obtain ⟨f, m', d, r1, r2, r3, -⟩ := C01_message_round_trip (entityCodec env) { header := hdr, body := .val e } e e e2 b n rfl he hd h0 h1 hb hplain hpacket
      key {}
    exact ⟨f, m', d, r1, r2, r3⟩
  refine ⟨fun x a1 a2 => ?_, fun x a1 a2 => ?_, fun x ht a1 a2 hb => ?_, fun x ht a1 a2 hb => ?_, fun x ht a1 a2 hb => ?_⟩
  · obtain ⟨b, b1, n, b2⟩ := C17_resend_request x
    rw [show x.packetIDs.length % 256 = x.packetIDs.length - 256 by omega] at b2
    refine main _ _ b n (by show Entity.keep (T8003.encode x) _ = _; rw [b1]; rfl)
      (by show Entity.wrapDec Entity.m8003 (T8003.decode {} b) = _; rw [b2]; rfl) ?_
    cases b1
    have := flatMap_length_eq put16 2 (fun _ => put16_length _) x.packetIDs
    simp only [List.length_append, put16_length, List.length_cons, List.length_nil]
    omega
  · obtain ⟨b, b1, n, b2⟩ := C17_media_resend x
    rw [show x.retryIDs.length % 256 = x.retryIDs.length - 256 by omega] at b2
    refine main _ _ b n (by show Entity.keep (T8800.encode x) _ = _; rw [b1]; rfl)
      (by show Entity.wrapDec Entity.m8800 (T8800.decode {} b) = _; rw [b2]; rfl) ?_
    unfold T8800.encode at b1
    rw [if_neg (by omega)] at b1
    cases b1
    have := flatMap_length_eq put16 2 (fun _ => put16_length _) x.retryIDs
    simp only [List.length_append, put32_length, List.length_cons, List.length_nil]
    omega
  · obtain ⟨b, b1, n, b2⟩ := C17_events env x ht
    rw [show x.events.length % 256 = x.events.length - 256 by omega] at b2
    exact main _ _ b n (by show Entity.keep (T8301.encode env x) _ = _; rw [b1]; rfl)
      (by show Entity.wrapDec Entity.m8301 (T8301.decode env {} b) = _; rw [b2]; rfl) (hb b b1)
  · obtain ⟨b, b1, n, b2⟩ := C17_contacts env x ht
    rw [show x.contacts.length % 256 = x.contacts.length - 256 by omega] at b2
    exact main _ _ b n (by show Entity.keep (T8401.encode env x) _ = _; rw [b1]; rfl)
      (by show Entity.wrapDec Entity.m8401 (T8401.decode env {} b) = _; rw [b2]; rfl) (hb b b1)
  · obtain ⟨b, b1, n, b2⟩ := C17_menus env x ht
    rw [show x.items.length % 256 = x.items.length - 256 by omega] at b2
    exact main _ _ b n (by show Entity.keep (T8303.encode env x) _ = _; rw [b1]; rfl)
      (by show Entity.wrapDec Entity.m8303 (T8303.decode env {} b) = _; rw [b2]; rfl) (hb b b1)

/-- A request for 300 packets arrives as a request for the first 44. -/
example : ∃ f m' d, Message.encode Sample.codec none { header := Sample.header, body := .val (.m8003 { msgSerial := 1, packetIDs := List.replicate 300 7 }) } =
      .ok (f, m') ∧ Message.decode Sample.codec none {} f = .ok d ∧ d.body = .val (.m8003 { msgSerial := 1, packetIDs := List.replicate 44 7 }) := by
  have hn : (List.replicate 300 (7 : UInt16)).length = 300 := List.length_replicate
  obtain ⟨f, m', d, r1, r2, r3⟩ := (C17_refuted_messages Sample.env Sample.header (by decide) (by decide) (by decide) (by decide) none).1
    { msgSerial := 1, packetIDs := List.replicate 300 7 } (by rw [hn]; decide) (by rw [hn]; decide)
  refine ⟨f, m', d, r1, r2, r3.trans ?_⟩
  rw [hn, List.take_replicate]
  rfl

/-- A phone book of 256 entries arrives empty. -/
example : ∃ f m' d, Message.encode Sample.codec none
      { header := Sample.header, body := .val (.m8401 { contacts := List.replicate 256 { flag := 1 } }) } = .ok (f, m') ∧
    Message.decode Sample.codec none {} f = .ok d ∧ d.body = .val (.m8401 { contacts := [] }) := by
  have hn : (List.replicate 256 ({ flag := 1 } : Contact)).length = 256 := List.length_replicate
  have hb : (match T8401.encode Sample.env { contacts := List.replicate 256 { flag := 1 } } with
    | .ok b => decide (b.length ≤ 1023) | _ => true) = true := by decide +kernel
  obtain ⟨f, m', d, r1, r2, r3⟩ := (C17_refuted_messages Sample.env Sample.header (by decide) (by decide) (by decide) (by decide) none).2.2.2.1
    { contacts := List.replicate 256 { flag := 1 } }
    (fun y hy => by
      rw [List.eq_of_mem_replicate hy]
      exact ⟨sample_text _ _ (by decide) (by decide) (by decide), sample_text _ _ (by decide) (by decide) (by decide)⟩)
    (by rw [hn]; decide) (by rw [hn]; decide) (fun b h => by rw [h] at hb; simpa using hb)
  refine ⟨f, m', d, r1, r2, r3.trans ?_⟩
  rw [hn]
  rfl

/-- A menu of 257 entries "A" arrives with one. -/
example : ∃ f m' d, Message.encode Sample.codec none { header := Sample.header, body := .val (.m8303 { type := 1, items := List.replicate 257 [65] }) } =
      .ok (f, m') ∧ Message.decode Sample.codec none {} f = .ok d ∧ d.body = .val (.m8303 { type := 1, items := [[65]] }) := by
  have hn : (List.replicate 257 ([65] : Bytes)).length = 257 := List.length_replicate
  have hb : (match T8303.encode Sample.env { type := 1, items := List.replicate 257 [65] } with
    | .ok b => decide (b.length ≤ 1023) | _ => true) = true := by decide +kernel
  obtain ⟨f, m', d, r1, r2, r3⟩ := (C17_refuted_messages Sample.env Sample.header (by decide) (by decide) (by decide) (by decide) none).2.2.2.2
    { type := 1, items := List.replicate 257 [65] }
    (fun y hy => by
      rw [List.eq_of_mem_replicate hy]
      exact sample_text _ _ (by decide) (by decide) (by decide))
    (by rw [hn]; decide) (by rw [hn]; decide) (fun b h => by rw [h] at hb; simpa using hb)
  refine ⟨f, m', d, r1, r2, r3.trans ?_⟩
  rw [hn]
  rfl

end Verif
