import Verif.Lemmas.EncodeMessage
import Verif.Props.Location
import Verif.Props.Stream
import Verif.Model.Session
import Verif.Spec.Sending
/-! # C53, C54, C61, C62: encoding

What encoding does to the objects encoded, when it panics, and that different messages look different on the wire. -/

namespace Verif

open Session (buildMessage)
open Codec (sendBytes)
open Spec (withBit shownCoords position NeverBack sends drive Shows StaysPut SameCoord Fits TruncMicro TimeOK packetFlag encryptFlag)

/-! ## C53 -/

/-- C53 fails: a media message sent to two terminals reaches the second one without its content. -/
theorem C53_refuted : ¬ ∀ (env : Env) (e : Entity) (b : Bytes) (e' : Entity) (n : Nat), Entity.encode env e = .ok (b, e') →
    sends env n e = List.replicate n (.ok b) := by
  intro h
  have := h Sample.env (.m0801 { mediaID := 1, location := { time := 1700000000 }, packet := some [1, 2, 3] }) _ _ 2 rfl
  revert this
  decide

/-- C53, partial: every other body gives the same bytes every time. Missing: media messages, see `C53_media`. -/
theorem C53_same_bytes_partial (env : Env) (e e' : Entity) (b : Bytes) (n : Nat) (h : Entity.encode env e = .ok (b, e'))
    (hid : e.msgID ≠ 0x0801) : sends env n e = List.replicate n (.ok b) := by
  have again : ∀ n, sends env n e' = List.replicate n (.ok b) := by
    intro n
    induction n with
    | zero => rfl
    | succ n ih => simp only [sends, Entity.encode_again h hid, ih, List.replicate_succ]
  cases n with
  | zero => rfl
  | succ n => simp only [sends, h, again, List.replicate_succ]

/-- A report from the southern hemisphere: encoding changes the object, but not the bytes of the next encoding. -/
example : ∃ b e', Entity.encode Sample.env (.m0200 { lat := ⟨-33868820, -6⟩, time := 1700000000 }) = .ok (b, e') ∧
    e' ≠ .m0200 { lat := ⟨-33868820, -6⟩, time := 1700000000 } ∧ b.length = 28 := ⟨_, _, rfl, by decide, by decide⟩

/-- C53 for media messages, exactly: the first encoding carries the content, all later ones only the 36 bytes before it. -/
theorem C53_media (env : Env) (x : T0801) (e' : Entity) (b : Bytes) (n : Nat) (h : Entity.encode env (.m0801 x) = .ok (b, e')) :
    ∃ base, b = base ++ x.packet.getD [] ∧ sends env (n + 1) (.m0801 x) = .ok b :: List.replicate n (.ok base) := by
  obtain ⟨a, ha, rfl⟩ := wrapEnc_ok h
  obtain ⟨base, h1, h2⟩ := T0801.encode_again ha
  have again : ∀ n, sends env n (.m0801 a) = List.replicate n (.ok base) := by
    intro n
    induction n with
    | zero => rfl
    | succ n ih => simp only [sends, Entity.encode, Entity.wrapEnc, h2, ih, List.replicate_succ]
  exact ⟨base, h1, by simp only [sends, h, again]⟩

example : ∃ b e', Entity.encode Sample.env (.m0801 { mediaID := 1, location := { time := 1700000000 }, packet := some [1, 2, 3] }) = .ok (b, e') ∧
    b.length = 39 := ⟨_, _, rfl, by decide⟩

/-- C53, partial, for whole messages without encryption: encoding the message a second time gives the same frame. -/
theorem C53_same_frame_partial (env : Env) (m m' : Message Entity) (f : Bytes) (h : Message.encode (entityCodec env) none m = .ok (f, m'))
    (hid : m'.header.msgID ≠ 0x0801) : Message.encode (entityCodec env) none m' = .ok (f, m') := by
  obtain ⟨body, hdr, b', id, prop, hb, h1, h2, h3, h4, h5, hf⟩ := Message.encode_inv h
  obtain ⟨h6, h7⟩ := Header.encode_again h4
  have hidm : m'.header.msgID = id := by rw [h7]
  have hsize := Property.size_kept hdr.packet.isSome h3
  have g1 : Message.encodeBody (entityCodec env) none m' = .ok (body, m'.header, m'.body) ∧
      Message.bodyMsgID (entityCodec env) m'.body = .ok id := by
    unfold Message.encodeBody at h1 ⊢
    cases hb : m.body with
    | nil => rw [hb] at h2; simp [Message.bodyMsgID] at h2
    | nilPtr i =>
      rw [hb] at h1 h2
      simp only [Res.ok.injEq, Prod.mk.injEq] at h1
      obtain ⟨rfl, rfl, rfl⟩ := h1
      rw [h5]
      exact ⟨rfl, h2⟩
    | val e =>
      rw [hb] at h1 h2
      simp only at h1
      obtain ⟨⟨x, e1⟩, hx, h1⟩ := Res.bind_ok h1
      simp only [Res.ok.injEq, Prod.mk.injEq] at h1
      obtain ⟨rfl, rfl, rfl⟩ := h1
      have hie : e.msgID = id := by simpa [Message.bodyMsgID, entityCodec] using h2
      have h0 := Entity.encode_again hx (by rw [hie, ← hidm]; exact hid)
      rw [h5]
      simp only [show (entityCodec env).encode e1 = .ok (x, e1) from h0, Res.ok_bind, true_and]
      have := Entity.encode_msgID hx
      simp only [Message.bodyMsgID, entityCodec, this, hie]
  have e1 : ({ m'.header with msgID := id, property := m'.header.property } : Header) = m'.header := by rw [← hidm]
  have := Message.encode_ok g1.1 g1.2 (prop := m'.header.property) (by rw [h7]; exact hsize) (by rw [e1]; exact h6)
  rw [this, hf]

example : ∃ f m', Message.encode Sample.codec none Sample.message = .ok (f, m') ∧ m'.header.msgID ≠ 0x0801 := ⟨_, _, rfl, by decide⟩

/-! ## C54 -/

/-- C54 fails: a report object that was encoded at 1 degree south and is then used for a position 1 degree north reports 1 degree south again. -/
theorem C54_refuted : ¬ ∀ (env : Env) (e : T0200) (ps : List (Dec × Dec)), e.status = 0 → TimeOK env e.time → e.extras = [] →
    (∀ p ∈ ps, Fits p.1 ∧ Fits p.2) → ∀ x ∈ ps.zip (drive env e ps), Shows env x.1 x.2 := by
  intro h
  have hz : Fits ⟨0, -6⟩ := ⟨0, by simp [TruncMicro], by decide⟩
  have h1 := h Sample.env { time := 1700000000 } [(⟨-1000000, -6⟩, ⟨0, -6⟩), (⟨1000000, -6⟩, ⟨0, -6⟩)] rfl (by simp [TimeOK, Sample.env, Spec.unix2010, Spec.unix2100]) rfl
    (by
      intro p hp
      simp only [List.mem_cons, List.not_mem_nil, or_false] at hp
      rcases hp with rfl | rfl
      · exact ⟨⟨-1000000, by simp [TruncMicro], by decide⟩, hz⟩
      · exact ⟨⟨1000000, by simp [TruncMicro], by decide⟩, hz⟩)
  obtain ⟨b, d, n, hb, hd, hc, -⟩ := h1 ((⟨1000000, -6⟩, ⟨0, -6⟩), (drive Sample.env { time := 1700000000 }
    [(⟨-1000000, -6⟩, ⟨0, -6⟩), (⟨1000000, -6⟩, ⟨0, -6⟩)])[1]'(by decide)) (by decide)
  have hw : ((drive Sample.env { time := 1700000000 } [(⟨-1000000, -6⟩, ⟨0, -6⟩), (⟨1000000, -6⟩, ⟨0, -6⟩)])[1]'(by decide)).bind
      (fun b => (T0200.decode Sample.env {} b).bind fun r => .ok r.1.lat) = .ok ⟨-1000000, -6⟩ := by decide
  simp only at hb
  rw [hb] at hw
  simp only [hd, Res.bind, Res.ok.injEq] at hw
  rw [hw] at hc
  exact absurd hc.1 (by simp [TruncMicro])

/-- C54, partial: on a journey on which no coordinate becomes positive after it was negative, every report shows its own position. Missing: journeys
that cross the equator northward or the prime meridian eastward. -/
theorem C54_journey_partial (env : Env) (ps : List (Dec × Dec)) : ∀ (e : T0200), TimeOK env e.time →
    (∀ x ∈ e.extras, ∃ v, Spec.ExtraOK v ∧ x = some (Extra.new v)) → (∀ p ∈ ps, Fits p.1 ∧ Fits p.2) → StaysPut ps →
    (e.status.toNat.testBit 2 = true → ∀ p ∈ ps, p.1.value ≤ 0) → (e.status.toNat.testBit 3 = true → ∀ p ∈ ps, p.2.value ≤ 0) →
    (drive env e ps).length = ps.length ∧ ∀ x ∈ ps.zip (drive env e ps), Shows env x.1 x.2 := by
  induction ps with
  | nil => intros; exact ⟨rfl, by simp⟩
  | cons p ps ih =>
    intro e ht hx hf hs h2 h3
    obtain ⟨⟨lat, hlat, hlat32⟩, ⟨lng, hlng, hlng32⟩⟩ := hf p (by simp)
    obtain ⟨hs1, hs2⟩ := List.pairwise_cons.1 hs
    obtain ⟨b, n, st, g1, g2, g3, g4, -⟩ := C20_coordinates_exact env { e with lat := p.1, lng := p.2 } lat lng hlat hlng hlat32 hlng32
      (fun h => (sign_of_trunc hlat).1 (h2 h p (by simp))) (fun h => (sign_of_trunc hlng).1 (h3 h p (by simp))) ht hx
    simp only at g1
    have := ih { e with lat := p.1, lng := p.2, status := st } ht hx (fun q hq => hf q (by simp [hq])) hs2
      (by
        intro h q hq
        simp only [g3, Bool.or_eq_true, decide_eq_true_eq] at h
        rcases h with h | h
        · exact h2 h q (by simp [hq])
        · exact (hs1 q hq).1 ((sign_of_trunc hlat).2 h))
      (by
        intro h q hq
        simp only [g4, Bool.or_eq_true, decide_eq_true_eq] at h
        rcases h with h | h
        · exact h3 h q (by simp [hq])
        · exact (hs1 q hq).2 ((sign_of_trunc hlng).2 h))
    simp only [drive, g1, List.length_cons, this.1, List.zip_cons_cons, List.mem_cons, true_and]
    rintro x (rfl | hm)
    · exact ⟨b, _, n, rfl, g2, ⟨hlat, rfl⟩, ⟨hlng, rfl⟩⟩
    · exact this.2 x hm

/-- C54 exactly: the reports of a journey show the positions cut to millionths, but with every latitude (longitude) negative from the first negative
one on, or from the beginning if the bit was set. -/
theorem C54_exact (env : Env) (ps : List (Dec × Dec)) : ∀ (e : T0200) (lats lngs : List Int), TimeOK env e.time →
    (∀ x ∈ e.extras, ∃ v, Spec.ExtraOK v ∧ x = some (Extra.new v)) → lats.length = ps.length → lngs.length = ps.length →
    (∀ x ∈ ps.zip lats, TruncMicro x.1.1 x.2 ∧ x.2.natAbs < 2 ^ 32) → (∀ x ∈ ps.zip lngs, TruncMicro x.1.2 x.2 ∧ x.2.natAbs < 2 ^ 32) →
    (drive env e ps).map (position env) =
      ((shownCoords (e.status.toNat.testBit 2) lats).zip (shownCoords (e.status.toNat.testBit 3) lngs)).map fun x => .ok (⟨x.1, -6⟩, ⟨x.2, -6⟩) := by
  induction ps with
  | nil =>
    intro e lats lngs _ _ h1 h2
    simp only [List.length_nil, List.length_eq_zero_iff] at h1 h2
    subst h1 h2
    intros
    rfl
  | cons p ps ih =>
    intro e lats lngs ht hx h1 h2 t1 t2
    obtain ⟨lat, lats, rfl⟩ := List.exists_cons_of_length_eq_add_one h1
    obtain ⟨lng, lngs, rfl⟩ := List.exists_cons_of_length_eq_add_one h2
    simp only [List.length_cons, Nat.add_right_cancel_iff] at h1 h2
    simp only [List.zip_cons_cons, List.mem_cons, forall_eq_or_imp] at t1 t2
    obtain ⟨b, n, st, g1, g2, g3, g4, -⟩ := C20_any_status env { e with lat := p.1, lng := p.2 } lat lng t1.1.1 t2.1.1 t1.1.2 t2.1.2 ht hx
    simp only at g1 g3 g4
    have := ih { e with lat := p.1, lng := p.2, status := st } lats lngs ht hx h1 h2 t1.2 t2.2
    simp only [drive, g1, List.map_cons, this, shownCoords, List.zip_cons_cons, g3, g4]
    congr 1
    simp only [position, Res.bind, g2, Spec.dropCache, g3, g4]

theorem shownCoords_eq_iff (bit : Bool) (ns : List Int) : shownCoords bit ns = ns ↔ NeverBack bit ns := by
  induction ns generalizing bit with
  | nil => simp [shownCoords, NeverBack]
  | cons n ns ih =>
    have hw : withBit (bit || decide (n < 0)) n = n ↔ (bit = true → n ≤ 0) := by
      unfold withBit
      cases bit
      · simp only [Bool.false_or, decide_eq_true_eq, Bool.false_eq_true, false_imp_iff, iff_true]
        split <;> omega
      · simp only [Bool.true_or, if_true, true_imp_iff]
        omega
    simp only [shownCoords, List.cons.injEq, hw, ih, NeverBack, Bool.or_eq_true, decide_eq_true_eq, List.mem_cons, forall_eq_or_imp,
      List.pairwise_cons]
    grind

/-- C54, where exactly it holds: all reports show their own position if and only if no latitude and no longitude (cut to millionths) is positive after
a negative one, or while the bit was set from the beginning. -/
theorem C54_right_iff (env : Env) (ps : List (Dec × Dec)) (e : T0200) (lats lngs : List Int) (ht : TimeOK env e.time)
    (hx : ∀ x ∈ e.extras, ∃ v, Spec.ExtraOK v ∧ x = some (Extra.new v)) (h1 : lats.length = ps.length) (h2 : lngs.length = ps.length)
    (t1 : ∀ x ∈ ps.zip lats, TruncMicro x.1.1 x.2 ∧ x.2.natAbs < 2 ^ 32) (t2 : ∀ x ∈ ps.zip lngs, TruncMicro x.1.2 x.2 ∧ x.2.natAbs < 2 ^ 32) :
    (drive env e ps).map (position env) = (lats.zip lngs).map (fun x => .ok (⟨x.1, -6⟩, ⟨x.2, -6⟩)) ↔
      NeverBack (e.status.toNat.testBit 2) lats ∧ NeverBack (e.status.toNat.testBit 3) lngs := by
  rw [C54_exact env ps e lats lngs ht hx h1 h2 t1 t2, ← shownCoords_eq_iff, ← shownCoords_eq_iff]
  have hlen : ∀ bit ns, (shownCoords bit ns).length = ns.length := by
    intro bit ns
    induction ns generalizing bit with
    | nil => rfl
    | cons n ns ih => simp [shownCoords, ih]
  constructor
  · intro h
    have h := (List.map_inj_right (by
      rintro ⟨a, b⟩ ⟨c, d⟩ h
      simpa using h)).1 h
    have e1 := congrArg (List.map Prod.fst) h
    have e2 := congrArg (List.map Prod.snd) h
    rw [List.map_fst_zip (by simp [hlen, h1, h2]), List.map_fst_zip (by simp [h1, h2])] at e1
    rw [List.map_snd_zip (by simp [hlen, h1, h2]), List.map_snd_zip (by simp [h1, h2])] at e2
    exact ⟨e1, e2⟩
  · rintro ⟨e1, e2⟩
    rw [e1, e2]

/-- Over the equator and back: the third report is wrong. -/
example : shownCoords false [1292100, -5, 1292100] = [1292100, -5, -1292100] ∧ ¬ NeverBack false [1292100, -5, 1292100] ∧
    NeverBack false [1292100, 0, -5, 0] := by
  refine ⟨by decide, ?_, ?_⟩ <;> simp [NeverBack]

/-- A journey from the northern into the southern hemisphere, staying east. -/
example : StaysPut [(⟨10000, -6⟩, ⟨36821946, -6⟩), (⟨0, -6⟩, ⟨36822000, -6⟩), (⟨-12921, -4⟩, ⟨36823, -3⟩)] ∧
    Fits ⟨-12921, -4⟩ ∧ Fits ⟨36823, -3⟩ ∧ TimeOK Sample.env 1700000000 :=
  ⟨by simp [StaysPut], ⟨-1292100, by simp [TruncMicro], by decide⟩, ⟨36823000, by simp [TruncMicro], by decide⟩,
    by simp [TimeOK, Sample.env, Spec.unix2010, Spec.unix2100]⟩

/-! ## C61 -/

/-- C61 for bodies: whatever the fields hold, `Encode` of a registered body returns. -/
theorem C61_bodies_never_panic (env : Env) (e : Entity) : Entity.encode env e ≠ .panic := Entity.encode_safe env e

/-- C61 for bodies: if every text can be encoded, a body without key never fails; one with key fails exactly if the key is missing or does not have
128 bytes. -/
theorem C61_bodies_encode (env : Env) (htext : ∀ s, ∃ b, env.gbEnc s = some b) (e : Entity) :
    (∃ b e', Entity.encode env e = .ok (b, e')) ↔
      ∀ k, e = .m0a00 k ∨ e = .m8a00 k → ∃ pk n, k.publicKey = some pk ∧ pk.n = some n ∧ keySize n = 128 := by
  have key : ∀ (k : T0A00) (x : Entity), (∃ b e', Entity.keep (T0A00.encode k) x = .ok (b, e')) ↔ ∃ b, T0A00.encode k = .ok b := by
    intro k x
    unfold Entity.keep
    cases T0A00.encode k <;> simp
  cases e with
  | m0a00 k =>
    have := (key k (.m0a00 k)).trans (T0A00.encode_ok_iff k)
    simpa [Entity.encode] using this
  | m8a00 k =>
    have := (key k (.m8a00 k)).trans (T0A00.encode_ok_iff k)
    simpa [Entity.encode] using this
  | _ =>
    constructor
    · intro _ k hk; rcases hk with hk | hk <;> cases hk
    · intro _
      exact (Fine.entity (env := env) _ (by simp [Entity.msgID]) (by simp [Entity.msgID])).succeeds htext

example : (∃ pk n, ({ publicKey := some ⟨some (2 ^ 1023), 65537⟩ } : T0A00).publicKey = some pk ∧ pk.n = some n ∧ keySize n = 128) :=
  ⟨_, _, rfl, rfl, by rw [keySize, if_neg (Nat.ne_of_gt (Nat.pow_pos (by omega))), Nat.log2_two_pow]⟩

/-- C61 for messages without encryption, exactly: encoding panics if the body is the nil interface, or if the header has the packet flag but no packet
information (and nothing went wrong before the header is written). -/
theorem C61_message_panics_iff (env : Env) (m : Message Entity) : Message.encode (entityCodec env) none m = .panic ↔
    m.body = .nil ∨ (packetFlag m.header.property.toNat = true ∧ m.header.packet = none ∧
      ∀ e, m.body = .val e → ∃ b e', Entity.encode env e = .ok (b, e') ∧ b.length % 65536 < 1024) := by
  rcases m with ⟨⟨id0, prop, icc, serial, packet⟩, body⟩
  cases body with
  | nil => simp [Message.encode, Message.encodeBody, Message.bodyMsgID]
  | nilPtr i =>
    simp only [Message.encode, Message.encodeBody, Message.bodyMsgID, Res.ok_bind]
    rw [encode_tail_panics]
    simp
  | val e =>
    simp only [Message.encode, Message.encodeBody, Message.bodyMsgID]
    have hsafe := Entity.encode_safe env e
    cases he : Entity.encode env e with
    | panic => exact absurd he hsafe
    | err x => simp [entityCodec, he]
    | ok r =>
      obtain ⟨b, e'⟩ := r
      simp only [show (entityCodec env).encode e = .ok (b, e') from he, Res.ok_bind]
      rw [encode_tail_panics]
      simp [he]

example : Message.encode Sample.codec none { Sample.message with header := { Sample.header with property := 0x2000 } } = .panic :=
  (C61_message_panics_iff Sample.env _).2 (.inr ⟨by decide, rfl, by intro e h; cases h; exact ⟨_, _, rfl, by decide⟩⟩)

/-- C61 for what a session sends: `Send`, `Request` and `Reply` build messages without property bits, which the connection writes without panic
whatever key is set, unless the body is nil. -/
theorem C61_sent_messages_never_panic (env : Env) (key : Option EncKey) (id serial : UInt16) (icc : UInt64) (b : Body Entity) (hb : b ≠ .nil) :
    sendBytes (entityCodec env) key (buildMessage id b icc serial) ≠ .panic := by
  have h0 : Message.encode (entityCodec env) none (buildMessage id b icc serial) ≠ .panic := by
    intro h
    rcases (C61_message_panics_iff env _).1 h with h | ⟨h, -⟩
    · exact hb h
    · exact absurd h (show ¬ packetFlag (0 : UInt16).toNat = true by decide)
  have h1 : sendBytes (entityCodec env) key (buildMessage id b icc serial) =
      (Message.encode (entityCodec env) none (buildMessage id b icc serial)).bind fun r => .ok r.1 := by
    cases key with
    | none => rfl
    | some k =>
      have : Property.isEnableEncrypt (buildMessage id b icc serial).header.property = false := by show Property.isEnableEncrypt 0 = false; decide
      simp [sendBytes, this]
  rw [h1]
  cases h : Message.encode (entityCodec env) none (buildMessage id b icc serial) with
  | panic => exact absurd h h0
  | ok r => simp [Res.bind]
  | err x => simp [Res.bind]

example : (Body.nilPtr 0x8001 : Body Entity) ≠ .nil ∧ (.val Sample.body : Body Entity) ≠ .nil := by simp

/-- C61 with encryption: a key of more than 42 bytes adds no panics; with a smaller one every message with a body that encodes panics. -/
theorem C61_encrypted (env : Env) (k : EncKey) (m : Message Entity) :
    (42 < k.size → m.body ≠ .nil → (packetFlag m.header.property.toNat = true → m.header.packet.isSome) →
      Message.encode (entityCodec env) (some k) m ≠ .panic) ∧
    (k.size ≤ 42 → ∀ e b e', m.body = .val e → Entity.encode env e = .ok (b, e') → Message.encode (entityCodec env) (some k) m = .panic) := by
  constructor
  · intro hk hb hp
    rcases m with ⟨⟨id0, prop, icc, serial, packet⟩, body⟩
    cases body with
    | nil => exact absurd rfl hb
    | nilPtr i =>
      intro h
      simp only [Message.encode, Message.encodeBody, Message.bodyMsgID, Res.ok_bind] at h
      obtain ⟨h1, h2, -⟩ := (encode_tail_panics ..).1 h
      rw [h2] at hp
      simp [h1] at hp
    | val e =>
      intro h
      simp only [Message.encode, Message.encodeBody, Message.bodyMsgID] at h
      cases he : Entity.encode env e with
      | panic => exact Entity.encode_safe env e he
      | err x => simp [entityCodec, he] at h
      | ok r =>
        obtain ⟨b, e'⟩ := r
        simp only [show (entityCodec env).encode e = .ok (b, e') from he, Res.ok_bind] at h
        cases hx : encryptOAEP k b with
        | panic =>
          unfold encryptOAEP bytesSplit at hx
          rw [if_neg (by omega)] at hx
          exact encryptLoop_safe _ _ _ hx
        | err x => simp [hx] at h
        | ok x =>
          simp only [hx, Res.ok_bind] at h
          obtain ⟨h1, h2, -⟩ := (encode_tail_panics ..).1 h
          rw [h2] at hp
          rw [← Property.isEnablePacket_spec, Property.isEnablePacket_testBit, Property.enableEncrypt_toNat, Nat.testBit_or, Nat.testBit_two_pow,
            ← Property.isEnablePacket_testBit, Property.isEnablePacket_spec] at h1
          simp only [show ¬ (10 = 13) by omega, decide_false, Bool.or_false] at h1
          simp [h1] at hp
  · intro hk e b e' hm he
    simp only [Message.encode, Message.encodeBody, hm, show (entityCodec env).encode e = .ok (b, e') from he, Res.ok_bind, encryptOAEP, bytesSplit]
    rw [if_pos (by omega)]
    rfl

example : ∃ b e', Sample.message.body = .val Sample.body ∧ Entity.encode Sample.env Sample.body = .ok (b, e') := ⟨_, _, rfl, rfl⟩

/-! ## C62 -/

/-- Two messages that a receiver cannot tell apart: same terminal, serial number and packet information, and the same body (up to the cached
encoding of location items). -/
def Spec.SameMessage (x y : Message Entity × Entity) : Prop :=
  Spec.Entity.dropCache x.2 = Spec.Entity.dropCache y.2 ∧ x.1.header.serial = y.1.header.serial ∧ x.1.header.iccID = y.1.header.iccID ∧
    x.1.header.packet = y.1.header.packet

/-- C62 for single messages: equal bytes on the wire mean equal messages. -/
theorem C62_frames_distinct (env : Env) (x y : Message Entity × Entity) (hx : Spec.Sendable env x.1 x.2) (hy : Spec.Sendable env y.1 y.2)
    (f : Bytes) (h1 : sendBytes (entityCodec env) none x.1 = .ok f) (h2 : sendBytes (entityCodec env) none y.1 = .ok f) :
    Spec.SameMessage x y := by
  have main : ∀ z : Message Entity × Entity, Spec.Sendable env z.1 z.2 → sendBytes (entityCodec env) none z.1 = .ok f →
      ∃ d, Message.decode (entityCodec env) none {} f = .ok d ∧ Spec.Carries z.1 z.2 d := by
    intro z hz h
    obtain ⟨f', m', d, g1, g2, g3, g4, g5, g6, g7⟩ :=
      C01_registered_round_trip env z.1 z.2 hz.body hz.range hz.icc0 hz.icc1 hz.size hz.plain hz.packet none {}
    have : f' = f := by
      unfold sendBytes at h
      simp only [g1] at h
      exact Res.ok.inj h
    rw [← this]
    exact ⟨d, g2, g3, g4, g5, g6, g7⟩
  obtain ⟨d1, a1, b1⟩ := main x hx h1
  obtain ⟨d2, a2, b2⟩ := main y hy h2
  rw [a1] at a2
  cases a2
  obtain ⟨c1, -, c3, c4, c5, -⟩ := b1
  obtain ⟨e1, -, e3, e4, e5, -⟩ := b2
  rw [c1] at e1
  exact ⟨Body.val.inj e1, by rw [← c3, e3], by rw [← c4, e4], by rw [← c5, e5]⟩

/-- Two different messages with the same frame: the message id in the header is replaced by that of the body. -/
example : ∃ f, sendBytes Sample.codec none Sample.message = .ok f ∧
    sendBytes Sample.codec none { Sample.message with header := { Sample.header with msgID := 5 } } = .ok f := ⟨_, rfl, rfl⟩

/-- C62 for whole conversations: if two sequences of messages give the same bytes on the wire, they are equally long and their messages are equal one
by one. The bytes alone tell where each message begins. -/
theorem C62_streams_distinct (env : Env) (xs ys : List (Message Entity × Entity)) (hx : ∀ x ∈ xs, Spec.Sendable env x.1 x.2)
    (hy : ∀ y ∈ ys, Spec.Sendable env y.1 y.2) (fs gs : List Bytes) (h1 : xs.map (fun x => sendBytes (entityCodec env) none x.1) = fs.map .ok)
    (h2 : ys.map (fun y => sendBytes (entityCodec env) none y.1) = gs.map .ok) (h : fs.flatten = gs.flatten) :
    xs.length = ys.length ∧ ∀ p ∈ xs.zip ys, Spec.SameMessage p.1 p.2 := by
  obtain ⟨fs', e1, r1⟩ := C12_end_to_end env none .other xs hx
  obtain ⟨gs', e2, r2⟩ := C12_end_to_end env none .other ys hy
  have inj : ∀ {as bs : List Bytes}, as.map Res.ok = bs.map Res.ok → as = bs := fun h => by
    simpa [List.map_inj_right] using h
  have hf : fs' = fs := inj (by rw [← e1, h1])
  have hg : gs' = gs := inj (by rw [← e2, h2])
  subst hf hg
  have hsingle : (fs'.flatten.map fun b => [b]).flatten = fs'.flatten := by
    induction fs'.flatten with
    | nil => rfl
    | cons a as ih => simp_all
  have hlen : ∀ c ∈ fs'.flatten.map (fun b => [b]), c.length ≤ 128 := by
    intro c hc
    obtain ⟨b, -, rfl⟩ := List.mem_map.1 hc
    simp
  obtain ⟨ds1, l1, c1, q1⟩ := r1 _ hlen hsingle ys.length
  obtain ⟨ds2, l2, c2, q2⟩ := r2 _ hlen (by rw [hsingle, h]) xs.length
  rw [Nat.add_comm, q2] at q1
  have cut : ∀ (as bs : List (Message Entity)) (m n : Nat),
      as.map Res.ok ++ List.replicate m (.err Err.other) = bs.map Res.ok ++ List.replicate n (.err Err.other) → as = bs := by
    intro as
    induction as with
    | nil =>
      intro bs m n h
      cases bs with
      | nil => rfl
      | cons b bs =>
        cases m with
        | zero => simp at h
        | succ m => simp [List.replicate_succ] at h
    | cons a as ih =>
      intro bs m n h
      cases bs with
      | nil =>
        cases n with
        | zero => simp at h
        | succ n => simp [List.replicate_succ] at h
      | cons b bs =>
        simp only [List.map_cons, List.cons_append, List.cons.injEq, Res.ok.injEq] at h
        rw [h.1, ih bs m n h.2]
  have hd := cut _ _ _ _ q1
  subst hd
  refine ⟨by omega, ?_⟩
  clear h1 h2 h hx hy hsingle hlen q1 q2 r1 r2 e1 e2
  induction xs generalizing ys ds2 with
  | nil => simp
  | cons x xs ih =>
    cases ys with
    | nil => simp
    | cons y ys =>
      cases ds2 with
      | nil => simp at l1
      | cons d ds =>
        intro p hp
        simp only [List.zip_cons_cons, List.mem_cons] at hp c1 c2
        rcases hp with rfl | hp
        · obtain ⟨a1, -, a3, a4, a5, -⟩ := c1 ((x, d)) (.inl rfl)
          obtain ⟨b1, -, b3, b4, b5, -⟩ := c2 ((y, d)) (.inl rfl)
          simp only at a1 a3 a4 a5 b1 b3 b4 b5
          rw [a1] at b1
          exact ⟨Body.val.inj b1, by rw [← a3, b3], by rw [← a4, b4], by rw [← a5, b5]⟩
        · exact ih ys ds (by simpa using l2) (fun p hp => c2 p (.inr hp)) (by simpa using l1) (fun p hp => c1 p (.inr hp)) p hp

/-- The hypotheses are met by two messages that differ in the serial number only; their frames differ. -/
example : ∃ f g, sendBytes Sample.codec none Sample.message = .ok f ∧
    sendBytes Sample.codec none { Sample.message with header := { Sample.header with serial := 8 } } = .ok g ∧ f ≠ g :=
  ⟨_, _, rfl, rfl, by decide⟩

end Verif
