import Verif.Lemmas.Entity
import Verif.Lemmas.Message
import Verif.Props.Corruption
/-! # C11: the body type matches the header -/

namespace Verif

/-- C11: whatever bytes are decoded into a fresh message, a delivered body has the message id of the header. -/
theorem C11_body_type_matches_header (env : Env) (key : Option DecKey) (data : Bytes) (d : Message Entity) (e : Entity)
    (h : Message.decode (entityCodec env) key {} data = .ok d) (hb : d.body = .val e) :
    e.msgID = d.header.msgID := by
  obtain ⟨content, plain, e', n, -, -, hdec, hbody⟩ := Message.decode_body_inv rfl h (by rw [hb]; simp)
  rw [hb] at hbody
  simp only [Body.val.injEq] at hbody
  subst hbody
  exact Entity.decodeBody_msgID hdec

/-- C11: the message id determines the type, so a type assertion chosen by the id of a delivered body holds. Here
for the terminal's general answer, the first assertion in `Session.message`. -/
theorem C11_assertion_general_answer (env : Env) (key : Option DecKey) (data : Bytes) (d : Message Entity) (e : Entity)
    (h : Message.decode (entityCodec env) key {} data = .ok d) (hb : d.body = .val e) (hid : d.header.msgID = 0x0001) :
    ∃ t, e = .m0001 t := by
  have := C11_body_type_matches_header env key data d e h hb
  rw [hid] at this
  cases e <;> first | exact ⟨_, rfl⟩ | (simp [Entity.msgID] at this)

/-- Two bodies with the same message id are values of the same type. -/
theorem C11_id_determines_type (a b : Entity) (h : a.msgID = b.msgID) : a.ctorIdx = b.ctorIdx := by
  have key : ∀ e : Entity, ∃ e0, Entity.create e.msgID = some e0 ∧ e0.ctorIdx = e.ctorIdx := by
    intro e; cases e <;> exact ⟨_, rfl, rfl⟩
  obtain ⟨a0, ha, ha'⟩ := key a
  obtain ⟨b0, hb, hb'⟩ := key b
  rw [h, hb] at ha
  simp only [Option.some.injEq] at ha
  rw [← ha', ← ha, hb']

/-- Non-trivial case: the sample message is delivered with its body. -/
example : ∃ f m' d, Message.encode Sample.codec none Sample.message = .ok (f, m') ∧
    Message.decode Sample.codec none {} f = .ok d ∧ d.body = .val Sample.body := ⟨_, _, _, rfl, rfl, rfl⟩

/-- The hypothesis of `C04_no_wrong_body_partial` holds for the registered body types. -/
theorem C04_registered_ids_plain (env : Env) : PlainIds (entityCodec env) := by
  intro id b e n h
  have := Entity.decodeBody_msgID h
  rw [← this]
  cases e <;> (simp only [Entity.msgID]; decide)

/-- C04 for the registered body types: one changed byte never yields a message with a body. -/
theorem C04_registered_no_wrong_body_partial (env : Env) (ekey : Option EncKey) (dkey : Option DecKey)
    (m m' d : Message Entity) (w w' : Bytes)
    (henc : Message.encode (entityCodec env) ekey m = .ok ([0x7e] ++ w ++ [0x7e], m'))
    (hlen : w.length < 65534) (hchg : Spec.OneByteChanged w w')
    (hd : Message.decode (entityCodec env) dkey {} ([0x7e] ++ w' ++ [0x7e]) = .ok d) : d.body = .nil :=
  C04_no_wrong_body_partial (entityCodec env) (C04_registered_ids_plain env) ekey dkey m m' d w w' henc hlen hchg hd

/-- The frame of `C04_refuted`, changed in one byte, is such a case: its header is delivered, its body is not. -/
example : ∃ (m m' d : Message Entity) (w w' : Bytes), Message.encode Sample.codec none m = .ok ([0x7e] ++ w ++ [0x7e], m') ∧
    Spec.OneByteChanged w w' ∧ Message.decode Sample.codec none {} ([0x7e] ++ w' ++ [0x7e]) = .ok d ∧ d.body = .nil := by
  obtain ⟨m, m', d, w, w', h1, h2, h3, -, h4⟩ := C04_refuted
  exact ⟨m, m', d, w, w', h1, h2, h3, h4⟩

end Verif
