import Verif.Lemmas.Receive
import Verif.Lemmas.Encode
import Verif.Props.Accepts
import Verif.Props.Rsa
/-! # C71: what is received -/

namespace Verif
open Spec

variable {E : Type}

theorem decode_arrives {C : BodyCodec E} {key : Option DecKey} {data body : Bytes} {h : Header} (ha : Arrives data h body) :
    Message.decode C key {} data = if body.length % 65536 ≠ sizeField h.property.toNat then .ok { header := h, body := .nil }
      else (Message.plainContent key h body).bind fun plain =>
        (Message.decodeContent C .nil h plain).bind fun b => .ok { header := h, body := b } := by
  have hl := (Header.decode_headerOf ha.2.1 ha.2.2.1 ha.2.2.2 body).2
  rw [Message.decode_eq, decodeEnvelope_iff.2 ⟨body, rfl, ha⟩]
  show Message.decodeRest C key {} h (headerOf h ++ body) = _
  rw [Message.decodeRest_split hl]
  have hiff : (UInt16.ofNat body.length ≠ Property.getBodySize h.property) ↔
      (body.length % 65536 ≠ sizeField h.property.toNat) := by
    rw [← Property.getBodySize_toNat, Ne, ← UInt16.toNat_inj]; simp
  simp only [hiff]

/-- C71. `Decode` succeeds with message `m` exactly if the bytes are a frame with the header of `m` and either the length is not the one announced and `m` has
no body, or the body bytes can be decrypted (if they are encrypted) and `m` has the body decoded from them, or none if they cannot be decoded. -/
theorem C71_received_iff (C : BodyCodec E) (hC : ∀ id b, C.decode id b ≠ .panic) (key : Option DecKey)
    (hkey : ∀ k, key = some k → 0 < k.size) (data : Bytes) (m : Message E) :
    Message.decode C key {} data = .ok m ↔ ∃ body, Arrives data m.header body ∧
      (body.length % 65536 ≠ sizeField m.header.property.toNat ∧ m.body = .nil ∨
       body.length % 65536 = sizeField m.header.property.toNat ∧ ∃ plain, Decrypted key m.header body plain ∧
        ((∃ e n, C.decode m.header.msgID plain = .ok (e, n) ∧ m.body = .val e) ∨
         (∃ err, C.decode m.header.msgID plain = .err err) ∧ m.body = .nil)) := by
  have key1 : ∀ h body, Arrives data h body → (Message.decode C key {} data = .ok m ↔ m.header = h ∧
      (body.length % 65536 ≠ sizeField h.property.toNat ∧ m.body = .nil ∨
       body.length % 65536 = sizeField h.property.toNat ∧ ∃ plain, Decrypted key h body plain ∧
        ((∃ e n, C.decode h.msgID plain = .ok (e, n) ∧ m.body = .val e) ∨
         (∃ err, C.decode h.msgID plain = .err err) ∧ m.body = .nil))) := by
    intro h body ha
    obtain ⟨mh, mb⟩ := m
    rw [decode_arrives ha]
    by_cases hs : body.length % 65536 = sizeField h.property.toNat
    · simp only [hs, ne_eq, not_true_eq_false, if_false, false_and, false_or, true_and]
      constructor
      · intro he
        obtain ⟨plain, hp, he⟩ := Res.bind_ok he
        obtain ⟨b, hb, he⟩ := Res.bind_ok he
        simp only [Res.ok.injEq, Message.mk.injEq] at he
        obtain ⟨rfl, rfl⟩ := he
        refine ⟨rfl, plain, (plainContent_iff hkey).1 hp, ?_⟩
        unfold Message.decodeContent at hb
        cases hd : C.decode h.msgID plain with
        | ok r => rw [hd] at hb; simp only [Res.ok.injEq] at hb; exact Or.inl ⟨r.1, r.2, rfl, hb.symm⟩
        | err e => rw [hd] at hb; simp only [Res.ok.injEq] at hb; exact Or.inr ⟨⟨e, rfl⟩, hb.symm⟩
        | panic => exact absurd hd (hC _ _)
      · rintro ⟨rfl, plain, hp, hb⟩
        rw [(plainContent_iff hkey).2 hp]
        simp only [Res.bind, Message.decodeContent]
        rcases hb with ⟨e, n, hd, hb⟩ | ⟨⟨e, hd⟩, hb⟩
        · simp only [hd]; rw [hb]
        · simp only [hd]; rw [hb]
    · simp only [hs, ne_eq, not_false_eq_true, if_true, true_and, false_and, or_false, Res.ok.injEq, Message.mk.injEq]
      exact ⟨fun ⟨a, b⟩ => ⟨a.symm, b.symm⟩, fun ⟨a, b⟩ => ⟨a.symm, b.symm⟩⟩
  constructor
  · intro he
    have he' := he
    rw [Message.decode_eq] at he'
    obtain ⟨⟨h, c⟩, h1, -⟩ := Res.bind_ok he'
    obtain ⟨body, -, ha⟩ := decodeEnvelope_iff.1 h1
    obtain ⟨hh, hr⟩ := (key1 h body ha).1 he
    subst hh
    exact ⟨body, ha, hr⟩
  · rintro ⟨body, ha, hr⟩
    exact (key1 _ body ha).2 ⟨rfl, hr⟩

/-- C71. Bytes have at most one reading as a frame. -/
theorem C71_one_reading {data b b' : Bytes} {h h' : Header} (ha : Arrives data h b) (ha' : Arrives data h' b') : h = h' ∧ b = b' :=
  ha.unique ha'

/-- C71. `Decode` fails exactly if the bytes are no frame, or one whose encrypted body cannot be decrypted. -/
theorem C71_refused_iff (C : BodyCodec E) (hC : ∀ id b, C.decode id b ≠ .panic) (key : Option DecKey)
    (hkey : ∀ k, key = some k → 0 < k.size) (data : Bytes) :
    (∀ m, Message.decode C key {} data ≠ .ok m) ↔ ∀ h body, Arrives data h body →
      body.length % 65536 = sizeField h.property.toNat ∧ ¬ ∃ plain, Decrypted key h body plain := by
  constructor
  · intro hno h body ha
    have hs : body.length % 65536 = sizeField h.property.toNat := by
      apply Decidable.byContradiction
      intro hs
      exact hno ⟨h, .nil⟩ ((C71_received_iff C hC key hkey data _).2 ⟨body, ha, Or.inl ⟨hs, rfl⟩⟩)
    refine ⟨hs, ?_⟩
    rintro ⟨plain, hp⟩
    cases hd : C.decode h.msgID plain with
    | ok r => exact hno ⟨h, .val r.1⟩ ((C71_received_iff C hC key hkey data _).2
        ⟨body, ha, Or.inr ⟨hs, plain, hp, Or.inl ⟨r.1, r.2, hd, rfl⟩⟩⟩)
    | err e => exact hno ⟨h, .nil⟩ ((C71_received_iff C hC key hkey data _).2
        ⟨body, ha, Or.inr ⟨hs, plain, hp, Or.inr ⟨⟨e, hd⟩, rfl⟩⟩⟩)
    | panic => exact hC _ _ hd
  · intro hall m hm
    obtain ⟨body, ha, hr⟩ := (C71_received_iff C hC key hkey data m).1 hm
    obtain ⟨hs, hn⟩ := hall _ _ ha
    rcases hr with ⟨h1, -⟩ | ⟨-, plain, hp, -⟩
    · exact h1 hs
    · exact hn ⟨plain, hp⟩

/-- C71. A message with header `h` and a body is received exactly if the bytes are a frame with this header, of the announced length, and its plain body bytes
begin with the fields of the message. -/
theorem C71_body_iff (env : Env) (key : Option DecKey) (hkey : ∀ k, key = some k → 0 < k.size) (data : Bytes) (h : Header) :
    (∃ e, Message.decode (entityCodec env) key {} data = .ok { header := h, body := .val e }) ↔
      ∃ body plain, Arrives data h body ∧ body.length % 65536 = sizeField h.property.toNat ∧ Decrypted key h body plain ∧
        Accepts env h.msgID plain := by
  have hC : ∀ id b, (entityCodec env).decode id b ≠ .panic := fun id b => C15_message_body_never_panics env id b
  constructor
  · rintro ⟨e, he⟩
    obtain ⟨body, ha, hr⟩ := (C71_received_iff _ hC key hkey data _).1 he
    rcases hr with ⟨-, h2⟩ | ⟨hs, plain, hp, hr⟩
    · cases h2
    · refine ⟨body, plain, ha, hs, hp, ?_⟩
      rcases hr with ⟨e, n, hd, -⟩ | ⟨-, h2⟩
      · exact (C70_accepts_iff env _ _).1 ⟨e, n, hd⟩
      · cases h2
  · rintro ⟨body, plain, ha, hs, hp, hacc⟩
    obtain ⟨e, n, hd⟩ := (C70_accepts_iff env _ _).2 hacc
    exact ⟨e, (C71_received_iff _ hC key hkey data _).2 ⟨body, ha, Or.inr ⟨hs, plain, hp, Or.inl ⟨e, n, hd, rfl⟩⟩⟩⟩

/-- Non-trivial case: a general answer with an escaped 0x7d in its body, encoded by hand. -/
example : ∃ e, Message.decode (entityCodec Sample.env) none {} [0x7e, 0, 1, 0, 5, 0, 0, 0, 0, 0, 0x42, 0, 9, 0x7d, 1, 3, 2, 0, 0, 0x33, 0x7e] =
    .ok { header := { msgID := 1, property := 5, iccID := 42, serial := 9 }, body := .val e } := by
  rw [C71_body_iff _ _ (by simp)]
  refine ⟨[0x7d, 3, 2, 0, 0], [0x7d, 3, 2, 0, 0], ⟨⟨[0, 1, 0, 5, 0, 0, 0, 0, 0, 0x42, 0, 9, 0x7d, 1, 3, 2, 0, 0], [0x33], rfl, ?_, Or.inl rfl⟩,
    by decide, by decide, rfl⟩, rfl, rfl, ?_⟩
  · repeat first
      | exact .nil
      | apply Unstuffed.esc
      | (apply Unstuffed.plain; decide)
  · exact (C70_accepts_iff _ _ _).1 ⟨_, _, rfl⟩

/-- With a flag left unescaped inside and an unescaped check byte 0x7d it is still received (here with an unknown message id, i.e. without a body). -/
example : ∃ body, Arrives [0x7e, 0x7e, 0x7e, 0, 1, 0, 0, 0, 0, 0, 0x42, 0, 0x3e, 0x7d, 0x7e] { msgID := 0x7e7e, property := 1, iccID := 42, serial := 0x3e } body := by
  refine ⟨[], ⟨⟨[0x7e, 0x7e, 0, 1, 0, 0, 0, 0, 0, 0x42, 0, 0x3e], [0x7d], rfl, ?_, Or.inl (by decide)⟩, by decide, by decide, rfl⟩⟩
  repeat first
      | exact .nil
      | apply Unstuffed.esc
      | (apply Unstuffed.plain; decide)

/-- An encrypted body under the toy key. -/
example : Decrypted (some Sample.decKey) { msgID := 1, property := 0x480, iccID := 42, serial := 9 }
    ((5 : UInt8) :: ([0, 3, 0, 2, 0] ++ List.replicate 122 0)) [0, 3, 0, 2, 0] := by
  refine ⟨Sample.decKey, [(5 : UInt8) :: ([0, 3, 0, 2, 0] ++ List.replicate 122 0)], [[0, 3, 0, 2, 0]], rfl, ⟨rfl, ?_, ?_⟩, rfl, rfl⟩
  · intro c hc; simp only [List.mem_singleton] at hc; subst hc; decide +kernel
  · intro c hc; simp [List.dropLast] at hc

end Verif
