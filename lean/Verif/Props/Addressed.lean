import Verif.Spec.Addressed
import Verif.Lemmas.Addressed
import Verif.Props.Converse
/-! # C88: the messages of a session are addressed to its terminal -/

namespace Verif
open Spec Codec Session Handler Converse

variable {σ : Type}

/-- C88 exactly: a terminal with number `i` sends whatever messages it likes, the handlers and callbacks do whatever they like with the session, and the
connection accepts whatever it likes. Every message the session hands to the connection has the number `i` if a message of the terminal was served before,
and the number 0 otherwise. -/
theorem C88_exact (auto : Bool) (P : Program σ) (u : σ) (accepts : List Bool) (ms : List (Message Entity × Outcome × Outcome)) (hd : ∀ x ∈ ms, Delivered x.1)
    (i : UInt64) (hi : ∀ x ∈ ms, x.1.header.iccID = i) {s : Converse.State σ} {log : List Ev}
    (h : ({ user := u, accepts := accepts } : Converse.State σ).run auto P ms = .ok (s, log)) (before : List Ev) (m : Message Entity)
    (hm : HandedAfter log before m) : m.header.iccID = if served before then i else 0 := by
  obtain ⟨s', log', k, h1, h2, -⟩ := run_spec auto P ms (shows_fresh u accepts) hd
  obtain ⟨rfl, rfl⟩ : s = s' ∧ log = log' := by simpa [h] using h1
  simpa using addressed_split (talk_addressed (d := false) h2 rfl hi) hm

/-- C88 for the messages of handlers and callbacks, and for all messages that follow a served one: they are addressed to the terminal. Missing: the replies
of the session itself before that (`C88_refuted`). -/
theorem C88_partial (auto : Bool) (P : Program σ) (u : σ) (accepts : List Bool) (ms : List (Message Entity × Outcome × Outcome)) (hd : ∀ x ∈ ms, Delivered x.1)
    (i : UInt64) (hi : ∀ x ∈ ms, x.1.header.iccID = i) {s : Converse.State σ} {log : List Ev}
    (h : ({ user := u, accepts := accepts } : Converse.State σ).run auto P ms = .ok (s, log)) (before : List Ev) (m : Message Entity)
    (hm : HandedAfter log before m) (e : Ev) (he : e ∈ before) (hs : (∃ cb x, e = .ran cb x) ∨ (∃ f x, e = .handled f x) ∨ ∃ x, e = .unhandled x) :
    m.header.iccID = i := by
  rw [C88_exact auto P u accepts ms hd i hi h before m hm, if_pos]
  refine List.any_eq_true.2 ⟨e, he, ?_⟩
  rcases hs with ⟨cb, x, rfl⟩ | ⟨f, x, rfl⟩ | ⟨x, rfl⟩ <;> rfl

namespace Sample.Addressed

/-- A message whose id is not registered, from terminal 13800000000. -/
def unsupported : Message Entity := { header := { msgID := 0x0900, iccID := 13800000000, serial := 1 }, body := .nil }

/-- The session's reply to it. -/
def toNobody : Message Entity := buildMessage 0x8001 (.val (.m8001 { replySerial := 1, replyID := 0x0900, result := 3 })) 0 1

/-- Its bytes. -/
def bytesToNobody : Bytes := [0x7e, 0x80, 0x01, 0x00, 0x05, 0, 0, 0, 0, 0, 0, 0x00, 0x01, 0x00, 0x01, 0x09, 0x00, 0x03, 0x8e, 0x7e]

/-- A heartbeat of the terminal. -/
def heartbeat : Message Entity := { header := { msgID := 0x0002, iccID := 13800000000, serial := 2 }, body := .val (.m0002 {}) }

/-- The session's reply after the heartbeat. -/
def toTerminal : Message Entity := buildMessage 0x8001 (.val (.m8001 { replySerial := 1, replyID := 0x0900, result := 3 })) 13800000000 1

end Sample.Addressed

open Sample.Addressed

/-- C88 is false of the code: if the first message of a terminal has an id that is not registered, the session answers it with a message to terminal 0,
whatever the program is. -/
theorem C88_refuted (auto : Bool) (P : Program σ) (u : σ) (o : Outcome × Outcome) : ∃ s log before,
    ({ user := u } : Converse.State σ).run auto P [(unsupported, o)] = .ok (s, log) ∧ HandedAfter log before toNobody ∧
      toNobody.header.iccID ≠ unsupported.header.iccID :=
  ⟨_, _, [.received unsupported, .replies 1 0x0900 3], rfl, ⟨[], .inl rfl⟩, by decide⟩

/-- Nobody can even decode that answer. -/
theorem C88_refuted_undecodable (env : Env) (key : Option DecKey) (self : Message Entity) :
    sendBytes (entityCodec env) none toNobody = .ok bytesToNobody ∧ Message.decode (entityCodec env) key self bytesToNobody = .err .num := by
  constructor
  · have h1 : Message.encodeBody (entityCodec env) none toNobody = .ok ([0, 1, 9, 0, 3], toNobody.header, toNobody.body) := rfl
    have h2 : Message.bodyMsgID (entityCodec env) toNobody.body = .ok 0x8001 := rfl
    have h3 : Property.setBodySize toNobody.header.property (UInt16.ofNat 5) = .ok 5 := by decide +kernel
    have h4 : Header.encode { toNobody.header with msgID := 0x8001, property := 5 } =
        .ok ([128, 1, 0, 5, 0, 0, 0, 0, 0, 0, 0, 1], { toNobody.header with msgID := 0x8001, property := 5 }) := by decide +kernel
    simp only [sendBytes, Message.encode, h1, h2, Res.bind, bind, List.length_cons, List.length_nil, h3, h4]
    show Res.ok _ = Res.ok _
    decide +kernel
  · have h : Message.decodeEnvelope bytesToNobody = .err .num := by decide +kernel
    simp only [Message.decode, h]
    rfl

/-- The hypotheses of `C88_partial` are met: the answer that follows a heartbeat. -/
example (auto : Bool) (code : Nat → σ → Message Entity → Code σ) (u : σ) (o : Outcome × Outcome) : ∃ s log before,
    ({ user := u } : Converse.State σ).run auto ⟨fun _ => none, code, code⟩ [(heartbeat, o), (unsupported, o)] = .ok (s, log) ∧
      HandedAfter log before toTerminal ∧ .unhandled heartbeat ∈ before := by
  cases auto <;> exact ⟨_, _, [.received heartbeat, .unhandled heartbeat, .received unsupported, .replies 1 0x0900 3], rfl, ⟨[], .inl rfl⟩, by simp⟩

end Verif
