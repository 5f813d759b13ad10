import Verif.Lemmas.AcceptsAll
import Verif.Props.RoundTrip
import Verif.Props.BodySafe
import Verif.Props.Sample
/-! # C70, C48: which bytes are accepted as message bodies, and the count reported for them -/

namespace Verif
open Spec

/-- C70. The bytes behind a header are decoded as the body of message `id` exactly if they begin with the fields of that message. -/
theorem C70_accepts_iff (env : Env) (id : UInt16) (data : Bytes) :
    (∃ e n, Entity.decodeBody env id data = .ok (e, n)) ↔ Accepts env id data := by
  rw [← decodeBody_accepts]
  exact ⟨fun ⟨e, n, h⟩ => ⟨(e, n), h⟩, fun ⟨v, h⟩ => ⟨v.1, v.2, h⟩⟩

/-- C70. All other bytes are refused with an error. -/
theorem C70_rejects_iff (env : Env) (id : UInt16) (data : Bytes) :
    (∃ err, Entity.decodeBody env id data = .err err) ↔ ¬ Accepts env id data := by
  rw [← C70_accepts_iff]
  have := C15_message_body_never_panics env id data
  cases hd : Entity.decodeBody env id data with
  | ok v => exact ⟨fun ⟨_, h⟩ => (nomatch h), fun h => absurd ⟨v.1, v.2, rfl⟩ h⟩
  | err e => simp
  | panic => exact absurd hd this

/-- The bytes of a location report with two additional items, one of them unknown to the library, and one byte left over. -/
def Sample.reportBytes : Bytes := [0, 0, 0, 1, 0, 0, 0, 15, 2, 4, 0xcb, 0x14, 1, 0x31, 0x2d, 1, 0, 5, 2, 0x58, 0, 90, 0x23, 0x11, 0x15, 0x06, 0x13, 0x20,
  1, 4, 0, 0, 0, 77, 0xe0, 2, 1, 2, 9]

/-- Non-trivial cases, from the fields to the decoder: the location report is accepted. -/
example : ∃ e n, Entity.decodeBody Sample.env 0x0200 Sample.reportBytes = .ok (e, n) := by
  rw [C70_accepts_iff]
  refine ⟨[9], [1, 4, 0, 0, 0, 77, 0xe0, 2, 1, 2, 9], ?_, ⟨2, [0xe0, 2, 1, 2, 9], ?_, [9], ?_, rfl⟩, by decide⟩
  · refine ⟨_, ⟨[0, 0, 0, 1], rfl, rfl, trivial⟩, _, ⟨[0, 0, 0, 15], rfl, rfl, trivial⟩, _, ⟨[2, 4, 0xcb, 0x14], rfl, rfl, trivial⟩, _,
      ⟨[1, 0x31, 0x2d, 1], rfl, rfl, trivial⟩, _, ⟨[0, 5], rfl, rfl, trivial⟩, _, ⟨[2, 0x58], rfl, rfl, trivial⟩, _, ⟨[0, 90], rfl, rfl, trivial⟩,
      [0x23, 0x11, 0x15, 0x06, 0x13, 0x20], rfl, rfl, 23, 11, 15, 6, 13, 20, by decide, ?_⟩
    decide
  · exact ⟨1, 4, [0, 0, 0, 77], rfl, rfl, by decide⟩
  · exact ⟨0xe0, 2, [1, 2], rfl, rfl, fun k hk => (nomatch (show (none : Option Nat) = some k from hk))⟩

/-- From the decoder to the fields: the same report with a mileage of three bytes does not have the fields, nor does one from the 31st of June. -/
example : ¬ Accepts Sample.env 0x0200 (Sample.reportBytes.take 28 ++ [1, 3, 0, 0, 77]) ∧
    ¬ Accepts Sample.env 0x0200 (Sample.reportBytes.take 22 ++ [0x23, 0x06, 0x31, 0x06, 0x13, 0x20]) :=
  ⟨(C70_rejects_iff _ _ _).1 ⟨.invalidExtraLength, rfl⟩, (C70_rejects_iff _ _ _).1 ⟨_, rfl⟩⟩

/-! ## C48 -/

/-- C48, exactly, for every byte string and every message: `n` is reported as consumed exactly if the bytes begin with the fields of the message and
`n` is the number of bytes these take, with the exceptions of `reportedCount`. -/
theorem C48_exact (env : Env) (id : UInt16) (data : Bytes) (n : Nat) :
    (∃ e, Entity.decodeBody env id data = .ok (e, n)) ↔ ∃ r, bodyShape env id data r ∧ n = reportedCount id (data.length - r.length) :=
  decodeBody_counts

theorem extrasSize_pos {env : Env} {l : T0200} (h : LocationOK env l) (hx : l.extras ≠ []) : 0 < extrasSize l.extras := by
  obtain ⟨x, xs, hxs⟩ := List.exists_cons_of_ne_nil hx
  obtain ⟨v, -, hv⟩ := h.2 x (by rw [hxs]; simp)
  rw [hxs, hv]
  simp [extrasSize]
  omega

/-- C48, exactly, for encoded bodies: the count is the number of bytes for all bodies but the miscounted ones. -/
theorem C48_right_iff (env : Env) (e : Entity) (h : InRange env e) :
    ∃ b e' d n, Entity.encode env e = .ok (b, e') ∧ Entity.decodeBody env e.msgID b = .ok (d, n) ∧ (n = b.length ↔ ¬ miscounted e) := by
  obtain ⟨b, e', h1, h2⟩ := Entity.round_trip env e h
  refine ⟨b, e', _, _, h1, h2, ?_⟩
  have report : ∀ {k : Nat} {l : T0200}, LocationOK env l → b.length = k + extrasSize l.extras → (k = b.length ↔ ¬ l.extras ≠ []) := by
    intro k l hl hb
    by_cases hx : l.extras = []
    · rw [hb, hx]; simp [extrasSize]
    · have := extrasSize_pos hl hx
      exact ⟨fun hk => by omega, fun hn => absurd hx hn⟩
  have short : 0 < b.length → (b.length - 1 = b.length ↔ ¬ True) := fun hb => ⟨fun hk => by omega, fun hn => absurd trivial hn⟩
  cases e
  case m0200 v =>
    obtain ⟨c, g1, g2, -⟩ := T0200.round_trip env v h
    have : Entity.wrapEnc Entity.m0200 (T0200.encode env v) = .ok (b, e') := h1
    rw [g1] at this
    cases this
    exact report (k := 28) h g2
  case m0201 v =>
    obtain ⟨c, g1, g2, -⟩ := T0201.round_trip env v h
    have : Entity.wrapEnc Entity.m0201 (T0201.encode env v) = .ok (b, e') := h1
    rw [g1] at this
    cases this
    exact report (k := 30) h g2
  case m0500 v =>
    obtain ⟨c, g1, g2, -⟩ := T0201.round_trip env v h
    have : Entity.wrapEnc Entity.m0500 (T0201.encode env v) = .ok (b, e') := h1
    rw [g1] at this
    cases this
    exact report (k := 30) h g2
  case m0303 v =>
    cases h1
    exact short (Nat.succ_pos _)
  case m8105 v =>
    obtain ⟨c, g1, g2, -⟩ := TByteText.round_trip env v h
    have : Entity.keep (TByteText.encode env v) _ = .ok (b, e') := h1
    rw [g1] at this
    cases this
    exact short g2
  case m8300 v =>
    obtain ⟨c, g1, g2, -⟩ := TByteText.round_trip env v h
    have : Entity.keep (TByteText.encode env v) _ = .ok (b, e') := h1
    rw [g1] at this
    cases this
    exact short g2
  case m8106 v =>
    cases h1
    exact short (Nat.succ_pos _)
  case m8601 v =>
    cases h1
    exact short (Nat.succ_pos _)
  case m8603 v =>
    cases h1
    exact short (Nat.succ_pos _)
  case m8605 v =>
    cases h1
    exact short (Nat.succ_pos _)
  all_goals exact ⟨fun _ hf => hf, fun _ => rfl⟩

/-- Non-trivial cases: a list of two ids with a byte left over is counted as eight bytes; the count of an answer is right. -/
example : ∃ e, Entity.decodeBody Sample.env 0x8601 [2, 0, 0, 0, 1, 0, 0, 0, 2, 9] = .ok (e, 8) :=
  (C48_exact _ _ _ _).2 ⟨[9], ⟨[2], [0, 0, 0, 1, 0, 0, 0, 2, 9], rfl, rfl, [0, 0, 0, 2, 9], ⟨[0, 0, 0, 1], rfl, rfl, trivial⟩, [9],
    ⟨[0, 0, 0, 2], rfl, rfl, trivial⟩, rfl⟩, rfl⟩

example : InRange Sample.env (.m0001 ⟨1, 2, 0⟩) ∧ ¬ miscounted (.m0001 ⟨1, 2, 0⟩) ∧ InRange Sample.env (.m8601 ⟨[1, 2]⟩) ∧ miscounted (.m8601 ⟨[1, 2]⟩) :=
  ⟨trivial, id, by simp [InRange], trivial⟩

end Verif
