import Verif.Lemmas.CrowdNumbers
import Verif.Props.Crowd
/-! # C98: sessions that handlers of other sessions use

`C98_conversations` is about sessions that only their own handlers and callbacks use. Here any goroutine calls `Send` and `Request` at any time. -/

namespace Verif
open Spec Crowd Converse Codec Programs

section
variable {σ : Type}

/-- C98: the messages of a session, those of its loop, of its handlers and callbacks and of all other goroutines, have consecutive numbers. -/
theorem C98_numbers (env : Env) (key : Option DecKey) (endErr : Err) (auto : Bool) (P : Program σ) (user : Nat → σ) (accepts : Nat → List Bool)
    (es : List Crowd.Event) (s : Crowd.State σ) (log : List (Nat × Ev)) (hr : (State.start user accepts).run env key endErr auto P es = .ok (s, log)) (k : Nat) :
    (attempted (logOf k log)).map (fun m => m.header.serial) = (List.range (attempted (logOf k log)).length).map serialOf := by
  obtain ⟨n, t, h⟩ := run_counted k es (counted_start user accepts k) hr
  have h1 := h.count
  have h2 := h.within.serials
  rw [List.nil_append] at h1 h2
  rw [h2, ← h1, List.range_eq_range', Nat.sub_zero]

/-- C98: a call of `Send` by another goroutine, at any time, hands one message to the connection of that session and does nothing else: the message has the body given, the
next number of the session, and goes to the terminal whose message was received there, or to number 0 before that. It is sent if the connection accepts it. -/
theorem C98_send_from_elsewhere (env : Env) (key : Option DecKey) (endErr : Err) (auto : Bool) (P : Program σ) (user : Nat → σ) (accepts : Nat → List Bool)
    (es : List Crowd.Event) (s : Crowd.State σ) (log : List (Nat × Ev)) (hr : (State.start user accepts).run env key endErr auto P es = .ok (s, log)) (k : Nat)
    (e : Entity) :
    ∃ s' icc m, m = outgoing icc (attempted (logOf k log)).length e ∧ (icc = 0 ∨ ∃ d, .received d ∈ logOf k log ∧ d.header.iccID = icc) ∧
      (State.start user accepts).run env key endErr auto P (es ++ [.send k e]) =
        .ok (s', log ++ [(k, if (accepts k)[(attempted (logOf k log)).length]?.getD true then .sent m else .refused m)]) ∧
      s'.fs = s.fs ∧ (∀ j, j ≠ k → s'.conns j = s.conns j) ∧ (s'.conns k).place = (s.conns k).place ∧ (s'.conns k).recv = (s.conns k).recv ∧
      (s'.conns k).sess.user = (s.conns k).sess.user := by
  obtain ⟨n, t, h⟩ := run_counted k es (counted_start user accepts k) hr
  have h1 := h.count
  have h2 := h.origin.icc
  rw [List.nil_append] at h1 h2
  rw [← h1]
  have hacc : (s.conns k).sess.accepts.headD true = (accepts k)[n]?.getD true := by
    rw [h.accepts, List.headD_eq_head?_getD, List.head?_drop]
  have hs := send_eq (s.conns k).sess n h.next e
  rw [hacc] at hs
  refine ⟨⟨s.fs, fun j => if j = k then { s.conns k with sess := ((s.conns k).sess.send e).1 } else s.conns j⟩, (s.conns k).sess.icc, _, rfl, h2, ?_, rfl,
    fun j hj => if_neg hj, ?_⟩
  · rw [run_append', hr]
    simp only [Res.bind, Crowd.State.run, Event.conn, Conn.step, Res.ok_bind, List.append_nil, Res.ok.injEq, Prod.mk.injEq, true_and, List.append_cancel_left_eq]
    refine ⟨rfl, ?_⟩
    rw [hs]
    split <;> rfl
  · simp only [if_true, true_and]
    rw [hs]
    split <;> rfl

/-- C98: the same for `Request`. If the message is accepted, the request waits for its answer. -/
theorem C98_request_from_elsewhere (env : Env) (key : Option DecKey) (endErr : Err) (auto : Bool) (P : Program σ) (user : Nat → σ) (accepts : Nat → List Bool)
    (es : List Crowd.Event) (s : Crowd.State σ) (log : List (Nat × Ev)) (hr : (State.start user accepts).run env key endErr auto P es = .ok (s, log)) (k : Nat)
    (e : Entity) (cb : Nat) :
    ∃ s' icc m, m = outgoing icc (attempted (logOf k log)).length e ∧ (icc = 0 ∨ ∃ d, .received d ∈ logOf k log ∧ d.header.iccID = icc) ∧
      (State.start user accepts).run env key endErr auto P (es ++ [.request k e cb]) =
        .ok (s', log ++ if (accepts k)[(attempted (logOf k log)).length]?.getD true then [(k, .sent m), (k, .requested ⟨e.msgID, m.header.serial, cb⟩)]
          else [(k, .refused m)]) ∧
      s'.fs = s.fs ∧ (∀ j, j ≠ k → s'.conns j = s.conns j) ∧ (s'.conns k).place = (s.conns k).place ∧ (s'.conns k).recv = (s.conns k).recv ∧
      (s'.conns k).sess.user = (s.conns k).sess.user := by
  obtain ⟨n, t, h⟩ := run_counted k es (counted_start user accepts k) hr
  have h1 := h.count
  have h2 := h.origin.icc
  rw [List.nil_append] at h1 h2
  rw [← h1]
  have hacc : (s.conns k).sess.accepts.headD true = (accepts k)[n]?.getD true := by
    rw [h.accepts, List.headD_eq_head?_getD, List.head?_drop]
  have hs := request_eq (s.conns k).sess n h.next e cb
  rw [hacc] at hs
  refine ⟨⟨s.fs, fun j => if j = k then { s.conns k with sess := ((s.conns k).sess.request e cb).1 } else s.conns j⟩, (s.conns k).sess.icc, _, rfl, h2, ?_, rfl,
    fun j hj => if_neg hj, ?_⟩
  · rw [run_append', hr]
    simp only [Res.bind, Crowd.State.run, Event.conn, Conn.step, Res.ok_bind, List.append_nil, Res.ok.injEq, Prod.mk.injEq, true_and, List.append_cancel_left_eq]
    refine ⟨rfl, ?_⟩
    rw [hs]
    split <;> rfl
  · simp only [if_true, true_and]
    rw [hs]
    split <;> rfl

/-- C98: whoever made a request: as long as the session has at most 255 messages, its answer runs its callback when the loop comes to it, and nothing comes before that.
(`Request` is one step here. C31 has what happens if the answer comes before the request is entered.) -/
theorem C98_answers (env : Env) (key : Option DecKey) (endErr : Err) (auto : Bool) (P : Program σ) (user : Nat → σ) (accepts : Nat → List Bool)
    (es : List Crowd.Event) (s : Crowd.State σ) (log : List (Nat × Ev)) (hr : (State.start user accepts).run env key endErr auto P es = .ok (s, log)) (k : Nat)
    (hfew : (attempted (logOf k log)).length ≤ 255) (r : Session.Pending) (hw : Awaits r (logOf k log)) (hp : (s.conns k).place = .waiting)
    (m : Message Entity) (hm : (receive (entityCodec env) key endErr (s.conns k).recv).1 = .ok m) (ha : Answers m r.serial) (o1 o2 o3 : Outcome) :
    ∃ s', (State.start user accepts).run env key endErr auto P (es ++ [.turn k o1, .turn k o2, .turn k o3]) =
      .ok (s', log ++ [(k, .received m), (k, .ran r.callback m)]) := by
  obtain ⟨n, t, h⟩ := run_counted k es (counted_start user accepts k) hr
  have h1 := h.count
  have h3 := h.within
  have h4 := h.steps
  rw [List.nil_append] at h1 h3 h4
  obtain ⟨e, e1, e2, e3⟩ := ha
  obtain ⟨t1, t2⟩ := awaits_table h3 h4 (by omega) e3 hw
  obtain ⟨-, f2, -⟩ := receive_facts (C := entityCodec env) (key := key) (endErr := endErr) (s.conns k).recv
  obtain ⟨f, hf⟩ := f2 m hm
  have hd := C49_decoded_messages_are_delivered env key f m hf
  have hst : starved env key (s.conns k).recv = false := by
    cases hs : starved env key (s.conns k).recv with
    | false => rfl
    | true => rw [receive_starved endErr hs] at hm; cases hm
  have hrs := Handler.replySerial_val e1 (hd.type e e1)
  rw [e2, Option.getD_some] at hrs
  rw [run_append', hr]
  have hag := h.agree
  generalize hc : s.conns k = c at *
  obtain ⟨place, recv, gone, sess⟩ := c
  simp only at hp hag hm hst
  subst hp
  cases hrecv : receive (entityCodec env) key endErr recv with
  | mk a rc =>
    rw [hrecv] at hm
    simp only at hm
    subst hm
    have hturn : ∀ o fs, Conn.turn env key endErr auto P o fs (⟨.received m, rc, gone, sess⟩ : Conn σ) = .ok (fs, ⟨.passing m, rc, gone, sess⟩, []) := by
      intro o fs
      unfold Conn.turn
      simp only [e1]
      split
      · rfl
      · cases e <;> first | rfl | (simp [answered] at e2)
    have hlast : ∀ o fs, ∃ c', Conn.turn env key endErr auto P o fs (⟨.passing m, rc, gone, sess⟩ : Conn σ) = .ok (fs, c', [.ran r.callback m]) := by
      intro o fs
      unfold Conn.turn
      simp only [hrs, Res.ok_bind]
      rw [if_neg e3]
      have hreq : (if m.header.iccID > 0 then { sess with icc := m.header.iccID } else sess).requests = sess.requests := by split <;> rfl
      rw [hreq]
      cases htk : Session.takeRequest r.serial sess.requests with
      | none => exact absurd rfl (Session.takeRequest_none _ _ htk _ ((hag.mem _ _ _).1 t1))
      | some q =>
        obtain ⟨q, rs⟩ := q
        obtain ⟨q1, q2⟩ := Session.takeRequest_some _ _ _ _ htk
        have hq : t q.msgID = some (q.serial, q.callback) := (hag.take q2).1
        rw [q1] at hq
        obtain ⟨-, hcb⟩ := t2 _ _ hq
        rw [← hcb]
        exact ⟨_, rfl⟩
    obtain ⟨c', hc'⟩ := hlast o3 s.fs
    have hfirst : Conn.turn env key endErr auto P o1 s.fs (⟨.waiting, recv, gone, sess⟩ : Conn σ) = .ok (s.fs, ⟨.received m, rc, gone, sess⟩, [.received m]) := by
      unfold Conn.turn
      simp only [hst, Bool.and_false, Bool.false_eq_true, if_false, hrecv]
    simp only [Res.bind, Crowd.State.run, Event.conn, Conn.step, hc, hfirst, Res.ok_bind, if_true, hturn, hc', List.map_cons, List.map_nil, List.append_nil,
      List.nil_append, List.cons_append]
    exact ⟨_, rfl⟩

/-! ## A concrete case

A handler of another session asks the terminal on connection 1 for its parameters, and sends it a text; the terminal answers. -/

/-- The answer. -/
def Sample.answer8104 : Message Entity :=
  { header := { msgID := 0x0104, iccID := 7, serial := 9 }, body := .val (.m0104 { replySerial := 1, params := [{ id := 1, serialized := [1] }] }) }

/-- What happens before the loop comes to it. -/
def Sample.fromElsewhere : List Crowd.Event :=
  [.request 1 (.m8104 {}) 0, .send 1 (.m8801 {}), .arrive 1 (match sendBytes (entityCodec Sample.env) none Sample.answer8104 with | .ok b => b | _ => [])]

/-- The hypotheses of `C98_answers` hold: the request waits, and the answer comes next. -/
example : ∃ s log m, (Crowd.State.start (σ := Data) (fun _ => none) fun _ => []).run Sample.env none .eof true (server none) Sample.fromElsewhere = .ok (s, log) ∧
    (attempted (logOf 1 log)).map (fun m => m.header.serial) = [1, 2] ∧ Awaits ⟨0x8104, 1, 0⟩ (logOf 1 log) ∧ (s.conns 1).place = .waiting ∧
    (receive (entityCodec Sample.env) none .eof (s.conns 1).recv).1 = .ok m ∧ Answers m 1 := by
  refine ⟨_, _, _, rfl, by decide, ⟨[_], [_], rfl, ?_, ?_⟩, rfl, rfl, ⟨_, rfl, rfl, by decide⟩⟩
  · intro r hr
    simp at hr
  · intro cb m hm
    simp at hm

/-- The callback runs, and a message that is sent then has the next number. -/
example : (match (Crowd.State.start (σ := Data) (fun _ => none) fun _ => []).run Sample.env none .eof true (server none)
      (Sample.fromElsewhere ++ [.turn 1 .ok, .turn 1 .ok, .turn 1 .ok, .send 1 (.m8801 {})]) with
    | .ok (_, log) => log.filterMap (fun
        | (k, .sent m) => some (k, m.header.msgID, m.header.serial.toNat, m.header.iccID)
        | (k, .ran cb m) => some (k, m.header.msgID, cb, 0)
        | _ => none)
    | _ => []) = [(1, 0x8104, 1, 0), (1, 0x8801, 2, 0), (1, 0x0104, 0, 0), (1, 0x8801, 3, 7)] := by
  decide +kernel

end
end Verif
