import Verif.Lemmas.Requests
import Verif.Props.Connection
import Verif.Props.Session
/-! # Requests and their answers: from the wire to the callback, the number of pending requests, serial numbers used again (C58, C63, C67) -/

namespace Verif
open Handler Session Spec Codec

/-! ## C58 -/

/-- C58. In every history of a session a callback is called only with a message that answers its request: an answer message of the protocol that
carries the serial number of a request which is pending with this callback. -/
theorem C58_callbacks_match (auto : Bool) (is : List Input) (hin : ∀ i ∈ is, Arrived i) :
    ∃ s log t, ({} : Loop).run auto is = .ok (s, log) ∧ AnswerSteps (fun _ => none) log t := by
  obtain ⟨s, log, h1, h2, -⟩ := run_spec auto {} is rfl hin
  obtain ⟨t, h3, -⟩ := tr_agree h2 (fun _ => none) ⟨by simp, by simp⟩
  exact ⟨s, log, t, h1, h3⟩

/-- C58. If a request waits for its answer and the answer arrives, then its callback is called with the answer, before anything else happens. -/
theorem C58_answer_runs_callback (auto : Bool) (is : List Input) (hin : ∀ i ∈ is, Arrived i) (hend : ∀ e a, Input.receive (.err e) a ∉ is)
    (s : Loop) (log : List Act) (hrun : ({} : Loop).run auto is = .ok (s, log)) (r : Pending) (hw : AwaitsAnswer r log) (h0 : r.serial ≠ 0)
    (m : Message Entity) (e : Entity) (hm : Delivered m) (hb : m.body = .val e) (he : answered e = some r.serial) (a : Around) :
    ∃ s' rest, ({} : Loop).run auto (is ++ [.receive (.ok m) a]) = .ok (s', log ++ .callback r.callback m :: rest) := by
  obtain ⟨s1, log1, h1, h2, -, -, -, h3⟩ := run_spec auto {} is rfl hin
  rw [hrun] at h1
  cases h1
  obtain ⟨t, h4, h5⟩ := tr_agree h2 (fun _ => none) ⟨by simp, by simp⟩
  obtain ⟨w1, w2⟩ := waiting_table h4 hw
  obtain ⟨s', rest, h6⟩ := answer_runs auto s t h5 (h3 hend) r h0 w1 w2 m e hm hb he a
  refine ⟨s', rest, ?_⟩
  rw [Handler.run_append, hrun]
  simp only [Res.bind]
  rw [Handler.run_cons auto s s' _ _ [] h6]
  simp [Loop.run, Res.bind]

/-- Non-trivial case: in the sample history of `Props/Handler.lean` the request is made and a heartbeat arrives. -/
example : AwaitsAnswer ⟨0x8103, 5, 40⟩ [.registered 0x0801 1, .requested ⟨0x8103, 5, 40⟩, .unhandled Sample.heartbeat] ∧
    ((({} : Loop).run true (Sample.history.take 3)).bind fun r => .ok r.2) =
      .ok [.registered 0x0801 1, .requested ⟨0x8103, 5, 40⟩, .unhandled Sample.heartbeat] ∧ answered (.m0001 { replySerial := 5, replyID := 0x8103, result := 0 }) = some 5 :=
  ⟨⟨[.registered 0x0801 1], [.unhandled Sample.heartbeat], rfl, by simp, by simp, by simp⟩, by decide, rfl⟩

/-- The inputs of a connection on which one more message arrives. -/
theorem inputs_snoc (env : Env) (key : Option DecKey) (endErr : Err) (turns : List (List Outside × Around)) (o : List Outside) (a : Around)
    (s : RecvState) (ds : List (Message Entity)) (d : Message Entity) (hl : turns.length = ds.length)
    (h : (receiveMany (entityCodec env) key endErr (ds.length + 1) s).1 = (ds ++ [d]).map .ok) :
    inputs env key endErr (turns ++ [(o, a)]) s = (inputs env key endErr turns s ++ o.map .outside) ++ [.receive (.ok d) a] ∧
      ∀ e b, Input.receive (.err e) b ∉ inputs env key endErr turns s := by
  induction turns generalizing s ds with
  | nil =>
    obtain rfl : ds = [] := List.length_eq_zero_iff.1 (by simpa using hl.symm)
    simp only [List.length_nil, Nat.zero_add, receiveMany, List.nil_append, List.map_cons, List.map_nil, List.cons.injEq, and_true] at h
    simp [inputs, h]
  | cons t turns ih =>
    obtain ⟨o', a'⟩ := t
    cases ds with
    | nil => simp at hl
    | cons d' ds =>
      simp only [List.length_cons, receiveMany, List.cons_append, List.map_cons, List.cons.injEq] at h
      obtain ⟨i1, i2⟩ := ih (Codec.receive (entityCodec env) key endErr s).2 ds (by simpa using hl) h.2
      simp only [List.cons_append, inputs, h.1, i1]
      refine ⟨by simp, ?_⟩
      intro e b hb
      simp only [List.mem_append, List.mem_map, List.mem_cons] at hb
      rcases hb with ⟨x, -, hx⟩ | hb | hb
      · cases hx
      · cases hb
      · exact i2 e b hb

/-- C58 from end to end: a terminal sends messages, the last of them an answer; they arrive in arbitrary pieces. If, when the loop has handled the
messages before the answer, a request with the serial number in the answer waits, then its callback is called with a message that has the content of
the answer, before anything else happens. -/
theorem C58_end_to_end (env : Env) (key : Option DecKey) (endErr : Err) (auto : Bool) (ms : List (Message Entity × Entity)) (m : Message Entity)
    (e : Entity) (hms : ∀ x ∈ ms, Sendable env x.1 x.2) (hm : Sendable env m e) (serial : UInt16) (he : answered e = some serial) (h0 : serial ≠ 0) :
    ∃ sent : List Bytes, (ms ++ [(m, e)]).map (fun x => sendBytes (entityCodec env) none x.1) = sent.map .ok ∧
      ∀ (reads : List Bytes), (∀ c ∈ reads, c.length ≤ 128) → reads.flatten = sent.flatten →
        ∀ turns : List (List Outside × Around), turns.length = ms.length → ∀ (o : List Outside) (a : Around),
          ∃ s' before, ({} : Loop).run auto (inputs env key endErr turns ⟨[], reads⟩ ++ o.map .outside) = .ok (s', before) ∧
            ∀ r : Pending, r.serial = serial → AwaitsAnswer r before → ∃ s d rest, Carries m e d ∧
              serve env key endErr auto (turns ++ [(o, a)]) reads = .ok (s, before ++ .callback r.callback d :: rest) := by
  obtain ⟨sent, h1, h2⟩ := C12_end_to_end env key endErr (ms ++ [(m, e)]) (by
    intro x hx
    rcases List.mem_append.1 hx with hx | hx
    · exact hms x hx
    · obtain rfl : x = (m, e) := by simpa using hx
      exact hm)
  refine ⟨sent, h1, ?_⟩
  intro reads hr hs turns ht o a
  obtain ⟨ds', e1, e2, e3⟩ := h2 reads hr hs 0
  obtain ⟨ds, d, rfl⟩ : ∃ ds d, ds' = ds ++ [d] := by
    rcases List.eq_nil_or_concat ds' with h | ⟨ds, d, h⟩
    · subst h; simp at e1
    · exact ⟨ds, d, by simpa using h⟩
  have hlen : ds.length = ms.length := by simpa using e1
  have hc : Carries m e d := by
    refine e2 ((m, e), d) ?_
    rw [List.zip_append hlen.symm]
    simp
  have e4 : (receiveMany (entityCodec env) key endErr (ds.length + 1) ⟨[], reads⟩).1 = (ds ++ [d]).map .ok := by
    have : (ms ++ [(m, e)]).length + 0 = ds.length + 1 := by simp [hlen]
    rw [this] at e3
    simpa using e3
  obtain ⟨i1, i2⟩ := inputs_snoc env key endErr turns o a ⟨[], reads⟩ ds d (by omega) e4
  obtain ⟨j1, j2, -⟩ := inputs_received env key endErr (turns ++ [(o, a)]) ⟨[], reads⟩ (ds ++ [d]) 0 (by simp; omega) (by simpa using e4)
  rw [i1] at j1 j2
  have hin : ∀ i ∈ inputs env key endErr turns ⟨[], reads⟩ ++ o.map .outside, Arrived i := fun i hi => j2 i (List.mem_append_left _ hi)
  have hend : ∀ e a, Input.receive (.err e) a ∉ inputs env key endErr turns ⟨[], reads⟩ ++ o.map .outside := by
    intro e b hb
    rcases List.mem_append.1 hb with hb | hb
    · exact i2 e b hb
    · obtain ⟨x, -, hx⟩ := List.mem_map.1 hb
      cases hx
  obtain ⟨s1, before, k1, -⟩ := run_spec auto {} _ rfl hin
  refine ⟨s1, before, k1, ?_⟩
  intro r hrs hw
  have hd : Delivered d := j2 (.receive (.ok d) a) (by simp)
  subst hrs
  obtain ⟨s', rest, k2⟩ := C58_answer_runs_callback auto _ hin hend s1 before k1 r hw h0 d _ hd hc.1 (by rw [← he]; cases e <;> rfl) a
  refine ⟨s', d, rest, hc, ?_⟩
  unfold serve
  rw [i1, k2]

/-- Non-trivial case: a command of the server with serial number 5 waits when the answer to it arrives. -/
example : Sendable Sample.env Sample.answer (.m0001 { replySerial := 5, replyID := 0x8103, result := 0 }) ∧
    answered (.m0001 { replySerial := 5, replyID := 0x8103, result := 0 }) = some 5 := by
  refine ⟨⟨rfl, trivial, by decide, by decide, ?_, by decide, fun h => absurd h (by decide)⟩, rfl⟩
  intro b e' h
  have : (Entity.encode Sample.env (.m0001 { replySerial := 5, replyID := 0x8103, result := 0 })).bind (fun r => .ok r.1.length) = .ok 5 := by decide
  rw [h] at this
  simp only [Res.bind, Res.ok.injEq] at this
  omega

/-! ## C63 -/

variable {E : Type}

/-- The requests that can still run a callback. -/
theorem answers_le (C : BodyCodec E) (s : State E) (ss : List UInt16) :
    (s.run C (ss.map .answer)).2.countP (fun o => match o with | .ran _ _ => true | _ => false) ≤ s.requests.length := by
  induction ss generalizing s with
  | nil => simp [State.run]
  | cons x ss ih =>
    simp only [List.map_cons, State.run, List.countP_append, State.step]
    split
    · have := ih s
      simpa using this
    · split
      · have := ih s
        simpa using this
      · rename_i r rest h
        have h1 := ih { s with requests := rest }
        have h2 := (takeRequest_some _ _ _ _ h).2.length_eq
        simp only [List.length_cons] at h2
        simp only [List.countP_cons, List.countP_nil, if_true]
        simp only at h1
        omega

/-- C63. However many requests were made and never answered, there is at most one pending request for each message id used by the requests with
callback. -/
theorem C63_pending_bounded (C : BodyCodec E) (evs : List (Event E)) (ids : List UInt16)
    (hids : ∀ i c s id, .returned i c (some s) ∈ (({} : State E).run C evs).2 → c.callback.isSome → idOf C.msgID c.body = some id → id ∈ ids) :
    (({} : State E).run C evs).1.requests.length ≤ ids.length := by
  obtain ⟨t, -, h2⟩ := run_agree C evs
  have ht := traced_run C evs
  rw [← List.length_map (f := Pending.msgID)]
  apply List.Nodup.length_le_of_subset h2.nodup
  intro id hid
  obtain ⟨r, hr, rfl⟩ := List.mem_map.1 hid
  obtain ⟨i, c, h3, h4, h5⟩ := ht.requests r hr
  exact hids i c r.serial r.msgID h3 (by rw [h4]; rfl) h5

/-- C63, as seen from outside: answers that arrive after any history run at most one callback for each message id used by the requests. -/
theorem C63_callbacks_bounded (C : BodyCodec E) (evs : List (Event E)) (ids ss : List UInt16)
    (hids : ∀ i c s id, .returned i c (some s) ∈ (({} : State E).run C evs).2 → c.callback.isSome → idOf C.msgID c.body = some id → id ∈ ids) :
    ((({} : State E).run C evs).1.run C (ss.map .answer)).2.countP (fun o => match o with | .ran _ _ => true | _ => false) ≤ ids.length :=
  Nat.le_trans (answers_le C _ ss) (C63_pending_bounded C evs ids hids)

namespace Sample

/-- A goroutine sends or requests something, and the message is accepted. -/
def send (c : Call Entity) : List (Session.Event Entity) := [.start 1 c, .loadIcc 1, .loadNext 1, .cas 1, .push 1 true, .add 1]

end Sample

/-- Non-trivial case: of five unanswered requests with two different message ids two are pending, and each of them can be answered. -/
example :
    let evs := Sample.send Sample.setParams ++ Sample.send Sample.queryParams ++ Sample.send Sample.setParams ++ Sample.send Sample.setParams ++
      Sample.send Sample.queryParams
    ((({} : State Entity).run Sample.codec evs).2.filterMap fun
      | .returned _ c (some _) => idOf Sample.codec.msgID c.body
      | _ => none) = [0x8103, 0x8104, 0x8103, 0x8103, 0x8104] ∧
    (({} : State Entity).run Sample.codec evs).1.requests = [⟨0x8103, 4, 10⟩, ⟨0x8104, 5, 11⟩] ∧
    ((({} : State Entity).run Sample.codec evs).1.run Sample.codec ([1, 2, 3, 4, 5, 4].map .answer)).2 =
      [.ignored 1, .ignored 2, .ignored 3, .ran 10 4, .ran 11 5, .ignored 4] := by decide

/-! ## C67 -/

/-- C67 is false: a request is not answered, 254 further messages are sent, and the next message, sent without callback, has the serial number of the
request. The answer to it runs the callback of the request. -/
theorem C67_refuted : ¬ ∀ (evs : List (Event Entity)) (cb : Nat) (s : UInt16) (l1 l2 : List (Obs Entity)),
    (({} : State Entity).run Sample.codec evs).2 = l1 ++ .ran cb s :: l2 → ∃ c, lastWith s l1 = some c ∧ c.callback = some cb := by
  intro h
  let evs := Sample.send Sample.setParams ++ (List.replicate 255 (Sample.send { Sample.queryParams with callback := none })).flatten ++ [.answer 1]
  have hd : (({} : State Entity).run Sample.codec evs).2 =
      (({} : State Entity).run Sample.codec evs).2.take 768 ++ .ran 10 1 :: [] := by decide +kernel
  obtain ⟨c, h1, h2⟩ := h evs 10 1 _ _ hd
  have : (lastWith 1 ((({} : State Entity).run Sample.codec evs).2.take 768)).bind Call.callback = none := by decide +kernel
  rw [h1] at this
  simp only [Option.bind_some] at this
  rw [h2] at this
  cases this

/-- C67 for the first 255 messages of a session: whenever a callback runs for an answer with some serial number, every message ever sent with this
number was sent by a request with this callback. Missing for the full property: what happens from the 256th message on, see `C67_refuted`. -/
theorem C67_first_255_partial (C : BodyCodec E) (evs : List (Event E)) (h : (allocations (({} : State E).run C evs).2).length ≤ 255)
    (cb : Nat) (s : UInt16) (hran : .ran cb s ∈ (({} : State E).run C evs).2) :
    (∃ i c m, .pushed i c m ∈ (({} : State E).run C evs).2 ∧ m.header.serial = s) ∧
      ∀ i c m, .pushed i c m ∈ (({} : State E).run C evs).2 → m.header.serial = s → c.callback = some cb := by
  have ht := traced_run C evs
  obtain ⟨j, c', h1, h2⟩ := ht.ran cb s hran
  obtain ⟨m', h3, h4⟩ := ht.returned j c' s h1
  refine ⟨⟨j, c', m', h3, h4⟩, ?_⟩
  intro i c m hp hs
  obtain ⟨-, rfl, -⟩ := pushed_once C evs h i j c c' m m' hp h3 (by rw [hs, h4])
  exact h2

/-- C67 for a session that comes to rest from time to time: from any point at which no call is under way and no request is pending, and as long as it
then sends at most 255 messages, whenever a callback runs for an answer with some serial number, every message sent since with this number was sent by
a request with this callback. Missing for the full property: sessions that do not come to rest, see `C67_refuted`. -/
theorem C67_since_rest_partial (C : BodyCodec E) (before evs : List (Event E)) (hrest : SessionAtRest (({} : State E).run C before).1)
    (h : (allocations ((({} : State E).run C before).1.run C evs).2).length ≤ 255)
    (cb : Nat) (s : UInt16) (hran : .ran cb s ∈ ((({} : State E).run C before).1.run C evs).2) :
    (∃ i c m, .pushed i c m ∈ ((({} : State E).run C before).1.run C evs).2 ∧ m.header.serial = s) ∧
      ∀ i c m, .pushed i c m ∈ ((({} : State E).run C before).1.run C evs).2 → m.header.serial = s → c.callback = some cb := by
  have ht := traced_run_from C _ hrest evs
  obtain ⟨j, c', h1, h2⟩ := ht.ran cb s hran
  obtain ⟨m', h3, h4⟩ := ht.returned j c' s h1
  refine ⟨⟨j, c', m', h3, h4⟩, ?_⟩
  intro i c m hp hs
  obtain ⟨-, rfl, -⟩ := pushed_once_from C _ hrest evs (nodup_since C before evs h) i j c c' m m' hp h3 (by rw [hs, h4])
  exact h2

/-- Non-trivial case: both requests of the sample race are answered. -/
example : (allocations (({} : State Entity).run Sample.codec (Sample.race ++ [.answer 2, .answer 1])).2).length ≤ 255 ∧
    .ran 11 2 ∈ (({} : State Entity).run Sample.codec (Sample.race ++ [.answer 2, .answer 1])).2 := by decide

end Verif
