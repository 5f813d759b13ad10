import Verif.Lemmas.HangUpSim
import Verif.Props.Delivery
/-! # C95: a handler can end its session -/

namespace Verif
open Spec Codec Session Handler HangUp

variable {σ : Type}

/-- C95, the first half: after a session was closed, by a handler, a callback or the connection, nothing is sent on it, and no later call of `Close` says that it
was the one that closed it. -/
theorem C95_nothing_sent (env : Env) (key : Option DecKey) (endErr : Err) (auto : Bool) (P : HangUp.Program σ) (u : σ) (accepts : List Bool)
    (os : List (Outcome × Outcome)) (reads : List Bytes) {s : HangUp.State σ} {log l1 l2 : List HangUp.Ev} {e : HangUp.Ev}
    (h : ({ session := { user := u, accepts := accepts } } : HangUp.State σ).serve env key endErr auto P os ⟨[], reads⟩ = .ok (s, log))
    (hl : log = l1 ++ e :: l2) (he : ends e = true) : (∀ m, .does (.sent m) ∉ l2) ∧ .closes true ∉ l2 := by
  obtain ⟨st, -, hc⟩ := course_split (hl ▸ serve_course h)
  obtain ⟨acc, hc⟩ := course_ends hc he
  exact (course_false hc).2

/-- C95, conversely: on a connection that accepts everything, a message is refused and a call of `Close` fails only if a handler or
callback has closed the session before. -/
theorem C95_refused_after (env : Env) (key : Option DecKey) (endErr : Err) (auto : Bool) (P : HangUp.Program σ) (u : σ)
    (os : List (Outcome × Outcome)) (reads : List Bytes) {s : HangUp.State σ} {log l1 l2 : List HangUp.Ev} {e : HangUp.Ev}
    (h : ({ session := { user := u } } : HangUp.State σ).serve env key endErr auto P os ⟨[], reads⟩ = .ok (s, log))
    (hl : log = l1 ++ e :: l2) (he : (∃ m, e = .does (.refused m)) ∨ e = .closes false) : .closes true ∈ l1 := by
  obtain ⟨st, h1, hc⟩ := course_split (hl ▸ serve_course h)
  have hacc := course_accepting h1
  have hst : st.1 = false := by
    obtain ⟨b, acc⟩ := st
    cases hacc
    cases b
    · rfl
    · rcases he with ⟨m, rfl⟩ | rfl <;> cases hc
  rcases course_closes h1 hst with h1 | h1
  · exact h1
  · refine absurd ?_ (serve_closed_last h)
    rw [hl, List.dropLast_append_of_ne_nil (by simp)]
    exact List.mem_append_left _ h1

/-! ## The second half is false -/

namespace Sample

/-- A server that lets nobody in: the handler of authentications refuses and closes the session. Heartbeats have a handler, too. -/
def bouncer : HangUp.Program Unit where
  handlers id := if id = 0x0102 then some 0 else if id = 0x0002 then some 1 else none
  handler h u m :=
    if h = 0 then .send (.m8001 { replySerial := m.header.serial, replyID := m.header.msgID, result := 1 }) fun _ => .close fun _ => .returns u
    else .returns u
  callback _ u _ := .returns u

/-- An authentication with the code "1". -/
def knock : Bytes := [126, 1, 2, 0, 1, 1, 153, 1, 35, 69, 103, 0, 1, 49, 170, 126]

/-- A heartbeat. -/
def pulse : Bytes := [126, 0, 2, 0, 0, 1, 153, 1, 35, 69, 103, 0, 2, 152, 126]

/-- A server that asks for the location when it hears from a terminal, and closes the session when it gets an answer to that. -/
def asking : HangUp.Program Unit where
  handlers id := if id = 0x0001 then some 0 else if id = 0x0002 then some 1 else none
  handler h u _ := if h = 0 then .returns u else .request (.m8201 {}) 7 fun _ => .returns u
  callback _ u _ := .close fun _ => .returns u

/-- The general answer of the terminal to that message. -/
def answered : Bytes := [126, 0, 1, 0, 5, 1, 153, 1, 35, 69, 103, 0, 3, 0, 1, 130, 1, 0, 29, 126]

/-- The bouncer on a connection, for `n` turns. -/
def bounced (n : Nat) (reads : List Bytes) : Res (HangUp.State Unit × List HangUp.Ev) :=
  ({ session := { user := () } } : HangUp.State Unit).serve Sample.env none .eof true bouncer (List.replicate n (.ok, .ok)) ⟨[], reads⟩

end Sample

/-- C95, the second half, is false: if the terminal does not wait for the answer, then what it sent together with the message for which the handler closed the
session is still given to handlers. Here that is a heartbeat of a terminal whose authentication was refused. -/
theorem C95_refuted : ∃ (reads : List Bytes) (s : HangUp.State Unit) (log l1 l2 : List HangUp.Ev), (∀ p ∈ reads, p.length ≤ 128) ∧
    Sample.bounced 3 reads = .ok (s, log) ∧ log = l1 ++ .closes true :: l2 ∧ (workedOn l2).map (·.header.msgID) = [0x0002] := by
  refine ⟨[Sample.knock ++ Sample.pulse], _, _, [.does (.received _), .does (.handled 0 _), .does (.sent _)],
    [.does (.received _), .does (.handled 1 _), .does .closed], by decide, rfl, rfl, rfl⟩

/-! ## What still happens after a session was closed -/

/-- C95, what is true of the second half: after a session was closed, by a handler, a callback or the connection, no bytes of the terminal are used except those
that had been read already, together with bytes before them. The messages that are still received are those of the frames that begin what is left of that piece,
in order. -/
theorem C95_left_over_partial (env : Env) (key : Option DecKey) (endErr : Err) (auto : Bool) (P : HangUp.Program σ) (u : σ) (accepts : List Bool)
    (os : List (Outcome × Outcome)) (reads : List Bytes) {s : HangUp.State σ} {log l1 l2 : List HangUp.Ev} {e : HangUp.Ev}
    (h : ({ session := { user := u, accepts := accepts } } : HangUp.State σ).serve env key endErr auto P os ⟨[], reads⟩ = .ok (s, log))
    (hl : log = l1 ++ e :: l2) (he : ends e = true) : ∃ rest, LeftOf reads rest ∧ FramesOf (entityCodec env) key rest (takenIn l2) :=
  serve_left reads (.inl rfl) (fun _ hp => hp) h hl he

/-- C95: after a session was closed at most eight further messages are received, since at most 128 bytes are read at a time. Handlers are called at most once for
each of them, and once for the message that was being worked on. -/
theorem C95_at_most_eight_partial (env : Env) (key : Option DecKey) (endErr : Err) (auto : Bool) (P : HangUp.Program σ) (u : σ) (accepts : List Bool)
    (os : List (Outcome × Outcome)) (reads : List Bytes) (hr : ∀ p ∈ reads, p.length ≤ 128) {s : HangUp.State σ} {log l1 l2 : List HangUp.Ev} {e : HangUp.Ev}
    (h : ({ session := { user := u, accepts := accepts } } : HangUp.State σ).serve env key endErr auto P os ⟨[], reads⟩ = .ok (s, log))
    (hl : log = l1 ++ e :: l2) (he : ends e = true) : (takenIn l2).length ≤ 8 ∧ (workedOn l2).length ≤ (takenIn l2).length + 1 := by
  constructor
  · obtain ⟨rest, hleft, hf⟩ := serve_left reads (.inl rfl) (fun _ hp => hp) h hl he
    have := framesOf_length hf
    rcases hleft with rfl | ⟨p, hp, -, hlt⟩
    · rw [List.length_nil] at this; omega
    · have := hr p hp; omega
  · exact (serve_handled h).2 (l1 := l1 ++ [e]) (by rw [hl, List.append_assoc]; rfl)

set_option maxRecDepth 20000 in
/-- Eight are possible. Here all of them are given to a handler. -/
theorem C95_eight_reached : ∃ (reads : List Bytes) (s : HangUp.State Unit) (log l1 l2 : List HangUp.Ev), (∀ p ∈ reads, p.length ≤ 128) ∧
    Sample.bounced 13 reads = .ok (s, log) ∧ log = l1 ++ .closes true :: l2 ∧ (takenIn l2).length = 8 ∧ (workedOn l2).length = 8 := by
  refine ⟨[Sample.knock.take 8, Sample.knock.drop 8 ++ (List.replicate 8 Sample.pulse).flatten, Sample.pulse], _, _,
    [.does (.received _), .does (.handled 0 _), .does (.sent _)], _, by decide, rfl, rfl, ?_, ?_⟩ <;> decide

/-- C95: a session that was closed ends, also if the terminal goes on sending: nine turns later at the latest the receive loop is over. -/
theorem C95_loop_ends (env : Env) (key : Option DecKey) (endErr : Err) (auto : Bool) (P : HangUp.Program σ) (u : σ) (accepts : List Bool)
    (os : List (Outcome × Outcome)) (reads : List Bytes) (hr : ∀ p ∈ reads, p.length ≤ 128) {s : HangUp.State σ} {log l1 l2 : List HangUp.Ev} {e : HangUp.Ev}
    (h : ({ session := { user := u, accepts := accepts } } : HangUp.State σ).serve env key endErr auto P os ⟨[], reads⟩ = .ok (s, log))
    (hl : log = l1 ++ e :: l2) (he : ends e = true) (hn : (takenIn l1).length + 9 ≤ os.length) : ∃ l, log = l ++ [.does .closed] := by
  rcases serve_turns h with h' | h'
  · have h8 := (C95_at_most_eight_partial env key endErr auto P u accepts os reads hr h hl he).1
    have : takenIn [e] = [] := by
      unfold ends at he
      split at he
      · rfl
      · rfl
      · rfl
      · cases he
    have : takenIn log = takenIn l1 ++ takenIn l2 := by
      rw [hl, taken_append, show e :: l2 = [e] ++ l2 from rfl, taken_append, this, List.nil_append]
    rw [this, List.length_append] at h'
    omega
  · exact h'

/-- C95, the second half holds if the terminal sends one message at a time, so that no piece that is read has a whole frame behind other bytes: then no message
is received after the session was closed, and no handler is called except for the message that was being worked on. -/
theorem C95_separate_partial (env : Env) (key : Option DecKey) (endErr : Err) (auto : Bool) (P : HangUp.Program σ) (u : σ) (accepts : List Bool)
    (os : List (Outcome × Outcome)) (reads : List Bytes) (hr : ∀ p ∈ reads, ∀ a f b, p = a ++ f ++ b → Delimited f → 15 ≤ f.length → a = [])
    {s : HangUp.State σ} {log l1 l2 : List HangUp.Ev} {e : HangUp.Ev}
    (h : ({ session := { user := u, accepts := accepts } } : HangUp.State σ).serve env key endErr auto P os ⟨[], reads⟩ = .ok (s, log))
    (hl : log = l1 ++ e :: l2) (he : ends e = true) : takenIn l2 = [] ∧ (workedOn l2).length ≤ 1 := by
  have ht : takenIn l2 = [] := by
    obtain ⟨rest, hleft, hf⟩ := serve_left reads (.inl rfl) (fun _ hp => hp) h hl he
    generalize takenIn l2 = ms at hf
    cases hf with
    | nil => rfl
    | @cons f bytes m ms hd hm _ =>
      exfalso
      have h15 := decode_length hm
      rcases hleft with h0 | ⟨p, hp, ⟨a, ha⟩, hlt⟩
      · have := congrArg List.length h0
        rw [List.length_append, List.length_nil] at this
        omega
      · have := hr p hp a f bytes (by rw [List.append_assoc, ha]) hd h15
        rw [this, List.nil_append] at ha
        rw [ha] at hlt
        omega
  have := (serve_handled h).2 (l1 := l1 ++ [e]) (by rw [hl, List.append_assoc]; rfl : log = (l1 ++ [e]) ++ l2)
  rw [ht] at this
  exact ⟨ht, this⟩

/-- The message that was being worked on: a callback may close the session, and the handler is called for the same message nevertheless. -/
theorem C95_same_message : ∃ (P : HangUp.Program Unit) (reads : List Bytes) (s : HangUp.State Unit) (log l1 l2 : List HangUp.Ev),
    ({ session := { user := () } } : HangUp.State Unit).serve Sample.env none .eof true P [(.ok, .ok), (.ok, .ok), (.ok, .ok)] ⟨[], reads⟩ = .ok (s, log) ∧
      log = l1 ++ .closes true :: l2 ∧ takenIn l2 = [] ∧ (workedOn l2).length = 1 :=
  ⟨Sample.asking, [Sample.pulse, Sample.answered], _, _,
    [.does (.received _), .does (.handled 1 _), .does (.sent _), .does (.requested _), .does (.received _), .does (.ran 7 _)],
    _, rfl, rfl, rfl, rfl⟩

/-! ## Closing as the end of the connection -/

/-- C95: a session whose handlers and callbacks may close it does what a session does whose handlers and callbacks cannot (C76), on a connection that ends earlier:
there are pieces with which the pieces that are read begin, and with these the same happens, if the connection accepts the same messages and the calls of `Close`
are left out. So closing a session is, for everything else, the same as the end of the connection, and it leads to no crash that could not happen before. If the
session is not closed, these are all the pieces. -/
theorem C95_as_if_ended (env : Env) (key : Option DecKey) (endErr : Err) (auto : Bool) (P : HangUp.Program σ) (u : σ) (accepts : List Bool)
    (os : List (Outcome × Outcome)) (reads : List Bytes) : ∃ rs, rs <+: reads ∧
    match ({ session := { user := u, accepts := accepts } } : HangUp.State σ).serve env key endErr auto P os ⟨[], reads⟩ with
    | .ok (s, log) => ((∀ e ∈ log, ends e = true → e = .does .closed) → rs = reads) ∧
        ({ user := (u, closings log), accepts := answers log } : Converse.State (σ × List Bool)).serve env key endErr auto (staying P) os ⟨[], rs⟩ =
          .ok (stays s [] [], plain log)
    | .err e => ∃ bs acc, ({ user := (u, bs), accepts := acc } : Converse.State (σ × List Bool)).serve env key endErr auto (staying P) os ⟨[], rs⟩ = .err e
    | .panic => ∃ bs acc, ({ user := (u, bs), accepts := acc } : Converse.State (σ × List Bool)).serve env key endErr auto (staying P) os ⟨[], rs⟩ = .panic := by
  obtain ⟨rs, h1, h2, h3⟩ := serve_sim (P := P) env key endErr auto (os := os) { session := { user := u, accepts := accepts } } ⟨[], reads⟩
  refine ⟨rs, h1, ?_⟩
  generalize State.serve _ _ _ _ _ _ _ _ = r at h2 h3
  cases r with
  | ok a =>
    obtain ⟨s, log⟩ := a
    refine ⟨fun he => h3 s log rfl (fun b hb => by simpa using he _ hb rfl) (fun m hm => by simpa using he _ hm rfl) rfl, ?_⟩
    have := h2 [] []
    rw [List.append_nil, List.append_nil] at this
    exact this
  | err e => obtain ⟨acc, bs, h⟩ := h2; exact ⟨bs, acc, h⟩
  | panic => obtain ⟨acc, bs, h⟩ := h2; exact ⟨bs, acc, h⟩

/-! ## Examples -/

/-- The hypotheses of `C95_nothing_sent`, `C95_left_over_partial`, `C95_at_most_eight_partial` and `C95_loop_ends`. -/
example : ∃ s log l1 l2, Sample.bounced 12 [Sample.knock ++ Sample.pulse, Sample.pulse] = .ok (s, log) ∧ log = l1 ++ .closes true :: l2 ∧
    (takenIn l1).length = 1 ∧ (takenIn l2).length = 1 := by
  refine ⟨_, _, [.does (.received _), .does (.handled 0 _), .does (.sent _)], [.does (.received _), .does (.handled 1 _), .does .closed], rfl, rfl, rfl, rfl⟩

/-- The hypothesis of `C95_separate_partial`: each piece is one frame. -/
example (reads : List Bytes) (h : ∀ p ∈ reads, Delimited p) : ∀ p ∈ reads, ∀ a f b, p = a ++ f ++ b → Delimited f → 15 ≤ f.length → a = [] :=
  fun p hp a f b e hf _ => separate_of_frame (h p hp) e hf

/-- If the terminal waits, its heartbeat is not received any more. -/
example : ∃ s log l1 l2, Sample.bounced 12 [Sample.knock, Sample.pulse] = .ok (s, log) ∧ log = l1 ++ .closes true :: l2 ∧ l2 = [.does .closed] :=
  ⟨_, _, [.does (.received _), .does (.handled 0 _), .does (.sent _)], _, rfl, rfl, rfl⟩

end Verif
