import Verif.Lemmas.Talk
import Verif.Lemmas.Requests
import Verif.Props.Stream
import Verif.Props.Handler
import Verif.Model.Programs
/-! # C76: a session whose handlers use it, C31: requests made by handlers -/

namespace Verif
open Spec Codec Session Handler Converse

variable {σ : Type}

/-! ## C76 -/

/-- C76: whatever messages are received, whatever the handlers and callbacks do with the session, whatever the connection accepts and the operating system
does: the session does not crash, and everything that happens is what the specification allows, in its order: the calls of callbacks and handlers, the
messages sent and their numbers, the requests, the parts and the merged uploads. -/
theorem C76_conversation (auto : Bool) (P : Program σ) (u : σ) (accepts : List Bool) (ms : List (Message Entity × Outcome × Outcome))
    (hd : ∀ x ∈ ms, Delivered x.1) :
    ∃ s log k, ({ user := u, accepts := accepts } : Converse.State σ).run auto P ms = .ok (s, log) ∧ Talk auto P { user := u } ms log k ∧ s.user = k.user := by
  obtain ⟨s, log, k, h1, h2, h3⟩ := run_spec auto P ms (shows_fresh u accepts) hd
  exact ⟨s, log, k, h1, h2, h3.user⟩

/-- The messages of a session, of the loop, the handlers and the callbacks together, have consecutive numbers. -/
theorem C76_numbers (auto : Bool) (P : Program σ) (u : σ) (accepts : List Bool) (ms : List (Message Entity × Outcome × Outcome))
    (hd : ∀ x ∈ ms, Delivered x.1) {s : Converse.State σ} {log : List Ev} (h : ({ user := u, accepts := accepts } : Converse.State σ).run auto P ms = .ok (s, log)) :
    (attempted log).map (fun m => m.header.serial) = (List.range (attempted log).length).map serialOf := by
  obtain ⟨s', log', k, h1, h2, -⟩ := run_spec auto P ms (shows_fresh u accepts) hd
  obtain ⟨rfl, rfl⟩ : s = s' ∧ log = log' := by simpa [h] using h1
  have h3 := (talk_within h2).serials
  have hl := congrArg List.length h3
  simp only [List.length_map, List.length_range'] at hl
  rw [h3, hl, List.range_eq_range']

/-- C76 from the bytes that arrive: a terminal writes messages with registered bodies. They arrive in pieces. Whatever these are, the same happens, and it
is what the specification allows for messages with the contents sent. -/
theorem C76_end_to_end (env : Env) (key : Option DecKey) (auto : Bool) (P : Program σ) (u : σ) (accepts : List Bool)
    (ms : List (Message Entity × Entity)) (hms : ∀ x ∈ ms, Spec.Sendable env x.1 x.2) :
    ∃ (bytes : List Bytes) (ds : List (Message Entity)), ms.map (fun x => sendBytes (entityCodec env) none x.1) = bytes.map .ok ∧
      ds.length = ms.length ∧ (∀ p ∈ ms.zip ds, Spec.Carries p.1.1 p.1.2 p.2) ∧
      ∀ os : List (Outcome × Outcome), os.length = ms.length → ∃ s log k, Talk auto P { user := u } (ds.zip os) log k ∧ s.user = k.user ∧
        ∀ (endErr : Err) (o : Outcome × Outcome) (reads : List Bytes), (∀ c ∈ reads, c.length ≤ 128) → reads.flatten = bytes.flatten →
          ({ user := u, accepts := accepts } : Converse.State σ).serve env key endErr auto P os ⟨[], reads⟩ = .ok (s, log) ∧
          ({ user := u, accepts := accepts } : Converse.State σ).serve env key endErr auto P (os ++ [o]) ⟨[], reads⟩ = .ok (s, log ++ [.closed]) := by
  obtain ⟨xs, h1, h2, h3, h4⟩ := sendable_frames env key ms hms
  refine ⟨xs.map (·.1), xs.map (·.2), by rw [h2]; simp, by simp [h1], h4, ?_⟩
  intro os ho
  have hdel : ∀ x ∈ (xs.map (·.2)).zip os, Delivered x.1 := by
    intro x hx
    have := (List.of_mem_zip (a := x.1) (b := x.2) hx).1
    obtain ⟨y, hy, hxy⟩ := List.mem_map.1 this
    rw [← hxy]
    exact C49_decoded_messages_are_delivered env key _ _ (h3 y hy).2.2
  obtain ⟨s, log, k, r1, r2, r3⟩ := run_spec auto P _ (shows_fresh u accepts) hdel
  refine ⟨s, log, k, r2, r3.user, ?_⟩
  intro endErr o reads hr hs
  have hrec := fun k => C12_reassembly _ key endErr xs h3 reads hr (by rw [hs, List.flatMap_def]) k
  have key := fun os' : List (Outcome × Outcome) => serve_run env key endErr auto P (xs.map (·.2)) os os' (by simp [h1, ho]) ⟨[], reads⟩
    (by rw [List.length_map, hrec]; simp) ({ user := u, accepts := accepts } : Converse.State σ)
  constructor
  · have := key []
    rw [List.append_nil] at this
    rw [this, r1]
    rfl
  · rw [key [o], r1]
    rfl

/-- The bytes of sendable messages. -/
theorem wire_sendable (env : Env) (pub : Option EncKey) : ∀ (ms : List (Message Entity × Entity)) (bytes : List Bytes),
    (∀ x ∈ ms, Spec.Sendable env x.1 x.2) → ms.map (fun x => sendBytes (entityCodec env) none x.1) = bytes.map .ok →
    wire env pub (ms.map (·.1)) = bytes.flatten
  | [], [], _, _ => rfl
  | [], _ :: _, _, h => by simp at h
  | _ :: _, [], _, h => by simp at h
  | x :: ms, b :: bytes, hms, h => by
    simp only [List.map_cons, List.cons.injEq] at h
    have hx := hms x (by simp)
    have he : sendBytes (entityCodec env) pub x.1 = .ok b := by
      rw [← h.1]
      cases pub with
      | none => rfl
      | some k =>
        have : Property.isEnableEncrypt x.1.header.property = false := by
          rw [Property.isEnableEncrypt_spec]
          exact hx.plain
        simp [sendBytes, this]
    simp only [List.map_cons, wire, he, List.flatten_cons]
    rw [wire_sendable env pub ms bytes (fun y hy => hms y (by simp [hy])) h.2]

/-- C76 to the bytes that are sent: whatever happened in the session, if the bodies sent can be sent and the terminal's number was known, then the terminal,
reading the bytes of the session in arbitrary pieces, gets exactly the messages that were sent, in order. -/
theorem C76_terminal_reads (env : Env) (key : Option DecKey) (pub : Option EncKey) (log : List Ev) (hs : ∀ m ∈ sentIn log, ∃ e, Spec.Sendable env m e) :
    ∃ ds : List (Message Entity), ds.length = (sentIn log).length ∧
      (∀ p ∈ (sentIn log).zip ds, ∃ e, p.1.body = .val e ∧ Spec.Carries p.1 e p.2) ∧
      ∀ (endErr : Err) (reads : List Bytes), (∀ c ∈ reads, c.length ≤ 128) → reads.flatten = wire env pub (sentIn log) → ∀ k,
        (receiveMany (entityCodec env) key endErr ((sentIn log).length + k) ⟨[], reads⟩).1 = ds.map .ok ++ List.replicate k (.err endErr) := by
  obtain ⟨ms, hm, hms⟩ : ∃ ms : List (Message Entity × Entity), ms.map (·.1) = sentIn log ∧ ∀ x ∈ ms, Spec.Sendable env x.1 x.2 := by
    generalize sentIn log = l at hs
    induction l with
    | nil => exact ⟨[], rfl, by simp⟩
    | cons m l ih =>
      obtain ⟨ms, h1, h2⟩ := ih fun x hx => hs x (by simp [hx])
      obtain ⟨e, he⟩ := hs m (by simp)
      exact ⟨(m, e) :: ms, by simp [h1], by simpa [he] using fun a b h => h2 (a, b) h⟩
  obtain ⟨bytes, ds, h1, h2, h3, h4⟩ := C12_same_for_all_pieces env key ms hms
  rw [← hm]
  refine ⟨ds, by simpa using h2, ?_, ?_⟩
  · intro p hp
    rw [List.zip_map_left] at hp
    obtain ⟨q, hq, rfl⟩ := List.mem_map.1 hp
    exact ⟨q.1.2, (hms q.1 (List.of_mem_zip (a := q.1) (b := q.2) hq).1).body, h3 q hq⟩
  · intro endErr reads hr hf k
    rw [List.length_map]
    exact h4 endErr reads hr (by rw [hf, wire_sendable env pub ms bytes hms h1]) k

/-! ## C31 -/

theorem mem_acts_requested {r : Pending} {x : List Ev} (h : Act.requested r ∈ acts x) : Ev.requested r ∈ x := by
  unfold acts at h
  obtain ⟨a, ha, h⟩ := List.mem_filterMap.1 h
  cases a <;> simp at h
  subst h
  exact ha

theorem mem_acts_ran {cb : Nat} {m : Message Entity} {x : List Ev} (h : Act.callback cb m ∈ acts x) : Ev.ran cb m ∈ x := by
  unfold acts at h
  obtain ⟨a, ha, h⟩ := List.mem_filterMap.1 h
  cases a <;> simp at h
  obtain ⟨rfl, rfl⟩ := h
  exact ha

/-- C31 for requests made by handlers and callbacks: there the request is registered before anything else is received, so an answer cannot come too early.
As long as the session has sent at most 255 messages, the answer to a request that waits for it runs the request's callback before anything else happens. -/
theorem C31_in_handlers_partial (auto : Bool) (P : Program σ) (u : σ) (accepts : List Bool) (ms : List (Message Entity × Outcome × Outcome))
    (hd : ∀ x ∈ ms, Delivered x.1) {s : Converse.State σ} {log : List Ev} (h : ({ user := u, accepts := accepts } : Converse.State σ).run auto P ms = .ok (s, log))
    (hfew : (attempted log).length ≤ 255) (r : Pending) (hw : Awaits r log)
    (m : Message Entity) (hm : Delivered m) (ha : Answers m r.serial) (o : Outcome × Outcome) :
    ∃ s' rest, ({ user := u, accepts := accepts } : Converse.State σ).run auto P (ms ++ [(m, o)]) =
      .ok (s', log ++ .received m :: .ran r.callback m :: rest) := by
  obtain ⟨s1, log1, k, h1, h2, h3⟩ := run_spec auto P ms (shows_fresh u accepts) hd
  obtain ⟨rfl, rfl⟩ : s = s1 ∧ log = log1 := by simpa [h] using h1
  have hwi := talk_within h2
  have hcount : k.count ≤ 255 := by
    have := congrArg List.length hwi.serials
    simp only [List.length_map, List.length_range'] at this
    have h0 : ({ user := u } : Knows σ).count = 0 := rfl
    omega
  have hwait : AwaitsAnswer r (acts log) := by
    obtain ⟨l1, l2, rfl, w1, w2⟩ := hw
    refine ⟨acts l1, acts l2, by rw [acts_append]; rfl, fun r' hr => w1 r' (mem_acts_requested hr), ?_, ?_⟩
    · have hp := List.pairwise_append.1 hwi.pairs
      intro r' hr'
      have hne : ∀ i j, i < j → j < k.count → serialOf i ≠ serialOf j := by
        intro i j h1 h2 heq
        have := congrArg UInt16.toNat heq
        unfold serialOf at this
        simp only [UInt16.toNat_ofNat', Nat.reducePow] at this
        omega
      rcases List.mem_append.1 hr' with hr' | hr'
      · obtain ⟨i, j, -, g2, g3, g4, g5⟩ := hp.2.2 _ (mem_acts_requested hr') _ (by simp) r' r rfl rfl
        rw [g4, g5]
        exact hne i j g2 g3
      · obtain ⟨i, j, -, g2, g3, g4, g5⟩ := (List.pairwise_cons.1 hp.2.1).1 _ (mem_acts_requested hr') r r' rfl rfl
        rw [g4, g5]
        exact (hne i j g2 g3).symm
    · intro cb m' e hc hb he
      have hne : r.serial ≠ 0 := by obtain ⟨-, -, -, hz⟩ := ha; exact hz
      exact w2 cb m' (mem_acts_ran hc) ⟨e, hb, he, hne⟩
  obtain ⟨t1, t2⟩ := waiting_table (talk_acts h2) hwait
  obtain ⟨s2, x, k2, p1, p2, p3⟩ := process_spec auto P h3 o m hm
  obtain ⟨rest, hrest⟩ : ∃ rest, x = .ran r.callback m :: rest := by
    have hnoted : ∀ {y k'}, Noted P k m y k' → ∃ rest, y = .ran r.callback m :: rest := by
      intro y k' hn
      cases hn with
      | ran ha' hw' hc =>
        obtain ⟨e, e1, e2, -⟩ := ha
        obtain ⟨e', e3, e4, -⟩ := ha'
        rw [e1] at e3
        cases e3
        rw [e2] at e4
        cases e4
        obtain ⟨-, rfl⟩ := t2 _ _ hw'
        exact ⟨_, rfl⟩
      | none hno => exact absurd t1 (hno _ _ _ ha)
    have hno : ∀ {u p data}, partOf auto m ≠ some (u, p, data) := by
      intro u p data hp
      obtain ⟨e, e1, e2, -⟩ := ha
      unfold partOf at hp
      rw [e1] at hp
      cases e <;> simp [answered] at e2 <;> simp at hp
    cases p2 with
    | unsupported hb hr =>
      obtain ⟨e, e1, -⟩ := ha
      simp [hasBody, e1] at hb
    | ordinary hb hp hn hd =>
      obtain ⟨rest, rfl⟩ := hnoted hn
      exact ⟨_, rfl⟩
    | lost hp => exact absurd hp hno
    | stored hp => exact absurd hp hno
    | unmerged hp => exact absurd hp hno
    | merged hp => exact absurd hp hno
  refine ⟨s2, rest, ?_⟩
  rw [Converse.run_append, h]
  simp only [Res.bind, Converse.State.run, p1, Res.ok_bind]
  simp [hrest]

/-! ## Non-trivial cases

The example server (`Model/Programs.lean`): the terminal authenticates, which makes the server ask for its parameters, and answers; then it uploads a
picture in two parts. -/

/-- What the terminal sends. -/
def talk : List (Message Entity × Outcome × Outcome) :=
  [({ header := { msgID := 0x0102, iccID := 19901234567, serial := 1 }, body := .val (.m0102 { authKey := [49, 50] }) }, .ok, .ok),
   ({ header := { msgID := 0x0104, iccID := 19901234567, serial := 2 }, body := .val (.m0104 { replySerial := 2, params := [{ id := 1, serialized := [1] }] }) }, .ok, .ok),
   ({ header := { msgID := 0x0801, iccID := 19901234567, serial := 3, property := 0x2000, packet := some ⟨2, 1⟩ },
      body := .val (.m0801 { mediaID := 5, packet := some [1, 2] }) }, .ok, .ok),
   ({ header := { msgID := 0x0801, iccID := 19901234567, serial := 4, property := 0x2000, packet := some ⟨2, 2⟩ },
      body := .val (.m0801 { mediaID := 5, packet := some [3] }) }, .ok, .ok)]

/-- The hypothesis of `C76_conversation` holds for it. -/
example : ∀ x ∈ talk, Delivered x.1 := by
  intro x hx
  simp only [talk, List.mem_cons, List.not_mem_nil, or_false] at hx
  rcases hx with rfl | rfl | rfl | rfl <;> exact ⟨by simp [Entity.msgID], by simp [packetFlag], by simp⟩

/-- What the server does: it answers, asks for the parameters (message 2), runs the callback with the answer, stores the parts, and confirms the upload
(message 5). The connection refuses message 4, so its part is stored but not answered. -/
example : ∃ s log, ({ user := none, accepts := [true, true, true, false] } : Converse.State (Option PubKey)).run true (Programs.server none) talk = .ok (s, log) ∧
    (sentIn log).map (fun m => (m.header.serial, m.header.msgID, m.header.iccID)) =
      [(1, 0x8001, 19901234567), (2, 0x8104, 19901234567), (3, 0x8001, 19901234567), (5, 0x8800, 19901234567)] ∧
    (attempted log).length = 5 ∧ .requested ⟨0x8104, 2, 0⟩ ∈ log ∧
    log.filterMap (fun | .ran cb m => some (cb, m.header.serial) | _ => none) = [(0, 2)] ∧
    log.filterMap (fun | .handled h m => some (h, m.body) | _ => none) =
      [(0, .val (.m0102 { authKey := [49, 50] })), (2, .val (.m0801 { mediaID := 5, packet := some [1, 2, 3] }))] :=
  ⟨_, _, rfl, by decide, by decide, by decide, by decide, by decide⟩

/-- The hypotheses of `C31_in_handlers_partial` hold after the first message, for the request of the handler and the answer of the terminal. -/
example : ∃ s log, ({ user := none, accepts := [] } : Converse.State (Option PubKey)).run true (Programs.server none) (talk.take 1) = .ok (s, log) ∧
    (attempted log).length ≤ 255 ∧ Awaits ⟨0x8104, 2, 0⟩ log ∧ ∀ x ∈ (talk.drop 1).take 1, Answers x.1 2 := by
  refine ⟨_, [_, _, _, _, _], rfl, by decide, ⟨[_, _, _, _], [], rfl, by simp, by simp⟩, ?_⟩
  intro x hx
  simp only [talk, List.drop_succ_cons, List.drop_zero, List.take_succ_cons, List.take_zero, List.mem_cons, List.not_mem_nil, or_false] at hx
  subst hx
  exact ⟨_, rfl, rfl, by decide⟩

/-- The hypothesis of `C76_terminal_reads` holds for an answer of the server. -/
example : ∀ m ∈ sentIn [.sent (outgoing 19901234567 0 (.m8001 { replySerial := 1, replyID := 0x0102 })), .closed], ∃ e, Spec.Sendable Sample.env m e := by
  intro m hm
  simp only [sentIn, List.filterMap_cons, List.filterMap_nil, List.mem_cons, List.not_mem_nil, or_false] at hm
  subst hm
  exact ⟨_, rfl, trivial, by decide, by decide, by intro b e' h; cases h; decide, by decide, by decide⟩

end Verif
