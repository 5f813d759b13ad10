import Verif.Lemmas.Outbox
import Verif.Lemmas.SessionOrder
import Verif.Lemmas.Session
import Verif.Props.Stream
import Verif.Props.Session
/-! # C55, C56, C57, C65, C66: from `Send` to the wire -/

namespace Verif

open Spec (acceptedItems Waiting Calm Sendable Carries receiveMany messages allocations OneAtATime serialOf)

variable {E : Type}

namespace Sample

/-- Three objects: a text that can be encoded, one that cannot, and a position report. -/
def heap : Nat → Entity
  | 0 => .m8300 { code := 1, text := [72, 105] }
  | 1 => .m8300 { code := 1, text := [200] }
  | _ => .m0200 { lat := ⟨-33868820, -6⟩, time := 1700000000 }

/-- Two goroutines send the text and the report; both are written. -/
def twoSends : List (Outbox.Event Entity) :=
  [.enter 1 header (.obj 0), .enter 2 { header with serial := 8 } (.obj 2), .enqueue 2, .enqueue 1, .encodeElsewhere 2, .take none, .take none]

/-- The text that cannot be encoded is sent. -/
def badText : List (Outbox.Event Entity) := [.enter 1 header (.obj 1), .enqueue 1, .take none, .finish]

end Sample

/-! ## C55 -/

/-- C55, for every program: messages are handled by the connection in the order in which they were accepted, each once; those not yet handled are the
ones in the queue. -/
theorem C55_order (C : BodyCodec E) (key : Option EncKey) (heap : Nat → E) (evs : List (Outbox.Event E)) :
    acceptedItems ((Outbox.State.init heap).run C key evs).2 =
      Outbox.handledItems ((Outbox.State.init heap).run C key evs).2 ++ ((Outbox.State.init heap).run C key evs).1.queue :=
  (Outbox.order_run C key heap evs).order

/-- C55: what was written to the connection is the concatenation of the frames of the first messages accepted, in order, each frame being the
encoding of the body as it was when `Send` was called; if writing failed, a part of the next frame may follow. -/
theorem C55_stream (env : Env) (key : Option EncKey) (heap : Nat → Entity) (evs : List (Outbox.Event Entity))
    (hcalm : Calm (entityCodec env) key (Outbox.State.init heap) evs) :
    ∃ (sent : List (Outbox.Item Entity × Bytes)) (rest : List (Outbox.Item Entity)) (tail : Bytes),
      acceptedItems ((Outbox.State.init heap).run (entityCodec env) key evs).2 = sent.map (·.1) ++ rest ∧
      (∀ x ∈ sent, Codec.sendBytes (entityCodec env) key { header := x.1.header, body := x.1.given } = .ok x.2) ∧
      ((Outbox.State.init heap).run (entityCodec env) key evs).1.wire = (sent.map (·.2)).flatten ++ tail ∧
      (tail = [] ∨ ∃ y ys f, rest = y :: ys ∧ Codec.sendBytes (entityCodec env) key { header := y.header, body := y.given } = .ok f ∧ tail <+: f) := by
  have := (Outbox.Inv.init (entityCodec env) key heap).run (Outbox.stable_entity env) evs hcalm
  rw [List.nil_append] at this
  obtain ⟨sent, rest, tail, a1, a2, a3, a4, -⟩ := this.stream
  exact ⟨sent, rest, tail, a1, a2, a3, a4⟩

/-- The two sends are calm; the report is encoded elsewhere while it waits. The wire holds both frames, the report's first. -/
example : Calm Sample.codec none (Outbox.State.init Sample.heap) Sample.twoSends ∧
    ((Outbox.State.init Sample.heap).run Sample.codec none Sample.twoSends).1.queue = [] ∧
    ((Outbox.State.init Sample.heap).run Sample.codec none Sample.twoSends).1.wire.length > 40 :=
  ⟨⟨by decide, by decide, trivial, trivial, trivial, trivial, trivial, trivial⟩, by decide, by decide⟩

/-- C55 from end to end: the other side, which reads the bytes in any pieces and may lose the connection at any point, receives the first messages
accepted, in order and with their contents, and then the error of its connection. -/
theorem C55_delivered (env : Env) (heap : Nat → Entity) (evs : List (Outbox.Event Entity))
    (hcalm : Calm (entityCodec env) none (Outbox.State.init heap) evs)
    (hok : ∀ x ∈ acceptedItems ((Outbox.State.init heap).run (entityCodec env) none evs).2,
      ∃ e, Sendable env { header := x.header, body := x.given } e)
    (decKey : Option DecKey) (endErr : Err) (reads : List Bytes) (hr : ∀ c ∈ reads, c.length ≤ 128)
    (hw : reads.flatten <+: ((Outbox.State.init heap).run (entityCodec env) none evs).1.wire) (k : Nat) :
    ∃ (n : Nat) (ds : List (Message Entity)), ds.length = n ∧
      n ≤ (acceptedItems ((Outbox.State.init heap).run (entityCodec env) none evs).2).length ∧
      (∀ p ∈ (acceptedItems ((Outbox.State.init heap).run (entityCodec env) none evs).2).zip ds,
        ∃ e, p.1.given = .val e ∧ Carries { header := p.1.header, body := p.1.given } e p.2) ∧
      (receiveMany (entityCodec env) decKey endErr (n + k) ⟨[], reads⟩).1 = ds.map .ok ++ List.replicate k (.err endErr) := by
  obtain ⟨sent, rest, tail, a1, a2, a3, a4⟩ := C55_stream env none heap evs hcalm
  rw [a1] at hok ⊢
  rw [a3] at hw
  -- the messages with their frames and decodings
  have one : ∀ (x : Outbox.Item Entity) (f : Bytes), (∃ e, Sendable env { header := x.header, body := x.given } e) →
      Codec.sendBytes (entityCodec env) none { header := x.header, body := x.given } = .ok f →
      ∃ d e, Spec.Delimited f ∧ f.length ≤ 65408 ∧ Message.decode (entityCodec env) decKey {} f = .ok d ∧ x.given = .val e ∧
        Carries { header := x.header, body := x.given } e d := by
    rintro x f ⟨e, he⟩ hf
    obtain ⟨f', m', d, g1, g2, g3, g4, g5, g6, g7⟩ := C01_registered_round_trip env _ e he.body he.range he.icc0 he.icc1 he.size he.plain he.packet decKey {}
    obtain ⟨b, e', e1, -⟩ := Entity.round_trip env e he.range
    have hb : Message.encodeBody (entityCodec env) none { header := x.header, body := x.given } = .ok (b, x.header, .val e') := by
      have := he.body
      simp only at this
      unfold Message.encodeBody
      rw [this]
      simp only [entityCodec, e1, Res.ok_bind]
    have hfr := frame_of_encode g1 hb (he.size b e' e1)
    have : f' = f := by
      unfold Codec.sendBytes at hf
      simp only [g1] at hf
      exact Res.ok.inj hf
    subst this
    exact ⟨d, e, hfr.1, by omega, g2, he.body, g3, g4, g5, g6, g7⟩
  have all : ∀ (l : List (Outbox.Item Entity × Bytes)),
      (∀ x ∈ l, (∃ e, Sendable env { header := x.1.header, body := x.1.given } e) ∧
        Codec.sendBytes (entityCodec env) none { header := x.1.header, body := x.1.given } = .ok x.2) →
      ∃ ms : List (Bytes × Message Entity), ms.map (·.1) = l.map (·.2) ∧
        (∀ y ∈ ms, Spec.Delimited y.1 ∧ y.1.length ≤ 65408 ∧ Message.decode (entityCodec env) decKey {} y.1 = .ok y.2) ∧
        ∀ p ∈ (l.map (·.1)).zip (ms.map (·.2)), ∃ e, p.1.given = .val e ∧ Carries { header := p.1.header, body := p.1.given } e p.2 := by
    intro l
    induction l with
    | nil => intro _; exact ⟨[], rfl, by simp, by simp⟩
    | cons x l ih =>
      intro h
      obtain ⟨ms, i1, i2, i3⟩ := ih fun y hy => h y (by simp [hy])
      obtain ⟨b1, b2⟩ := h x (by simp)
      obtain ⟨d, e, c1, c2, c3, c4, c5⟩ := one x.1 x.2 b1 b2
      refine ⟨(x.2, d) :: ms, by simp [i1], ?_, ?_⟩
      · intro y hy
        rcases List.mem_cons.1 hy with rfl | hy
        · exact ⟨c1, c2, c3⟩
        · exact i2 y hy
      · intro p hp
        simp only [List.map_cons, List.zip_cons_cons] at hp
        rcases List.mem_cons.1 hp with rfl | hp
        · exact ⟨e, c4, c5⟩
        · exact i3 p hp
  -- the messages written, and the one that may follow
  obtain ⟨l, more, hl1, hl2, hl3⟩ : ∃ (l : List (Outbox.Item Entity × Bytes)) (more : List (Outbox.Item Entity)), sent.map (·.1) ++ rest = l.map (·.1) ++ more ∧
      (∀ x ∈ l, (∃ e, Sendable env { header := x.1.header, body := x.1.given } e) ∧
        Codec.sendBytes (entityCodec env) none { header := x.1.header, body := x.1.given } = .ok x.2) ∧
      (sent.map (·.2)).flatten ++ tail <+: (l.map (·.2)).flatten := by
    rcases a4 with rfl | ⟨y, ys, f, b1, b2, b3⟩
    · refine ⟨sent, rest, rfl, fun x hx => ⟨hok x.1 ?_, a2 x hx⟩, by simp⟩
      exact List.mem_append_left _ (List.mem_map.2 ⟨x, hx, rfl⟩)
    · refine ⟨sent ++ [(y, f)], ys, by simp [b1], ?_, ?_⟩
      · intro x hx
        rcases List.mem_append.1 hx with hx | hx
        · exact ⟨hok x.1 (List.mem_append_left _ (List.mem_map.2 ⟨x, hx, rfl⟩)), a2 x hx⟩
        · simp only [List.mem_singleton] at hx
          subst hx
          exact ⟨hok y (by rw [b1]; simp), b2⟩
      · simpa using b3
  obtain ⟨ms, m1, m2, m3⟩ := all l hl2
  obtain ⟨n, n1, n2, n3, n4⟩ := C12_cut_anywhere (entityCodec env) decKey endErr ms m2 reads hr
    (by rw [List.flatMap_def, m1]; exact hw.trans hl3) k
  have hlen : ms.length = l.length := by simpa using congrArg List.length m1
  refine ⟨n, (ms.take n).map (·.2), by simp; omega, ?_, ?_, by rw [n4, List.map_map]; rfl⟩
  · rw [hl1]; simp; omega
  · rw [hl1]
    intro p hp
    exact m3 p (Outbox.mem_zip_prefix ((List.take_prefix n ms).map _) (by simp; omega) p hp)

/-- The hypotheses of `C55_delivered` are met by a general answer sent with a serial number. -/
example : Sendable Sample.env { header := Sample.header, body := .val (.m8001 { replySerial := 5, replyID := 0x0200 }) } (.m8001 { replySerial := 5, replyID := 0x0200 }) where
  body := rfl
  range := trivial
  icc0 := by decide
  icc1 := by decide
  size := by intro b e' h; cases h; decide
  plain := by decide
  packet := by decide

/-- C55, progress: as long as nothing fails, taking messages writes their frames: after as many takes as there are messages waiting, all of them are on
the wire. -/
theorem C55_progress (env : Env) (key : Option EncKey) (heap : Nat → Entity) (evs : List (Outbox.Event Entity))
    (hcalm : Calm (entityCodec env) key (Outbox.State.init heap) evs) (s : Outbox.State Entity)
    (hs : s = ((Outbox.State.init heap).run (entityCodec env) key evs).1) (hrun : s.loop = .running) (hup : s.crashed = false)
    (frames : List Bytes)
    (hf : s.queue.map (fun x => Codec.sendBytes (entityCodec env) key { header := x.header, body := x.given }) = frames.map .ok) :
    (s.run (entityCodec env) key (List.replicate s.queue.length (.take none))).1.wire = s.wire ++ frames.flatten := by
  have inv := (Outbox.Inv.init (entityCodec env) key heap).run (Outbox.stable_entity env) evs hcalm
  rw [← hs] at inv
  have fresh := inv.queue
  clear inv hs hcalm
  generalize hq : s.queue = q at hf fresh ⊢
  induction q generalizing s frames with
  | nil =>
    cases frames with
    | nil => simp [Outbox.State.run]
    | cons f fs => simp at hf
  | cons x q ih =>
    cases frames with
    | nil => simp at hf
    | cons f fs =>
      simp only [List.map_cons, List.cons.injEq] at hf
      have hx := (fresh x (by simp)).sendBytes (key := key)
      rw [hf.1] at hx
      have hstep : s.step (entityCodec env) key (.take none) =
          ({ s with queue := q, heap := s.heapAfter (entityCodec env) x.arg, wire := s.wire ++ f }, [.handled x (s.body x.arg) f true]) := by
        simp [Outbox.State.step, hup, hrun, hq, hx]
      simp only [List.length_cons, List.replicate_succ, Outbox.State.run, hstep]
      rw [ih { s with queue := q, heap := s.heapAfter (entityCodec env) x.arg, wire := s.wire ++ f } hrun hup fs rfl hf.2
        fun y hy => (fresh y (by simp [hy])).heapAfter (Outbox.stable_entity env) x.arg]
      simp

example : ((Outbox.State.init Sample.heap).run Sample.codec none (Sample.twoSends.take 5)).1.queue.length = 2 ∧
    ((Outbox.State.init Sample.heap).run Sample.codec none (Sample.twoSends.take 5)).1.loop = .running := by decide

/-! ## C56 -/

/-- C56 fails: `Send` returns nil for a message that cannot be encoded (here because of its text). -/
theorem C56_refuted : ¬ ∀ (env : Env) (heap : Nat → Entity) (evs : List (Outbox.Event Entity)) (i : Nat) (x : Outbox.Item Entity),
    .accepted i x ∈ ((Outbox.State.init heap).run (entityCodec env) none evs).2 →
    ∃ f, Codec.sendBytes (entityCodec env) none { header := x.header, body := x.given } = .ok f := by
  intro h
  obtain ⟨f, hf⟩ := h Sample.env Sample.heap Sample.badText 1 ⟨Sample.header, .obj 1, .val (Sample.heap 1)⟩ (by decide)
  have : Codec.sendBytes (entityCodec Sample.env) none { header := Sample.header, body := .val (Sample.heap 1) } = .err .text := by decide
  rw [this] at hf
  cases hf

/-- C56, partial: what a failure to encode or write does instead. From then on nothing is written to the connection, whatever is sent later; once the
send loop is done, the session is closed and stays closed, and further calls of `Send` fail. Missing: the caller whose message failed is not told. -/
theorem C56_failure_ends_connection_partial (C : BodyCodec E) (key : Option EncKey) (heap : Nat → E) (evs later : List (Outbox.Event E))
    (hfail : ∃ x b w, .handled x b w false ∈ ((Outbox.State.init heap).run C key evs).2) :
    let s := ((Outbox.State.init heap).run C key evs).1
    let t := (s.run C key later).1
    t.wire = s.wire ∧ (s.loop = .done → t.closed = true ∧
      ∀ i header arg, t.crashed = false → t.place i = none → t.step C key (.enter i header arg) = (t, [.refused i])) := by
  intro s t
  have o := Outbox.order_run C key heap evs
  have e := Outbox.ended_run (C := C) (key := key) later (s := s)
  refine ⟨e.1 (o.failed hfail), fun hd => ?_⟩
  have hc : t.closed = true := e.2 (o.done hd)
  refine ⟨hc, fun i header arg hu hp => ?_⟩
  simp [Outbox.State.step, hu, hp, hc]

/-- The bad text: accepted, then the connection ends, with nothing written. -/
example : (∃ x b w, .handled x b w false ∈ ((Outbox.State.init Sample.heap).run Sample.codec none Sample.badText).2) ∧
    ((Outbox.State.init Sample.heap).run Sample.codec none Sample.badText).1.loop = .done ∧
    ((Outbox.State.init Sample.heap).run Sample.codec none Sample.badText).1.wire = [] :=
  ⟨⟨⟨Sample.header, .obj 1, .val (Sample.heap 1)⟩, .val (Sample.heap 1), [], by decide⟩, by decide, by decide⟩

/-- C56 exactly: whether a call of `Send` returns nil depends only on whether the session is open and has room for a message, whatever the header and
the body. So the property holds of a message exactly if the message can be encoded anyway. -/
theorem C56_exact_partial (C : BodyCodec E) (key : Option EncKey) (s : Outbox.State E) (hup : s.crashed = false) (i : Nat) (hp : s.place i = none)
    (header : Header) (arg : Outbox.Arg) :
    (∃ x, .accepted i x ∈ (s.run C key [.enter i header arg, .enqueue i]).2) ↔ s.closed = false ∧ s.queue.length < 24 := by
  cases hc : s.closed with
  | true => simp [Outbox.State.run, Outbox.State.step, hup, hp, hc]
  | false =>
    by_cases hq : s.queue.length < 24
    · have : s.queue.length < Outbox.capacity := hq
      simp [Outbox.State.run, Outbox.State.step, hup, hp, hc, hq, Outbox.update, this]
    · have : ¬ s.queue.length < Outbox.capacity := hq
      simp [Outbox.State.run, Outbox.State.step, hup, hp, hc, hq, Outbox.update, this]

example : (Outbox.State.init Sample.heap).crashed = false ∧ (Outbox.State.init Sample.heap).place 1 = none ∧
    (Outbox.State.init Sample.heap).closed = false ∧ (Outbox.State.init Sample.heap).queue.length < 24 := by decide

/-! ## C57 -/

/-- C57 fails: of two goroutines that send at the same time, the one with the later serial number may be first. -/
theorem C57_refuted : ¬ ∀ (evs : List (Session.Event Entity)),
    ((messages (({} : Session.State Entity).run Sample.codec evs).2).map (·.header.serial)).Sublist
      (allocations (({} : Session.State Entity).run Sample.codec evs).2) := by
  intro h
  have := h [.start 1 Sample.setParams, .start 2 Sample.queryParams, .loadIcc 1, .loadNext 1, .cas 1, .loadIcc 2, .loadNext 2, .cas 2, .push 2 true, .push 1 true]
  revert this
  decide

/-- C57, partial: if calls of `Send`, `Request` and `Reply` do not overlap, messages are accepted, and with C55 written, in the order of their serial
numbers, which are handed out as 1, 2, ..., 255, 1, 2, ... (numbers of refused messages are left out). Missing: overlapping calls. -/
theorem C57_one_at_a_time_partial (C : BodyCodec E) (evs : List (Session.Event E)) (h : OneAtATime C {} evs) :
    ∃ n, ((messages (({} : Session.State E).run C evs).2).map (·.header.serial)).Sublist ((List.range n).map serialOf) := by
  obtain ⟨n, hn⟩ := C29_sequence C evs
  refine ⟨n, ?_⟩
  rw [← hn]
  have := Session.alone_run C evs h
  exact this.sent

/-- C57, partial, for every schedule: a message carries a number that was handed out during the call that sends it, and no other number was handed out
to this goroutine since. (After `pre` goroutine `i` is in no call; then it and others do anything.) So only messages accepted between these two
moments can be out of order. -/
theorem C57_number_within_call_partial (C : BodyCodec E) (pre post : List (Session.Event E)) (i : Nat)
    (hidle : (({} : Session.State E).run C pre).1.place i = none) (l1 l2 : List (Session.Obs E)) (c : Session.Call E) (m : Message E)
    (h : ((({} : Session.State E).run C pre).1.run C post).2 = l1 ++ .pushed i c m :: l2) :
    ∃ a b, l1 = a ++ .allocated i m.header.serial :: b ∧ ∀ o ∈ b, Spec.whose o ≠ some i :=
  (Session.own_run C i _ hidle post).pushed l1 l2 c m h

/-- C57, partial: if a message was accepted before the call began that sends another one, then it is the first of the two on the wire and also the
first to get its number. Missing: calls that overlap. -/
theorem C57_calls_in_turn_partial (C : BodyCodec E) (pre post : List (Session.Event E)) (i j : Nat)
    (hidle : (({} : Session.State E).run C pre).1.place i = none) (c c' : Session.Call E) (m m' : Message E)
    (h : .pushed j c m ∈ (({} : Session.State E).run C pre).2) (h' : .pushed i c' m' ∈ ((({} : Session.State E).run C pre).1.run C post).2) :
    ∃ a b d, allocations (({} : Session.State E).run C (pre ++ post)).2 = a ++ m.header.serial :: b ++ m'.header.serial :: d := by
  obtain ⟨l1, l2, e1⟩ := List.append_of_mem h
  obtain ⟨l3, l4, e2⟩ := List.append_of_mem h'
  obtain ⟨a, b, rfl, -⟩ := (Session.own_run C j {} rfl pre).pushed l1 l2 c m e1
  obtain ⟨a', b', rfl, -⟩ := C57_number_within_call_partial C pre post i hidle l3 l4 c' m' e2
  rw [Session.run_append]
  simp only [e1, e2, Session.allocations_append]
  refine ⟨allocations a, allocations b ++ allocations l2 ++ allocations a', allocations b' ++ allocations l4, ?_⟩
  simp [allocations, List.filterMap_cons, List.append_assoc]

/-- Three goroutines: the second gets its number before the first but is later on the wire; the third begins after both. -/
example : let pre : List (Session.Event Entity) := [.start 2 Sample.queryParams, .loadIcc 2, .loadNext 2, .cas 2, .start 1 Sample.queryParams, .loadIcc 1,
      .loadNext 1, .cas 1, .push 1 true, .push 2 true]
    let post : List (Session.Event Entity) := [.start 3 Sample.queryParams, .loadIcc 3, .loadNext 3, .cas 3, .add 1, .push 3 true]
    (({} : Session.State Entity).run Sample.codec pre).1.place 3 = none ∧
    (messages (({} : Session.State Entity).run Sample.codec (pre ++ post)).2).map (·.header.serial) = [2, 1, 3] := by decide

/-- One goroutine sends two messages, then another one; the second message is refused. -/
example : OneAtATime Sample.codec {} [.start 1 Sample.setParams, .loadIcc 1, .loadNext 1, .cas 1, .push 1 true, .add 1, .start 1 Sample.queryParams,
    .loadIcc 1, .loadNext 1, .cas 1, .push 1 false, .start 2 Sample.queryParams, .loadIcc 2, .loadNext 2, .cas 2, .push 2 true, .add 2] ∧
    (messages (({} : Session.State Entity).run Sample.codec [.start 1 Sample.setParams, .loadIcc 1, .loadNext 1, .cas 1, .push 1 true, .add 1,
      .start 1 Sample.queryParams, .loadIcc 1, .loadNext 1, .cas 1, .push 1 false, .start 2 Sample.queryParams, .loadIcc 2, .loadNext 2, .cas 2,
      .push 2 true, .add 2]).2).map (·.header.serial) = [1, 3] := by
  constructor
  · simp only [OneAtATime, and_true, true_and]
    refine ⟨fun _ _ => trivial, fun j hj => ?_, fun j hj => ?_⟩
    · simp [Session.State.step, Session.goto, Sample.setParams, Message.bodyMsgID, hj]
    · by_cases h1 : j = 1 <;>
        simp [Session.State.step, Session.goto, Sample.setParams, Sample.queryParams, Message.bodyMsgID, Session.successor, h1]
  · decide

/-! ## C65 -/

/-- C65 fails: the program sends a text and then changes the object for its next message before the connection got to write the first one; the changed
text is what is sent. -/
theorem C65_refuted : ¬ ∀ (env : Env) (heap : Nat → Entity) (evs : List (Outbox.Event Entity)) (x : Outbox.Item Entity) (b : Body Entity) (w : Bytes),
    .handled x b w true ∈ ((Outbox.State.init heap).run (entityCodec env) none evs).2 →
    Codec.sendBytes (entityCodec env) none { header := x.header, body := x.given } = .ok w := by
  intro h
  let w : Bytes := match Codec.sendBytes Sample.codec none { header := Sample.header, body := .val (.m8300 { code := 1, text := [66, 121, 101] }) } with
    | .ok w => w
    | _ => []
  have h2 : .handled ⟨Sample.header, .obj 0, .val (Sample.heap 0)⟩ (.val (.m8300 { code := 1, text := [66, 121, 101] })) w true ∈
      ((Outbox.State.init Sample.heap).run (entityCodec Sample.env) none
        [.enter 1 Sample.header (.obj 0), .enqueue 1, .write 0 (.m8300 { code := 1, text := [66, 121, 101] }), .take none]).2 := by decide
  have h3 : Codec.sendBytes (entityCodec Sample.env) none { header := Sample.header, body := .val (Sample.heap 0) } ≠ .ok w := by decide
  exact h3 (h _ _ _ _ _ _ h2)

/-- C65, partial: the body goes out as it was when `Send` was called if the program does not change it before it is written, even if other sessions send
the same object. Missing: programs that do change it. -/
theorem C65_snapshot_partial (env : Env) (key : Option EncKey) (heap : Nat → Entity) (evs : List (Outbox.Event Entity))
    (hcalm : Calm (entityCodec env) key (Outbox.State.init heap) evs) (x : Outbox.Item Entity) (b : Body Entity) (w : Bytes)
    (h : .handled x b w true ∈ ((Outbox.State.init heap).run (entityCodec env) key evs).2) :
    Codec.sendBytes (entityCodec env) key { header := x.header, body := x.given } = .ok w := by
  have := (Outbox.Inv.init (entityCodec env) key heap).run (Outbox.stable_entity env) evs hcalm
  rw [List.nil_append] at this
  exact this.handled x b w h

/-- The object is changed after its message was written: this is calm. -/
example : Calm Sample.codec none (Outbox.State.init Sample.heap)
    [.enter 1 Sample.header (.obj 0), .enqueue 1, .take none, .write 0 (.m8300 { code := 1, text := [66] })] := by
  refine ⟨by decide, trivial, trivial, ?_, trivial⟩
  refine Outbox.mem_waiting_none (by decide) fun i => ?_
  by_cases h : i = 1
  · subst h; decide
  · exact Outbox.place_run (C := Sample.codec) (key := none) (i := i) (s := Outbox.State.init Sample.heap)
      [.enter 1 Sample.header (.obj 0), .enqueue 1, .take none] (by simp [Outbox.caller]; omega)

/-- C65 exactly, for every program that sends no media messages: a message goes out with the contents its body had been given last when the
connection took the message, whatever it was when `Send` was called. -/
theorem C65_exact (env : Env) (key : Option EncKey) (heap : Nat → Entity) (pre : List (Outbox.Event Entity))
    (hm : ∀ r, (heap r).msgID ≠ 0x0801) (hw : ∀ r e, .write r e ∈ pre → e.msgID ≠ 0x0801) (v : Option Nat) (x : Outbox.Item Entity) (b : Body Entity)
    (w : Bytes) (r : Nat) (hx : x.arg = .obj r)
    (h : .handled x b w true ∈ (((Outbox.State.init heap).run (entityCodec env) key pre).1.step (entityCodec env) key (.take v)).2) :
    Codec.sendBytes (entityCodec env) key { header := x.header, body := .val (Spec.lastAssigned heap pre r) } = .ok w := by
  obtain ⟨h1, rfl, h3⟩ := Outbox.take_handled h
  have := Outbox.Assigned.run (Outbox.stable_entity env) key pre (s := Outbox.State.init heap) (f := heap) (fun _ _ => .refl _ _) hm hw h1 r
  rw [← h3 rfl, hx]
  exact (this.sendBytes x.header).symm

/-- The text of `C65_refuted`: it was changed after `Send` and before it was written. -/
example : ∃ x b w, .handled x b w true ∈ (((Outbox.State.init Sample.heap).run (entityCodec Sample.env) none
      [.enter 1 Sample.header (.obj 0), .enqueue 1, .write 0 (.m8300 { code := 1, text := [66, 121, 101] })]).1.step (entityCodec Sample.env) none (.take none)).2 ∧
    x.arg = .obj 0 ∧ x.given = .val (.m8300 { code := 1, text := [72, 105] }) ∧
    Spec.lastAssigned Sample.heap [.enter 1 Sample.header (.obj 0), .enqueue 1, .write 0 (.m8300 { code := 1, text := [66, 121, 101] })] 0 =
      .m8300 { code := 1, text := [66, 121, 101] } :=
  ⟨⟨Sample.header, .obj 0, .val (Sample.heap 0)⟩, .val (.m8300 { code := 1, text := [66, 121, 101] }),
    match Codec.sendBytes Sample.codec none { header := Sample.header, body := .val (.m8300 { code := 1, text := [66, 121, 101] }) } with
      | .ok w => w
      | _ => [], by decide, rfl, rfl, rfl⟩

/-! ## C66 -/

/-- C66: at most 24 messages of a session wait to be written, whatever the program and the terminal do. -/
theorem C66_bounded (C : BodyCodec E) (key : Option EncKey) (heap : Nat → E) (evs : List (Outbox.Event E)) :
    ((Outbox.State.init heap).run C key evs).1.queue.length ≤ 24 := (Outbox.order_run C key heap evs).bound

/-- C66: `Send` never waits for the terminal. Whatever the state of the connection, the first step of the call fails or looks at the queue, the second
puts the message there or finds the queue full, and then the third closes the session and fails; what others do in between cannot prevent this. -/
theorem C66_send_returns (C : BodyCodec E) (key : Option EncKey) (s : Outbox.State E) (i : Nat) (x : Outbox.Item E) (others : List (Outbox.Event E))
    (hp : s.place i = some (.checked x)) (hup : s.crashed = false) (ho : ∀ ev ∈ others, Outbox.caller ev ≠ some i) :
    let s1 := s.step C key (.enqueue i)
    let s2 := (s1.1.run C key others).1
    let s3 := s2.step C key (.giveUp i)
    (s.queue.length < 24 ∧ s1.2 = [.accepted i x] ∧ s1.1.place i = none) ∨
    (24 ≤ s.queue.length ∧ s1.2 = [] ∧ (s2.crashed = true ∨ s3.2 = [.refused i] ∧ s3.1.place i = none ∧ s3.1.closed = true)) := by
  intro s1 s2 s3
  by_cases hq : s.queue.length < 24
  · left
    have : s1 = ({ s with queue := s.queue ++ [x], place := Outbox.update s.place i none }, [.accepted i x]) := by
      simp [s1, Outbox.State.step, hup, hp, Outbox.capacity, hq]
    rw [this]
    exact ⟨hq, rfl, by simp [Outbox.update]⟩
  · right
    have h1 : s1 = ({ s with place := Outbox.update s.place i (some (.full x)) }, []) := by
      simp [s1, Outbox.State.step, hup, hp, Outbox.capacity, hq]
    have h2 : s2.place i = some (.full x) := by
      simp only [s2]
      rw [Outbox.place_run others ho, h1]
      simp [Outbox.update]
    refine ⟨by omega, by rw [h1], ?_⟩
    cases hc : s2.crashed with
    | true => exact .inl rfl
    | false =>
      right
      have : s3 = ({ s2 with closed := true, place := Outbox.update s2.place i none }, [.refused i]) := by
        simp [s3, Outbox.State.step, hc, h2]
      rw [this]
      exact ⟨rfl, by simp [Outbox.update], rfl⟩

/-- A goroutine that found the session open. -/
example : ((Outbox.State.init Sample.heap).run Sample.codec none (Sample.twoSends.take 1)).1.place 1 =
    some (.checked ⟨Sample.header, .obj 0, .val (Sample.heap 0)⟩) := by decide

end Verif
