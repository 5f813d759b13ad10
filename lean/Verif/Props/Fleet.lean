import Verif.Lemmas.Fleet
import Verif.Props.Outbox
/-! # C86: a body sent to several sessions

C86: a body that is sent to any number of sessions, by `Broadcast` or one by one, goes out with the same contents on all of them, each time in a frame
with the header for that session; and what is written to a connection are the frames of the messages accepted for it, in order, whatever happens on
the others. (Refuted for media messages, and for bodies that the program changes, see C65; proved for all others.) -/

namespace Verif
open Spec (acceptedItems CalmFleet seenOn Sendable Carries receiveMany)

variable {E : Type}

namespace Sample

/-- A position report south of the equator (object 2 of `heap`) is broadcast to the sessions 1, 2 and 3, of which the third is closed. The send loops
of 1 and 2 write it, the second one after session 1 has got another message. -/
def threeSessions : List (Fleet.Event Entity) :=
  [.on 3 .close, .on 1 (.enter 9 header (.obj 2)), .on 1 (.enqueue 9), .on 2 (.enter 9 { header with serial := 8 } (.obj 2)), .on 1 (.take none),
    .on 2 (.enqueue 9), .on 3 (.enter 9 header (.obj 2)), .on 1 (.enter 4 header (.obj 0)), .on 1 (.enqueue 4), .on 2 (.take none), .on 1 (.take none)]

/-- A media message is sent to two sessions. -/
def twoCopies : List (Fleet.Event Entity) :=
  [.on 1 (.enter 9 header (.obj 0)), .on 1 (.enqueue 9), .on 2 (.enter 9 header (.obj 0)), .on 2 (.enqueue 9), .on 1 (.take none), .on 2 (.take none)]

/-- All objects are media messages. -/
def mediaHeap : Nat → Entity := fun _ => .m0801 { mediaID := 7, packet := some [1, 2, 3] }

end Sample

/-- **C86, connections.** With any number of connections: what was written to each one is the concatenation of the frames of the first messages that
were accepted for it, each with the body it had when `Send` was called; if writing failed, a part of the next frame may follow. -/
theorem C86_connections_partial (env : Env) (keys : Nat → Option EncKey) (heap : Nat → Entity) (evs : List (Fleet.Event Entity))
    (hcalm : CalmFleet (entityCodec env) keys (.init heap) evs) (k : Nat) :
    ∃ (sent : List (Outbox.Item Entity × Bytes)) (rest : List (Outbox.Item Entity)) (tail : Bytes),
      acceptedItems (seenOn k ((Fleet.State.init heap).run (entityCodec env) keys evs).2) = sent.map (·.1) ++ rest ∧
      (∀ x ∈ sent, Codec.sendBytes (entityCodec env) (keys k) { header := x.1.header, body := x.1.given } = .ok x.2) ∧
      (((Fleet.State.init heap).run (entityCodec env) keys evs).1.conns k).wire = (sent.map (·.2)).flatten ++ tail ∧
      (tail = [] ∨ ∃ y ys f, rest = y :: ys ∧
        Codec.sendBytes (entityCodec env) (keys k) { header := y.header, body := y.given } = .ok f ∧ tail <+: f) := by
  rw [(Fleet.seen_run (entityCodec env) keys k evs (.init heap)).2, Fleet.wire_seen]
  exact C55_stream env (keys k) heap _ (Fleet.calm_seen _ keys k evs (.init heap) hcalm)

/-- **C86, contents.** `r` is a body, other than a media message, that has the contents `v` at some moment, and the program does not assign to it
afterwards. Then all messages with this body that are accepted from then on, by whatever sessions and however often, are due the frames of `v` with their
own headers; so on every connection it is these frames that `C86_connections_partial` finds. -/
theorem C86_same_partial (env : Env) (keys : Nat → Option EncKey) (heap : Nat → Entity) (pre post : List (Fleet.Event Entity))
    (hcalm : CalmFleet (entityCodec env) keys (.init heap) (pre ++ post)) (r : Nat) (v : Entity)
    (hv : ((Fleet.State.init heap).run (entityCodec env) keys pre).1.heap r = v) (hm : v.msgID ≠ 0x0801)
    (hno : ∀ e, Fleet.Event.write r e ∉ post) (k i : Nat) (x : Outbox.Item Entity)
    (hx : (k, .accepted i x) ∈ (((Fleet.State.init heap).run (entityCodec env) keys pre).1.run (entityCodec env) keys post).2)
    (hr : x.arg = .obj r) :
    Codec.sendBytes (entityCodec env) (keys k) { header := x.header, body := x.given } =
      Codec.sendBytes (entityCodec env) (keys k) { header := x.header, body := .val v } := by
  obtain ⟨g, hg, ha⟩ := Fleet.same_given (Outbox.stable_entity env) keys heap r v hm post pre hcalm
    (by rw [hv]; exact .refl _ _) hno k i x hx hr
  rw [hg]
  exact ha.sendBytes x.header

/-- **C86, terminals.** Each terminal, reading what was written to its connection in any pieces and up to any point, receives the first messages that were
accepted for its session, in order and with their contents. -/
theorem C86_delivered_partial (env : Env) (heap : Nat → Entity) (evs : List (Fleet.Event Entity))
    (hcalm : CalmFleet (entityCodec env) (fun _ => none) (.init heap) evs) (k : Nat)
    (hok : ∀ x ∈ acceptedItems (seenOn k ((Fleet.State.init heap).run (entityCodec env) (fun _ => none) evs).2),
      ∃ e, Sendable env { header := x.header, body := x.given } e)
    (decKey : Option DecKey) (endErr : Err) (reads : List Bytes) (hr : ∀ c ∈ reads, c.length ≤ 128)
    (hw : reads.flatten <+: (((Fleet.State.init heap).run (entityCodec env) (fun _ => none) evs).1.conns k).wire) (n : Nat) :
    ∃ ds : List (Message Entity),
      ds.length ≤ (acceptedItems (seenOn k ((Fleet.State.init heap).run (entityCodec env) (fun _ => none) evs).2)).length ∧
      (∀ p ∈ (acceptedItems (seenOn k ((Fleet.State.init heap).run (entityCodec env) (fun _ => none) evs).2)).zip ds,
        ∃ e, p.1.given = .val e ∧ Carries { header := p.1.header, body := p.1.given } e p.2) ∧
      (receiveMany (entityCodec env) decKey endErr (ds.length + n) ⟨[], reads⟩).1 = ds.map .ok ++ List.replicate n (.err endErr) := by
  rw [Fleet.wire_seen] at hw
  rw [(Fleet.seen_run (entityCodec env) (fun _ => none) k evs (.init heap)).2] at hok ⊢
  obtain ⟨m, ds, e1, e2, e3, e4⟩ := C55_delivered env heap _ (Fleet.calm_seen _ (fun _ => none) k evs (.init heap) hcalm) hok decKey endErr reads hr
    hw n
  subst e1
  exact ⟨ds, e2, e3, e4⟩

/-- **C86, the others.** As long as the process lives, nothing that happens on another connection, however slow, broken or closed it is, touches what
this one has written, what waits for it and whether it is open. -/
theorem C86_others (C : BodyCodec E) (keys : Nat → Option EncKey) (s : Fleet.State E) (j k : Nat) (h : j ≠ k) (ev : Outbox.Event E) :
    let t := ((s.step C keys (.on j ev)).1.conns k)
    t.wire = (s.conns k).wire ∧ t.queue = (s.conns k).queue ∧ t.closed = (s.conns k).closed ∧ t.loop = (s.conns k).loop ∧
      t.place = (s.conns k).place := by
  have hon : ∀ e, (s.stepOn C keys j e).1.conns k = s.conns k := fun e => by
    simp [Fleet.State.stepOn, Outbox.update, h.symm]
  intro t
  have : t = s.conns k := by
    cases ev with
    | write _ _ => rfl
    | encodeElsewhere _ => rfl
    | _ => exact hon _
  rw [this]
  exact ⟨rfl, rfl, rfl, rfl, rfl⟩

/-- **C86, progress.** As long as nothing fails, a connection alone can write everything that waits for it, whatever the others do not do. -/
theorem C86_progress_partial (env : Env) (keys : Nat → Option EncKey) (heap : Nat → Entity) (evs : List (Fleet.Event Entity))
    (hcalm : CalmFleet (entityCodec env) keys (.init heap) evs) (s : Fleet.State Entity)
    (hs : s = ((Fleet.State.init heap).run (entityCodec env) keys evs).1) (k : Nat) (hrun : (s.conns k).loop = .running) (hup : s.crashed = false)
    (frames : List Bytes)
    (hf : (s.conns k).queue.map (fun x => Codec.sendBytes (entityCodec env) (keys k) { header := x.header, body := x.given }) = frames.map .ok) :
    ((s.run (entityCodec env) keys (List.replicate (s.conns k).queue.length (.on k (.take none)))).1.conns k).wire =
      (s.conns k).wire ++ frames.flatten := by
  have fresh := (Fleet.fresh_conn (Outbox.stable_entity env) keys heap evs hcalm k).1
  rw [← hs] at fresh
  change ∀ x ∈ (s.conns k).queue, _ at fresh
  clear hs hcalm
  generalize hqq : (s.conns k).queue = q at hf fresh ⊢
  induction q generalizing s frames with
  | nil =>
    cases frames with
    | nil => simp [Fleet.State.run]
    | cons f fs => simp at hf
  | cons x q ih =>
    cases frames with
    | nil => simp at hf
    | cons f fs =>
      simp only [List.map_cons, List.cons.injEq] at hf
      have hx := (show Outbox.Fresh (entityCodec env) (s.conn k).heap x from fresh x (by simp)).sendBytes (key := keys k)
      rw [hf.1] at hx
      have hl : (s.conn k).loop = .running := hrun
      have hc : (s.conn k).crashed = false := hup
      have hcq : (s.conn k).queue = x :: q := hqq
      have hstep : (s.conn k).step (entityCodec env) (keys k) (.take none) =
          ({ s.conn k with queue := q, heap := (s.conn k).heapAfter (entityCodec env) x.arg, wire := (s.conn k).wire ++ f },
            [.handled x ((s.conn k).body x.arg) f true]) := by
        unfold Outbox.State.step
        rw [if_neg (by simp [hc])]
        simp only [hl, hcq, hx]
      simp only [List.length_cons, List.replicate_succ, Fleet.State.run]
      have hst : s.step (entityCodec env) keys (.on k (.take none)) = s.stepOn (entityCodec env) keys k (.take none) := rfl
      rw [hst]
      have hcs : ((s.stepOn (entityCodec env) keys k (.take none)).1.conns k) = ((s.conn k).step (entityCodec env) (keys k) (.take none)).1 := by
        simp [Fleet.State.stepOn, Outbox.update]
      rw [hstep] at hcs
      rw [ih (s.stepOn (entityCodec env) keys k (.take none)).1 (by rw [hcs]; exact hrun)
        (by show ((s.conn k).step (entityCodec env) (keys k) (.take none)).1.crashed = false; rw [hstep]; exact hup) fs (by rw [hcs]) hf.2
        (fun y hy => ?_), hcs]
      · simp [Fleet.State.conn]
      · show Outbox.Fresh _ ((s.conn k).step (entityCodec env) (keys k) (.take none)).1.heap y
        rw [hstep]
        exact (show Outbox.Fresh (entityCodec env) (s.conn k).heap y from fresh y (by simp [hy])).heapAfter (Outbox.stable_entity env) x.arg

/-- The broadcast report is calm; two sessions accept it, the third refuses it; both wires carry frames. -/
example : CalmFleet Sample.codec (fun _ => none) (.init Sample.heap) Sample.threeSessions ∧
    (acceptedItems (seenOn 1 ((Fleet.State.init Sample.heap).run Sample.codec (fun _ => none) Sample.threeSessions).2)).map (·.arg) = [.obj 2, .obj 0] ∧
    (acceptedItems (seenOn 2 ((Fleet.State.init Sample.heap).run Sample.codec (fun _ => none) Sample.threeSessions).2)).map (·.arg) = [.obj 2] ∧
    seenOn 3 ((Fleet.State.init Sample.heap).run Sample.codec (fun _ => none) Sample.threeSessions).2 = [.refused 9] ∧
    (((Fleet.State.init Sample.heap).run Sample.codec (fun _ => none) Sample.threeSessions).1.conns 2).wire.length > 40 ∧
    (∀ e, Fleet.Event.write 2 e ∉ Sample.threeSessions) ∧ (Sample.heap 2).msgID ≠ 0x0801 := by
  refine ⟨⟨trivial, by decide, trivial, by decide, trivial, trivial, by decide, by decide, trivial, trivial, trivial, trivial⟩, by decide, by decide,
    by decide, by decide, ?_, by decide⟩
  intro e
  simp [Sample.threeSessions]

/-- In the middle of it messages wait for both sessions, whose send loops run. -/
example : CalmFleet Sample.codec (fun _ => none) (.init Sample.heap) (Sample.threeSessions.take 4) ∧
    (((Fleet.State.init Sample.heap).run Sample.codec (fun _ => none) (Sample.threeSessions.take 4)).1.conns 1).queue.length = 1 ∧
    (((Fleet.State.init Sample.heap).run Sample.codec (fun _ => none) (Sample.threeSessions.take 4)).1.conns 1).loop = .running :=
  ⟨⟨trivial, by decide, trivial, by decide, trivial⟩, by decide, by decide⟩

/-- **C86 is refuted**: a media message that is sent to two sessions has its content on the first connection that writes it only. -/
theorem C86_refuted : ¬ ∀ (env : Env) (heap : Nat → Entity) (evs : List (Fleet.Event Entity)) (k i : Nat) (x : Outbox.Item Entity) (b : Body Entity)
    (w : Bytes), (∀ r e, Fleet.Event.write r e ∉ evs) → (k, .handled x b w true) ∈ ((Fleet.State.init heap).run (entityCodec env) (fun _ => none) evs).2 →
    x.arg = .obj i → Codec.sendBytes (entityCodec env) none { header := x.header, body := .val (heap i) } = .ok w := by
  intro h
  have hd : ((seenOn 2 ((Fleet.State.init Sample.mediaHeap).run (entityCodec Sample.env) (fun _ => none) Sample.twoCopies).2).filterMap fun o =>
      match o with | .handled x b w true => some (x, b, w) | _ => none).map (fun p => (p.1.arg, p.1.header,
        decide (Codec.sendBytes (entityCodec Sample.env) none { header := Sample.header, body := .val (Sample.mediaHeap 0) } = .ok p.2.2))) =
      [(.obj 0, Sample.header, false)] := by decide
  generalize hl : seenOn 2 ((Fleet.State.init Sample.mediaHeap).run (entityCodec Sample.env) (fun _ => none) Sample.twoCopies).2 = l at hd
  cases hf : l.filterMap fun o => match o with | .handled x b w true => some (x, b, w) | _ => none with
  | nil => rw [hf] at hd; cases hd
  | cons p ps =>
    rw [hf] at hd
    simp only [List.map_cons, List.cons.injEq, Prod.mk.injEq, decide_eq_false_iff_not] at hd
    obtain ⟨⟨h1, h2, h3⟩, -⟩ := hd
    have hp : p ∈ l.filterMap fun o => match o with | .handled x b w true => some (x, b, w) | _ => none := by rw [hf]; simp
    obtain ⟨o, ho, he⟩ := List.mem_filterMap.mp hp
    have ho' : o = .handled p.1 p.2.1 p.2.2 true := by
      split at he
      · cases he; rfl
      · cases he
    subst ho'
    rw [← hl] at ho
    obtain ⟨⟨j, o⟩, hq, hqe⟩ := List.mem_filterMap.mp ho
    simp only [] at hqe
    split at hqe
    · next hk =>
      simp only [Option.some.injEq] at hqe
      subst hk hqe
      have := h Sample.env Sample.mediaHeap Sample.twoCopies _ 0 p.1 p.2.1 p.2.2 (by intro r e; simp [Sample.twoCopies]) hq h1
      rw [h2] at this
      exact h3 this
    · cases hqe

end Verif
