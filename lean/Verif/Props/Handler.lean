import Verif.Lemmas.Restart
import Verif.Lemmas.HandlerExact
import Verif.Lemmas.Entity
import Verif.Props.Registry
import Verif.Props.Sample
/-! # The receive loop of a session (C32, C33, C41, C43, C49) -/

namespace Verif

open Handler Spec

/-- Every message that the decoder returns meets `Delivered`, so the hypothesis `Arrived` below says only that the received messages come from the
decoder. -/
theorem C49_decoded_messages_are_delivered (env : Env) (key : Option DecKey) (data : Bytes) (d : Message Entity)
    (h : Message.decode (entityCodec env) key {} data = .ok d) : Delivered d := by
  refine ⟨fun e hb => C11_body_type_matches_header env key data d e h hb, ?_, ?_⟩
  · intro hp
    obtain ⟨content, he⟩ := Message.decode_ok_header h
    obtain ⟨_, _, _, _, _, _, _, _, hd⟩ := decodeEnvelope_ok he
    rw [← Property.isEnablePacket_spec] at hp
    exact Header.decode_packet hd hp
  · intro b hb
    obtain ⟨content, plain, e, n, -, -, hdec, hbody⟩ := Message.decode_body_inv rfl h (by rw [hb]; simp)
    rw [hb] at hbody
    simp only [Body.val.injEq] at hbody
    subst hbody
    exact Entity.decodeBody_content hdec

namespace Sample

/-- A heartbeat, which has no handler. -/
def heartbeat : Message Entity := { header := { header with msgID := 0x0002, serial := 21 }, body := .val (.m0002 {}) }

/-- A message with an id the server does not know. -/
def unknownMessage : Message Entity := { header := { header with msgID := 0x0f01, serial := 22 }, body := .nil }

/-- An answer to the request with serial number 5. -/
def answer : Message Entity := { header := { header with msgID := 0x0001, serial := 23 }, body := .val (.m0001 { replySerial := 5, replyID := 0x8103, result := 0 }) }

/-- Part `seq` of `sum` of the multimedia upload 7. -/
def part (sum seq : UInt16) (data : Bytes) : Message Entity :=
  { header := { header with msgID := 0x0801, property := 0x2000, serial := seq + 30, packet := some ⟨sum, seq⟩ },
    body := .val (.m0801 { mediaID := 7, type := 0, coding := 0, event := 0, channelID := 1, location := {}, packet := some data }) }

/-- The upload of these parts. -/
def video : Upload := ⟨13800138000, 0x0801, 7⟩

/-- A history: handlers are registered and replaced, a request is made, all sorts of messages arrive, handlers panic, a part cannot be stored at
first, another session stores parts, and the connection ends. -/
def history : List Input :=
  [.outside (.addHandler 0x0801 (some 1)), .outside (.addRequest ⟨0x8103, 5, 40⟩), .receive (.ok heartbeat) {},
    .receive (.ok answer) { callback := .panics, beforeDispatch := [.addHandler 0x0001 (some 2), .addHandler 0x0001 none] },
    .receive (.ok (part 2 1 [10, 11])) { write := .noDir }, .receive (.ok unknownMessage) {},
    .receive (.ok (part 2 1 [10, 11])) {}, .outside (.write ⟨13812345678, 0x0801, 7, 2⟩ 2 [99] .ok), .outside (.addHandler 0x0801 (some 3)),
    .receive (.ok (part 2 2 [12])) { handler := .panics }, .receive (.ok answer) {}, .receive (.err .eof) {}, .receive (.ok heartbeat) {},
    .outside (.addHandler 0x0002 (some 4))]

theorem history_arrived : ∀ i ∈ history, Arrived i := by
  have hb : Delivered heartbeat := ⟨fun e h => by cases h; rfl, fun h => absurd h (by decide), fun b h => by cases h⟩
  have hu : Delivered unknownMessage := ⟨fun e h => (by cases h), fun h => absurd h (by decide), fun b h => by cases h⟩
  have ha : Delivered answer := ⟨fun e h => by cases h; rfl, fun h => absurd h (by decide), fun b h => by cases h⟩
  have hp : ∀ a b d, Delivered (part a b d) := fun a b d => ⟨fun e h => by cases h; rfl, fun _ => rfl, fun b h => by cases h; rfl⟩
  intro i hi
  simp only [history, List.mem_cons, List.not_mem_nil, or_false] at hi
  rcases hi with rfl | rfl | rfl | rfl | rfl | rfl | rfl | rfl | rfl | rfl | rfl | rfl | rfl | rfl <;> first | exact trivial | exact hb | exact hu | exact ha | exact hp _ _ _

end Sample

/-- What the loop does in the history: in particular the merged upload "10 11 12" is given to the handler registered last. -/
example : (match ({} : Loop).run true Sample.history with | .ok r => some r.2 | _ => none) =
    some [.registered 0x0801 1, .requested ⟨0x8103, 5, 40⟩, .unhandled Sample.heartbeat, .callback 40 Sample.answer, .registered 0x0001 2,
      .touch, .handle 2 Sample.answer, .wrote ⟨13800138000, 0x0801, 7, 2⟩ 1 [10, 11] .noDir, .reply 31 0x0801 1, .reply 22 0x0f01 3,
      .wrote ⟨13800138000, 0x0801, 7, 2⟩ 1 [10, 11] .ok, .reply 31 0x0801 0, .wrote ⟨13812345678, 0x0801, 7, 2⟩ 2 [99] .ok, .registered 0x0801 3,
      .wrote ⟨13800138000, 0x0801, 7, 2⟩ 2 [12] .ok, .reply 32 0x0801 0, .merged ⟨13800138000, 0x0801, 7, 2⟩ .ok,
      .touch, .handle 3 { Sample.part 2 2 [10, 11, 12] with header := (Sample.part 2 2 []).header },
      .touch, .handle 2 Sample.answer, .closed, .registered 0x0002 4] := by decide +kernel

/-! ## C32 -/

/-- C32. In every history the received messages with a decoded body, other than parts of an upload being put together, are offered to the handlers in
the order they were received, each exactly once. -/
theorem C32_each_once_in_order (auto : Bool) (is : List Input) (hin : ∀ i ∈ is, Arrived i) :
    ∃ s log, ({} : Loop).run auto is = .ok (s, log) ∧
      (offered log).filter (fun m => !isPart auto m) = ((receivedIn is).map (·.1)).filter (fun m => hasBody m && !isPart auto m) := by
  obtain ⟨s, log, h1, _, _, h2, _⟩ := run_spec auto {} is rfl hin
  exact ⟨s, log, h1, h2⟩

/-- The hypothesis is met by `history`, with five messages received and two of the others offered. -/
example : (∀ i ∈ Sample.history, Arrived i) ∧ ((receivedIn Sample.history).map (·.1)).filter (fun m => hasBody m && !isPart true m) =
    [Sample.heartbeat, Sample.answer, Sample.answer] := ⟨Sample.history_arrived, by decide +kernel⟩

/-- C32. A message offered to the handlers is given to the handler registered last for its message id, and to none exactly if there is none. -/
theorem C32_last_registered_handler (auto : Bool) (is : List Input) (hin : ∀ i ∈ is, Arrived i) (s : Loop) (log l1 l2 : List Act)
    (hr : ({} : Loop).run auto is = .ok (s, log)) :
    (∀ h m, log = l1 ++ .handle h m :: l2 → lastRegistered m.header.msgID l1 = some h) ∧
    (∀ m, log = l1 ++ .unhandled m :: l2 → lastRegistered m.header.msgID l1 = none) := by
  obtain ⟨s', log', h1, ht, _⟩ := run_spec auto {} is rfl hin
  rw [hr] at h1
  obtain ⟨rfl, rfl⟩ : s = s' ∧ log = log' := by simpa using h1
  constructor
  · intro h m hl
    have := (tr_handled ht [] (fun _ => rfl) l1 l2 _ hl).1 h m rfl
    simpa using this
  · intro m hl
    have := (tr_handled ht [] (fun _ => rfl) l1 l2 _ hl).2 m rfl
    simpa using this

/-- C32. The messages answered "unsupported" by the server are exactly those without decoded body, in order, each with its serial number and id. -/
theorem C32_unsupported (auto : Bool) (is : List Input) (hin : ∀ i ∈ is, Arrived i) :
    ∃ s log, ({} : Loop).run auto is = .ok (s, log) ∧
      (replies log).filter (fun r => r.2.2 = 3) = (((receivedIn is).map (·.1)).filter fun m => !hasBody m).map fun m => (m.header.serial, m.header.msgID, 3) := by
  obtain ⟨s, log, h1, _, h2, _⟩ := run_spec auto {} is rfl hin
  refine ⟨s, log, h1, ?_⟩
  rw [h2]
  generalize receivedIn is = ms
  induction ms with
  | nil => rfl
  | cons x ms ih =>
    rw [List.flatMap_cons, List.filter_append, ih, List.map_cons]
    unfold due
    cases hb : hasBody x.1 with
    | false => simp [hb]
    | true =>
      simp only [Bool.not_true, Bool.false_eq_true, if_false, hb, List.filter_cons]
      split
      · by_cases hw : x.2.write = .ok <;> simp [hw]
      · simp

/-- Of the messages of `history`, one is unsupported; the handler of the heartbeat is the one registered last. -/
example : ((((receivedIn Sample.history).map (·.1)).filter fun m => !hasBody m).map fun m => (m.header.serial, m.header.msgID, (3 : UInt8))) = [(22, 0x0f01, 3)] := by
  decide +kernel

/-! ## C33 -/

/-- C33 fails: a session without handler for heartbeats receives nothing but heartbeats; its keepalive period is never restarted. (Likewise for
messages with unknown id and for the parts of an upload before it is complete.) -/
theorem C33_refuted : ¬ ∀ (is : List Input) (s : Loop) (log : List Act), (∀ i ∈ is, Arrived i) → ({} : Loop).run true is = .ok (s, log) →
    (receivedIn is).length ≤ log.countP (fun a => a = .touch) := by
  intro h
  have hb : Arrived (.receive (.ok Sample.heartbeat) {}) := Sample.history_arrived _ (by simp [Sample.history])
  have := h [.receive (.ok Sample.heartbeat) {}] _ _ (by simpa using hb) rfl
  revert this
  decide +kernel

/-- C33. What holds: a received message for whose id a handler is registered restarts the period, unless it is a part of an upload being put together.
Missing for the full property: messages without handler, and parts. -/
theorem C33_handled_message_partial (auto : Bool) (is : List Input) (hin : ∀ i ∈ is, Arrived i) (s : Loop) (log : List Act)
    (hr : ({} : Loop).run auto is = .ok (s, log)) (hrun : s.running = true) (m : Message Entity) (a : Around) (hm : Delivered m)
    (hb : hasBody m = true) (hp : isPart auto m = false) (h : Nat) (hreg : lastRegistered m.header.msgID log = some h) :
    ∃ s' x, s.step auto (.receive (.ok m) a) = .ok (s', x) ∧ Act.touch ∈ x := by
  obtain ⟨s1, log1, h1, ht, _⟩ := run_spec auto {} is rfl hin
  rw [hr] at h1
  obtain ⟨rfl, rfl⟩ : s = s1 ∧ log = log1 := by simpa using h1
  obtain ⟨s', x, k1, _, _, _, _, k6, _⟩ := process_spec auto s a m hm
  refine ⟨s', x, by unfold Loop.step; rw [hrun]; exact k1, k6 hp hb ?_⟩
  have := tr_handlers ht [] (fun _ => rfl) m.header.msgID
  rw [this]
  simp [hreg]

/-- The hypotheses are met in the middle of `history`. -/
example : ∃ s log, ({} : Loop).run true (Sample.history.take 4) = .ok (s, log) ∧ s.running = true ∧ hasBody Sample.answer = true ∧
    isPart true Sample.answer = false ∧ lastRegistered 0x0001 log = some 2 := ⟨_, _, rfl, by decide +kernel, by decide, by decide, by decide +kernel⟩

/-- C33, exactly: a received message restarts the period if and only if a handler is registered for its id, it has a body, and, if it is a part of an upload being put together,
it completes the upload. (Unless a handler for its id is registered just while it is handled.) -/
theorem C33_exact_partial (auto : Bool) (is : List Input) (hin : ∀ i ∈ is, Arrived i) (s : Loop) (log : List Act)
    (hr : ({} : Loop).run auto is = .ok (s, log)) (hrun : s.running = true) (m : Message Entity) (a : Around) (hm : Delivered m) :
    ∃ s' x, s.step auto (.receive (.ok m) a) = .ok (s', x) ∧ ((∀ h, Act.registered m.header.msgID h ∉ x) →
      (Act.touch ∈ x ↔ (lastRegistered m.header.msgID log).isSome ∧ hasBody m = true ∧ (isPart auto m = true → offered x ≠ []))) := by
  obtain ⟨s1, log1, h1, ht, _⟩ := run_spec auto {} is rfl hin
  rw [hr] at h1
  obtain ⟨rfl, rfl⟩ : s = s1 ∧ log = log1 := by simpa using h1
  obtain ⟨s', x, k1, -⟩ := process_spec auto s a m hm
  refine ⟨s', x, by unfold Loop.step; rw [hrun]; exact k1, fun hq => ?_⟩
  exact process_touch auto s a m hm log (tr_handlers ht [] (fun _ => rfl)) k1 hq

/-- Both cases occur in the middle of `history`: the answer restarts the period, a heartbeat does not. -/
example : ∃ s log, ({} : Loop).run true (Sample.history.take 4) = .ok (s, log) ∧ s.running = true ∧
    (∃ s' x, s.step true (.receive (.ok Sample.answer) {}) = .ok (s', x) ∧ Act.touch ∈ x) ∧
    ∃ s' x, s.step true (.receive (.ok Sample.heartbeat) {}) = .ok (s', x) ∧ Act.touch ∉ x :=
  ⟨_, _, rfl, by decide +kernel, ⟨_, _, rfl, by decide +kernel⟩, _, _, rfl, by decide +kernel⟩

/-- C33. The period is restarted just before each call of a handler, and at no other time. -/
theorem C33_restart_before_handler_partial (auto : Bool) (is : List Input) (hin : ∀ i ∈ is, Arrived i) (s : Loop) (log l1 l2 : List Act)
    (hr : ({} : Loop).run auto is = .ok (s, log)) :
    (∀ h m, log = l1 ++ .handle h m :: l2 → ∃ l, l1 = l ++ [.touch]) ∧
    (log = l1 ++ .touch :: l2 → ∃ h m l, l2 = .handle h m :: l) := by
  obtain ⟨s1, log1, h1, ht, hx⟩ := run_spec auto {} is rfl hin
  clear hx
  rw [hr] at h1
  obtain ⟨rfl, rfl⟩ : s = s1 ∧ log = log1 := by simpa using h1
  have hp := tr_paired ht
  clear ht hr h1
  induction hp generalizing l1 with
  | nil => constructor <;> intros <;> simp_all
  | pair h m hl ih =>
    constructor
    · intro h' m' hx
      match l1 with
      | [] => simp at hx
      | [a] => simp at hx; exact ⟨[], by simp [hx.1]⟩
      | a :: b :: l1 =>
        simp only [List.cons_append, List.cons.injEq] at hx
        obtain ⟨l, rfl⟩ := (ih l1).1 h' m' hx.2.2
        exact ⟨a :: b :: l, rfl⟩
    · intro hx
      match l1 with
      | [] => simp at hx; exact ⟨h, m, _, hx.symm⟩
      | [a] => simp at hx
      | a :: b :: l1 =>
        simp only [List.cons_append, List.cons.injEq] at hx
        exact (ih l1).2 hx.2.2
  | other a ht hh hl ih =>
    constructor
    · intro h' m' hx
      match l1 with
      | [] => simp at hx; exact absurd hx.1 (hh h' m')
      | b :: l1 =>
        simp only [List.cons_append, List.cons.injEq] at hx
        obtain ⟨l, rfl⟩ := (ih l1).1 h' m' hx.2
        exact ⟨b :: l, rfl⟩
    · intro hx
      match l1 with
      | [] => simp at hx; exact absurd hx.1 ht
      | b :: l1 =>
        simp only [List.cons_append, List.cons.injEq] at hx
        exact (ih l1).2 hx.2

/-- In `history` a handler is called, right after the period was restarted. -/
example : ∃ s log l1 l2, ({} : Loop).run true Sample.history = .ok (s, log) ∧ log = l1 ++ .touch :: .handle 2 Sample.answer :: l2 :=
  ⟨_, _, [.registered 0x0801 1, .requested ⟨0x8103, 5, 40⟩, .unhandled Sample.heartbeat, .callback 40 Sample.answer, .registered 0x0001 2], _, rfl, rfl⟩

/-! ## C43 -/

/-- C43. The replies sent by the loop in any history are exactly the due ones, in order: each part of an upload is answered once, with its serial number
and id, success if it was stored and failure otherwise. Missing for the full property: failure if the upload cannot be merged, see `C43_refuted`. -/
theorem C43_replies_partial (auto : Bool) (is : List Input) (hin : ∀ i ∈ is, Arrived i) :
    ∃ s log, ({} : Loop).run auto is = .ok (s, log) ∧ replies log = (receivedIn is).flatMap fun r => due auto r.1 r.2 := by
  obtain ⟨s, log, h1, _, h2, _⟩ := run_spec auto {} is rfl hin
  exact ⟨s, log, h1, h2⟩

/-- The replies of `history`. -/
example : ((receivedIn Sample.history).flatMap fun r => due true r.1 r.2) = [(31, 0x0801, 1), (22, 0x0f01, 3), (31, 0x0801, 0), (32, 0x0801, 0)] := by
  decide +kernel

/-- C43 fails for the completing part: it is answered "success" before merging, so if merging fails the terminal is told that all is well while the
upload is given to no handler. -/
theorem C43_refuted : ∃ (is : List Input) (s : Loop) (log : List Act), (∀ i ∈ is, Arrived i) ∧ ({} : Loop).run true is = .ok (s, log) ∧
    log = [.registered 0x0801 1, .wrote ⟨13800138000, 0x0801, 7, 1⟩ 1 [10] .ok, .reply 31 0x0801 0, .merged ⟨13800138000, 0x0801, 7, 1⟩ .noFile] := by
  refine ⟨[.outside (.addHandler 0x0801 (some 1)), .receive (.ok (Sample.part 1 1 [10])) { merge := .noFile }], _, _, ?_, rfl, by decide +kernel⟩
  intro i hi
  simp only [List.mem_cons, List.not_mem_nil, or_false] at hi
  rcases hi with rfl | rfl
  · exact trivial
  · exact ⟨fun e h => by cases h; rfl, fun _ => rfl, fun b h => by cases h; rfl⟩

/-- C43 exactly. In any history, the answer to a part of an upload whose storage no other session touches meanwhile is what it should be (success exactly
if the part was stored and the parts, if they were merged, were merged successfully) unless the part completes the upload and merging fails. -/
theorem C43_exact_partial (auto : Bool) (is : List Input) (hin : ∀ i ∈ is, Arrived i) (s : Loop) (log : List Act)
    (hr : ({} : Loop).run auto is = .ok (s, log)) (hrun : s.running = true) (m : Message Entity) (a : Around) (hm : Delivered m) (u : Upload) (p : Packet)
    (data : Bytes) (hp : partOf auto m = some (u, p, data)) (hq : Quiet u a) :
    ∃ s' x r, s.step auto (.receive (.ok m) a) = .ok (s', x) ∧ replies x = [(m.header.serial, m.header.msgID, r)] ∧
      ((r = 0 ↔ .write u p.seq data .ok ∈ fileOps x ∧ ∀ o, .merge u o ∈ fileOps x → o = .ok) ↔
        ¬ (completes u p a (.write u p.seq data a.write :: (fileOps log).reverse) ∧ a.merge ≠ .ok)) := by
  obtain ⟨s1, log1, h1, ht, -⟩ := run_spec auto {} is rfl hin
  rw [hr] at h1
  obtain ⟨rfl, rfl⟩ : s = s1 ∧ log = log1 := by simpa using h1
  have hg := tr_after ht after_empty
  rw [List.append_nil] at hg
  obtain ⟨e1, e2, b, e3, e4, e5, e6⟩ := partOf_some hp
  have hproc : s.process auto a m = s.part a m b p data := by
    unfold Loop.process
    rw [e3]
    simp [e1, e2, e4, e5]
  obtain ⟨s', x, k1, -, -, k4, -, -, -, k8⟩ := part_spec s a m b p data (hm.type _ e3).symm
  refine ⟨s', x, _, by unfold Loop.step; rw [hrun]; exact hproc.trans k1, k4, ?_⟩
  have mem : ∀ op : FileOp, op.upload = u → (op ∈ fileOps x ↔ op ∈ opsFor u x) := fun op h => by simp [opsFor, h]
  have hw := mem (.write u p.seq data .ok) rfl
  have hmg := fun o => mem (.merge u o) rfl
  have hcomp : completes u p a (.write u p.seq data a.write :: (fileOps log).reverse) =
      completes u p a (.write u p.seq data a.write :: (fileOps log).reverse.filter fun op => op.upload = u) := by
    unfold completes
    congr 1
    rw [Bool.eq_iff_iff, allStored_iff, allStored_iff]
    have : ∀ i, latestIn u i (.write u p.seq data a.write :: (fileOps log).reverse) =
        latestIn u i (.write u p.seq data a.write :: (fileOps log).reverse.filter fun op => op.upload = u) := fun i => by
      rw [latestIn_own, List.filter_cons_of_pos (by simp [FileOp.upload])]
    simp only [this]
  rw [hcomp]
  have hif : ((if a.write = .ok then (0 : UInt8) else 1) = 0) ↔ a.write = .ok := by split <;> simp_all
  rw [hif, hw]
  simp only [hmg]
  have hwe : FileOp.write u p.seq data .ok = .write u p.seq data a.write ↔ a.write = .ok :=
    ⟨fun h => by simpa using (FileOp.write.inj h).2.2.2.symm, fun h => by rw [h]⟩
  by_cases hseq : p.seq = p.sum
  · obtain ⟨s2, y2, j1, j2⟩ := last_exact s a m b p data (hm.type _ e3).symm u e6 _ _ hg rfl hq hseq
    rw [k1] at j1
    obtain ⟨rfl, rfl⟩ : s' = s2 ∧ x = y2 := by simpa using j1
    split at j2
    · next hc =>
      have hops : ∀ op, op ∈ opsFor u x ↔ op = .merge u a.merge ∨ op = .write u p.seq data a.write := fun op => by
        rw [← List.mem_reverse, j2.1]; simp
      have hwo : a.write = .ok := by simp [completes] at hc; exact hc.1.1
      rw [hc]
      simp [hops, hwo]
    · next hc =>
      have hops : ∀ op, op ∈ opsFor u x ↔ op = .write u p.seq data a.write := fun op => by
        rw [← List.mem_reverse, j2.1]; simp
      rw [Bool.eq_false_iff.2 hc]
      simp [hops, hwe]
  · have hc : completes u p a (.write u p.seq data a.write :: (fileOps log).reverse.filter fun op => op.upload = u) = false := by simp [completes, hseq]
    have := k8 hseq (e6 ▸ hq)
    rw [e6] at this
    rw [hc]
    simp [this, hwe]

/-- The hypotheses are met after part 1 of two, by part 2: it completes the upload. -/
example : ∃ s log, ({} : Loop).run true [.receive (.ok (Sample.part 2 1 [10, 11])) {}] = .ok (s, log) ∧ s.running = true ∧
    partOf true (Sample.part 2 2 [12]) = some (Sample.video, ⟨2, 2⟩, [12]) ∧
    Quiet Sample.video { merge := .noFile, afterWrite := [.write ⟨13812345678, 0x0801, 7, 2⟩ 2 [99] .ok] } ∧
    completes Sample.video ⟨2, 2⟩ { merge := .noFile } (.write Sample.video 2 [12] .ok :: (fileOps log).reverse) = true :=
  ⟨_, _, rfl, rfl, by decide, by unfold Quiet; decide, by decide +kernel⟩

/-! ## C49 -/

/-- C49. Whether the callbacks and handlers of the user return or panic makes no difference to what the loop does. -/
theorem C49_panics_make_no_difference (auto : Bool) (s : Loop) (is : List Input) : s.run auto (is.map calm) = s.run auto is := by
  induction is generalizing s with
  | nil => rfl
  | cons i is ih =>
    show (s.step auto (calm i) >>= fun x => x.1.run auto (is.map calm) >>= fun y => .ok (y.1, x.2 ++ y.2)) = _
    simp only [step_calm, ih]
    rfl

/-- C49. No history of delivered messages crashes the process or stops the loop: it ends only when receiving fails. -/
theorem C49_loop_goes_on (auto : Bool) (is : List Input) (hin : ∀ i ∈ is, Arrived i) :
    ∃ s log, ({} : Loop).run auto is = .ok (s, log) ∧ ((∀ e a, Input.receive (.err e) a ∉ is) → s.running = true) := by
  obtain ⟨s, log, h1, _, _, _, _, h2⟩ := run_spec auto {} is rfl hin
  exact ⟨s, log, h1, h2⟩

/-- In `history` a callback and a handler panic. -/
example : Sample.history.map calm ≠ Sample.history ∧ (∀ e a, Input.receive (.err e) a ∉ Sample.history.take 11) := by
  refine ⟨by decide +kernel, ?_⟩
  intro e a h
  simp [Sample.history] at h

/-! ## C41 -/

/-- C41 fails: the parts of an upload arrive as 2, 1. All are stored and answered, and the upload is never given to the handler. -/
theorem C41_refuted : ∃ (is : List Input) (s : Loop) (log : List Act), (∀ i ∈ is, Arrived i) ∧ ({} : Loop).run true is = .ok (s, log) ∧
    log = [.registered 0x0801 1, .wrote ⟨13800138000, 0x0801, 7, 2⟩ 2 [20] .ok, .reply 32 0x0801 0,
      .wrote ⟨13800138000, 0x0801, 7, 2⟩ 1 [10] .ok, .reply 31 0x0801 0] := by
  refine ⟨[.outside (.addHandler 0x0801 (some 1)), .receive (.ok (Sample.part 2 2 [20])) {}, .receive (.ok (Sample.part 2 1 [10])) {}], _, _, ?_, rfl, by decide +kernel⟩
  intro i hi
  simp only [List.mem_cons, List.not_mem_nil, or_false] at hi
  rcases hi with rfl | rfl | rfl
  · exact trivial
  · exact ⟨fun e h => by cases h; rfl, fun _ => rfl, fun b h => by cases h; rfl⟩
  · exact ⟨fun e h => by cases h; rfl, fun _ => rfl, fun b h => by cases h; rfl⟩

/-- C41 also fails on "exactly once": a retransmission of the last part gives the upload to the handler again. -/
theorem C41_refuted_once : ∃ (is : List Input) (s : Loop) (log : List Act), (∀ i ∈ is, Arrived i) ∧ ({} : Loop).run true is = .ok (s, log) ∧
    offered log = [Sample.part 2 2 [10, 20], Sample.part 2 2 [10, 20]] ∧ (receivedIn is).map (·.1) = [Sample.part 2 1 [10], Sample.part 2 2 [20], Sample.part 2 2 [20]] := by
  refine ⟨[.receive (.ok (Sample.part 2 1 [10])) {}, .receive (.ok (Sample.part 2 2 [20])) {}, .receive (.ok (Sample.part 2 2 [20])) {}], _, _, ?_, rfl, by decide +kernel, rfl⟩
  intro i hi
  simp only [List.mem_cons, List.not_mem_nil, or_false] at hi
  rcases hi with rfl | rfl | rfl <;> exact ⟨fun e h => by cases h; rfl, fun _ => rfl, fun b h => by cases h; rfl⟩

/-- C41. While no part of the upload with the highest number has arrived, the upload is given to no handler. -/
theorem C41_not_before_last_part (auto : Bool) (is : List Input) (hin : ∀ i ∈ is, Arrived i) (u : Upload) (hq : ∀ i ∈ is, Undisturbed u i)
    (hlast : ∀ x ∈ receivedIn is, ∀ p d, partOf auto x.1 = some (u, p, d) → p.seq ≠ p.sum) :
    ∃ s log, ({} : Loop).run auto is = .ok (s, log) ∧ (offered log).filter (belongs auto u) = [] := by
  obtain ⟨s, log, h1, _, _, _, h2, _⟩ := run_spec auto {} is rfl hin
  exact ⟨s, log, h1, (h2 u hq hlast).2⟩

/-- C41. If the part with the highest number arrives last, after all the others in any order, with any retransmissions and with anything else in
between, then the upload is given to the handlers exactly once, with the latest contents of all parts in order. Missing for the full property: the part
with the highest number arriving earlier or again, see `C41_refuted` and `C41_refuted_once`. -/
theorem C41_last_part_last_partial (auto : Bool) (is : List Input) (hin : ∀ i ∈ is, Arrived i) (hend : ∀ e a, Input.receive (.err e) a ∉ is)
    (m : Message Entity) (a : Around) (hm : Delivered m) (b : T0801) (hb : m.body = .val (.m0801 b)) (u : Upload) (p : Packet) (data : Bytes)
    (hu : partOf auto m = some (u, p, data)) (hseq : p.seq = p.sum) (hsum : 1 ≤ p.sum.toNat) (hwrite : a.write = .ok) (hmerge : a.merge = .ok)
    (hq : ∀ i ∈ is ++ [.receive (.ok m) a], Undisturbed u i)
    (hparts : ∀ x ∈ receivedIn is, ∀ q d, partOf auto x.1 = some (u, q, d) → 1 ≤ q.seq.toNat ∧ q.seq.toNat < p.sum.toNat ∧ q.sum = p.sum ∧ x.2.write = .ok)
    (hall : ∀ i : UInt16, 1 ≤ i.toNat → i.toNat < p.sum.toNat → ∃ x ∈ receivedIn is, ∃ q d, partOf auto x.1 = some (u, q, d) ∧ q.seq = i) :
    ∃ s log, ({} : Loop).run auto (is ++ [.receive (.ok m) a]) = .ok (s, log) ∧
      (offered log).filter (belongs auto u) = [mergedMessage m b
        (joined (latest (partWrites auto u (receivedIn (is ++ [.receive (.ok m) a]))) u) 1 p.sum.toNat)] := by
  have hlast : NoLast auto u (receivedIn is) := by
    intro x hx q d hq
    have := hparts x hx q d hq
    intro he
    rw [he, this.2.2.1] at this
    omega
  obtain ⟨s, log, h1, ht, _, _, h2, h3⟩ := run_spec auto {} is rfl hin
  obtain ⟨ho, hn⟩ := h2 u (fun i hi => hq i (by simp [hi])) hlast
  have hrun := h3 hend
  have ha := tr_after ht after_empty
  -- the last part
  have hpm : isPart auto m = true := by
    unfold partOf at hu
    split at hu
    · assumption
    · simp at hu
  have hdat : m.header.packet = some p ∧ b.packet = some data ∧ (Loop.partFile m b p).upload = u := by
    unfold partOf at hu
    rw [if_pos hpm, hb] at hu
    cases hpk : m.header.packet with
    | none => simp [hpk] at hu
    | some p' =>
      simp only [hpk, Option.map_eq_some_iff, Prod.mk.injEq] at hu
      obtain ⟨d, k1, k2, rfl, rfl⟩ := hu
      exact ⟨rfl, k1, k2⟩
  obtain ⟨hpk, hdata, hup⟩ := hdat
  have hflags : auto = true ∧ Property.isEnablePacket m.header.property = true := by
    unfold isPart at hpm
    rw [Property.isEnablePacket_spec]
    simp only [Bool.and_eq_true] at hpm
    exact hpm.1
  have hproc : s.process auto a m = s.part a m b p data := by
    unfold Loop.process
    rw [hb]
    simp [hflags, hpk, hdata]
  have hrev : ((fileOps log).reverse ++ []).filter (fun op => op.upload = u) = (partWrites auto u (receivedIn is)).reverse := by
    rw [List.append_nil, List.filter_reverse]
    exact congrArg List.reverse ho
  have mem_writes : ∀ x ∈ receivedIn is, ∀ q d, partOf auto x.1 = some (u, q, d) → FileOp.write u q.seq d x.2.write ∈ partWrites auto u (receivedIn is) := by
    intro x hx q d hq
    rw [partWrites, List.mem_filterMap]
    exact ⟨x, hx, by simp [hq]⟩
  have writes_mem : ∀ op ∈ partWrites auto u (receivedIn is), ∃ x ∈ receivedIn is, ∃ q d, partOf auto x.1 = some (u, q, d) ∧ op = .write u q.seq d x.2.write := by
    intro op hop
    rw [partWrites, List.mem_filterMap] at hop
    obtain ⟨x, hx, h⟩ := hop
    simp only [Option.bind_eq_some_iff] at h
    obtain ⟨⟨u', q, d⟩, k1, k2⟩ := h
    split at k2
    · rename_i hu'
      subst hu'
      exact ⟨x, hx, q, d, k1, by simpa using k2.symm⟩
    · simp at k2
  obtain ⟨s', x, k1, k2⟩ := last_spec s a m b p data (hm.type _ hb).symm _ ha (by rw [hup]; exact hq (.receive (.ok m) a) (by simp)) hwrite hmerge hseq (by
    intro i i1 i2
    rw [hup, latestIn_own, List.filter_cons_of_pos (by simp [FileOp.upload]), hrev]
    by_cases hi : i = p.seq
    · subst hi
      simp [latestIn, leaves]
    · have hlt : i.toNat < p.sum.toNat := by
        rcases Nat.lt_or_ge i.toNat p.sum.toNat with h | h
        · exact h
        · exact absurd (UInt16.toNat_inj.1 (show i.toNat = p.seq.toNat by rw [hseq]; omega)) hi
      obtain ⟨y, hy, q, d, j1, j2⟩ := hall i i1 hlt
      have hw := mem_writes y hy q d j1
      rw [(hparts y hy q d j1).2.2.2, j2] at hw
      exact latestIn_of_mem (List.mem_cons_of_mem _ (List.mem_reverse.2 hw)) (by simp [leaves]))
  rw [hup, hrev] at k2
  have hrec : receivedIn (is ++ [.receive (.ok m) a]) = receivedIn is ++ [(m, a)] := receivedIn_snoc is hin hend m a
  have hwrites : partWrites auto u (receivedIn is ++ [(m, a)]) = partWrites auto u (receivedIn is) ++ [.write u p.seq data .ok] := by
    rw [partWrites, List.filterMap_append]
    show _ = List.filterMap _ _ ++ _
    simp [hu, hwrite]
  have hcontent : mergedIn u (.merge u .ok :: .write u p.seq data .ok :: (partWrites auto u (receivedIn is)).reverse) =
      some (joined (latest (partWrites auto u (receivedIn (is ++ [.receive (.ok m) a]))) u) 1 p.sum.toNat) := by
    rw [hrec, hwrites, show latest (partWrites auto u (receivedIn is) ++ [.write u p.seq data .ok]) u =
        fun i => latestIn u i (.write u p.seq data .ok :: (partWrites auto u (receivedIn is)).reverse) by funext i; simp [latest], mergedIn, if_pos rfl]
    rw [mergedIn_none (h := .write u p.seq data .ok :: (partWrites auto u (receivedIn is)).reverse)]
    · rw [joined_trim _ p.sum]
      · simp [leaves]
      · intro i c hc
        obtain ⟨d, o, hmem, _⟩ := latestIn_mem hc
        rcases List.mem_cons.1 hmem with hx | hx
        · cases hx
          rw [hseq]
          omega
        · obtain ⟨y, hy, q, d', j1, j2⟩ := writes_mem _ (List.mem_reverse.1 hx)
          have := hparts y hy q d' j1
          cases j2
          omega
    · intro o hx
      rcases List.mem_cons.1 hx with hx | hx
      · simp at hx
      · obtain ⟨y, hy, q, d', j1, j2⟩ := writes_mem _ (List.mem_reverse.1 hx)
        simp at j2
  rw [hcontent] at k2
  refine ⟨s', log ++ x, ?_, ?_⟩
  · rw [run_append, h1]
    simp only [Res.bind]
    rw [run_cons auto s s' _ x [] (by unfold Loop.step; rw [hrun]; exact hproc.trans k1)]
    simp [Loop.run, Res.bind]
  · rw [offered_append, List.filter_append, hn, k2, List.nil_append]
    rw [List.filter_cons_of_pos]
    · rfl
    · have : ∀ c, partOf auto (mergedMessage m b c) = some (u, p, c) := by
        intro c
        unfold partOf isPart
        rw [← Property.isEnablePacket_spec]
        simp [hflags, hpk, ← hup, Loop.partFile, T0801.getTag]
      simp [belongs, this]

/-- The hypotheses are met: parts 2, 1 and again 2 of three, a heartbeat, parts of other uploads by another session, then part 3. -/
example : ∃ s log, ({} : Loop).run true [.receive (.ok (Sample.part 3 2 [20])) {}, .outside (.write ⟨13812345678, 0x0801, 7, 2⟩ 2 [99] .ok),
      .receive (.ok (Sample.part 3 1 [10, 11])) {}, .receive (.ok Sample.heartbeat) {}, .receive (.ok (Sample.part 3 2 [21])) {},
      .receive (.ok (Sample.part 3 3 [30])) { afterWrite := [.write ⟨13800138000, 0x0801, 8, 2⟩ 2 [98] .ok] }] = .ok (s, log) ∧
    (offered log).filter (belongs true Sample.video) = [Sample.part 3 3 [10, 11, 21, 30]] := by
  have hp : ∀ a b d, Delivered (Sample.part a b d) := fun a b d => ⟨fun e h => by cases h; rfl, fun _ => rfl, fun b h => by cases h; rfl⟩
  refine C41_last_part_last_partial true [.receive (.ok (Sample.part 3 2 [20])) {}, .outside (.write ⟨13812345678, 0x0801, 7, 2⟩ 2 [99] .ok),
      .receive (.ok (Sample.part 3 1 [10, 11])) {}, .receive (.ok Sample.heartbeat) {}, .receive (.ok (Sample.part 3 2 [21])) {}] ?_ ?_ (Sample.part 3 3 [30])
      { afterWrite := [.write ⟨13800138000, 0x0801, 8, 2⟩ 2 [98] .ok] } (hp _ _ _)
      { mediaID := 7, type := 0, coding := 0, event := 0, channelID := 1, location := {}, packet := some [30] } rfl Sample.video ⟨3, 3⟩ [30]
      (by decide) rfl (by decide) rfl rfl ?_ ?_ ?_
  · intro i hi
    simp only [List.mem_cons, List.not_mem_nil, or_false] at hi
    rcases hi with rfl | rfl | rfl | rfl | rfl
    · exact hp _ _ _
    · trivial
    · exact hp _ _ _
    · exact Sample.history_arrived (.receive (.ok Sample.heartbeat) {}) (by simp [Sample.history])
    · exact hp _ _ _
  · intro e a h
    simp at h
  · intro i hi
    simp only [List.cons_append, List.nil_append, List.mem_cons, List.not_mem_nil, or_false] at hi
    rcases hi with rfl | rfl | rfl | rfl | rfl | rfl <;> simp [Undisturbed, Quiet, concerns, Sample.video]
  · intro x hx q d hq
    simp only [receivedIn, List.mem_cons, List.not_mem_nil, or_false] at hx
    rcases hx with rfl | rfl | rfl | rfl <;> revert hq <;> simp [partOf, isPart, Sample.part, Sample.heartbeat, Sample.video, packetFlag, Sample.header] <;> rintro rfl <;> simp
  · intro i i1 i2
    have : i = 1 ∨ i = 2 := by
      have h2 : i.toNat < 3 := i2
      have h : i.toNat = 1 ∨ i.toNat = 2 := by omega
      rcases h with h | h
      · exact .inl (UInt16.toNat_inj.1 h)
      · exact .inr (UInt16.toNat_inj.1 h)
    rcases this with rfl | rfl
    · exact ⟨(Sample.part 3 1 [10, 11], {}), by simp [receivedIn], ⟨3, 1⟩, [10, 11], by decide, rfl⟩
    · exact ⟨(Sample.part 3 2 [20], {}), by simp [receivedIn], ⟨3, 2⟩, [20], by decide, rfl⟩

/-- C41 exactly: what is given to the handlers of an upload, in any history in which nobody else touches its storage. -/
theorem C41_exact (auto : Bool) (is : List Input) (hin : ∀ i ∈ is, Arrived i) (u : Upload) (hq : ∀ i ∈ is, Undisturbed u i) :
    ∃ s log, ({} : Loop).run auto is = .ok (s, log) ∧ (offered log).filter (belongs auto u) = deliveries auto u [] (receivedIn is) := by
  exact run_exact auto u is hin hq {} rfl [] after_empty

/-- C41: how often an upload of `n` parts is given to the handlers when storing and merging succeed: as often as part `n` arrives after all the others
have arrived. -/
theorem C41_count (auto : Bool) (is : List Input) (hin : ∀ i ∈ is, Arrived i) (u : Upload) (hq : ∀ i ∈ is, Undisturbed u i) (n : UInt16)
    (hn : 1 ≤ n.toNat) (hparts : ∀ x ∈ receivedIn is, ∀ p d, partOf auto x.1 = some (u, p, d) →
      1 ≤ p.seq.toNat ∧ p.seq.toNat ≤ n.toNat ∧ p.sum = n ∧ x.2.write = .ok ∧ x.2.merge = .ok) :
    ∃ s log, ({} : Loop).run auto is = .ok (s, log) ∧
      ((offered log).filter (belongs auto u)).length = completions n [] (partNumbers auto u (receivedIn is)) := by
  obtain ⟨s, log, h1, h2⟩ := C41_exact auto is hin u hq
  refine ⟨s, log, h1, ?_⟩
  rw [h2]
  exact deliveries_count auto u n hn _ hparts [] [] (by simp [latestIn])

/-- C41: such an upload is given to the handlers at all exactly when part `n` arrives at some time after all the others. -/
theorem C41_delivered_iff (auto : Bool) (is : List Input) (hin : ∀ i ∈ is, Arrived i) (u : Upload) (hq : ∀ i ∈ is, Undisturbed u i) (n : UInt16)
    (hn : 1 ≤ n.toNat) (hparts : ∀ x ∈ receivedIn is, ∀ p d, partOf auto x.1 = some (u, p, d) →
      1 ≤ p.seq.toNat ∧ p.seq.toNat ≤ n.toNat ∧ p.sum = n ∧ x.2.write = .ok ∧ x.2.merge = .ok) :
    ∃ s log, ({} : Loop).run auto is = .ok (s, log) ∧
      ((offered log).filter (belongs auto u) ≠ [] ↔
        ∃ pre post, partNumbers auto u (receivedIn is) = pre ++ n :: post ∧ ∀ i : UInt16, 1 ≤ i.toNat → i.toNat < n.toNat → i ∈ pre) := by
  obtain ⟨s, log, h1, h2⟩ := C41_count auto is hin u hq n hn hparts
  refine ⟨s, log, h1, ?_⟩
  rw [← List.length_pos_iff, h2, completions_pos]
  simp

/-- The parts 2, 1, 2 and 2 of two. -/
def Sample.twoParts : List Input :=
  [.receive (.ok (Sample.part 2 2 [20])) {}, .receive (.ok (Sample.part 2 1 [10])) {}, .receive (.ok (Sample.part 2 2 [20])) {},
    .receive (.ok (Sample.part 2 2 [21])) {}]

/-- The hypotheses are met by the parts 2, 1, 2 and 2 of two: the upload is given to the handlers twice. By the parts 2 and 1 never, and by 1, 1 and 2
once. -/
example : (∀ i ∈ Sample.twoParts, Arrived i) ∧ (∀ i ∈ Sample.twoParts, Undisturbed Sample.video i) ∧
    (∀ x ∈ receivedIn Sample.twoParts, ∀ p d, partOf true x.1 = some (Sample.video, p, d) →
      1 ≤ p.seq.toNat ∧ p.seq.toNat ≤ 2 ∧ p.sum = 2 ∧ x.2.write = .ok ∧ x.2.merge = .ok) ∧
    partNumbers true Sample.video (receivedIn Sample.twoParts) = [2, 1, 2, 2] ∧ completions 2 [] [2, 1, 2, 2] = 2 ∧ completions 2 [] [2, 1] = 0 ∧
    completions 2 [] [1, 1, 2] = 1 := by
  refine ⟨?_, ?_, ?_, by decide +kernel, by decide, by decide, by decide⟩
  · intro i hi
    simp only [Sample.twoParts, List.mem_cons, List.not_mem_nil, or_false] at hi
    rcases hi with rfl | rfl | rfl | rfl <;> exact ⟨fun e h => by cases h; rfl, fun _ => rfl, fun b h => by cases h; rfl⟩
  · intro i hi
    simp only [Sample.twoParts, List.mem_cons, List.not_mem_nil, or_false] at hi
    rcases hi with rfl | rfl | rfl | rfl <;> simp [Undisturbed, Quiet]
  · intro x hx q d hq
    simp only [Sample.twoParts, receivedIn, List.mem_cons, List.not_mem_nil, or_false] at hx
    rcases hx with rfl | rfl | rfl | rfl <;> revert hq <;> simp [partOf, isPart, Sample.part, Sample.video, packetFlag, Sample.header] <;> rintro rfl <;> simp

end Verif
