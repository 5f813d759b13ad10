import Verif.Lemmas.CrowdEnds
import Verif.Lemmas.CrowdFiles
import Verif.Props.Syscall
/-! # C98: any number of terminals in conversation with one server -/

namespace Verif
open Spec Crowd Converse Codec Programs

/-! ## Concrete connections -/

/-- What two terminals send to the example server, each in pieces: they authenticate, and upload a picture in two parts, with the same media number. -/
def Sample.crowdPieces (icc : UInt64) : List Bytes :=
  [({ header := { msgID := 0x0102, iccID := icc, serial := 1 }, body := .val (.m0102 { authKey := [49, 50] }) } : Message Entity),
   { header := { msgID := 0x0801, iccID := icc, serial := 2, property := 0x2000, packet := some ⟨2, 1⟩ }, body := .val (.m0801 { Sample.media with packet := some [1, 2] }) },
   { header := { msgID := 0x0801, iccID := icc, serial := 3, property := 0x2000, packet := some ⟨2, 2⟩ }, body := .val (.m0801 { Sample.media with packet := some [3] }) }].flatMap
    fun m =>
      match sendBytes (entityCodec Sample.env) none m with
      | .ok b => [b.take 20, b.drop 20]
      | _ => []

/-- Both at once; a third terminal sends part of a frame and hangs up. -/
def Sample.crowd : List Crowd.Event :=
  .arrive 3 [0x7e, 1] :: .turn 3 .ok :: ((Sample.crowdPieces 7).zip (Sample.crowdPieces 8)).flatMap (fun x =>
    .arrive 1 x.1 :: .arrive 2 x.2 :: (List.replicate 12 [.turn 2 .ok, .turn 1 .ok]).flatten) ++ [.hangUp 3, .hangUp 2, .turn 3 .ok, .turn 2 .ok]

/-- What the example server does. -/
def Sample.crowdLog : Option (List (Nat × Ev)) :=
  match (Crowd.State.start (σ := Data) (fun _ => none) fun _ => []).run Sample.env none .eof true (server none) Sample.crowd with
  | .ok (_, log) => some log
  | _ => none

/-- Both terminals get all their answers, and both uploads reach the handler; two connections are closed. -/
example : (Sample.crowdLog.map fun l => l.filterMap fun | (k, .sent m) => some (k, m.header.msgID, m.header.serial) | _ => none) =
      some [(2, 0x8001, 1), (1, 0x8001, 1), (2, 0x8104, 2), (1, 0x8104, 2), (2, 0x8001, 3), (1, 0x8001, 3), (2, 0x8001, 4), (1, 0x8001, 4), (2, 0x8800, 5), (1, 0x8800, 5)] ∧
    (Sample.crowdLog.map fun l => l.filterMap fun | (k, .handled _ m) => some (k, m.header.msgID, m.header.iccID) | (k, .closed) => some (k, 0, 0) | _ => none) =
      some [(2, 0x0102, 8), (1, 0x0102, 7), (2, 0x0801, 8), (1, 0x0801, 7), (3, 0, 0), (2, 0, 0)] := by
  decide +kernel

/-- The hypotheses of the theorems below hold there: the uploads on connection 1 are not those on others, and no three-byte frame arrives. -/
example : (∃ s log, (Crowd.State.start (σ := Data) (fun _ => none) fun _ => []).run Sample.env none .eof true (server none) Sample.crowd = .ok (s, log) ∧ Apart 1 log) ∧
    OwnCalls 1 Sample.crowd ∧ ∀ k x, ¬ [0x7e, x, 0x7e] <:+: (arrivedOn k Sample.crowd).flatten := by
  refine ⟨?_, ?_, ?_⟩
  · have hap : (Sample.crowdLog.map fun l => decide (∀ x ∈ l, ∀ y ∈ l, x.1 = 1 → y.1 ≠ 1 → evUpload x.2 = none ∨ evUpload x.2 ≠ evUpload y.2)) = some true := by decide +kernel
    unfold Sample.crowdLog at hap
    split at hap
    · rename_i s log hr
      refine ⟨s, log, hr, ?_⟩
      simp only [Option.map_some, Option.some.injEq, decide_eq_true_eq] at hap
      intro x hx y hy h1 h2 u hu hu'
      rcases hap x hx y hy h1 h2 with h | h
      · rw [h] at hu; cases hu
      · exact h (hu.trans hu'.symm)
    · cases hap
  · have : Sample.crowd.all (fun | .send .. => false | .request .. => false | _ => true) = true := by decide +kernel
    rw [List.all_eq_true] at this
    exact ⟨fun e he => by simpa using this _ he, fun e cb he => by simpa using this _ he⟩
  · intro k x hi
    have hconn : ∀ e ∈ Sample.crowd, e.conn = 1 ∨ e.conn = 2 ∨ e.conn = 3 := by decide +kernel
    have hpairs : ∀ j ∈ [1, 2, 3], (((arrivedOn j Sample.crowd).flatten).zip ((arrivedOn j Sample.crowd).flatten.drop 2)).all (fun p => p != (0x7e, 0x7e)) = true := by decide +kernel
    by_cases hk : k ∈ [1, 2, 3]
    · have h1 := hpairs k hk
      obtain ⟨pre, post, he⟩ := hi
      rw [List.all_eq_true] at h1
      have := h1 (0x7e, 0x7e) (by
        rw [← he, List.mem_iff_getElem?]
        exact ⟨pre.length, by simp [List.getElem?_zip_eq_some, List.getElem?_append, Nat.add_comm 2]⟩)
      simp at this
    · have : arrivedOn k Sample.crowd = [] := by
        rw [arrivedOn, List.filterMap_eq_nil_iff]
        intro e he
        have := hconn e he
        cases e <;> simp [Crowd.Event.conn] at this hk ⊢
        omega
      rw [this] at hi
      simp at hi

/-! ## C98 -/

section
variable {σ : Type}

/-- C98: whatever happens on whatever connections and in whatever order, a connection whose uploads are not those of another is served as if it were alone: if
only what concerns it happens, the same is done on it, in the same order, and it is left as it is. -/
theorem C98_as_if_alone (env : Env) (key : Option DecKey) (endErr : Err) (auto : Bool) (P : Program σ) (user : Nat → σ) (accepts : Nat → List Bool)
    (es : List Crowd.Event) (s : Crowd.State σ) (log : List (Nat × Ev)) (hr : (State.start user accepts).run env key endErr auto P es = .ok (s, log))
    (k : Nat) (ha : Apart k log) :
    ∃ s', (State.start user accepts).run env key endErr auto P (eventsOf k es) = .ok (s', (logOf k log).map fun x => (k, x)) ∧ s'.conns k = s.conns k :=
  start_alone hr k ha

/-- C98: what is done on a connection is a conversation as specified for one session: on the messages that arrive on it, cut into pieces as they are; all of it
when the loop waits for the next message, all of it and closing the session when the loop is over, and a beginning of it in between. The loop is over only because of
what the terminal sent, or when the terminal has hung up; then it has received all that had arrived before. -/
theorem C98_conversations (env : Env) (key : Option DecKey) (endErr : Err) (auto : Bool) (P : Program σ) (user : Nat → σ) (accepts : Nat → List Bool)
    (es : List Crowd.Event) (s : Crowd.State σ) (log : List (Nat × Ev)) (hr : (State.start user accepts).run env key endErr auto P es = .ok (s, log))
    (k : Nat) (ha : Apart k log) (ho : OwnCalls k es) :
    ∃ ms full K before r, Talk auto P { user := user k } ms full K ∧ (∀ x ∈ ms, ∀ o, o = x.2.1 ∨ o = x.2.2 → o = .ok ∨ .turn k o ∈ es) ∧
      before <+: arrivedOn k es ∧ receiveMany (entityCodec env) key endErr ms.length ⟨[], before⟩ = (ms.map fun x => .ok x.1, r) ∧
      match (s.conns k).place with
      | .waiting => logOf k log = full ∧ before = arrivedOn k es ∧ r = (s.conns k).recv ∧ (s.conns k).sess.user = K.user
      | .ended => logOf k log = full ++ [.closed] ∧ (s.conns k).sess.user = K.user ∧ ∃ e, (receive (entityCodec env) key endErr r).1 = .err e ∧
          ((∀ e', (receive (entityCodec env) key e' r).1 = .err e) ∨ HungUp k es before)
      | _ => logOf k log <+: full ∧ before = arrivedOn k es := by
  obtain ⟨fs, ms, S, done, hi⟩ := start_inv hr ha ho (Q := fun o => o = .ok ∨ .turn k o ∈ es) (.inl rfl) (fun o h => .inr h)
  have hout : ∀ ms' : List (Message Entity × Outcome × Outcome), (∀ x ∈ ms', (x.2.1 = .ok ∨ .turn k x.2.1 ∈ es) ∧ (x.2.2 = .ok ∨ .turn k x.2.2 ∈ es)) →
      ∀ x ∈ ms', ∀ o, o = x.2.1 ∨ o = x.2.2 → o = .ok ∨ .turn k o ∈ es := by
    rintro ms' h x hx o (rfl | rfl)
    · exact (h x hx).1
    · exact (h x hx).2
  have hgot : ∀ {l : List (Message Entity × Outcome × Outcome)} {c r}, Got env key endErr (l.map (·.1)) c r →
      receiveMany (entityCodec env) key endErr l.length c = (l.map fun x => .ok x.1, r) := by
    intro l c r h
    have : receiveMany (entityCodec env) key endErr (l.map (·.1)).length c = _ := h
    rw [List.length_map, List.map_map] at this
    exact this
  obtain ⟨S', done', K, r1, r2, r3⟩ := C76_conversation auto P (user k) (accepts k) ms hi.delivered
  rw [hi.run] at r1
  simp only [Res.ok.injEq, Prod.mk.injEq] at r1
  obtain ⟨rfl, rfl⟩ := r1
  by_cases hw : (s.conns k).place = .waiting
  · obtain ⟨w1, w2, w3⟩ := hi.waiting hw
    refine ⟨ms, done, K, _, _, r2, hout ms hi.outcomes, List.prefix_rfl, hgot w3, ?_⟩
    rw [hw]
    exact ⟨w1, rfl, rfl, by rw [← r3, w2]⟩
  by_cases hend : (s.conns k).place = .ended
  · obtain ⟨w1, w2, before, r, e, w3, w4, w5, w6⟩ := hi.ended hend
    refine ⟨ms, done, K, before, r, r2, hout ms hi.outcomes, w3, hgot w4, ?_⟩
    rw [hend]
    exact ⟨w1, by rw [← r3, w2], e, w5, w6.imp (fun hs e' => by rw [receive_not_starved e' endErr hs]; exact w5) id⟩
  · obtain ⟨m, x, m1, m2, m3, g, m4, m5⟩ := hi.middle hw hend
    have hq := m4 (.ok, .ok) (.inl rfl) (.inl rfl)
    have hms : ∀ y ∈ ms ++ [(m, g (.ok, .ok))], Delivered y.1 := by
      intro y hy
      rcases List.mem_append.1 hy with hy | hy
      · exact hi.delivered y hy
      · rw [List.mem_singleton.1 hy]; exact m1
    obtain ⟨S2, full, K2, t1, t2, -⟩ := C76_conversation auto P (user k) (accepts k) (ms ++ [(m, g (.ok, .ok))]) hms
    refine ⟨_, full, K2, arrivedOn k es, (s.conns k).recv, t2, hout _ ?_, List.prefix_rfl, hgot (by rw [List.map_append]; exact m3), ?_⟩
    · intro y hy
      rcases List.mem_append.1 hy with hy | hy
      · exact hi.outcomes y hy
      · rw [List.mem_singleton.1 hy]; exact hq
    · have hpre : logOf k log <+: full := by
        rw [Converse.run_append, hi.run] at t1
        simp only [Res.bind, Converse.State.run, m5] at t1
        cases hz : rest auto P { (s.conns k).sess with fs := fs } (.ok, .ok) (s.conns k).place with
        | ok q =>
          rw [hz] at t1
          simp only [prepend, Res.bind, Res.ok_bind, Res.ok.injEq, Prod.mk.injEq] at t1
          rw [← t1.2, m2]
          simp
        | err e => rw [hz] at t1; cases t1
        | panic => rw [hz] at t1; cases t1
      split
      · contradiction
      · contradiction
      · exact ⟨hpre, rfl⟩

/-- C98: what is stored and merged for a connection are uploads of which messages arrived on it. -/
theorem C98_uploads_arrived (env : Env) (key : Option DecKey) (endErr : Err) (auto : Bool) (P : Program σ) (user : Nat → σ) (accepts : Nat → List Bool)
    (es : List Crowd.Event) (s : Crowd.State σ) (log : List (Nat × Ev)) (hr : (State.start user accepts).run env key endErr auto P es = .ok (s, log)) :
    ∀ x ∈ log, ∀ u, evUpload x.2 = some u → ∃ m, ArrivesOn env key endErr (arrivedOn x.1 es) m ∧ belongs auto u m = true := by
  intro x hx u hu
  obtain ⟨m, h1, h2⟩ := start_parts hr x hx u hu
  exact ⟨m, h1.arrives, h2⟩

/-- So it depends on what arrives only whether the uploads of a connection are those of another: if no message on another connection belongs to an upload to which
a message on this connection belongs, then they are not. -/
theorem C98_apart (env : Env) (key : Option DecKey) (endErr : Err) (auto : Bool) (P : Program σ) (user : Nat → σ) (accepts : Nat → List Bool)
    (es : List Crowd.Event) (s : Crowd.State σ) (log : List (Nat × Ev)) (hr : (State.start user accepts).run env key endErr auto P es = .ok (s, log)) (k : Nat)
    (h : ∀ j, j ≠ k → ∀ u m m', ArrivesOn env key endErr (arrivedOn k es) m → belongs auto u m = true → ArrivesOn env key endErr (arrivedOn j es) m' → belongs auto u m' = false) :
    Apart k log := by
  intro x hx y hy hk hj u hu hu'
  obtain ⟨m, h1, h2⟩ := C98_uploads_arrived env key endErr auto P user accepts es s log hr x hx u hu
  obtain ⟨m', h3, h4⟩ := C98_uploads_arrived env key endErr auto P user accepts es s log hr y hy u hu'
  rw [hk] at h1
  rw [h y.1 hj u m m' h1 h2 h3] at h4
  cases h4

/-- C98: an upload arrives (C72) also when there are other connections, whose uploads are others, and when handlers and callbacks have code: once the loop has
nothing left to do, unless the terminal hung up before all had arrived. -/
theorem C98_upload_arrives (env : Env) (key : Option DecKey) (endErr : Err) (P : Program σ) (user : Nat → σ) (accepts : Nat → List Bool)
    (ms : List (Message Entity × Entity)) (m : Message Entity) (b : T0801) (p : Packet) (u : Upload) (hu : u = ⟨m.header.iccID, 0x0801, b.mediaID⟩)
    (hms : ∀ x ∈ ms, Sendable env x.1 x.2) (hm : Sendable env m (.m0801 b)) (hp : m.header.packet = some p) (hlast : p.seq = p.sum) (hsum : 1 ≤ p.sum.toNat)
    (hparts : ∀ x ∈ ms, ∀ q d, sentPart x = some (u, q, d) → 1 ≤ q.seq.toNat ∧ q.seq.toNat < p.sum.toNat ∧ q.sum = p.sum)
    (hall : ∀ i : UInt16, 1 ≤ i.toNat → i.toNat < p.sum.toNat → ∃ x ∈ ms, ∃ q d, sentPart x = some (u, q, d) ∧ q.seq = i) :
    ∃ sent : List Bytes, (ms ++ [(m, Entity.m0801 b)]).map (fun x => sendBytes (entityCodec env) none x.1) = sent.map .ok ∧
      ∀ (es : List Crowd.Event) (s : Crowd.State σ) (log : List (Nat × Ev)), (State.start user accepts).run env key endErr true P es = .ok (s, log) →
        ∀ k, Apart k log → OwnCalls k es → (∀ o, .turn k o ∈ es → o = .ok) → (∀ c ∈ arrivedOn k es, c.length ≤ 128) → (arrivedOn k es).flatten = sent.flatten →
          (∀ es1 es2, es = es1 ++ .hangUp k :: es2 → arrivedOn k es1 = arrivedOn k es) → NothingToDo env key (s.conns k) →
          ∃ d, Carries m (.m0801 { b with packet := some (joined (lastSent u (ms ++ [(m, Entity.m0801 b)])) 1 p.sum.toNat) }) d ∧
            (offeredIn (logOf k log)).filter (belongs true u) = [d] ∧ GivenTo P (logOf k log) d ∧ answersIn (logOf k log) = successes (ms ++ [(m, Entity.m0801 b)]) := by
  have hall' : ∀ x ∈ ms ++ [(m, Entity.m0801 b)], Sendable env x.1 x.2 := by
    intro x hx
    rcases List.mem_append.1 hx with hx | hx
    · exact hms x hx
    · rw [List.mem_singleton.1 hx]
      exact hm
  obtain ⟨xs, x1, x2, x3, -⟩ := sendable_frames env key _ hall'
  obtain ⟨sent, g1, g2⟩ := C72_upload_arrives env key endErr ms m b p u hu hms hm hp hlast hsum hparts hall
  have hsent : sent = xs.map (·.1) := by
    rw [g1] at x2
    rw [show (fun x : Bytes × Message Entity => (Res.ok x.1 : Res Bytes)) = Res.ok ∘ (·.1) from rfl, ← List.map_map] at x2
    exact (List.map_inj_right fun a b hab => Res.ok.inj hab).1 x2
  refine ⟨sent, g1, fun es s log hr k ha ho hq hc hf hh hn => ?_⟩
  obtain ⟨fs, is, S, done, hi⟩ := start_inv hr ha ho (Q := (· = .ok)) rfl hq
  obtain ⟨r1, ⟨r, r2⟩, r3⟩ := all_received (xs := xs) x3 hc (by rw [hf, hsent, joinedFrames, List.flatMap_def]) hh hi hn
  obtain ⟨turns, L, lg, t1, t2, t3, t4, t5⟩ := served hi.run hi.delivered hi.outcomes r2
  have hlen : turns.length = ms.length + 1 := by
    have := congrArg List.length r1
    simp only [List.length_map, x1, List.length_append, List.length_singleton] at this
    omega
  obtain ⟨s', lg', d, k1, k2, k3, -, k5⟩ := g2 (arrivedOn k es) hc hf turns hlen (t2 u)
  rw [t3] at k1
  simp only [Res.ok.injEq, Prod.mk.injEq] at k1
  obtain ⟨rfl, rfl⟩ := k1
  have h1 : offeredIn (logOf k log) = offeredIn done := by
    rcases r3 with h | h <;> rw [h]
    simp [offeredIn]
  have h2 : answersIn (logOf k log) = answersIn done := by
    rcases r3 with h | h <;> rw [h]
    simp [answersIn]
  have h3 : (offeredIn (logOf k log)).filter (belongs true u) = [d] := by rw [h1, ← t4, k3]
  refine ⟨d, k2, h3, run_givenTo hr ?_, by rw [h2, ← t5, k5]⟩
  have : d ∈ (offeredIn (logOf k log)).filter (belongs true u) := by rw [h3]; simp
  exact (List.mem_filter.1 this).1

/-- C98 for a file cut into parts of at most 987 bytes that are sent in order: whatever handlers and callbacks do, and whatever happens on other connections, as long
as no part of this upload arrives there, the handler gets the file, and every part is answered with "success". -/
theorem C98_file_arrives (env : Env) (key : Option DecKey) (endErr : Err) (P : Program σ) (user : Nat → σ) (accepts : Nat → List Bool) (f : FileUpload) (hf : f.OK env)
    (hn : f.parts ≠ []) :
    ∃ sent : List Bytes, f.messages.map (fun x => sendBytes (entityCodec env) none x.1) = sent.map .ok ∧
      ∀ (es : List Crowd.Event) (s : Crowd.State σ) (log : List (Nat × Ev)), (State.start user accepts).run env key endErr true P es = .ok (s, log) →
        ∀ k, (∀ j, j ≠ k → ∀ m, ArrivesOn env key endErr (arrivedOn j es) m → belongs true f.upload m = false) → OwnCalls k es → (∀ o, .turn k o ∈ es → o = .ok) →
          (∀ c ∈ arrivedOn k es, c.length ≤ 128) → (arrivedOn k es).flatten = sent.flatten →
          (∀ es1 es2, es = es1 ++ .hangUp k :: es2 → arrivedOn k es1 = arrivedOn k es) → NothingToDo env key (s.conns k) →
          ∃ d, d.body = .val (.m0801 { f.media with packet := some (f.parts.flatMap (·.2)) }) ∧ d.header.iccID = f.icc ∧
            (offeredIn (logOf k log)).filter (belongs true f.upload) = [d] ∧ GivenTo P (logOf k log) d ∧
            answersIn (logOf k log) = f.parts.map fun p => (p.1, 0x0801, 0) := by
  obtain ⟨xs, hxs⟩ := fileFrames key hf
  obtain ⟨sent, g1, g2⟩ := C72_file_arrives env key endErr f.icc f.media f.parts hf.icc0 hf.icc1 hf.location hf.extras (List.length_pos_iff.2 hn) hf.count hf.sizes
  have hsent : sent = xs.map (·.1) := (List.map_inj_right fun a b hab => Res.ok.inj hab).1 (g1.symm.trans hxs.sent)
  refine ⟨sent, g1, fun es s log hr k hother ho hq hc hfl hh hn => ?_⟩
  have hfr : (arrivedOn k es).flatten = joinedFrames xs := by rw [hfl, hsent, joinedFrames, List.flatMap_def]
  have ha : Apart k log := by
    intro x hx y hy hk hj u hu hu'
    have h1 := start_parts hr x hx u hu
    rw [hk] at h1
    obtain ⟨m, h1, h2⟩ := h1
    obtain rfl := hxs.own m (frames_arrives hxs.frames hc (by rw [hfr]; exact List.prefix_rfl) h1.arrives) u h2
    obtain ⟨m', h3, h4⟩ := start_parts hr y hy _ hu'
    rw [hother y.1 hj m' h3.arrives] at h4
    cases h4
  obtain ⟨fs, is, S, done, hi⟩ := start_inv hr ha ho (Q := (· = .ok)) rfl hq
  obtain ⟨r1, ⟨r, r2⟩, r3⟩ := all_received hxs.frames hc hfr hh hi hn
  obtain ⟨turns, L, lg, t1, t2, t3, t4, t5⟩ := served hi.run hi.delivered hi.outcomes r2
  have hlen : turns.length = f.parts.length := by
    have := congrArg List.length r1
    simp only [List.length_map, hxs.length] at this
    omega
  obtain ⟨s', lg', d, k1, k2, k3, k4, -, k6⟩ := g2 (arrivedOn k es) hc hfl turns hlen (t2 _)
  rw [t3] at k1
  simp only [Res.ok.injEq, Prod.mk.injEq] at k1
  obtain ⟨rfl, rfl⟩ := k1
  have h1 : offeredIn (logOf k log) = offeredIn done := by
    rcases r3 with h | h <;> rw [h]
    simp [offeredIn]
  have h2 : answersIn (logOf k log) = answersIn done := by
    rcases r3 with h | h <;> rw [h]
    simp [answersIn]
  have h3 : (offeredIn (logOf k log)).filter (belongs true f.upload) = [d] := by rw [h1, ← t4]; exact k4
  refine ⟨d, k2, k3, h3, run_givenTo hr ?_, by rw [h2, ← t5, k6]⟩
  have : d ∈ (offeredIn (logOf k log)).filter (belongs true f.upload) := by rw [h3]; simp
  exact (List.mem_filter.1 this).1

/-- C98: any number of terminals upload files at the same time, each on its own connection (or nothing, if there are no parts), and no two uploads have both the same
terminal number and the same media number. Whatever the order of events is, the server does not crash; and of every upload of which all
has arrived, the handler has got the file once the loop has nothing left to do. -/
theorem C98_files_arrive (env : Env) (key : Option DecKey) (endErr : Err) (P : Program σ) (user : Nat → σ) (accepts : Nat → List Bool) (f : Nat → FileUpload)
    (hf : ∀ k, (f k).OK env) (hd : ∀ j k, (f j).parts ≠ [] → (f k).parts ≠ [] → (f j).upload = (f k).upload → j = k) :
    ∃ sent : Nat → List Bytes, (∀ k, (f k).messages.map (fun x => sendBytes (entityCodec env) none x.1) = (sent k).map .ok) ∧
      ∀ es : List Crowd.Event, (∀ k, (∀ c ∈ arrivedOn k es, c.length ≤ 128) ∧ (arrivedOn k es).flatten <+: (sent k).flatten) →
        ∃ s log, (State.start user accepts).run env key endErr true P es = .ok (s, log) ∧
        ∀ k, (f k).parts ≠ [] → OwnCalls k es → (∀ o, .turn k o ∈ es → o = .ok) → (arrivedOn k es).flatten = (sent k).flatten →
          (∀ es1 es2, es = es1 ++ .hangUp k :: es2 → arrivedOn k es1 = arrivedOn k es) → NothingToDo env key (s.conns k) →
          ∃ d, d.body = .val (.m0801 { (f k).media with packet := some ((f k).parts.flatMap (·.2)) }) ∧ d.header.iccID = (f k).icc ∧
            (offeredIn (logOf k log)).filter (belongs true (f k).upload) = [d] ∧ GivenTo P (logOf k log) d ∧
            answersIn (logOf k log) = (f k).parts.map fun p => (p.1, 0x0801, 0) := by
  have hxs := fun k => fileFrames key (hf k)
  refine ⟨fun k => ((hxs k).choose).map (·.1), fun k => (hxs k).choose_spec.sent, fun es hall => ?_⟩
  have hall' : ∀ k, (∀ c ∈ arrivedOn k es, c.length ≤ 128) ∧ (arrivedOn k es).flatten <+: joinedFrames (hxs k).choose := by
    intro k
    have := (hall k).2
    rw [← List.flatMap_def] at this
    exact ⟨(hall k).1, this⟩
  obtain ⟨s, log, hr⟩ := run_frames (P := P) (endErr := endErr) (auto := true) (s := State.start user accepts) (pieces := fun _ => []) (fun k => (hxs k).choose_spec.frames) es
    (safe_start _ trivial user accepts) (fun k => ⟨fun _ => ⟨[], rfl⟩, trivial⟩) hall'
  refine ⟨s, log, hr, fun k hn ho hq hfl hh hdone => ?_⟩
  obtain ⟨sent, g1, g2⟩ := C98_file_arrives env key endErr P user accepts (f k) (hf k) hn
  have hsent : sent = ((hxs k).choose).map (·.1) := (List.map_inj_right fun a b hab => Res.ok.inj hab).1 (g1.symm.trans (hxs k).choose_spec.sent)
  refine g2 es s log hr k (fun j hj m hm => ?_) ho hq (hall k).1 (by rw [hfl, hsent]) hh hdone
  cases hb : belongs true (f k).upload m with
  | false => rfl
  | true =>
    have hmem := frames_arrives (hxs j).choose_spec.frames (hall' j).1 (hall' j).2 hm
    refine absurd (hd k j hn (fun h0 => ?_) ((hxs j).choose_spec.own m hmem _ hb)).symm hj
    have := (hxs j).choose_spec.length
    rw [h0] at this
    rw [List.length_eq_zero_iff.1 this] at hmem
    cases hmem

/-- Such a course of events: two terminals upload files with the same media number to the example server, piece by piece in turn, and one hangs up at the end. -/
def Sample.twoUploads : List Crowd.Event :=
  ((Sample.pieces 1).zip (Sample.pieces 2)).flatMap (fun p => [.arrive 1 p.1, .turn 2 .ok, .arrive 2 p.2, .turn 1 .ok]) ++
    .hangUp 2 :: (List.replicate 16 [.turn 1 .ok, .turn 2 .ok]).flatten

/-- All hypotheses hold for both of them, so both files arrive. -/
example : ∃ s log, (Crowd.State.start (σ := Data) (fun _ => none) fun _ => []).run Sample.env none .eof true (server none) Sample.twoUploads = .ok (s, log) ∧
    ∀ k, k = 1 ∨ k = 2 → ∃ d, d.body = .val (.m0801 { Sample.media with packet := some ((Sample.files k).parts.flatMap (·.2)) }) ∧ d.header.iccID = (Sample.files k).icc ∧
      GivenTo (server none) (logOf k log) d ∧ (answersIn (logOf k log)).length = 2 := by
  have hok : ∀ k, (Sample.files k).OK Sample.env := by
    intro k
    unfold Sample.files
    split
    all_goals exact ⟨by decide, by decide, Sample.media_ok, rfl, by decide, by decide⟩
  have hdiff : ∀ j k, (Sample.files j).parts ≠ [] → (Sample.files k).parts ≠ [] → (Sample.files j).upload = (Sample.files k).upload → j = k := by
    intro j k h1 h2 h3
    unfold Sample.files at h1 h2 h3
    split at h1 <;> split at h2 <;> simp_all <;> revert h3 <;> decide
  obtain ⟨sent, h1, h2⟩ := C98_files_arrive Sample.env none .eof (server none) (fun _ => none) (fun _ => []) Sample.files hok hdiff
  have hsent : ∀ k, (Sample.files k).messages.map (fun x => sendBytes (entityCodec Sample.env) none x.1) = (Sample.sentBy k).map .ok
    | 0 => rfl
    | 1 => by decide +kernel
    | 2 => by decide +kernel
    | _ + 3 => rfl
  have hs : ∀ k, sent k = Sample.sentBy k := fun k => (List.map_inj_right fun a b hab => Res.ok.inj hab).1 ((h1 k).symm.trans (hsent k))
  have harr : ∀ k ∈ [1, 2], (∀ c ∈ arrivedOn k Sample.twoUploads, c.length ≤ 128) ∧ (arrivedOn k Sample.twoUploads).flatten = (Sample.sentBy k).flatten := by decide +kernel
  have hconn : ∀ e ∈ Sample.twoUploads, e.conn = 1 ∨ e.conn = 2 := by decide +kernel
  obtain ⟨s, log, hr, h3⟩ := h2 Sample.twoUploads (by
    intro k
    rw [hs]
    by_cases hk : k ∈ [1, 2]
    · rw [(harr k hk).2]
      exact ⟨(harr k hk).1, List.prefix_rfl⟩
    · have : arrivedOn k Sample.twoUploads = [] := by
        rw [arrivedOn, List.filterMap_eq_nil_iff]
        intro e he
        have := hconn e he
        cases e <;> simp [Crowd.Event.conn] at this hk ⊢
        omega
      rw [this]
      simp)
  refine ⟨s, log, hr, fun k hk => ?_⟩
  have hkm : k ∈ [1, 2] := by simpa using hk
  have hown : Sample.twoUploads.all (fun | .send .. => false | .request .. => false | .turn _ o => o == .ok | _ => true) = true := by decide +kernel
  rw [List.all_eq_true] at hown
  have hend : (match (Crowd.State.start (σ := Data) (fun _ => none) fun _ => []).run Sample.env none .eof true (server none) Sample.twoUploads with
      | .ok (s, _) => [1, 2].all fun k => (match (s.conns k).place with | .ended => true | .waiting => !(s.conns k).gone && (s.conns k).recv == ⟨[], []⟩ | _ => false)
      | _ => false) = true := by decide +kernel
  rw [hr] at hend
  have hpre : ∀ k ∈ [1, 2], ∀ n < Sample.twoUploads.length, (match Sample.twoUploads[n]? with | some (.hangUp j) => j == k | _ => false) = true →
      arrivedOn k (Sample.twoUploads.take n) = arrivedOn k Sample.twoUploads := by decide +kernel
  obtain ⟨d, d1, d2, -, d4, d5⟩ := h3 k (by rcases hk with rfl | rfl <;> decide) ⟨fun e he => by simpa using hown _ he, fun e cb he => by simpa using hown _ he⟩
    (fun o ho => by simpa using hown _ ho) (by rw [hs, (harr k hkm).2]) (by
      intro es1 es2 he
      have := hpre k hkm es1.length (by rw [he]; simp) (by rw [he]; simp)
      rwa [he, List.take_left, ← he] at this) (by
      have := List.all_eq_true.1 hend k hkm
      unfold NothingToDo
      split at this
      · exact .inl ‹_›
      · simp only [Bool.and_eq_true, Bool.not_eq_true', beq_iff_eq] at this
        refine .inr ⟨‹_›, this.1, fun e => ?_⟩
        rw [this.2]
        rfl
      · cases this)
  refine ⟨d, ?_, d2, d4, ?_⟩
  · rw [d1]
    rcases hk with rfl | rfl <;> rfl
  · rw [d5]
    rcases hk with rfl | rfl <;> rfl

/-- C98: nothing crashes the server, whatever happens, unless a terminal sends a three-byte frame. (As in the model of C74, reading the directory does not fail; C93 has
the crash if it does.) -/
theorem C98_no_crash (env : Env) (key : Option DecKey) (hkey : ∀ k, key = some k → 0 < k.size) (endErr : Err) (auto : Bool) (P : Program σ) (user : Nat → σ)
    (accepts : Nat → List Bool) (es : List Crowd.Event) (h : ∀ k x, ¬ [0x7e, x, 0x7e] <:+: (arrivedOn k es).flatten) :
    ∃ s log, (State.start user accepts).run env key endErr auto P es = .ok (s, log) := by
  obtain ⟨r, hr, -⟩ := run_safe (env := env) (key := key) (endErr := endErr) (auto := auto) (P := P) es (s := State.start user accepts) (arrived := fun _ => [])
    (safe_start _ (List.suffix_refl _) user accepts) (by
      intro k f hf hp
      obtain ⟨x, rfl⟩ := (C05_registered_panics_iff_partial env key hkey {} f).1 hp
      exact h k x hf)
  exact ⟨r.1, r.2, hr⟩

/-- Such a frame on one connection ends the service for all of them (as in C51). -/
theorem C98_three_bytes (env : Env) (key : Option DecKey) (endErr : Err) (auto : Bool) (P : Program σ) (s : Crowd.State σ) (k : Nat) (x : UInt8) (hx : x ≠ 0x7e) (o : Outcome)
    (hw : (s.conns k).place = .waiting) (hn : (s.conns k).recv = ⟨[], []⟩) (es : List Crowd.Event) :
    s.run env key endErr auto P (.arrive k [0x7e, x, 0x7e] :: .turn k o :: es) = .panic := by
  have hd : Message.decode (entityCodec env) key {} [0x7e, x, 0x7e] = .panic := by
    rw [Message.decode_eq, (decodeEnvelope_panic_iff _).2 ⟨x, rfl⟩]
    rfl
  have hb : readFromBuffer (entityCodec env) key [0x7e, x, 0x7e] = (.panic, [0x7e, x, 0x7e]) := by
    simp [readFromBuffer, hd, hx]
  have h0 : readFromBuffer (entityCodec env) key [] = (.ok none, []) := rfl
  simp [Crowd.State.run, Conn.step, Conn.turn, Event.conn, hw, hn, starved, starvedLoop, receive, recvLoop, h0, hb, Res.ok_bind]

/-- A connection on which nothing has happened is such a connection. -/
example (env : Env) (P : Program σ) (user : Nat → σ) (es : List Crowd.Event) :
    (State.start user fun _ => []).run env none .eof true P (.arrive 5 [0x7e, 0, 0x7e] :: .turn 5 .ok :: es) = .panic :=
  C98_three_bytes env none .eof true P _ 5 0 (by decide) .ok rfl rfl es

/-- C98: a loop gets done with what has arrived: after some turns of it, whatever the handlers are, there is nothing left to do. -/
theorem C98_gets_done (env : Env) (key : Option DecKey) (hkey : ∀ k, key = some k → 0 < k.size) (endErr : Err) (auto : Bool) (P : Program σ) (user : Nat → σ)
    (accepts : Nat → List Bool) (es : List Crowd.Event) (h : ∀ k x, ¬ [0x7e, x, 0x7e] <:+: (arrivedOn k es).flatten) (k : Nat) :
    ∃ n s log, (State.start user accepts).run env key endErr auto P (es ++ List.replicate n (.turn k .ok)) = .ok (s, log) ∧ NothingToDo env key (s.conns k) := by
  have hno : ∀ k f, f <:+: [] ++ (arrivedOn k es).flatten → Message.decode (entityCodec env) key {} f ≠ .panic := by
    intro k f hf hp
    obtain ⟨x, rfl⟩ := (C05_registered_panics_iff_partial env key hkey {} f).1 hp
    exact h k x hf
  obtain ⟨r, hr, hs⟩ := run_safe (env := env) (key := key) (endErr := endErr) (auto := auto) (P := P) es (s := State.start user accepts) (arrived := fun _ => [])
    (safe_start _ (List.suffix_refl _) user accepts) hno
  obtain ⟨n, s', x, h1, h2⟩ := rest_after (s := r.1) (log := r.2) hr k (noPanic_within endErr (hno k)) (hs k).unread
  exact ⟨n, s', _, h1, h2⟩

end

variable {env : Env} {now : Nat → Time} {pkey own : PubKey} {file : Bytes}

/-- C98, the example client and the example server with any other connections, at every moment: the server has sent the client nothing but the first messages of the
expected ones and has not closed the connection, and the client has not crashed. -/
theorem C98_example_at_every_moment (h : ExampleOK env now pkey own file) (key : Option DecKey) (pub : Option EncKey) (ec es : Err) (tc : Nat) (hc : 10 < tc)
    (user : Nat → Data) (accepts : Nat → List Bool) (k : Nat) (hu : user k = none) (hacc : accepts k = []) (evs : List Crowd.Event) (down : List Bytes)
    (hj : Crowded ((State.start user accepts).run env key es true (server (some own))) (Converse.wire env pub) (clientSends env now pkey file ec tc) k evs down)
    (s : Crowd.State Data) (log : List (Nat × Ev)) (hr : (State.start user accepts).run env key es true (server (some own)) evs = .ok (s, log)) (ha : Apart k log) :
    sentIn (logOf k log) <+: exampleMessages own ∧ (s.conns k).place ≠ .ended ∧ ∃ b, clientSends env now pkey file ec tc down = .ok b := by
  obtain ⟨xs, ys, c⟩ := course h key
  obtain ⟨n, s', log', b, -, k2, -, -, -, -, k7, k8, k9, -⟩ := crowded_facts h c pub ec es tc hc hu hacc hj hr ha
  exact ⟨k7.trans k8, k9, b, k2⟩

/-- C98, in the end: when nothing is under way between the client and the server any more, whatever happens on other connections, everything has been said that is
said when the two are alone (C77). -/
theorem C98_example_in_the_end (h : ExampleOK env now pkey own file) (key : Option DecKey) (pub : Option EncKey) (ec es : Err) (tc : Nat) (hc : 10 < tc)
    (user : Nat → Data) (accepts : Nat → List Bool) (k : Nat) (hu : user k = none) (hacc : accepts k = []) (evs : List Crowd.Event) (down : List Bytes)
    (hj : Crowded ((State.start user accepts).run env key es true (server (some own))) (Converse.wire env pub) (clientSends env now pkey file ec tc) k evs down)
    (s : Crowd.State Data) (log : List (Nat × Ev)) (hr : (State.start user accepts).run env key es true (server (some own)) evs = .ok (s, log)) (ha : Apart k log)
    (hq : AllArrived env key (Converse.wire env pub) (clientSends env now pkey file ec tc) k evs down s log) :
    sentIn (logOf k log) = exampleMessages own ∧ handledIn (logOf k log) = exampleHandled now pkey file ∧ ranIn (logOf k log) = exampleRan env ∧
    (s.conns k).sess.user = some pkey ∧
    ∃ ds, listen env ec tc ⟨[], down⟩ = .ok ds ∧ ds.length = 10 ∧ ∀ p ∈ (exampleMessages own).zip ds, ∃ e, p.1.body = .val e ∧ Carries p.1 e p.2 := by
  obtain ⟨xs, ys, c⟩ := course h key
  obtain ⟨n, s', log', b, k1, k2, k3, k4, k5, k6, k7, k8, k9, k10, -⟩ := crowded_facts h c pub ec es tc hc hu hacc hj hr ha
  obtain ⟨e1, e2⟩ := k10 hq.loop
  have hreach := crowded_reach h c pub ec es tc 9 hc (by omega) hu hacc hj hr ha
  obtain ⟨n', s'', log'', c1, c2, c3, c4, -, -, c7⟩ := c.server h pub es 9 (by omega) k1 (k3.trans k4)
  obtain rfl := complete_unique k5 c1
  rw [k6] at c2
  simp only [Res.ok.injEq, Prod.mk.injEq] at c2
  obtain ⟨rfl, rfl⟩ := c2
  have hset : Settled (clientSends env now pkey file ec tc) (serverSends env key pub (some own) es 9) (arrivedOn k evs) down := by
    refine ⟨hq.up, ?_⟩
    rw [c7, ← c.wire h.own pub k8, ← e1, hq.down]
  obtain ⟨⟨s0, log0, d1, d2, d3, d4, d5⟩, d6⟩ := C77_in_the_end h key pub ec es tc 9 hc (by omega) hreach hset
  rw [c3] at d1
  simp only [Res.ok.injEq, Prod.mk.injEq] at d1
  obtain ⟨rfl, rfl⟩ := d1
  rw [e1, e2]
  refine ⟨?_, ?_, ?_, d5, d6⟩
  · rw [← d2]; simp [sentIn]
  · rw [← d3]; simp [handledIn]
  · rw [← d4]; simp [ranIn]

/-- C98: the client and the server can always go on to that end, as long as other connections have not stored anything, whatever else happened on them. -/
theorem C98_example_can_complete (h : ExampleOK env now pkey own file) (key : Option DecKey) (pub : Option EncKey) (ec es : Err) (tc : Nat) (hc : 10 < tc)
    (user : Nat → Data) (accepts : Nat → List Bool) (k : Nat) (hu : user k = none) (hacc : accepts k = []) (evs : List Crowd.Event) (down : List Bytes)
    (hj : Crowded ((State.start user accepts).run env key es true (server (some own))) (Converse.wire env pub) (clientSends env now pkey file ec tc) k evs down)
    (s : Crowd.State Data) (log : List (Nat × Ev)) (hr : (State.start user accepts).run env key es true (server (some own)) evs = .ok (s, log))
    (hothers : ∀ x ∈ log, x.1 ≠ k → evUpload x.2 = none) :
    ∃ evs' down' s' log', (∀ e ∈ evs', e.conn = k) ∧
      Crowded ((State.start user accepts).run env key es true (server (some own))) (Converse.wire env pub) (clientSends env now pkey file ec tc) k (evs ++ evs') (down ++ down') ∧
      (State.start user accepts).run env key es true (server (some own)) (evs ++ evs') = .ok (s', log') ∧ Apart k log' ∧
      AllArrived env key (Converse.wire env pub) (clientSends env now pkey file ec tc) k (evs ++ evs') (down ++ down') s' log' := by
  obtain ⟨xs, ys, c⟩ := course h key
  have hq : Quiet k log := hothers
  obtain ⟨evs', down', s', x, g1, g2, g3, g4⟩ := crowded_settles h c pub ec es tc hc hu hacc _ hj hr hq rfl
  exact ⟨evs', down', s', _, g1, g2, g3, (hq.more x).apart, g4⟩

/-- Such a course of events: another terminal, on connection 1, sends part of a frame and hangs up; then the client, on connection 0, gets to the end. -/
example : ∃ evs down s log, .hangUp 1 ∈ evs ∧
    Crowded ((State.start (fun _ => none) (fun _ => [])).run Sample.env none .eof true (server (some ⟨some (2 ^ 1023 + 3), 65537⟩))) (Converse.wire Sample.env none)
      (clientSends Sample.env (fun i => 1700000000 + i) ⟨some (2 ^ 1023 + 1), 65537⟩ (List.replicate 2048 0) .other 11) 0 evs down ∧
    (State.start (fun _ => none) (fun _ => [])).run Sample.env none .eof true (server (some ⟨some (2 ^ 1023 + 3), 65537⟩)) evs = .ok (s, log) ∧ Apart 0 log ∧
    (1, .closed) ∈ log ∧ (sentIn (logOf 0 log)).length = 10 ∧ (handledIn (logOf 0 log)).length = 4 := by
  have hj := Crowded.start (run := (State.start (fun _ => none) (fun _ => [])).run Sample.env none .eof true (server (some ⟨some (2 ^ 1023 + 3), 65537⟩)))
    (bytes := Converse.wire Sample.env none) (client := clientSends Sample.env (fun i => 1700000000 + i) ⟨some (2 ^ 1023 + 1), 65537⟩ (List.replicate 2048 0) .other 11) (k := 0)
  have hj' := ((hj.other (e := .arrive 1 [0x7e, 1]) (by decide)).other (e := .hangUp 1) (by decide)).other (e := .turn 1 .ok) (by decide)
  obtain ⟨s, log, hr, hlog⟩ : ∃ s log, (State.start (fun _ => none) (fun _ => [])).run Sample.env none .eof true (server (some ⟨some (2 ^ 1023 + 3), 65537⟩))
      [.arrive 1 [0x7e, 1], .hangUp 1, .turn 1 .ok] = .ok (s, log) ∧ log = [(1, .closed)] := ⟨_, _, rfl, by decide⟩
  obtain ⟨evs', down', s', log', -, g2, g3, g4, g5⟩ := C98_example_can_complete example_ok none none .other .eof 11 (by omega) _ _ 0 rfl rfl _ _ hj' s log hr
    (by rw [hlog]; simp [evUpload])
  obtain ⟨e1, e2, -⟩ := C98_example_in_the_end example_ok none none .other .eof 11 (by omega) _ _ 0 rfl rfl _ _ g2 s' log' g3 g4 g5
  obtain ⟨s1, y, z, y1, -, y3⟩ := run_before g3
  refine ⟨_, _, s', log', by simp, g2, g3, g4, ?_, by rw [e1]; rfl, by rw [e2]; rfl⟩
  have : y = log := by
    have h2 := y1.symm.trans hr
    simp only [Res.ok.injEq, Prod.mk.injEq] at h2
    exact h2.2
  rw [y3, this, hlog]
  simp

end Verif
