import Verif.Lemmas.WorldSafe
import Verif.Props.Server
import Verif.Props.System
/-! # C78, C79: messages, keepalive and the close handler in the whole server; and C36, C51, C74 there

A schedule `es` is any interleaving of the goroutines of a server to whose connections `reads` will be sent; `log` is what was observed, and `s` the state
at its end. -/

namespace Verif
open Spec Handler Session World

namespace Sample
/-- A heartbeat, as bytes. -/
def beat : Bytes := [126, 0, 2, 0, 0, 1, 56, 0, 19, 128, 0, 0, 7, 175, 126]

/-- What the decoder makes of it. -/
def beatMessage : Message Entity := { header := { header with msgID := 2 }, body := .val (.m0002 {}) }

/-- The second of three parts of an upload, as bytes. -/
def partBytes : Bytes :=
  match Message.encode codec none { header := packedHeader, body := .val (.m0801 { packet := some [1, 2, 3], location := { time := 1700000000 } }) } with
  | .ok (b, _) => b
  | _ => []

/-- What the decoder makes of it. -/
def partMessage : Message Entity :=
  { header := { packedHeader with msgID := 0x0801, property := 8231 },
    body := .val (.m0801 { packet := some [1, 2, 3], location := { lat := ⟨0, -6⟩, lng := ⟨0, -6⟩, time := 1700000000 } }) }

/-- A session is accepted at time 0 and enters its loop. -/
def worldOpened : List World.Event :=
  [.accept, .move 1 .register, .move 1 (.restart 0), .move 1 .cancel, .move 1 .arm, .move 1 .check, .move 1 .attach]

/-- A heartbeat arrives within the period; the session is closed. No handler is registered for heartbeats. -/
def worldSilenced : List World.Event :=
  worldOpened ++ [.tick 59, .receive 1, .process 1 .ok .returns, .dispatch 1 59, .tick 60, .lookup, .closeFound]

/-- The same with a part of an upload for whose message there is a handler. -/
def worldUploading : List World.Event :=
  .addHandler 0x0801 (some 5) :: worldOpened ++ [.tick 59, .receive 1, .process 1 .ok .returns, .check 1, .tick 60, .lookup, .closeFound]

/-- A heartbeat is handled. -/
def worldHandled : List World.Event :=
  .addHandler 2 (some 5) :: worldOpened ++
    [.receive 1, .process 1 .ok .returns, .dispatch 1 1, .move 1 .cancel, .move 1 .arm, .call 1, .finish 1 .returns]

/-- Then the session is closed by the keepalive, and the close handler runs. -/
def worldExpired : List World.Event :=
  worldHandled ++ [.tick 61, .lookup, .closeFound, .move 1 .callbacks, .move 1 .delete, .move 1 .remove, .move 1 (.handler .returns)]

/-- Afterwards the loop goes on. -/
def worldLate : List World.Event :=
  worldExpired ++ [.receive 1, .process 1 .ok .returns, .dispatch 1 62, .move 1 .cancel, .move 1 .arm, .call 1]

/-- What is observed in a schedule. -/
def worldLog (reads : Nat → List Bytes) (es : List World.Event) : List World.Obs :=
  match (World.start server reads).run env none .eof true es with
  | .ok (_, log) => log
  | _ => []

theorem worldLog_run {reads : Nat → List Bytes} {es : List World.Event} (h : worldLog reads es ≠ []) :
    ∃ s, (World.start server reads).run env none .eof true es = .ok (s, worldLog reads es) := by
  unfold worldLog at h ⊢
  split
  · rename_i s log hr
    exact ⟨s, by rw [hr]⟩
  · rename_i hne
    exact absurd (by split <;> simp_all) h
end Sample

variable {env : Env} {key : Option DecKey} {endErr : Err} {auto : Bool} {ka : Int} {rsa : Option Nat} {s0 : Server.State} {reads : Nat → List Bytes}
  {es : List World.Event} {s : World.State} {log : List World.Obs}

private theorem good (h0 : Server.newServer ka rsa = .ok s0) (h : (World.start s0 reads).run env key endErr auto es = .ok (s, log)) :
    Good (keepalivePeriod ka) s log := by
  simpa using good_run (good_start h0 reads) h

private theorem of_server {l : List World.Obs} {a b : List Server.Obs} {o : Server.Obs} (h : l.filterMap serverView = a ++ o :: b) :
    ∃ c d, l = c ++ .server o :: d ∧ c.filterMap serverView = a ∧ d.filterMap serverView = b := by
  obtain ⟨c, d, rfl, h1, h2⟩ := List.filterMap_eq_append_iff.1 h
  obtain ⟨e, x, f, rfl, h3, h4, h5⟩ := List.filterMap_eq_cons_iff.1 h2
  have hx : x = .server o := by cases x <;> simp_all [serverView]
  subst hx
  refine ⟨c ++ e, f, by simp, ?_, h5⟩
  rw [List.filterMap_append, h1, List.filterMap_eq_nil_iff.2 h3, List.append_nil]

/-! ## C78: which messages keep a session open -/

/-- A message for which there is a handler restarts the period of its session before the handler is called. -/
theorem C78_handled_message_restarts (h0 : Server.newServer ka rsa = .ok s0) {k i : Nat} {m : Message Entity} {l1 l2 : List World.Obs}
    (h : (World.start s0 reads).run env key endErr auto es = .ok (s, l1 ++ .called k i m :: l2)) :
    ∃ a n b, l1 = a ++ .server (.restart k n) :: .act k .touch :: .act k (.handle i m) :: b ∧ .server (.armed k) ∈ b ∧ ∀ n', .server (.restart k n') ∉ b := by
  obtain ⟨a, n, b, ⟨g1, g2, -⟩, g3⟩ := ((good h0 h).logs k).calls l1 i m l2 rfl
  exact ⟨a, n, b, g1, g3, g2⟩

/-- Until another message is dispatched, that time is the one from which the period counts. -/
theorem C78_period_counts_from_message (h0 : Server.newServer ka rsa = .ok s0) {k i : Nat} {m : Message Entity} {l1 l2 : List World.Obs}
    (h : (World.start s0 reads).run env key endErr auto es = .ok (s, l1 ++ .called k i m :: l2)) (hl : ∀ n, .server (.restart k n) ∉ l2) :
    ∃ a n b, l1 = a ++ .server (.restart k n) :: .act k .touch :: .act k (.handle i m) :: b ∧
      lastRestart k (List.filterMap serverView (l1 ++ .called k i m :: l2)) = some n := by
  have hg := good h0 h
  obtain ⟨a, n, b, ⟨rfl, g2, -⟩, g4⟩ := (hg.logs k).calls l1 i m l2 rfl
  refine ⟨a, n, b, rfl, ?_⟩
  have he : List.filterMap serverView (a ++ .server (.restart k n) :: .act k .touch :: .act k (.handle i m) :: b ++ .called k i m :: l2) =
      a.filterMap serverView ++ .restart k n :: (b ++ .called k i m :: l2).filterMap serverView := by
    simp [List.filterMap_append, List.filterMap_cons, serverView]
  have ho := Server.inv_ordered hg.server k
  rw [he] at ho ⊢
  refine (Server.last_of_armed ho (fun n' hn => ?_) (mem_server.2 (List.mem_append_left _ g4))).1
  rw [mem_server] at hn
  rcases List.mem_append.1 hn with hn | hn
  · exact g2 n' hn
  · rcases List.mem_cons.1 hn with hn | hn
    · cases hn
    · exact hl n' hn

/-- The only other restart is the first one, when the session is accepted: a message for which there is no handler does not restart the period. -/
theorem C78_only_handled_messages_restart (h0 : Server.newServer ka rsa = .ok s0) {k : Nat} {n : Int} {l1 l2 : List World.Obs}
    (h : (World.start s0 reads).run env key endErr auto es = .ok (s, l1 ++ .server (.restart k n) :: l2)) :
    (∀ n', .server (.restart k n') ∉ l1) ∨ ∃ i m l3, l2 = .act k .touch :: .act k (.handle i m) :: l3 :=
  ((good h0 h).logs k).signs l1 n l2 rfl

/-- C78, partial: a session does not expire at a tick that is less than a period after its last restart. Missing: see `C78_refuted`
and `C50_refuted_overflow`. -/
theorem C78_kept_open_partial (h0 : Server.newServer ka rsa = .ok s0) {k : Nat} {n t : Int} {ks : List Nat} {l1 l2 : List World.Obs}
    (h : (World.start s0 reads).run env key endErr auto es = .ok (s, l1 ++ .server (.ticked n ks) :: l2))
    (ht : lastRestart k (l1.filterMap serverView) = some t) (hn : n < t + keepalivePeriod ka)
    (hf : ∀ t, .server (.restart k t) ∈ l1 → t + keepalivePeriod ka < 2 ^ 63) : k ∉ ks := by
  intro hk
  obtain ⟨evs, hr⟩ := server_run h
  rw [List.filterMap_append, List.filterMap_cons] at hr
  obtain ⟨t', h1, h2⟩ := C50_never_early_partial h0 hr (fun t ht => hf t (mem_server.1 ht)) hk
  rw [ht] at h1
  cases h1
  omega

/-- C78, partial: the keepalive closes a session only if a period has passed, at the last tick, since its last restart. -/
theorem C78_closed_after_period_partial (h0 : Server.newServer ka rsa = .ok s0) {k : Nat} {l1 l2 : List World.Obs}
    (h : (World.start s0 reads).run env key endErr auto es = .ok (s, l1 ++ .server (.timeout k) :: l2))
    (hf : ∀ t, .server (.restart k t) ∈ l1 → t + keepalivePeriod ka < 2 ^ 63) :
    ∃ a n ks b t, l1 = a ++ .server (.ticked n ks) :: b ∧ lastRestart k (a.filterMap serverView) = some t ∧ t + keepalivePeriod ka ≤ n ∧
      ∀ n' ks', .server (.ticked n' ks') ∉ b := by
  obtain ⟨evs, hr⟩ := server_run h
  rw [List.filterMap_append, List.filterMap_cons] at hr
  obtain ⟨a, n, ks, b, t, h1, h2, h3, h4⟩ := C50_closed_after_period_partial h0 hr (fun t ht => hf t (mem_server.1 ht))
  obtain ⟨c, d, rfl, rfl, rfl⟩ := of_server h1
  exact ⟨c, n, ks, d, t, rfl, h2, h3, fun n' ks' hm => h4 n' ks' (mem_server.2 hm)⟩

/-- C78, the other half: a session is closed if it was silent for a period, that is, a period has passed at a tick since its last restart and it is not
being restarted at the tick. -/
theorem C78_silent_closed (h0 : Server.newServer ka rsa = .ok s0) {k : Nat} {n t : Int} {ks : List Nat} {l1 l2 : List World.Obs}
    (h : (World.start s0 reads).run env key endErr auto es = .ok (s, l1 ++ .server (.ticked n ks) :: l2))
    (hr : restarting k (l1.filterMap serverView) = none) (ht : lastRestart k (l1.filterMap serverView) = some t) (h64 : -2 ^ 63 ≤ t)
    (hn : t + keepalivePeriod ka ≤ n)
    (hidle : s.server.fired = [] ∧ s.server.found = none) : .server (.closing k) ∈ l1 ++ .server (.ticked n ks) :: l2 := by
  obtain ⟨evs, h1⟩ := server_run h
  rw [List.filterMap_append, List.filterMap_cons] at h1
  have := C50_silent_closed h0 h1 hr ht h64 hn hidle
  rw [← mem_server, List.filterMap_append, List.filterMap_cons]
  exact this

/-- The keepalive closes a session although a message was received from it within the period: one without handler, and a part of an upload. -/
theorem C78_refuted :
    (∃ es s l1 l2, (World.start Sample.server fun _ => [Sample.beat]).run Sample.env none .eof true es =
      .ok (s, l1 ++ .server (.ticked 59 []) :: .received 1 Sample.beatMessage :: .act 1 (.unhandled Sample.beatMessage) ::
        .server (.ticked 60 [1]) :: .server (.timeout 1) :: .server (.closing 1) :: l2)) ∧
    ∃ es s l1 l2 m, (World.start Sample.server fun _ => [Sample.partBytes]).run Sample.env none .eof true es =
      .ok (s, l1 ++ .server (.ticked 59 []) :: .received 1 m :: l2) ∧ .act 0 (.registered m.header.msgID 5) ∈ l1 ∧
        l2.drop 2 = [.server (.ticked 60 [1]), .server (.timeout 1), .server (.closing 1)] := by
  refine ⟨?_, ?_⟩
  · obtain ⟨s, h⟩ := Sample.worldLog_run (reads := fun _ => [Sample.beat]) (es := Sample.worldSilenced) (by decide +kernel)
    refine ⟨_, s, (Sample.worldLog (fun _ => [Sample.beat]) Sample.worldSilenced).take 6, [], h.trans ?_⟩
    exact congrArg (fun l => Res.ok (s, l)) (by decide +kernel)
  · obtain ⟨s, h⟩ := Sample.worldLog_run (reads := fun _ => [Sample.partBytes]) (es := Sample.worldUploading) (by decide +kernel)
    refine ⟨_, s, (Sample.worldLog (fun _ => [Sample.partBytes]) Sample.worldUploading).take 7,
      (Sample.worldLog (fun _ => [Sample.partBytes]) Sample.worldUploading).drop 9, Sample.partMessage, h.trans ?_, by decide +kernel, by decide +kernel⟩
    exact congrArg (fun l => Res.ok (s, l)) (by decide +kernel)

/-! ## C79: no handler is called after the close handler -/

/-- C79, partial: once the loop of a session has ended no handler is called for it and no message received; those that were called had returned. -/
theorem C79_after_loop_partial (h0 : Server.newServer ka rsa = .ok s0) {k : Nat} {l1 l2 : List World.Obs}
    (h : (World.start s0 reads).run env key endErr auto es = .ok (s, l1 ++ .server (.left k) :: l2)) :
    (∀ i m, .called k i m ∉ l2) ∧ (∀ m, .received k m ∉ l2) ∧ l1.countP (isCall k) = l1.countP (isReturn k) :=
  ((good h0 h).logs k).left l1 l2 rfl

/-- Hence if the loop itself closes the session, all handlers have returned before the close handler is called, and none is called later. -/
theorem C79_own_close_partial (h0 : Server.newServer ka rsa = .ok s0) {k : Nat} {l1 l2 : List World.Obs}
    (h : (World.start s0 reads).run env key endErr auto es = .ok (s, l1 ++ .server (.closing k) :: .server (.left k) :: l2)) :
    .server (.closeHandler k) ∉ l1 ∧ l1.countP (isCall k) = l1.countP (isReturn k) ∧ (∀ i m, .called k i m ∉ l2) ∧ ∀ m, .received k m ∉ l2 := by
  have hg := good h0 h
  obtain ⟨h1, h2, h3⟩ := (hg.logs k).left (l1 ++ [.server (.closing k)]) l2 (by simp)
  simp only [List.countP_append, List.countP_cons, List.countP_nil, isCall, isReturn] at h3
  refine ⟨fun hm => ?_, by simpa using h3, h1, h2⟩
  have hl := hg.server.life k
  obtain ⟨a, b, rfl⟩ := List.append_of_mem hm
  cases hx : s.server.sessions k with
  | none =>
    rw [hx] at hl
    have hn : Server.only k (List.filterMap serverView (a ++ .server (.closeHandler k) :: b ++ .server (.closing k) :: .server (.left k) :: l2)) = [] :=
      Server.life_facts hl
    have : Server.Obs.closing k ∈ Server.only k (List.filterMap serverView (a ++ .server (.closeHandler k) :: b ++ .server (.closing k) :: .server (.left k) :: l2)) :=
      (Server.mem_only rfl).2 (mem_server.2 (by simp))
    rw [hn] at this
    cases this
  | some x =>
    rw [hx] at hl
    have f : Server.Facts k x _ := Server.life_facts hl
    have he : List.filterMap serverView (a ++ .server (.closeHandler k) :: b ++ .server (.closing k) :: .server (.left k) :: l2) =
        a.filterMap serverView ++ .closeHandler k :: (b ++ .server (.closing k) :: .server (.left k) :: l2).filterMap serverView := by
      simp [List.filterMap_append, List.filterMap_cons, serverView]
    exact f.last _ _ (Server.only_split he rfl) ((Server.mem_only rfl).2 (mem_server.2 (by simp)))

/-- C79, partial: after a session is closed by someone else, only messages that are completely in its buffer are still received, and handlers called for
them. -/
theorem C79_only_buffered_partial (h0 : Server.newServer ka rsa = .ok s0) (h : (World.start s0 reads).run env key endErr auto es = .ok (s, log))
    {k : Nat} (hc : .server (.closing k) ∈ log) {es' : List World.Event} {s' : World.State} {later : List World.Obs}
    (h' : s.run env key endErr auto es' = .ok (s', later)) :
    ∃ T, receiveMany (entityCodec env) key endErr (later.filterMap (receivedBy k)).length ⟨(s.sys.conns k).recv.buffer, []⟩ =
      ((later.filterMap (receivedBy k)).map .ok, T) := by
  obtain ⟨b', h1, -⟩ := closedInv_run (p := keepalivePeriod ka) (log := []) (good h0 h) hc ⟨_, rfl, fun _ => rfl⟩ h'
  exact ⟨_, h1⟩

/-- A handler is called after the close handler, which was told that the session is closed, has returned. -/
theorem C79_refuted : ∃ es s l1 l2, (World.start Sample.server fun _ => [Sample.beat ++ Sample.beat]).run Sample.env none .eof true es =
    .ok (s, l1 ++ .server (.closeHandler 1) :: .server (.closeDone 1) :: l2) ∧ .called 1 5 Sample.beatMessage ∈ l2 := by
  obtain ⟨s, h⟩ := Sample.worldLog_run (reads := fun _ => [Sample.beat ++ Sample.beat]) (es := Sample.worldLate) (by decide +kernel)
  refine ⟨_, s, (Sample.worldLog (fun _ => [Sample.beat ++ Sample.beat]) Sample.worldLate).take 20,
    (Sample.worldLog (fun _ => [Sample.beat ++ Sample.beat]) Sample.worldLate).drop 22, h.trans ?_, by decide +kernel⟩
  exact congrArg (fun l => Res.ok (s, l)) (by decide +kernel)

/-! ## C36, C51 and C74 in the whole server -/

/-- C36: while a handler runs, `GetSession` finds its session, unless the session was closed. -/
theorem C36_in_handlers (h0 : Server.newServer ka rsa = .ok s0) (h : (World.start s0 reads).run env key endErr auto es = .ok (s, log)) {k : Nat}
    (hr : log.countP (isReturn k) < log.countP (isCall k)) (hc : .server (.closing k) ∉ log) : s.server.getSession k = true := by
  have hg := good h0 h
  have hb := (hg.logs k).balance
  have hrun : ∃ i m, s.busy k = .running i m := by
    cases hx : s.busy k <;> simp only [hx] at hb
    · omega
    · omega
    · exact ⟨_, _, rfl⟩
  obtain ⟨i, m, hrun⟩ := hrun
  have hp : placeOf s.server k = some .looping := (hg.fits k).running i m hrun
  obtain ⟨evs, h1⟩ := server_run h
  refine C36_open_found h0 h1 ?_ fun hm => hc (mem_server.1 hm)
  have hl := hg.server.life k
  unfold placeOf at hp
  cases hx : s.server.sessions k with
  | none => rw [hx] at hp; cases hp
  | some x =>
    rw [hx] at hl hp
    have f : Server.Facts k x _ := Server.life_facts hl
    have hp : x.place = .looping := by simpa using hp
    refine (Server.mem_only rfl).1 (f.registered.2 ?_)
    rw [hp]
    simp

/-- C51, partial: no schedule of the whole server crashes it, whatever its connections send — unless one sends a single byte between two delimiters. -/
theorem C51_whole_server_partial (env : Env) (key : Option DecKey) (hkey : ∀ k, key = some k → 0 < k.size) (endErr : Err) (auto : Bool)
    (h0 : Server.newServer ka rsa = .ok s0) (reads : Nat → List Bytes) (h : ∀ k x, ¬ [0x7e, x, 0x7e] <:+: (reads k).flatten) (es : List World.Event) :
    ∃ s log, (World.start s0 reads).run env key endErr auto es = .ok (s, log) := by
  obtain ⟨⟨s, log⟩, hr⟩ := World.run_ok (env := env) (key := key) (endErr := endErr) (auto := auto) (es := []) h0 hkey h rfl es
  exact ⟨s, log, hr⟩

/-- C74: in the whole server too, each connection is served as if it were alone, up to the moment at which it is closed: `given` are the bytes its loop is
given, of those that are sent. -/
theorem C74_whole_server (h : (World.start s0 reads).run env key endErr auto es = .ok (s, log)) (k : Nat) (hk : AtRest (s.sys.conns k)) :
    ∃ (given : List Bytes) (turns : List (List Outside × Around)) (outs : List Outside), given <+: reads k ∧
      ({} : Loop).run auto (inputs env key endErr turns ⟨[], given⟩ ++ outs.map .outside) =
        .ok (s.sys.view k, (log.filterMap loopView).filterMap (seenBy k)) ∧
      (∀ t ∈ turns, (∀ x ∈ t.1 ++ during t.2, FromOthers k (log.filterMap loopView) x) ∧ ResultsIn k (log.filterMap loopView) t.2) ∧
      ∀ x ∈ outs, FromOthers k (log.filterMap loopView) x := by
  obtain ⟨g, evs, hg, hr⟩ := loops_run (readsOf s.sys) (fun k => List.prefix_refl _) h
  have hr : (System.start g).run env key endErr auto evs = .ok (s.sys, log.filterMap loopView) := hr
  obtain ⟨turns, outs, h1, h2, h3⟩ := C74_each_as_if_alone env key endErr auto g evs s.sys _ hr k hk
  exact ⟨g k, turns, outs, hg k, h1, h2, h3⟩

/-- C74: each session receives, one after the other, the messages that arrive on its connection: none is lost, repeated or reordered, and none comes from
another connection. -/
theorem C74_received_in_order (h0 : Server.newServer ka rsa = .ok s0) (h : (World.start s0 reads).run env key endErr auto es = .ok (s, log)) (k : Nat) :
    (receiveMany (entityCodec env) key endErr (log.filterMap (receivedBy k)).length ⟨[], reads k⟩).1 = (log.filterMap (receivedBy k)).map .ok := by
  obtain ⟨T, h1, -⟩ := recvInv_run (k := k) (c := ⟨[], reads k⟩) (log := []) (good_start h0 reads) ⟨_, rfl, fun _ => ⟨rfl, List.prefix_refl _⟩⟩ h
  rw [List.nil_append] at h1
  rw [h1]

/-- C74: each handler found for a message is called for it, once and in order; only the last one may still have to be called. -/
theorem C74_called_in_order (h0 : Server.newServer ka rsa = .ok s0) (h : (World.start s0 reads).run env key endErr auto es = .ok (s, log)) (k : Nat) :
    ∃ rest, rest.length ≤ 1 ∧ log.filterMap (foundBy k) = log.filterMap (calledBy k) ++ rest := by
  refine ⟨_, ?_, ((good h0 h).logs k).pairs⟩
  split <;> simp

/-- C74: handlers of one session do not overlap. -/
theorem C74_one_at_a_time (h0 : Server.newServer ka rsa = .ok s0) (h : (World.start s0 reads).run env key endErr auto es = .ok (s, log)) (k : Nat) :
    log.countP (isCall k) ≤ log.countP (isReturn k) + 1 ∧ log.countP (isReturn k) ≤ log.countP (isCall k) := by
  have := ((good h0 h).logs k).balance
  rw [this]
  split <;> omega

/-! ## Cases that meet the hypotheses -/

/-- A message is handled; at the tick a period after the accept, but not after the message, the session does not expire. -/
example : Sample.worldLog (fun _ => [Sample.beat]) (Sample.worldHandled ++ [.tick 60]) =
    [.act 0 (.registered 2 5), .server (.accepted 1), .server (.registered 1), .server (.restart 1 0), .server (.cancelled 1), .server (.armed 1),
      .server (.attached 1), .received 1 Sample.beatMessage, .server (.restart 1 1), .act 1 .touch, .act 1 (.handle 5 Sample.beatMessage),
      .server (.cancelled 1), .server (.armed 1), .called 1 5 Sample.beatMessage, .returned 1 5 .returns, .server (.ticked 60 [])] := by decide +kernel

example : lastRestart 1 ((Sample.worldLog (fun _ => [Sample.beat]) Sample.worldHandled).filterMap serverView) = some 1 ∧
    restarting 1 ((Sample.worldLog (fun _ => [Sample.beat]) Sample.worldHandled).filterMap serverView) = none := by decide +kernel

/-- A second later it expires and is closed. -/
example : (Sample.worldLog (fun _ => [Sample.beat]) Sample.worldExpired).drop 15 =
    [.server (.ticked 61 [1]), .server (.timeout 1), .server (.closing 1), .server (.deleted 1), .server (.removed 1), .server (.closeHandler 1),
      .server (.closeDone 1)] := by decide +kernel

/-- If the connection ends, the loop closes the session itself. -/
example : (Sample.worldLog (fun _ => [Sample.beat]) (Sample.worldHandled ++ [.receive 1])).drop 15 =
    [.act 1 .closed, .server (.closing 1), .server (.left 1)] := by decide +kernel

/-- A session that was closed by the keepalive has received another message, which is still in its buffer. -/
example : (match (World.start Sample.server fun _ => [Sample.beat ++ Sample.beat]).run Sample.env none .eof true Sample.worldExpired with
    | .ok (s, log) => some ((s.sys.conns 1).recv.buffer, decide (.server (.closing 1) ∈ log))
    | _ => none) = some (Sample.beat, true) := by decide +kernel

/-- While the handler runs. -/
example : (Sample.worldLog (fun _ => [Sample.beat]) Sample.worldHandled.dropLast).countP (isReturn 1) <
    (Sample.worldLog (fun _ => [Sample.beat]) Sample.worldHandled.dropLast).countP (isCall 1) ∧
    .server (.closing 1) ∉ Sample.worldLog (fun _ => [Sample.beat]) Sample.worldHandled.dropLast := by decide +kernel

/-- Connections that deliver heartbeats crash no schedule. -/
example (es : List World.Event) : ∃ s log, (World.start Sample.server fun _ => [Sample.beat]).run Sample.env none .eof true es = .ok (s, log) :=
  C51_whole_server_partial Sample.env none (fun _ h => by cases h) .eof true Sample.server_new _ (by
    intro _ x ⟨a, b, h⟩
    have hl := congrArg List.length h
    simp [Sample.beat] at h hl
    rcases a with _ | ⟨a1, _ | ⟨a2, _ | ⟨a3, _ | ⟨a4, _ | ⟨a5, _ | ⟨a6, _ | ⟨a7, _ | ⟨a8, _ | ⟨a9, _ | ⟨b1, _ | ⟨b2, _ | ⟨b3, _ | ⟨b4, a⟩⟩⟩⟩⟩⟩⟩⟩⟩⟩⟩⟩⟩ <;>
      simp at h hl
    omega) es

end Verif
