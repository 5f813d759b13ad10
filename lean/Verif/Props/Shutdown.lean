import Verif.Lemmas.Shutdown
import Verif.Props.World
/-! # C97: when `Stop` has returned, the server is over

A schedule `es` is any interleaving of the goroutines of a server that runs, of the goroutine that accepts connections and of a call of `Stop`; `log` is
what was observed. -/

namespace Verif
open Spec Spec.Stop Handler Session Shutdown

namespace Sample
/-- `Stop` closes the sessions `ks` of each map. -/
def stopMaps (ks : Nat → List Nat) : List Shutdown.Event :=
  .stop :: ((List.range 32).flatMap fun i => .lock :: (ks i).map .closeNext ++ [.unlock]) ++ [.lock]

/-- A heartbeat is handled. -/
def stopHandled : List Shutdown.Event := .connect :: (worldHandled.map fun e => if e = .accept then .enter else .world e)

/-- The server is stopped; the session has been closed, and its close handler has returned. -/
def stopStopped : List Shutdown.Event :=
  stopHandled ++ stopMaps (fun i => if i = 1 then [1] else []) ++
    [.world (.move 1 .callbacks), .world (.move 1 .delete), .world (.move 1 .remove), .world (.move 1 (.handler .returns)), .release 1, .finish]

/-- Afterwards the loop of the session goes on. -/
def stopLate : List Shutdown.Event :=
  stopStopped ++ [.world (.receive 1), .world (.process 1 .ok .returns), .world (.dispatch 1 62), .world (.move 1 .cancel), .world (.move 1 .arm),
    .world (.call 1)]

/-- The loop ends before `Stop` returns. A second connection was accepted when `Stop` was called; its session is made later. -/
def stopQuiet : List Shutdown.Event :=
  stopHandled ++ [.connect] ++ stopMaps (fun i => if i = 1 then [1] else []) ++
    [.world (.move 1 .callbacks), .world (.move 1 .delete), .world (.move 1 .remove), .world (.move 1 (.handler .panics)), .release 1, .world (.receive 1),
      .finish, .enter]

/-- The server is stopped when the goroutine of a session has only entered it into the registry. -/
def stopEarly : List Shutdown.Event :=
  [.connect, .enter, .world (.move 1 .register)] ++ stopMaps (fun i => if i = 1 then [1] else []) ++ [.world (.move 1 .callbacks), .release 1, .finish]

/-- What is observed in a schedule. -/
def stopLog (reads : Nat → List Bytes) (es : List Shutdown.Event) : List Shutdown.Obs :=
  match (Shutdown.start server reads).run env none .eof true es with
  | .ok (_, log) => log
  | _ => []

theorem stopLog_run {reads : Nat → List Bytes} {es : List Shutdown.Event} (h : stopLog reads es ≠ []) :
    ∃ s, (Shutdown.start server reads).run env none .eof true es = .ok (s, stopLog reads es) := by
  unfold stopLog at h ⊢
  split
  · rename_i s log hr
    exact ⟨s, by rw [hr]⟩
  · rename_i hr
    simp only at h
    exact absurd rfl h
end Sample

variable {env : Env} {key : Option DecKey} {endErr : Err} {auto : Bool} {ka : Int} {rsa : Option Nat} {s0 : Server.State} {reads : Nat → List Bytes}
  {es : List Shutdown.Event} {s : Shutdown.State} {log : List Shutdown.Obs}

private theorem inv (h0 : Server.newServer ka rsa = .ok s0) (h : (Shutdown.start s0 reads).run env key endErr auto es = .ok (s, log)) :
    Shutdown.Inv (keepalivePeriod ka) s log := by
  simpa using Shutdown.inv_run (Shutdown.inv_start h0 reads) h

private theorem tally (h : (Shutdown.start s0 reads).run env key endErr auto es = .ok (s, log)) : Shutdown.Tally s log := by
  simpa using Shutdown.tally_run (s := Shutdown.start s0 reads) (log := []) ⟨by simp [Shutdown.start], by simp [Shutdown.start]⟩ h

private theorem stopped_at (h0 : Server.newServer ka rsa = .ok s0) {l1 l2 : List Shutdown.Obs}
    (h : (Shutdown.start s0 reads).run env key endErr auto es = .ok (s, l1 ++ .stopped :: l2)) :
    ∃ e2 t, Shutdown.Inv (keepalivePeriod ka) t (l1 ++ [.stopped]) ∧ t.phase = .returned ∧ t.run env key endErr auto e2 = .ok (s, l2) := by
  obtain ⟨e1, e2, t, h1, h2⟩ := Shutdown.run_split (by simp) h
  have hi := inv h0 h1
  exact ⟨e2, t, hi, hi.stopped.1 (by simp), h2⟩

/-- Once `Stop` is called no connection is accepted any more, and no more sessions are made than connections were accepted before. -/
theorem C97_refuses (h0 : Server.newServer ka rsa = .ok s0) {l1 l2 : List Shutdown.Obs}
    (h : (Shutdown.start s0 reads).run env key endErr auto es = .ok (s, l1 ++ .stopping :: l2)) :
    .connected ∉ l2 ∧ l2.countP isMade + l1.countP isMade ≤ l1.count .connected := by
  obtain ⟨e1, e2, t, h1, h2⟩ := Shutdown.run_split (by simp) h
  have hn := Shutdown.no_connected ((inv h0 h1).stopping.1 (by simp)) h2
  refine ⟨hn, ?_⟩
  have := (tally h).count
  simp only [List.count_append, List.count_cons, List.countP_append, List.countP_cons, List.count_eq_zero.2 hn] at this
  simp [isMade] at this
  omega

/-- When `Stop` has returned, every session that was ever made is closed; if one is made later, for a connection accepted before, it is closed at once. -/
theorem C97_all_closed (h0 : Server.newServer ka rsa = .ok s0) {l1 l2 : List Shutdown.Obs}
    (h : (Shutdown.start s0 reads).run env key endErr auto es = .ok (s, l1 ++ .stopped :: l2)) (k : Nat) :
    (made k ∈ l1 → closed k ∈ l1) ∧ (made k ∈ l2 → ∃ a b, l2 = a ++ made k :: closed k :: b) := by
  obtain ⟨e2, t, hi, hp, h2⟩ := stopped_at h0 h
  refine ⟨fun hk => ?_, Shutdown.made_closed hi hp h2⟩
  simpa using Shutdown.returned_closed hi hp (k := k) (by simp [hk])

/-- `Stop` returns only when the goroutines that close the sessions made before it was called have ended. -/
theorem C97_waits (h0 : Server.newServer ka rsa = .ok s0) {l0 l1 l2 : List Shutdown.Obs}
    (h : (Shutdown.start s0 reads).run env key endErr auto es = .ok (s, l0 ++ .stopping :: l1 ++ .stopped :: l2)) {k : Nat} (hk : made k ∈ l0) :
    closeEnded k ∈ l0 ++ .stopping :: l1 := by
  obtain ⟨e2, t, hi, hp, -⟩ := stopped_at h0 h
  obtain ⟨e1, -, u, h1, -⟩ := Shutdown.run_split (l1 := l0) (l2 := l1 ++ .stopped :: l2) (o := .stopping) (by simp) (by simpa using h)
  have hs : .stopping ∉ l0 := by
    intro hm
    obtain ⟨a, b, rfl⟩ := List.append_of_mem hm
    obtain ⟨e3, e4, v, h3, h4⟩ := Shutdown.run_split (l1 := a) (l2 := b ++ [.stopping]) (o := .stopping) (by simp) (by simpa using h1)
    exact Shutdown.no_stopping ((inv h0 h3).stopping.1 (by simp)) h4 (by simp)
  rcases hi.early k ⟨l0, .stopping :: l1 ++ [.stopped], by simp, hk, hs⟩ with h | h
  · rw [hi.empty hp] at h
    cases h
  · simpa using h

/-- C97, partial: for such a session the close handler has run by then, exactly once, and `GetSession` does not find it, then or later. Missing: sessions that
were closed before their close callback was in place, and sessions made later; see `C97_refuted_registered`. -/
theorem C97_close_handlers_partial (h0 : Server.newServer ka rsa = .ok s0) {l0 l1 l2 : List Shutdown.Obs}
    (h : (Shutdown.start s0 reads).run env key endErr auto es = .ok (s, l0 ++ .stopping :: l1 ++ .stopped :: l2)) {k : Nat} (hk : made k ∈ l0)
    (hc : CallbackInTime k (l0 ++ .stopping :: l1)) :
    (l0 ++ .stopping :: l1).count (closeCalled k) = 1 ∧ closeCalled k ∉ l2 ∧ s.world.server.getSession k = false := by
  have hd := C97_waits h0 h hk
  generalize l0 ++ .stopping :: l1 = l at *
  obtain ⟨e1, e2, t, h1, h2⟩ := Shutdown.run_split (by simp) h
  obtain ⟨w1, g1⟩ := Shutdown.world_run h1
  obtain ⟨v1, g2⟩ := World.server_run g1
  obtain ⟨w, g3⟩ := Shutdown.world_run h
  obtain ⟨v, g4⟩ := World.server_run g3
  have cut (a b : List Shutdown.Obs) : List.filterMap serverView (List.filterMap worldView (a ++ .stopped :: b)) =
      a.filterMap sessionView ++ b.filterMap sessionView := by
    rw [List.filterMap_append, List.filterMap_append, List.filterMap_filterMap, List.filterMap_filterMap]
    rfl
  rw [cut] at g2 g4
  rw [List.filterMap_nil, List.append_nil] at g2
  have hd' : .closeDone k ∈ l.filterMap sessionView := List.mem_filterMap.2 ⟨_, hd, rfl⟩
  have n1 := C37_exactly_once_partial h0 g2 hc hd'
  have hc' : AttachedInTime k (l.filterMap sessionView ++ l2.filterMap sessionView) := by
    obtain ⟨a, b, he, hm⟩ := hc
    exact ⟨a, b ++ l2.filterMap sessionView, by rw [he]; simp, hm⟩
  have n2 := C37_exactly_once_partial h0 g4 hc' (List.mem_append_left _ hd')
  have num (a : List Shutdown.Obs) : a.count (closeCalled k) = (a.filterMap sessionView).count (.closeHandler k) := Shutdown.count_view a k
  rw [List.count_append, n1] at n2
  refine ⟨by rw [num, n1], ?_, C36_closed_not_found_partial h0 g4 hc' (List.mem_append_left _ hd')⟩
  rw [← List.count_eq_zero, num]
  omega

/-- C97, partial: once `Stop` has returned, a session receives only messages that are completely in its buffer. Missing: that there are none, and that no handler
runs; see `C97_refuted`. -/
theorem C97_only_buffered_partial (h0 : Server.newServer ka rsa = .ok s0) (h : (Shutdown.start s0 reads).run env key endErr auto es = .ok (s, log))
    (hs : .stopped ∈ log) {es' : List Shutdown.Event} {s' : Shutdown.State} {later : List Shutdown.Obs}
    (h' : s.run env key endErr auto es' = .ok (s', later)) (k : Nat) :
    ∃ T, receiveMany (entityCodec env) key endErr ((later.filterMap worldView).filterMap (receivedBy k)).length ⟨(s.world.sys.conns k).recv.buffer, []⟩ =
      (((later.filterMap worldView).filterMap (receivedBy k)).map .ok, T) := by
  have hi := inv h0 h
  obtain ⟨b', h1, -⟩ := Shutdown.late_run (log := []) hi (hi.stopped.1 hs) ⟨_, rfl, fun _ => rfl⟩ h'
  exact ⟨_, h1⟩

/-- A session that was not made when `Stop` returned receives no message, and no handler is called for it. -/
theorem C97_late_sessions (h0 : Server.newServer ka rsa = .ok s0) {l1 l2 : List Shutdown.Obs}
    (h : (Shutdown.start s0 reads).run env key endErr auto es = .ok (s, l1 ++ .stopped :: l2)) {k : Nat} (hk : made k ∉ l1) :
    (∀ m, received k m ∉ l2) ∧ ∀ i m, called k i m ∉ l2 := by
  obtain ⟨e1, e2, t, h1, h2⟩ := Shutdown.run_split (by simp) h
  have hi := inv h0 h1
  have hn : World.placeOf t.world.server k = none := by
    cases hx : World.placeOf t.world.server k with
    | none => rfl
    | some q => exact absurd (by simpa using Shutdown.unmade_place hi (k := k) (by rw [hx]; simp)) hk
  have hb : (t.world.sys.conns k).recv.buffer = [] := Shutdown.unmade_buffer h0 h1 hn
  obtain ⟨T, g1⟩ := C97_only_buffered_partial h0 h1 (by simp) h2 k
  rw [hb] at g1
  have g2 := Shutdown.receiveMany_empty g1 rfl
  have hr : ∀ m, .received k m ∉ l2.filterMap worldView := by
    intro m hm
    have : m ∈ (l2.filterMap worldView).filterMap (receivedBy k) := List.mem_filterMap.2 ⟨_, hm, by simp [receivedBy]⟩
    rw [List.eq_nil_of_length_eq_zero g2] at this
    cases this
  obtain ⟨w, h3⟩ := Shutdown.world_run h2
  obtain ⟨g3, g4⟩ := Shutdown.idle_unmade (hi.good.fits k) hn
  exact ⟨fun m hm => hr m (Shutdown.mem_world.2 hm), fun i m hm => Shutdown.idle_run hi.good g3 g4 h3 hr i m (Shutdown.mem_world.2 hm)⟩

/-- When the loop of a session has ended, no message of it is received and no handler is called for it. -/
theorem C97_after_loop (h0 : Server.newServer ka rsa = .ok s0) {l1 l2 : List Shutdown.Obs} {k : Nat}
    (h : (Shutdown.start s0 reads).run env key endErr auto es = .ok (s, l1 ++ loopEnded k :: l2)) :
    (∀ m, received k m ∉ l2) ∧ ∀ i m, called k i m ∉ l2 := by
  obtain ⟨w, h1⟩ := Shutdown.world_run h
  have he : List.filterMap worldView (l1 ++ loopEnded k :: l2) = l1.filterMap worldView ++ .server (.left k) :: l2.filterMap worldView := by
    simp [List.filterMap_append, List.filterMap_cons, worldView]
  rw [he] at h1
  obtain ⟨g1, g2, -⟩ := C79_after_loop_partial h0 h1
  exact ⟨fun m hm => g2 m (Shutdown.mem_world.2 hm), fun i m hm => g1 i m (Shutdown.mem_world.2 hm)⟩

/-- C97, partial: if the loops of all sessions made before have ended when `Stop` returns, then no message is received and no handler is called afterwards. -/
theorem C97_quiet_partial (h0 : Server.newServer ka rsa = .ok s0) {l1 l2 : List Shutdown.Obs}
    (h : (Shutdown.start s0 reads).run env key endErr auto es = .ok (s, l1 ++ .stopped :: l2)) (hl : ∀ k, made k ∈ l1 → loopEnded k ∈ l1) (k : Nat) :
    (∀ m, received k m ∉ l2) ∧ ∀ i m, called k i m ∉ l2 := by
  by_cases hk : made k ∈ l1
  · obtain ⟨a, b, rfl⟩ := List.append_of_mem (hl k hk)
    obtain ⟨g1, g2⟩ := C97_after_loop (l2 := b ++ .stopped :: l2) h0 (by simpa using h)
    exact ⟨fun m hm => g1 m (by simp [hm]), fun i m hm => g2 i m (by simp [hm])⟩
  · exact C97_late_sessions h0 h hk

/-- `Stop` does not hang: however far it is, the goroutines that are left can go on so that it returns, whether or not the close handlers panic. -/
theorem C97_can_return (h0 : Server.newServer ka rsa = .ok s0) (h : (Shutdown.start s0 reads).run env key endErr auto es = .ok (s, log))
    (hs : .stopping ∈ log) : ∃ es' s' later, s.run env key endErr auto es' = .ok (s', later) ∧ .stopped ∈ log ++ later := by
  have hi := inv h0 h
  have ht := tally h
  have hp := hi.stopping.1 hs
  have last {t : Shutdown.State} {e : List Shutdown.Event} {x : List Shutdown.Obs} (g : s.run env key endErr auto e = .ok (t, x)) (hw : t.phase = .waiting) :
      ∃ es' s' later, s.run env key endErr auto es' = .ok (s', later) ∧ .stopped ∈ log ++ later := by
    have hi' := Shutdown.inv_run hi g
    obtain ⟨e', u, y, g1, g2⟩ := Shutdown.can_return (env := env) (key := key) (endErr := endErr) (auto := auto) .returns hi' (Shutdown.tally_run ht g) hw
    have g3 := Shutdown.run_append g g1
    exact ⟨_, u, _, g3, (Shutdown.inv_run hi g3).stopped.2 g2⟩
  cases hx : s.phase with
  | serving => exact absurd hx hp
  | between i =>
    obtain ⟨e, t, x, g, hw⟩ := Shutdown.can_wait (env := env) (key := key) (endErr := endErr) (auto := auto) hi hx
    exact last g hw
  | closing i left =>
    obtain ⟨e, t, x, g, hw⟩ := Shutdown.can_unlock (env := env) (key := key) (endErr := endErr) (auto := auto) _ hi hx
    obtain ⟨e', t', x', g', hw'⟩ := Shutdown.can_wait (env := env) (key := key) (endErr := endErr) (auto := auto) (Shutdown.inv_run hi g) hw
    exact last (Shutdown.run_append g g') hw'
  | waiting => exact last (e := []) rfl hx
  | returned => exact ⟨[], s, [], rfl, by simpa using hi.stopped.2 hx⟩

/-- A handler is called after `Stop` has returned. -/
theorem C97_refuted : ∃ es s l1 l2, (Shutdown.start Sample.server fun _ => [Sample.beat ++ Sample.beat]).run Sample.env none .eof true es =
    .ok (s, l1 ++ .stopped :: l2) ∧ called 1 5 Sample.beatMessage ∈ l2 := by
  obtain ⟨s, h⟩ := Sample.stopLog_run (reads := fun _ => [Sample.beat ++ Sample.beat]) (es := Sample.stopLate) (by decide +kernel)
  refine ⟨_, s, (Sample.stopLog (fun _ => [Sample.beat ++ Sample.beat]) Sample.stopLate).take 22,
    (Sample.stopLog (fun _ => [Sample.beat ++ Sample.beat]) Sample.stopLate).drop 23, h.trans ?_, by decide +kernel⟩
  exact congrArg (fun l => Res.ok (s, l)) (by decide +kernel)

/-- A session that was made before `Stop` was called is found by `GetSession` for ever after `Stop` has returned, and its close handler never runs. -/
theorem C97_refuted_registered : ∃ es s l0 l1, (Shutdown.start Sample.server fun _ => []).run Sample.env none .eof true es =
      .ok (s, l0 ++ .stopping :: l1 ++ [.stopped]) ∧ made 1 ∈ l0 ∧ closeCalled 1 ∉ l0 ++ l1 ∧
    ∀ more s' later, s.run Sample.env none .eof true more = .ok (s', later) → s'.world.server.getSession 1 = true ∧ closeCalled 1 ∉ later := by
  obtain ⟨s, h⟩ := Sample.stopLog_run (reads := fun _ => []) (es := Sample.stopEarly) (by decide +kernel)
  have hl : Sample.stopLog (fun _ => []) Sample.stopEarly =
      [.connected, made 1, .world (.server (.registered 1))] ++ .stopping :: [closed 1, closeEnded 1] ++ [.stopped] := by decide +kernel
  rw [hl] at h
  refine ⟨_, s, _, _, h, by simp, by simp, fun more s' later hmore => ?_⟩
  have hi := inv Sample.server_new h
  have ho : Server.Orphan s.world.server 1 := by
    have f := hi.good.server.life 1
    cases hx : s.world.server.sessions 1 with
    | none =>
      rw [hx] at f
      have : Server.only 1 _ = [] := Server.life_facts f
      exact absurd this (by decide +kernel)
    | some x =>
      rw [hx] at f
      have f : Server.Facts 1 x _ := Server.life_facts f
      have hp : x.place ≠ .accepted := f.registered.1 (by decide +kernel)
      have hsk : x.closer = .skipped := by
        rcases f.done.1 (by decide +kernel) with hd | hd
        · exact absurd (f.deleted.2 (.inr (.inr hd))) (by decide +kernel)
        · exact hd
      exact ⟨(hi.good.server.ids 1 (by simp [hx])).2, x, hx, hsk, f.closing.1 (by decide +kernel),
        f.inMap.2 ⟨hp, by simp [hsk], by simp [hsk], by simp [hsk]⟩, hp⟩
  obtain ⟨w, g1⟩ := Shutdown.world_run hmore
  obtain ⟨v, g2⟩ := World.server_run g1
  obtain ⟨⟨-, y, hy, -, -, hmap, -⟩, hn⟩ := Server.orphan_run hi.good.server ho g2
  refine ⟨by simp [Server.State.getSession, hy, hmap], fun hm => hn ?_⟩
  exact World.mem_server.2 (Shutdown.mem_world.2 hm)

/-! ## Cases that meet the hypotheses -/

/-- A session handles a message, and the server is stopped. -/
example : Sample.stopLog (fun _ => [Sample.beat]) Sample.stopStopped =
    [.connected, .world (.act 0 (.registered 2 5)), made 1, .world (.server (.registered 1)), .world (.server (.restart 1 0)), .world (.server (.cancelled 1)),
      .world (.server (.armed 1)), .world (.server (.attached 1)), received 1 Sample.beatMessage, .world (.server (.restart 1 1)), .world (.act 1 .touch),
      .world (.act 1 (.handle 5 Sample.beatMessage)), .world (.server (.cancelled 1)), .world (.server (.armed 1)), called 1 5 Sample.beatMessage,
      .world (.returned 1 5 .returns), .stopping, closed 1, .world (.server (.deleted 1)), .world (.server (.removed 1)), closeCalled 1, closeEnded 1,
      .stopped] := by decide +kernel

/-- The loop ends before `Stop` returns; a session is made afterwards. -/
example : (Sample.stopLog (fun _ => [Sample.beat]) Sample.stopQuiet).drop 17 =
    [.stopping, closed 1, .world (.server (.deleted 1)), .world (.server (.removed 1)), closeCalled 1, closeEnded 1, .world (.act 1 .closed), loopEnded 1, .stopped,
      made 2, closed 2] := by decide +kernel

/-- The close callback of the first session is in place before `Stop` is called. -/
example : CallbackInTime 1 ((Sample.stopLog (fun _ => [Sample.beat]) Sample.stopStopped).take 22) :=
  ⟨((Sample.stopLog (fun _ => [Sample.beat]) Sample.stopStopped).filterMap sessionView).take 9,
    ((Sample.stopLog (fun _ => [Sample.beat]) Sample.stopStopped).filterMap sessionView).drop 10, by decide +kernel, by decide +kernel⟩

/-- In the second case only session 1 was made before `Stop` returned. -/
example : ∀ k, made k ∈ (Sample.stopLog (fun _ => [Sample.beat]) Sample.stopQuiet).take 25 →
    loopEnded k ∈ (Sample.stopLog (fun _ => [Sample.beat]) Sample.stopQuiet).take 25 := by
  intro k hk
  have h1 : (Sample.stopLog (fun _ => [Sample.beat]) Sample.stopQuiet).take 25 =
      [.connected, .world (.act 0 (.registered 2 5)), made 1, .world (.server (.registered 1)), .world (.server (.restart 1 0)), .world (.server (.cancelled 1)),
        .world (.server (.armed 1)), .world (.server (.attached 1)), received 1 Sample.beatMessage, .world (.server (.restart 1 1)), .world (.act 1 .touch),
        .world (.act 1 (.handle 5 Sample.beatMessage)), .world (.server (.cancelled 1)), .world (.server (.armed 1)), called 1 5 Sample.beatMessage,
        .world (.returned 1 5 .returns), .connected, .stopping, closed 1, .world (.server (.deleted 1)), .world (.server (.removed 1)), closeCalled 1,
        closeEnded 1, .world (.act 1 .closed), loopEnded 1] := by decide +kernel
  rw [h1] at hk ⊢
  have : k = 1 := by simpa using hk
  simp [this]

end Verif
