import Verif.Lemmas.ServerSilent
/-! # C36, C37, C38, C50: registry, close handler, broadcast and keepalive

A schedule is any list of steps of the goroutines; `log` is what was observed, and `s` the state at its end. -/

namespace Verif
open Server Spec

namespace Sample
/-- A session that is accepted at time 0 and enters its loop. -/
def opened : List Event := [.accept, .move 1 .register, .move 1 (.restart 0), .move 1 .cancel, .move 1 .arm, .move 1 .check, .move 1 .attach]
/-- It is closed, and the close handler panics. -/
def closed : List Event := [.move 1 .leave, .move 1 .callbacks, .move 1 .delete, .move 1 .remove, .move 1 (.handler .panics)]
/-- It is closed by another goroutine as soon as it is registered. -/
def closedEarly : List Event :=
  [.accept, .move 1 .register, .move 1 .close, .move 1 .callbacks, .move 1 (.restart 0), .move 1 .cancel, .move 1 .arm, .move 1 .check, .move 1 .leave]
/-- A message is being dispatched while it is closed. -/
def closedLate : List Event :=
  opened ++ [.move 1 (.restart 5), .move 1 .cancel, .move 1 .close, .move 1 .callbacks, .move 1 .delete, .move 1 .remove, .move 1 (.handler .returns), .move 1 .arm]
/-- The period passes, and a message arrives at that very time. -/
def raced : List Event := opened ++ [.tick 59, .tick 60, .move 1 (.restart 60), .move 1 .cancel, .move 1 .arm, .lookup, .closeFound]
/-- A server with a period of sixty seconds. -/
def server : State := { timer := { timer := Timer.new 60 } }
theorem server_new : newServer 0 none = .ok server := rfl
/-- The log of a schedule of that server. -/
def logOf (evs : List Event) : List Obs := match server.run evs with | .ok (_, log) => log | _ => []
end Sample

variable {ka : Int} {key : Option Nat} {s0 s : State} {evs : List Event} {log : List Obs}

/-- C60. The server of this model, too, is made exactly if the key, if any, has 1024 bits. -/
theorem C60_server_made (ka : Int) (key : Option Nat) : (∃ s, newServer ka key = .ok s) ↔ ∀ n, key = some n → n * 8 = 1024 := by
  unfold newServer
  cases key with
  | none => exact ⟨fun _ n h => (nomatch h), fun _ => ⟨_, rfl⟩⟩
  | some n =>
    by_cases hn : n = 128
    · subst hn; exact ⟨fun _ m h => (by cases h; rfl), fun _ => ⟨_, rfl⟩⟩
    · refine ⟨fun ⟨s, h⟩ => ?_, fun h => absurd (h n rfl) (by omega)⟩
      simp [hn] at h

example : (∃ s, newServer 30 (some 128) = .ok s) ∧ (∃ s, newServer 30 none = .ok s) ∧ ¬ ∃ s, newServer 30 (some 256) = .ok s := by
  simp [C60_server_made]

private theorem invs (h0 : newServer ka key = .ok s0) (h : s0.run evs = .ok (s, log)) : Inv (keepalivePeriod ka) s log ∧ Ticker s log := by
  obtain ⟨s', o, h1, h2⟩ := run_inv (new_inv h0) evs
  rw [h] at h1
  simp only [Res.ok.injEq, Prod.mk.injEq] at h1
  obtain ⟨rfl, rfl⟩ := h1
  exact ⟨by simpa using h2, by simpa using run_ticker (new_inv h0) (ticker_new h0) h⟩

private theorem facts_of (h0 : newServer ka key = .ok s0) (h : s0.run evs = .ok (s, log)) {k : Nat} {o : Obs} (ho : about o = some k) (hm : o ∈ log) :
    ∃ x, s.sessions k = some x ∧ Facts k x (only k log) := by
  have hl := (invs h0 h).1.life k
  cases hx : s.sessions k with
  | none =>
    rw [hx] at hl
    have : only k log = [] := life_facts hl
    have := (mem_only ho).2 hm
    simp_all
  | some x => rw [hx] at hl; exact ⟨x, rfl, life_facts hl⟩

private theorem count_only {k : Nat} {o : Obs} (ho : about o = some k) (l : List Obs) : (only k l).count o = l.count o := by
  unfold only
  rw [List.count_filter (by simp [ho])]

private theorem inTime_only {k : Nat} {l : List Obs} (h : AttachedInTime k l) : AttachedInTime k (only k l) := by
  obtain ⟨l1, l2, rfl, hm⟩ := h
  exact ⟨only k l1, only k l2, by simp [only_append, only, about], (mem_only rfl).2 hm⟩

/-! ## C36: the registry -/

/-- No schedule makes the server panic. -/
theorem C36_schedules_run (h0 : newServer ka key = .ok s0) (evs : List Event) : ∃ s log, s0.run evs = .ok (s, log) :=
  let ⟨s, o, h, _⟩ := run_inv (new_inv h0) evs
  ⟨s, o, h⟩

/-- `GetSession` finds exactly the sessions that were registered and not deleted. -/
theorem C36_registry (h0 : newServer ka key = .ok s0) (h : s0.run evs = .ok (s, log)) (k : Nat) :
    s.getSession k = true ↔ .registered k ∈ log ∧ .deleted k ∉ log :=
  getSession_iff (invs h0 h).1 k

/-- It finds every registered session that has not been closed. -/
theorem C36_open_found (h0 : newServer ka key = .ok s0) (h : s0.run evs = .ok (s, log)) {k : Nat} (hr : .registered k ∈ log) (hc : .closing k ∉ log) :
    s.getSession k = true := by
  rw [C36_registry h0 h]
  refine ⟨hr, fun hd => hc ?_⟩
  obtain ⟨x, _, f⟩ := facts_of h0 h rfl hr
  rw [← mem_only (k := k) rfl] at hd ⊢
  rw [f.closing, f.closed]
  rcases f.deleted.1 hd with hd | hd | hd <;> simp [hd]

/-- It finds no session whose close has completed. Missing: sessions closed before their close callback is in place; see `C36_refuted`. -/
theorem C36_closed_not_found_partial (h0 : newServer ka key = .ok s0) (h : s0.run evs = .ok (s, log)) {k : Nat} (ht : AttachedInTime k log)
    (hd : .closeDone k ∈ log) : s.getSession k = false := by
  obtain ⟨x, _, f⟩ := facts_of h0 h rfl hd
  rw [← Bool.not_eq_true, C36_registry h0 h]
  rintro ⟨_, hn⟩
  rw [← mem_only (k := k) rfl] at hd hn
  rcases f.done.1 hd with hd | hd
  · exact hn (f.deleted.2 (.inr (.inr hd)))
  · exact f.inTime (inTime_only ht) hd

/-- Different accepts give different ids. -/
theorem C36_distinct (h0 : newServer ka key = .ok s0) (h : s0.run evs = .ok (s, log)) (k : Nat) : log.count (.accepted k) ≤ 1 := by
  by_cases hm : Obs.accepted k ∈ log
  · obtain ⟨x, _, f⟩ := facts_of h0 h rfl hm
    rw [← count_only (k := k) rfl, f.accepted]
    exact Nat.le_refl 1
  · rw [List.count_eq_zero.2 hm]; omega

/-- A session can be closed for good and stay in the registry for ever. -/
theorem C36_refuted : ∃ evs s log, Sample.server.run evs = .ok (s, log) ∧ .closeDone 1 ∈ log ∧
    ∀ more s' log', s.run more = .ok (s', log') → s'.getSession 1 = true := by
  obtain ⟨s, log, h⟩ := C36_schedules_run Sample.server_new Sample.closedEarly
  have hlog : log = Sample.logOf Sample.closedEarly := by simp [Sample.logOf, h]
  have hi := (invs Sample.server_new h).1
  refine ⟨_, s, log, h, by rw [hlog]; decide +kernel, fun more s' log' hmore => ?_⟩
  have hm : Obs.closeDone 1 ∈ log := by rw [hlog]; decide +kernel
  obtain ⟨x, hx, f⟩ := facts_of Sample.server_new h rfl hm
  have hn : Obs.deleted 1 ∉ log := by rw [hlog]; decide +kernel
  have hreg : Obs.registered 1 ∈ log := by rw [hlog]; decide +kernel
  have hcl : Obs.closing 1 ∈ log := by rw [hlog]; decide +kernel
  rw [← mem_only (k := 1) rfl] at hn hm hreg hcl
  have hsk : x.closer = .skipped := by
    rcases f.done.1 hm with hd | hd
    · exact absurd (f.deleted.2 (.inr (.inr hd))) hn
    · exact hd
  have hp := f.registered.1 hreg
  have ho : Orphan s 1 := ⟨(hi.ids 1 (by simp [hx])).2, x, hx, hsk, f.closing.1 hcl, f.inMap.2 ⟨hp, by simp [hsk], by simp [hsk], by simp [hsk]⟩, hp⟩
  obtain ⟨⟨_, y, hy, _, _, hmap, _⟩, _⟩ := orphan_run hi ho hmore
  simp [State.getSession, hy, hmap]

example : Obs.registered 1 ∈ Sample.logOf Sample.opened ∧ Obs.closing 1 ∉ Sample.logOf Sample.opened := by decide +kernel
example : AttachedInTime 1 (Sample.logOf (Sample.opened ++ Sample.closed)) ∧ Obs.closeDone 1 ∈ Sample.logOf (Sample.opened ++ Sample.closed) :=
  ⟨⟨(Sample.logOf (Sample.opened ++ Sample.closed)).take 6, (Sample.logOf (Sample.opened ++ Sample.closed)).drop 7, by decide +kernel, by decide +kernel⟩,
    by decide +kernel⟩

/-! ## C37: the close handler -/

/-- The close handler runs at most once for each session, whoever closes it. -/
theorem C37_at_most_once (h0 : newServer ka key = .ok s0) (h : s0.run evs = .ok (s, log)) (k : Nat) : log.count (.closeHandler k) ≤ 1 := by
  by_cases hm : Obs.closeHandler k ∈ log
  · obtain ⟨x, _, f⟩ := facts_of h0 h rfl hm
    rw [← count_only (k := k) rfl, f.handled]
    split <;> omega
  · rw [List.count_eq_zero.2 hm]; omega

/-- `Close` takes effect at most once for each session. -/
theorem C37_closed_once (h0 : newServer ka key = .ok s0) (h : s0.run evs = .ok (s, log)) (k : Nat) : log.count (.closing k) ≤ 1 := by
  by_cases hm : Obs.closing k ∈ log
  · obtain ⟨x, _, f⟩ := facts_of h0 h rfl hm
    rw [← count_only (k := k) rfl, f.closings]
    split <;> omega
  · rw [List.count_eq_zero.2 hm]; omega

/-- It has run exactly once when the close has completed. Missing: sessions closed before their close callback is in place; see `C37_refuted`. -/
theorem C37_exactly_once_partial (h0 : newServer ka key = .ok s0) (h : s0.run evs = .ok (s, log)) {k : Nat} (ht : AttachedInTime k log)
    (hd : .closeDone k ∈ log) : log.count (.closeHandler k) = 1 := by
  obtain ⟨x, _, f⟩ := facts_of h0 h rfl hd
  rw [← mem_only (k := k) rfl] at hd
  rw [← count_only (k := k) rfl, f.handled]
  rcases f.done.1 hd with hd | hd
  · simp [hd]
  · exact absurd hd (f.inTime (inTime_only ht))

/-- Every close of such a session completes, whether or not the handler panics: the remaining steps of the closing goroutine can always be taken. -/
theorem C37_completes_partial (h0 : newServer ka key = .ok s0) (h : s0.run evs = .ok (s, log)) {k : Nat} (ht : AttachedInTime k log)
    (u : Handler.UserCode) : ∃ s' log', s.run [.move k .callbacks, .move k .delete, .move k .remove, .move k (.handler u)] = .ok (s', log') ∧
      (log ++ log').count (.closeHandler k) = 1 ∧ .closeDone k ∈ log ++ log' ∧ s'.getSession k = false := by
  obtain ⟨s', log', h1, h2⟩ := run_inv (invs h0 h).1 [.move k .callbacks, .move k .delete, .move k .remove, .move k (.handler u)]
  have hrun : s0.run (evs ++ [.move k .callbacks, .move k .delete, .move k .remove, .move k (.handler u)]) = .ok (s', log ++ log') := by
    rw [run_append, h]; simp [h1]
  have ht' : AttachedInTime k (log ++ log') := by
    obtain ⟨l1, l2, rfl, hm⟩ := ht
    exact ⟨l1, l2 ++ log', by simp, hm⟩
  have hd : Obs.closeDone k ∈ log ++ log' := by
    obtain ⟨x, hx, f⟩ := facts_of h0 h rfl (inTime_attached ht)
    have hcl : Obs.closing k ∈ log := by obtain ⟨l1, l2, rfl, _⟩ := ht; simp
    rw [← mem_only (k := k) rfl] at hcl
    have hat : x.attached = true := f.attached.1 ((mem_only rfl).2 (inTime_attached ht))
    have hc := f.closed.1 (f.closing.1 hcl)
    have hsk := f.inTime (inTime_only ht)
    by_cases hdone : x.closer = .done
    · have := (mem_only (k := k) rfl).1 (f.done.2 (.inl hdone)); simp [this]
    · obtain ⟨c2, f2⟩ : ∃ x', s'.sessions k = some x' ∧ x'.closer = .done := by
        obtain ⟨t1, g1, r1, _, _⟩ : ∃ c' f', s.timer.step (.remove k) = .ok (c', f') ∧ _ := Timer.step_owned id s.timer (.remove k) (invs h0 h).1.owned (by intro i k n hb; cases hb)
        cases hcl : x.closer <;> simp [hcl] at hc hsk hdone <;>
          simp [State.run, State.step, hx, Sess.step, hcl, hat, State.onTimer, Move.timerEvent, State.put, r1, call_recovered] at h1 <;>
          (obtain ⟨rfl, _⟩ := h1; simp)
      have hl := (invs h0 hrun).1.life k
      rw [f2.1] at hl
      have f' : Facts k c2 (only k (log ++ log')) := life_facts hl
      exact (mem_only (k := k) rfl).1 (f'.done.2 (.inl f2.2))
  exact ⟨s', log', h1, C37_exactly_once_partial h0 hrun ht' hd, hd, C36_closed_not_found_partial h0 hrun ht' hd⟩

/-- When the close handler runs, the session is no longer registered. -/
theorem C37_not_registered (h0 : newServer ka key = .ok s0) (h : s0.run evs = .ok (s, log)) {k : Nat} (hh : .closeHandler k ∈ log) :
    s.getSession k = false := by
  obtain ⟨x, _, f⟩ := facts_of h0 h rfl hh
  rw [← Bool.not_eq_true, C36_registry h0 h]
  rintro ⟨_, hn⟩
  rw [← mem_only (k := k) rfl] at hn hh
  have := f.handled
  split at this
  · rename_i hd; exact hn (f.deleted.2 (.inr (.inr hd)))
  · exact absurd hh (List.count_eq_zero.1 this)

/-- It has no timer entry either, if its loop had ended before the entry was removed. Missing: `C37_refuted_timer`. -/
theorem C37_no_timer_entry_partial (h0 : newServer ka key = .ok s0) {k : Nat} {l1 l2 : List Obs}
    (h : s0.run evs = .ok (s, l1 ++ .removed k :: l2)) (hl : .left k ∈ l1) : s.timer.timer.mapper k = none := by
  have hi := (invs h0 h).1
  rw [Timer.mapper_of_view]
  show s.timer.view.c.deadline k = none
  rw [hi.deadline]
  obtain ⟨x, _, f⟩ := facts_of h0 h (k := k) (o := .left k) rfl (by simp [hl])
  obtain ⟨a, b, rfl⟩ := List.append_of_mem hl
  have := f.ends (only k a) (only k b ++ .removed k :: only k l2) (by simp [only_append, only, about])
  have hl2 : Obs.armed k ∉ l2 := by
    intro hm
    exact this (by simp [(mem_only (k := k) rfl).2 hm])
  rw [alive_append]
  simp only [List.foldl_cons]
  rw [since_none (by simp [Alive.next]) hl2]
  rfl

/-- A session closed before its close callback is in place: its close handler never runs. -/
theorem C37_refuted : ∃ evs s log, Sample.server.run evs = .ok (s, log) ∧ .closing 1 ∈ log ∧ .closeDone 1 ∈ log ∧ .closeHandler 1 ∉ log ∧
    ∀ more s' log', s.run more = .ok (s', log') → .closeHandler 1 ∉ log' := by
  obtain ⟨s, log, h⟩ := C36_schedules_run Sample.server_new Sample.closedEarly
  have hlog : log = Sample.logOf Sample.closedEarly := by simp [Sample.logOf, h]
  have hi := (invs Sample.server_new h).1
  refine ⟨_, s, log, h, by rw [hlog]; decide +kernel, by rw [hlog]; decide +kernel, by rw [hlog]; decide +kernel, fun more s' log' hmore => ?_⟩
  have hm : Obs.closeDone 1 ∈ log := by rw [hlog]; decide +kernel
  obtain ⟨x, hx, f⟩ := facts_of Sample.server_new h rfl hm
  have hn : Obs.deleted 1 ∉ log := by rw [hlog]; decide +kernel
  have hreg : Obs.registered 1 ∈ log := by rw [hlog]; decide +kernel
  have hcl : Obs.closing 1 ∈ log := by rw [hlog]; decide +kernel
  rw [← mem_only (k := 1) rfl] at hn hm hreg hcl
  have hsk : x.closer = .skipped := by
    rcases f.done.1 hm with hd | hd
    · exact absurd (f.deleted.2 (.inr (.inr hd))) hn
    · exact hd
  have hp := f.registered.1 hreg
  have ho : Orphan s 1 := ⟨(hi.ids 1 (by simp [hx])).2, x, hx, hsk, f.closing.1 hcl, f.inMap.2 ⟨hp, by simp [hsk], by simp [hsk], by simp [hsk]⟩, hp⟩
  exact (orphan_run hi ho hmore).2

/-- A session closed while it dispatches a message can keep a timer entry after its close handler has run. -/
theorem C37_refuted_timer : ∃ evs s log, Sample.server.run evs = .ok (s, log) ∧ .closeHandler 1 ∈ log ∧ s.timer.timer.mapper 1 ≠ none := by
  obtain ⟨s, log, h⟩ := C36_schedules_run Sample.server_new Sample.closedLate
  have hlog : log = Sample.logOf Sample.closedLate := by simp [Sample.logOf, h]
  refine ⟨_, s, log, h, by rw [hlog]; decide +kernel, ?_⟩
  rw [ne_eq, Timer.mapper_of_view]
  show ¬ s.timer.view.c.deadline 1 = none
  rw [(invs Sample.server_new h).1.deadline, hlog]
  decide +kernel

/-- Such an entry is harmless: a session is closed only once, so its later expiry closes nothing. -/
theorem C37_stale_entry_harmless (h0 : newServer ka key = .ok s0) {k : Nat} {l1 l2 : List Obs}
    (h : s0.run evs = .ok (s, l1 ++ .closeHandler k :: l2)) : .closing k ∉ l2 := by
  obtain ⟨x, _, f⟩ := facts_of h0 h (k := k) (o := .closeHandler k) rfl (by simp)
  have := f.last (only k l1) (only k l2) (by simp [only_append, only, about])
  rwa [mem_only rfl] at this

example : ∃ l1 l2, Sample.logOf (Sample.opened ++ Sample.closed) = l1 ++ .removed 1 :: l2 ∧ .left 1 ∈ l1 :=
  ⟨(Sample.logOf (Sample.opened ++ Sample.closed)).take 9, (Sample.logOf (Sample.opened ++ Sample.closed)).drop 10, by decide +kernel, by decide +kernel⟩
example : Obs.closeHandler 1 ∈ Sample.logOf (Sample.opened ++ Sample.closed) := by decide +kernel

/-! ## C38: broadcast -/

private theorem go_spec (send : Nat → Nat → Bool) (order : List Nat) (i c : Nat) :
    broadcast.go send i c order = (order, c + ((order.zipIdx i).filter fun x => send x.2 x.1).length) := by
  induction order generalizing i c with
  | nil => rfl
  | cons k ks ih =>
    simp only [broadcast.go, ih, List.zipIdx_cons, List.filter_cons]
    cases send i k <;> simp <;> omega

/-- `Broadcast` attempts to send to every registered session, and to no other, exactly once, and returns the number of successful sends. -/
theorem C38_broadcast (h0 : newServer ka key = .ok s0) (h : s0.run evs = .ok (s, log)) {order : List Nat} (ho : order.Perm s.registry)
    (send : Nat → Nat → Bool) :
    (∀ k, (broadcast order send).1.count k = if s.getSession k then 1 else 0) ∧
    (broadcast order send).2 = (((broadcast order send).1.zipIdx).filter fun x => send x.2 x.1).length := by
  unfold broadcast
  rw [go_spec]
  refine ⟨fun k => ?_, by simp⟩
  show order.count k = _
  rw [ho.count_eq]
  have hn : s.registry.Nodup := by
    unfold State.registry
    refine List.Pairwise.filter _ ?_
    rw [List.pairwise_map]
    exact List.nodup_range.imp fun h => by omega
  rw [hn.count]
  have : k ∈ s.registry ↔ s.getSession k = true := by
    unfold State.registry
    rw [List.mem_filter]
    refine ⟨fun h => h.2, fun hg => ⟨?_, hg⟩⟩
    have hk := (invs h0 h).1.ids k (by intro hn; simp [State.getSession, hn] at hg)
    exact List.mem_map.2 ⟨k - 1, List.mem_range.2 (by omega), by omega⟩
  by_cases hg : s.getSession k = true <;> simp [this, hg]

example : broadcast [3, 1, 2] (fun i _ => i != 1) = ([3, 1, 2], 2) := by decide

/-! ## C50: keepalive -/

/-- At every tick exactly those sessions expire whose period counts and has passed. -/
theorem C50_expiry (h0 : newServer ka key = .ok s0) {l1 l2 : List Obs} {n : Int} {ks : List Nat} (h : s0.run evs = .ok (s, l1 ++ .ticked n ks :: l2))
    (k : Nat) : k ∈ ks ↔ ∃ t, (alive (keepalivePeriod ka) k l1).since = some t ∧ dueAt t (keepalivePeriod ka) ≤ n :=
  (invs h0 h).1.ticks l1 n ks l2 rfl k

/-- No session expires earlier than a period after its last completed restart, that is, its last dispatched message or its accept. Missing: sums of clock and period that do not fit 64 bits,
see `C50_refuted_overflow`. -/
theorem C50_never_early_partial (h0 : newServer ka key = .ok s0) {l1 l2 : List Obs} {n : Int} {ks : List Nat}
    (h : s0.run evs = .ok (s, l1 ++ .ticked n ks :: l2)) {k : Nat} (hf : ∀ t, .restart k t ∈ l1 → t + keepalivePeriod ka < 2 ^ 63) (hk : k ∈ ks) :
    ∃ t, lastRestart k l1 = some t ∧ t + keepalivePeriod ka ≤ n := by
  obtain ⟨t, h1, h2⟩ := (C50_expiry h0 h k).1 hk
  have hl := since_lastRestart h1
  have := hf t (lastRestart_mem _ hl)
  refine ⟨t, hl, ?_⟩
  rw [← Timer.deadline_dueAt] at h2
  unfold Timer.deadline at h2
  omega

/-- The keepalive closes only sessions that expired at the last tick. -/
theorem C50_only_expired (h0 : newServer ka key = .ok s0) {l1 l2 : List Obs} {k : Nat} (h : s0.run evs = .ok (s, l1 ++ .timeout k :: l2)) :
    ∃ a n ks b, l1 = a ++ .ticked n ks :: b ∧ k ∈ ks ∧ ∀ n' ks', .ticked n' ks' ∉ b :=
  (invs h0 h).2.timeouts l1 k l2 rfl

/-- Hence a period had passed between the last restart completed before that tick and the tick. Missing: restarts after the tick, see `C50_refuted`,
and overflow. -/
theorem C50_closed_after_period_partial (h0 : newServer ka key = .ok s0) {l1 l2 : List Obs} {k : Nat} (h : s0.run evs = .ok (s, l1 ++ .timeout k :: l2))
    (hf : ∀ t, .restart k t ∈ l1 → t + keepalivePeriod ka < 2 ^ 63) :
    ∃ a n ks b t, l1 = a ++ .ticked n ks :: b ∧ lastRestart k a = some t ∧ t + keepalivePeriod ka ≤ n ∧ ∀ n' ks', .ticked n' ks' ∉ b := by
  obtain ⟨a, n, ks, b, rfl, h1, h2⟩ := C50_only_expired h0 h
  obtain ⟨t, h3, h4⟩ := C50_never_early_partial h0 (l1 := a) (l2 := b ++ .timeout k :: l2) (by simpa using h)
    (fun t ht => hf t (by simp [ht])) h1
  exact ⟨a, n, ks, b, t, rfl, h3, h4, h2⟩

/-- Every session that expires at a tick has been closed when the goroutine of the timer has worked off the tick. -/
theorem C50_expired_closed (h0 : newServer ka key = .ok s0) (h : s0.run evs = .ok (s, log)) {n : Int} {ks : List Nat} (ht : .ticked n ks ∈ log)
    {k : Nat} (hk : k ∈ ks) (hidle : s.fired = [] ∧ s.found = none) : .closing k ∈ log := by
  rcases (invs h0 h).2.closes n ks ht k hk with h | h | h
  · rw [hidle.1] at h; cases h
  · rw [hidle.2] at h; cases h
  · exact h

/-- A session is closed if it was silent until the time at which the entry of the timer is due. -/
theorem silent_closed_due (h0 : newServer ka key = .ok s0) {l1 l2 : List Obs} {n : Int} {ks : List Nat} (h : s0.run evs = .ok (s, l1 ++ .ticked n ks :: l2))
    {k : Nat} {t : Int} (hr : restarting k l1 = none) (ht : lastRestart k l1 = some t) (hd : dueAt t (keepalivePeriod ka) ≤ n)
    (hidle : s.fired = [] ∧ s.found = none) : .closing k ∈ l1 ++ .ticked n ks :: l2 := by
  have ho : Ordered k l1 := fun a o b he hx => inv_ordered (invs h0 h).1 k a o (b ++ .ticked n ks :: l2) (by rw [he]; simp) hx
  rcases silent_since (p := keepalivePeriod ka) l1 ho hr ht with g | g | ⟨a, n', ks', b, rfl, t', g1, g2⟩
  · exact C50_expired_closed h0 h (n := n) (ks := ks) (by simp) ((C50_expiry h0 h k).2 ⟨t, g, hd⟩) hidle
  · have hm : Obs.removed k ∈ l1 ++ .ticked n ks :: l2 := List.mem_append_left _ g
    obtain ⟨x, -, f⟩ := facts_of h0 h rfl hm
    rw [← mem_only (k := k) rfl] at hm ⊢
    rw [f.removed] at hm
    rw [f.closing, f.closed]
    rcases hm with hm | hm <;> simp [hm]
  · have h' := h
    rw [List.append_assoc, List.cons_append] at h'
    exact C50_expired_closed h0 h (n := n') (ks := ks') (by simp) ((C50_expiry h0 h' k).2 ⟨t', g1, g2⟩) hidle

/-- A session that was silent for a period is closed: if a period has passed at a tick since its last restart, and it is not being restarted at the tick,
it has been closed when the goroutine of the timer has worked off the ticks. (Clock readings are numbers of 64 bits.) -/
theorem C50_silent_closed (h0 : newServer ka key = .ok s0) {l1 l2 : List Obs} {n : Int} {ks : List Nat} (h : s0.run evs = .ok (s, l1 ++ .ticked n ks :: l2))
    {k : Nat} {t : Int} (hr : restarting k l1 = none) (ht : lastRestart k l1 = some t) (h64 : -2 ^ 63 ≤ t) (hn : t + keepalivePeriod ka ≤ n)
    (hidle : s.fired = [] ∧ s.found = none) : .closing k ∈ l1 ++ .ticked n ks :: l2 := by
  have hd : dueAt t (keepalivePeriod ka) ≤ n := by
    have : 0 < keepalivePeriod ka := by unfold keepalivePeriod; split <;> omega
    rw [← Timer.deadline_dueAt]
    unfold Timer.deadline
    omega
  exact silent_closed_due h0 h hr ht hd hidle

/-- C50 is false of the code for huge periods: if the clock and the period do not fit 64 bits together, every tick closes the session, however recent its last
message is. -/
theorem C50_refuted_overflow (h0 : newServer ka key = .ok s0) {l1 l2 : List Obs} {n : Int} {ks : List Nat} (h : s0.run evs = .ok (s, l1 ++ .ticked n ks :: l2))
    {k : Nat} {t : Int} (ht : (alive (keepalivePeriod ka) k l1).since = some t) (hka : ka < 2 ^ 63) (h64 : t < 2 ^ 63) (ho : 2 ^ 63 ≤ t + keepalivePeriod ka)
    (hn : t ≤ n) : k ∈ ks := by
  refine (C50_expiry h0 h k).2 ⟨t, ht, ?_⟩
  have : keepalivePeriod ka < 2 ^ 63 := by unfold keepalivePeriod; split <;> omega
  rw [← Timer.deadline_dueAt]
  unfold Timer.deadline
  omega

namespace Sample

/-- A server that should never close a session: its period is the greatest number there is. -/
def patient : State := match newServer (2 ^ 63 - 1) none with | .ok s => s | _ => { timer := { timer := Timer.new 0 } }

/-- A session is accepted in September 2020, and the next tick is a second later. -/
def opening : List Event := [.accept, .move 1 .register, .move 1 (.restart 1600000000), .move 1 .cancel, .move 1 .arm, .move 1 .check, .move 1 .attach, .tick 1600000001,
  .lookup, .closeFound]

end Sample

/-- The session is closed at once. -/
example : (match Sample.patient.run Sample.opening with | .ok (_, l) => l | _ => []) =
    [.accepted 1, .registered 1, .restart 1 1600000000, .cancelled 1, .armed 1, .attached 1, .ticked 1600000001 [1], .timeout 1, .closing 1] := by
  decide +kernel

/-- The race that remains: a message dispatched after the tick, but before the goroutine of the timer closes the session, does not save it. -/
theorem C50_refuted : ∃ evs s l1 l2, Sample.server.run evs = .ok (s, l1 ++ .timeout 1 :: .closing 1 :: l2) ∧ lastRestart 1 l1 = some 60 ∧
    ∀ n ks, .ticked n ks ∈ l1 → n < 60 + 60 := by
  obtain ⟨s, log, h⟩ := C36_schedules_run Sample.server_new Sample.raced
  have hlog : log = Sample.logOf Sample.raced := by simp [Sample.logOf, h]
  have h1 : Sample.logOf Sample.raced = (Sample.logOf Sample.raced).take 11 ++ .timeout 1 :: .closing 1 :: [] := by decide +kernel
  refine ⟨_, s, (Sample.logOf Sample.raced).take 11, [], by rw [← h1, ← hlog]; exact h, by decide +kernel, ?_⟩
  have : (Sample.logOf Sample.raced).take 11 = [.accepted 1, .registered 1, .restart 1 0, .cancelled 1, .armed 1, .attached 1, .ticked 59 [], .ticked 60 [1],
    .restart 1 60, .cancelled 1, .armed 1] := by decide +kernel
  rw [this]
  intro n ks hm
  simp at hm
  omega

example : Sample.logOf (Sample.opened ++ [.tick 59, .tick 60, .lookup, .closeFound, .tick 61]) =
    [.accepted 1, .registered 1, .restart 1 0, .cancelled 1, .armed 1, .attached 1, .ticked 59 [], .ticked 60 [1], .timeout 1, .closing 1, .ticked 61 []] := by
  decide +kernel

/-- A silent session, as in `C50_silent_closed`. -/
example : restarting 1 (Sample.logOf (Sample.opened ++ [.tick 59])) = none ∧ lastRestart 1 (Sample.logOf (Sample.opened ++ [.tick 59])) = some 0 := by
  decide +kernel

end Verif
