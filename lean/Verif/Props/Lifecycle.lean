import Verif.Lemmas.LifecycleOverlap
/-! # Creating, running and stopping a server (C60) -/

namespace Verif
open Lifecycle Spec

/-- C60. A server is refused exactly for a key that is not of 1024 bits; otherwise it keeps the key and has the given period, or 60 seconds for a period
that is not positive. -/
theorem C60_new_server (o : Options) :
    (newServer o = none ↔ ∃ n, o.keySize = some n ∧ n * 8 ≠ 1024) ∧
      ∀ k key, newServer o = some (k, key) → key = o.keySize ∧ 0 < k ∧ (0 < o.keepalive → k = o.keepalive) ∧ (o.keepalive ≤ 0 → k = 60) := by
  unfold newServer
  cases h : o.keySize with
  | none =>
    refine ⟨by simp, ?_⟩
    intro k key he
    simp only [Option.some.injEq, Prod.mk.injEq] at he
    obtain ⟨rfl, rfl⟩ := he
    refine ⟨rfl, ?_, ?_, ?_⟩ <;> (try intro) <;> split <;> omega
  | some n =>
    simp only
    by_cases hn : n = 128
    · subst hn
      refine ⟨by simp, ?_⟩
      intro k key he
      simp only [ne_eq, not_true_eq_false, if_false, Option.some.injEq, Prod.mk.injEq] at he
      obtain ⟨rfl, rfl⟩ := he
      refine ⟨rfl, ?_, ?_, ?_⟩ <;> (try intro) <;> split <;> omega
    · rw [if_pos hn]
      refine ⟨⟨fun _ => ⟨n, rfl, by omega⟩, fun _ => rfl⟩, by simp⟩

/-- Non-trivial case. -/
example : newServer { keepalive := -5, keySize := some 128 } = some (60, some 128) ∧ newServer { keepalive := 30 } = some (30, none) ∧
    newServer { keepalive := 30, keySize := some 256 } = none := by decide

/-- C60, for calls of `Run` and `Stop` that do not overlap, in any order and with any failures: no call crashes; `Run` is refused only while the server is
running, and starts it only when it is not; a running server has exactly one open listener and a stopped one has none, so that after every `Stop` the
server can be run again. Missing for the full property: overlapping calls, see `C60_refuted_two_runs` and `C60_refuted_two_stops`. -/
theorem C60_calls_in_turn_partial (cs : List Call) :
    ∃ s log, ({} : State).run (cs.flatMap Call.events) = .ok (s, log) ∧ s.opened.length = (if up log then 1 else 0) ∧
      (∀ l1 l2 i, log = l1 ++ .refused i :: l2 → up l1 = true) ∧ (∀ l1 l2 i l, log = l1 ++ .started i l :: l2 → up l1 = false) := by
  obtain ⟨s, log, h1, h2⟩ := calls_settled cs {} [] ⟨fun _ => .inl rfl, rfl, rfl, by simp, by simp⟩
  refine ⟨s, log, h1, ?_, h2.refused, h2.started⟩
  have hu := h2.up
  simp only [List.nil_append] at hu
  rw [h2.opened, hu]
  cases s.field <;> rfl

/-- C60. When a `Stop` that overlaps with no other call returns, nothing listens. -/
theorem C60_stop_closes_partial (cs : List Call) (s : State) (log : List Obs) (i : Nat)
    (h : ({} : State).run (cs.flatMap Call.events) = .ok (s, log ++ [.stopped i])) : s.opened = [] := by
  obtain ⟨s', log', h1, h2, -⟩ := C60_calls_in_turn_partial cs
  rw [h] at h1
  cases h1
  rw [up_snoc] at h2
  simpa using h2

/-- Non-trivial case: a server is started, a second `Run` refused, stopped, stopped again, its port found in use, and started again. -/
example : (({} : State).run ([Call.run 1 true, .run 2 true, .stop 3, .ends 1, .stop 3, .run 1 false, .run 2 true].flatMap Call.events)).bind (fun r => .ok (r.1.opened, r.2)) =
    .ok ([1], [.started 1 0, .refused 2, .stopped 3, .ended 1, .stopped 3, .failed 1, .started 2 1]) := by decide

/-- C60 under every schedule that does not crash, whatever calls overlap: a goroutine that calls `Run` is refused exactly if the server was started and
not stopped since. -/
theorem C60_refused_iff (evs : List Event) (s : State) (log : List Obs) (h : ({} : State).run evs = .ok (s, log)) (i : Nat) (hi : s.place i = .idle) :
    (∃ s', s.step (.run i) = .ok (s', [.refused i])) ↔ up log = true := by
  have hu : up log = s.field.isSome := by simpa using up_run evs (log := []) rfl h
  rw [hu]
  cases hf : s.field with
  | none => simp [State.step, hi, hf]
  | some l => simp [State.step, hi, hf]

/-- Non-trivial case: two calls of `Run` overlap, and a third one comes after the server was stopped once. -/
example : ∃ s log, ({} : State).run [.run 1, .run 2, .listen 1 true, .listen 2 true, .serve 1, .stop 3, .halt 3, .serve 2, .clear 3] = .ok (s, log) ∧
    s.place 4 = .idle ∧ up log = false ∧ log = [.started 1 0, .started 2 1, .stopped 3] := ⟨_, _, rfl, rfl, rfl, rfl⟩

/-- C60, partial: if no call of `Stop` begins during another one, no schedule crashes the process, however the calls of `Run` overlap with each other
and with `Stop`. Missing: overlapping calls of `Stop`, see `C60_refuted_two_stops`. -/
theorem C60_no_crash_partial (evs : List Event) (h : StopsInTurn {} evs) : ∃ s log, ({} : State).run evs = .ok (s, log) :=
  calm_init.run evs h

/-- C60, partial: calls of `Run` and `Stop` may overlap, as long as no call of `Run` begins while another one is starting the server and no call of `Stop`
begins during another one. Then nothing crashes, at most one listener is open, after `Stop` nothing listens unless a call of `Run` is starting the
server, and the started server listens unless a call of `Stop` is closing it. -/
theorem C60_overlapping_partial (evs : List Event) (hr : RunsInTurn {} evs) (ht : StopsInTurn {} evs) :
    ∃ s log, ({} : State).run evs = .ok (s, log) ∧ s.opened.length ≤ 1 ∧
      ((∀ i, ¬ Starting (s.place i)) → up log = false → s.opened = []) ∧ ((∀ i, ¬ Stopping (s.place i)) → up log = true → s.opened.length = 1) := by
  obtain ⟨s, log, h1, h2⟩ := sound_init.run evs hr ht
  have hu : up log = s.field.isSome := by simpa using up_run evs (log := []) rfl h1
  refine ⟨s, log, h1, ?_, ?_, ?_⟩
  · by_cases hc : ∃ i, s.place i = .clearing
    · obtain ⟨i, hi⟩ := hc; rw [h2.open2 i hi]; simp
    · by_cases hb : ∃ i l, s.place i = .bound l
      · obtain ⟨i, l, hi⟩ := hb; rw [h2.open3 i l hi]; simp
      · cases hf : s.field with
        | none => rw [h2.open4 hf fun i l hi => hb ⟨i, l, hi⟩]; simp
        | some l => rw [h2.open1 l hf fun i hi => hc ⟨i, hi⟩]; simp
  · intro hn hl
    rw [hu] at hl
    exact h2.open4 (by simpa using hl) fun i l hi => hn i (.inr ⟨l, hi⟩)
  · intro hn hl
    rw [hu] at hl
    obtain ⟨l, hf⟩ := Option.isSome_iff_exists.mp hl
    rw [h2.open1 l hf fun i hi => hn i (.inr hi)]
    rfl

/-- Non-trivial case: a server is stopped while another goroutine tries to run it, and again while a third one is starting it. -/
example : let evs : List Event := [.run 1, .listen 1 true, .serve 1, .stop 2, .run 3, .halt 2, .run 3, .ends 1, .clear 2, .run 3, .stop 2, .listen 3 true, .serve 3]
    RunsInTurn {} evs ∧ StopsInTurn {} evs ∧ (({} : State).run evs).bind (fun r => .ok (r.1.opened, r.2)) =
      .ok ([1], [.started 1 0, .refused 3, .refused 3, .ended 1, .stopped 2, .stopped 2, .started 3 1]) := by
  refine ⟨?_, ?_, by decide⟩
  · repeat' first
      | exact trivial
      | (intro i h; cases h; done)
      | (intro i h j; cases h; by_cases h1 : j = 1 <;> by_cases h2 : j = 2 <;> by_cases h3 : j = 3 <;> simp [goto, Starting, h1, h2, h3]; done)
      | (intro s' x hs; cases hs)
      | refine ⟨?_, ?_⟩
  · repeat' first
      | exact trivial
      | (intro i h; cases h; done)
      | (intro i h j; cases h; by_cases h1 : j = 1 <;> by_cases h2 : j = 2 <;> by_cases h3 : j = 3 <;> simp [goto, Stopping, h1, h2, h3]; done)
      | (intro s' x hs; cases hs)
      | refine ⟨?_, ?_⟩

/-- C60 is false for overlapping calls of `Run`: both are accepted, two listeners are open, and `Stop` closes only one of them. -/
theorem C60_refuted_two_runs : ∃ (evs : List Event) (s : State) (log : List Obs), ({} : State).run evs = .ok (s, log) ∧
    log = [.started 1 0, .started 2 1, .stopped 3] ∧ s.opened = [0] ∧ s.field = none :=
  ⟨[.run 1, .run 2, .listen 1 true, .listen 2 true, .serve 1, .serve 2, .stop 3, .halt 3, .clear 3], _, _, rfl, by decide, by decide, by decide⟩

/-- C60 is false for overlapping calls of `Stop`: one of them crashes the process. -/
theorem C60_refuted_two_stops : ∃ evs : List Event, ({} : State).run evs = .panic :=
  ⟨[.run 1, .listen 1 true, .serve 1, .stop 2, .stop 3, .halt 2, .clear 2, .halt 3], rfl⟩

/-- C60 is false when `Serve` ends on its own: nothing serves connections any more, but `Run` is refused. -/
theorem C60_refuted_after_failure : ∃ (evs : List Event) (s : State) (log : List Obs), ({} : State).run evs = .ok (s, log) ∧
    log = [.started 1 0, .ended 1, .refused 1] ∧ ∀ i, s.place i = .idle := by
  refine ⟨[.run 1, .listen 1 true, .serve 1, .ends 1, .run 1], _, _, rfl, by decide, ?_⟩
  intro i
  by_cases h : i = 1 <;> simp [goto, h]

end Verif
