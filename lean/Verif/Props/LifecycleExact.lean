import Verif.Lemmas.LifecycleExact
/-! # Exactly which overlapping calls crash the process or leave a listener open (C60) -/

namespace Verif
open Spec Lifecycle

/-- C60, exact: a schedule of calls of `Run` and `Stop` crashes exactly if at some point a goroutine that is in `Stop`, past the check that there is a
server, goes on to close its listener when the server has been stopped by another call, and not been started since. -/
theorem C60_crash_exact_partial (evs : List Event) : ({} : State).run evs = .panic ↔
    ∃ pre i post s log, evs = pre ++ .halt i :: post ∧ ({} : State).run pre = .ok (s, log) ∧ s.place i = .halting ∧ up log = false := by
  rw [run_panic_iff]
  refine ⟨?_, ?_⟩ <;> rintro ⟨pre, i, post, s, log, he, hr, hp, hf⟩
  all_goals
    have hu : up log = s.field.isSome := by simpa using up_run pre (log := []) rfl hr
    refine ⟨pre, i, post, s, log, he, hr, hp, ?_⟩
  · rw [hu, hf]; rfl
  · rw [hu] at hf; simpa using hf

/-- Non-trivial case: two calls of `Stop` overlap without a crash, because both close the listener before one of them returns; and the crash of
`C60_refuted_two_stops` does not happen when the server is started again in time. -/
example : (∃ s, ({} : State).run [.run 1, .listen 1 true, .serve 1, .stop 2, .stop 3, .halt 2, .halt 3, .clear 2, .clear 3] =
      .ok (s, [.started 1 0, .stopped 2, .stopped 3])) ∧
    (∃ s, ({} : State).run [.run 1, .listen 1 true, .serve 1, .stop 2, .stop 3, .halt 2, .clear 2, .run 4, .listen 4 true, .serve 4, .halt 3] =
      .ok (s, [.started 1 0, .stopped 2, .started 4 1])) := ⟨⟨_, rfl⟩, _, rfl⟩

/-- C60: a listener that is open, that no call of `Run` is about to serve and that `Stop` would not close is never closed, whatever is called. -/
theorem C60_left_open (evs more : List Event) (s s' : State) (log log' : List Obs) (h : ({} : State).run evs = .ok (s, log))
    (h' : s.run more = .ok (s', log')) (l : Nat) (hl : Forsaken s l) : l ∈ s'.opened :=
  ((leaves_run more (leaves_run evs .init h).1 h').2.1 l hl).1

/-- C60, exact, for all overlapping calls that do not crash: such a listener is left exactly if at some point a call of `Run` put its own in the place of
one that was still open, or a call of `Stop` finished by forgetting one that was opened after it had closed its own. -/
theorem C60_left_open_exact_partial (evs : List Event) (s : State) (log : List Obs) (h : ({} : State).run evs = .ok (s, log)) (l : Nat) :
    Forsaken s l ↔ ∃ pre ev post s1 log1, evs = pre ++ ev :: post ∧ ({} : State).run pre = .ok (s1, log1) ∧ Forsakes s1 ev l := by
  rw [(leaves_run evs .init h).2.2 l]
  refine ⟨?_, .inr⟩
  rintro (⟨h, -⟩ | h)
  · cases h
  · exact h

/-- C60: when no call is under way, the server is stopped and nothing of this kind has happened, nothing listens. -/
theorem C60_all_closed_partial (evs : List Event) (s : State) (log : List Obs) (h : ({} : State).run evs = .ok (s, log))
    (hq : ∀ j, ¬ Starting (s.place j)) (hu : up log = false)
    (hn : ∀ pre ev post s1 log1 l, evs = pre ++ ev :: post → ({} : State).run pre = .ok (s1, log1) → ¬ Forsakes s1 ev l) : s.opened = [] := by
  have hf : up log = s.field.isSome := by simpa using up_run evs (log := []) rfl h
  rw [hu] at hf
  apply List.eq_nil_iff_forall_not_mem.2
  intro l hl
  have : Forsaken s l := ⟨hl, (fun e => by rw [e] at hf; cases hf), fun j hj => hq j (.inr ⟨l, hj⟩)⟩
  obtain ⟨pre, ev, post, s1, log1, a, b, c⟩ := (C60_left_open_exact_partial evs s log h l).1 this
  exact hn pre ev post s1 log1 l a b c

/-- Non-trivial cases: two calls of `Run` overlap, and the listener of the first is left; a call of `Run` starts the server while a call of `Stop` is in
between, and its listener is left. -/
example : (∃ s log, ({} : State).run [.run 1, .run 2, .listen 1 true, .listen 2 true, .serve 1, .serve 2] = .ok (s, log) ∧ Forsaken s 0 ∧ ¬ Forsaken s 1) ∧
    (∃ s log, ({} : State).run [.run 1, .run 2, .listen 1 true, .listen 2 true, .serve 1, .stop 3, .halt 3, .serve 2, .clear 3] = .ok (s, log) ∧
      ¬ Forsaken s 0 ∧ Forsaken s 1) := by
  refine ⟨⟨_, _, rfl, ⟨by decide, by decide, fun j => ?_⟩, fun h => h.2.1 rfl⟩, _, _, rfl, fun h => absurd h.1 (by decide), by decide, by decide, fun j => ?_⟩
  · by_cases h1 : j = 1 <;> by_cases h2 : j = 2 <;> simp [goto, h1, h2]
  · by_cases h1 : j = 1 <;> by_cases h2 : j = 2 <;> by_cases h3 : j = 3 <;> simp [goto, h1, h2, h3]

end Verif
