import Verif.Props.Timer
import Verif.Lemmas.TimerExact
/-! # The countdown timer when several goroutines update a key (C35) -/

namespace Verif

open Timer Spec

variable {K : Type} [DecidableEq K]

theorem threads_run_append (a b : List (Event K)) (t t1 : Threads K) (fs : List (List K)) (h1 : t.run a = .ok (t1, fs)) :
    t.run (a ++ b) = (t1.run b).bind fun r => .ok (r.1, fs ++ r.2) := by
  induction a generalizing t fs with
  | nil =>
    simp only [Threads.run, Res.ok.injEq, Prod.mk.injEq] at h1
    obtain ⟨rfl, rfl⟩ := h1
    cases h : t.run b <;> simp [h, Res.bind]
  | cons ev a ih =>
    simp only [Threads.run, List.cons_append] at h1 ⊢
    cases h : t.step ev with
    | panic => simp [h] at h1
    | err e => simp [h] at h1
    | ok r =>
      obtain ⟨t', f⟩ := r
      simp only [h, Res.ok_bind] at h1 ⊢
      cases h' : t'.run a with
      | panic => simp [h'] at h1
      | err e => simp [h'] at h1
      | ok r =>
        obtain ⟨t'', fs'⟩ := r
        simp [h'] at h1
        obtain ⟨rfl, rfl⟩ := h1
        rw [ih t' _ h']
        cases t''.run b <;> simp [Res.bind]

/-- C35. Whoever updates what: if no call `Update` starts its countdown while one is running for its key, then every tick fires exactly the
keys whose deadline has come, each once, earlier deadlines first. Missing for the full property: the other schedules, in which it fails by
`C35_exact_partial`. -/
theorem C35_apart_partial (p : Int) (evs : List (Event K)) :
    ∃ c fs, ({ timer := Timer.new p } : Threads K).run evs = .ok (c, fs) ∧
      (UpdatesApart {} evs fs → Shared.Behaves { c := { period := p } } evs fs) := by
  obtain ⟨c, fs, h1, h2⟩ := C35_any_schedule p evs
  exact ⟨c, fs, h1, undisturbed_behaves ⟨by simp, by simp⟩ ⟨rfl, rfl, by simp⟩ ⟨by simp, by simp⟩ (by simp [Stray]) h2⟩

/-- C35. Under every schedule: the timer fires what it should, at all ticks so far and at whatever time the next tick comes, exactly if no
call `Update` has started its countdown while one was running for its key. Missing for the full property: the schedules that are not so. -/
theorem C35_exact_partial (p : Int) (evs : List (Event K)) :
    ∃ c fs, ({ timer := Timer.new p } : Threads K).run evs = .ok (c, fs) ∧
      ((∀ n, ∃ c' f, ({ timer := Timer.new p } : Threads K).run (evs ++ [.tick n]) = .ok (c', fs ++ [f]) ∧
          Shared.Behaves { c := { period := p } } (evs ++ [.tick n]) (fs ++ [f])) ↔
        UpdatesApart {} evs fs) := by
  obtain ⟨c, fs, h1, h2⟩ := C35_any_schedule p evs
  refine ⟨c, fs, h1, fun h => ?_, fun hu n => ?_⟩
  · apply Classical.byContradiction
    intro hw
    have hb : Shared.Behaves { c := { period := p } } evs fs := by
      obtain ⟨_, f, _, hf⟩ := h 0
      exact shared_prefix evs fs _ _ _ hf (bag_length evs _ fs h2)
    obtain ⟨n, hn⟩ := disturbed_wrong (m := {}) ⟨by simp, by simp⟩ ⟨rfl, rfl, by simp⟩ ⟨by simp, by simp⟩ h2 hb (.inr hw)
    obtain ⟨c', f, a1, a2⟩ := h n
    obtain ⟨c'', fs', b1, b2⟩ := C35_any_schedule p (evs ++ [.tick n])
    rw [a1] at b1
    simp only [Res.ok.injEq, Prod.mk.injEq] at b1
    obtain ⟨-, rfl⟩ := b1
    exact hn f b2 a2
  · obtain ⟨c', fs', b1, b2⟩ := C35_any_schedule p (evs ++ [.tick n])
    have hl := bag_length _ _ _ b2
    rw [threads_run_append _ _ _ _ _ h1] at b1
    cases e : c.run [.tick n] with
    | panic => simp [e, Res.bind] at b1
    | err e' => simp [e, Res.bind] at b1
    | ok r =>
      obtain ⟨c2, gs⟩ := r
      simp only [e, Res.bind, Res.ok.injEq, Prod.mk.injEq] at b1
      obtain ⟨rfl, rfl⟩ := b1
      have hl2 := bag_length _ _ _ h2
      obtain ⟨g, rfl⟩ : ∃ g, gs = [g] := by
        simp only [List.length_append, List.length_cons, List.length_nil] at hl
        exact List.length_eq_one_iff.1 (by omega)
      refine ⟨c2, g, by rw [threads_run_append _ _ _ _ _ h1, e]; rfl, ?_⟩
      exact undisturbed_behaves (m := {}) ⟨by simp, by simp⟩ ⟨rfl, rfl, by simp⟩ ⟨by simp, by simp⟩ (by simp [Stray]) b2
        (apart_tick evs fs {} n g hl2 hu)

namespace Sample

/-- Two goroutines update the same key while the other is at it, but the second removes what the first has started. -/
def apart : List (Event String) :=
  [.begin 1 "a" 0, .begin 2 "a" 10, .erase 1, .insert 1, .erase 2, .tick 10, .insert 2]

end Sample

/-- Two goroutines are in `Update` of the same key together and the condition holds; in `overlapping` it does not. -/
example : firedKeys (({ timer := Timer.new 10 } : Threads String).run (Sample.apart ++ [.tick 20])) = [[], [], [], [], [], [], [], ["a"]] ∧
    UpdatesApart {} Sample.apart [[], [], [], [], [], [], []] ∧ ¬ OneUpdater Sample.apart ∧
    ¬ UpdatesApart {} overlapping [[], [], [], [], [], [], ["a"]] := by
  refine ⟨by decide, by simp [Sample.apart, UpdatesApart, Marks.next], ?_, by simp [overlapping, UpdatesApart, Marks.next]⟩
  rintro ⟨o, ho⟩
  have h1 := ho 1 "a" 0 (by simp [Sample.apart])
  have h2 := ho 2 "a" 10 (by simp [Sample.apart])
  omega

end Verif
