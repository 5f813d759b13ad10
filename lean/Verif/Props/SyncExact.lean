import Verif.Props.Sync
/-! # C85, exactly: which goroutines come to their end

A goroutine that is not a send loop can come to its end if and only if none of the close handlers for which it waits (because it calls `Stop`) is part
of a circle of close handlers that wait for each other. This is so in every state that can come about, and in fair runs the goroutine then does come to
its end. -/

namespace Verif
open Sync Spec

/-- For whom a close handler waits. -/
private theorem close_waits {S : System} {s : Nat} {k : Goroutine} :
    Act.join k ∈ S.acts (.closer s) ↔ ∃ t, k = .closer t ∧ CloseStops S s t := by
  show Act.join k ∈ (match S.closing s with | none => [] | some (found, handler) => handleClose found handler) ↔ _
  constructor
  · intro h
    split at h
    · cases h
    · next found handler hc =>
      rcases List.mem_append.1 h with h | h
      · exact absurd ⟨k, rfl⟩ (all_append (P := fun a => ¬ IsJoin a) (by simp [IsJoin]) (noJoin_timerRemove _) _ h)
      · cases handler with
        | none => cases h
        | some cs =>
          rcases List.mem_append.1 h with h | h
          · simp at h
          · obtain ⟨c, hm, hj⟩ := List.mem_flatMap.1 h
            by_cases hs : ∃ r o, c = .stop r o
            · obtain ⟨r, o, rfl⟩ := hs
              cases r with
              | false => simp [Call.acts, stopServer] at hj
              | true =>
                simp [Call.acts, stopServer] at hj
                obtain ⟨t, ht, rfl⟩ := hj
                exact ⟨t, rfl, found, cs, o, hc, hm, ht⟩
            · exact absurd ⟨k, rfl⟩ (noJoin_call c (fun r o e => hs ⟨r, o, e⟩) _ hj)
  · rintro ⟨t, rfl, found, cs, o, hc, hm, ht⟩
    rw [hc]
    refine List.mem_append_right _ (List.mem_append_right _ (List.mem_flatMap.2 ⟨_, hm, ?_⟩))
    simp [Call.acts, stopServer, ht]

/-- Whoever somebody has waited for does not wait in a circle. -/
private theorem waited_for {S : System} {τ : History} {σ : State} (h : Happened S τ σ) :
    ∀ g t, Act.join (.closer t) ∈ doneBy g τ → NoCircle S t := by
  refine Happened.induct (P := fun τ σ => ∀ g t, Act.join (.closer t) ∈ doneBy g τ → NoCircle S t) (fun g t h0 => by cases h0) ?_ h
  intro τ σ k a σ' hh ih hs g t hm
  obtain ⟨rest, _, _, hr, _⟩ := step_some hs
  by_cases hg : g = k
  · subst hg
    rw [doneBy_snoc_self, List.mem_append, List.mem_singleton] at hm
    rcases hm with hm | rfl
    · exact ih g t hm
    · have he : σ.todo (.closer t) = [] := by simpa [State.ready] using hr
      have hd := done_todo hh (.closer t)
      rw [he, List.append_nil] at hd
      exact .intro fun u hu => ih (.closer t) u (by rw [hd]; exact close_waits.2 ⟨u, rfl, hu⟩)
  · rw [doneBy_snoc_other hg] at hm
    exact ih g t hm

/-- Whoever has come to the end has not waited for a circle. -/
private theorem ended {S : System} {τ : History} {σ : State} (h : Happened S τ σ) {g : Goroutine} (he : σ.todo g = []) :
    ∀ t, Act.join (.closer t) ∈ S.acts g → NoCircle S t := by
  intro t ht
  have hd := done_todo h g
  rw [he, List.append_nil] at hd
  exact waited_for h g t (by rw [hd]; exact ht)

private theorem only_closers {S : System} {g k : Goroutine} (h : Act.join k ∈ S.acts g) : ∃ s, k = .closer s := by
  obtain ⟨p, q, hpq⟩ := List.append_of_mem h
  obtain ⟨_, _, s, _, he⟩ := joinOK_acts S g p _ q hpq ⟨k, rfl⟩
  cases he
  exact ⟨s, rfl⟩

/-- **C85, exactly.** In whatever state the goroutines are, a goroutine that is not a send loop can come to the end of everything it has to do if and
only if none of the close handlers it waits for is part of a circle. -/
theorem C85_exact_partial {S : System} {τ : History} {σ : State} (h : Happened S τ σ) {g : Goroutine} (hst : σ.started g = true)
    (hg : ∀ s, g ≠ .sender s) :
    (∃ order τ' σ', σ.run order = some (τ', σ') ∧ σ'.todo g = []) ↔ ∀ t, Act.join (.closer t) ∈ S.acts g → NoCircle S t := by
  constructor
  · rintro ⟨order, τ', σ', hr, he⟩
    exact ended (h.append hr) he
  · intro hn
    have hc : ∀ t, NoCircle S t → ∀ τ σ, Happened S τ σ → σ.started (.closer t) = true →
        ∃ order τ' σ', σ.run order = some (τ', σ') ∧ σ'.todo (.closer t) = [] := by
      intro t ht
      induction ht with
      | intro _ ih =>
        intro τ σ hσ hs
        refine finish (by intros; simp) (fun k τ σ hk hσ hks => ?_) hσ hs
        obtain ⟨u, rfl, hu⟩ := close_waits.1 hk
        exact ih u hu τ σ hσ hks
    refine finish hg (fun k τ σ hk hσ hks => ?_) h hst
    obtain ⟨t, rfl⟩ := only_closers hk
    exact hc t (hn t hk) τ σ hσ hks

/-- **C85, exactly, for close handlers.** -/
theorem C85_close_exact_partial {S : System} {τ : History} {σ : State} (h : Happened S τ σ) {s : Nat} (hst : σ.started (.closer s) = true) :
    (∃ order τ' σ', σ.run order = some (τ', σ') ∧ σ'.todo (.closer s) = []) ↔ NoCircle S s := by
  rw [C85_exact_partial h hst (by intros; simp)]
  constructor
  · exact fun hn => .intro fun t ht => hn t (close_waits.2 ⟨t, rfl, ht⟩)
  · rintro ⟨hn⟩ t ht
    obtain ⟨u, hu, h'⟩ := close_waits.1 ht
    cases hu
    exact hn t h'

/-- **C85, a close handler that stops the server** while link still has its own session never comes to its end, in any program and any schedule; nor
does anyone who calls `Stop` while link has that session. -/
theorem C85_stop_in_close_handler {S : System} {s : Nat} (hs : CloseStops S s s) {τ : History} {σ : State} (h : Happened S τ σ) :
    σ.todo (.closer s) ≠ [] ∧ ∀ g, Act.join (.closer s) ∈ S.acts g → σ.todo g ≠ [] := by
  have hn : ∀ t, NoCircle S t → t = s → False := by
    intro t ht
    induction ht with
    | intro _ ih => rintro rfl; exact ih _ hs rfl
  exact ⟨fun he => hn s (ended h he s (close_waits.2 ⟨s, rfl, hs⟩)) rfl, fun g hg he => hn s (ended h he s hg) rfl⟩

/-- **C85, in the long run, exactly.** In a fair run a goroutine comes to its end if and only if none of the close handlers it waits for is part of a
circle. -/
theorem C85_fair_exact_partial {S : System} (c : Course S) (hf : c.Fair) {g : Goroutine} {t : Nat} (hst : (c.state t).started g = true)
    (hg : ∀ s, g ≠ .sender s) :
    (∃ u, t ≤ u ∧ (c.state u).todo g = []) ↔ ∀ s, Act.join (.closer s) ∈ S.acts g → NoCircle S s := by
  constructor
  · rintro ⟨u, _, he⟩
    obtain ⟨τ, hτ⟩ := course_happened c u
    exact ended hτ he
  · intro hn
    have hc : ∀ s, NoCircle S s → ∀ t, (c.state t).started (.closer s) = true → ∃ u, t ≤ u ∧ (c.state u).todo (.closer s) = [] := by
      intro s hs
      induction hs with
      | intro _ ih =>
        intro t ht
        refine course_finish hf (by intros; simp) (fun k t hk hks => ?_) ht
        obtain ⟨u, rfl, hu⟩ := close_waits.1 hk
        exact ih u hu t hks
    refine course_finish hf hg (fun k t hk hks => ?_) hst
    obtain ⟨s, rfl⟩ := only_closers hk
    exact hc s (hn s hk) t hks

/-- The condition of `C85_partial` is a special case. -/
theorem C85_without_stop {S : System} (hS : CloseWithoutStop S) (s : Nat) : NoCircle S s :=
  .intro fun _ ⟨found, cs, opened, hc, hm, _⟩ => absurd hm (hS s found cs hc true opened)

namespace Sample

/-- A server with two sessions; the close handler of the first stops it when link has only the second any more, and that one's close handler looks up
a session. The main program stops the server as well. -/
def stopsSecond : System where
  programs n := match n with
    | 0 => [.newServer, .run false true [1, 2], .stop true [1, 2]]
    | _ => []
  ticks := []
  turns _ := (false, [], ⟨0, none⟩)
  sendings _ := []
  closing s := if s = 1 then some (true, some [.stop true [2]]) else some (true, some [.getSession])

/-- The same, but the two close handlers each stop the server while link has the other session. -/
def stopsEachOther : System where
  programs n := match n with
    | 0 => [.newServer, .run false true [1, 2], .stop true [1, 2]]
    | _ => []
  ticks := []
  turns _ := (false, [], ⟨0, none⟩)
  sendings _ := []
  closing s := if s = 1 then some (true, some [.stop true [2]]) else some (true, some [.stop true [1]])

end Sample

/-- A close handler that calls `Stop` and waits for no circle: all come to their end, which `C85_partial` does not say. -/
example : ¬ CloseWithoutStop Sample.stopsSecond ∧ ∀ s, NoCircle Sample.stopsSecond s := by
  have h2 : ∀ s, s ≠ 1 → NoCircle Sample.stopsSecond s := by
    intro s hs
    refine .intro fun t ⟨found, cs, opened, hc, hm, _⟩ => ?_
    simp only [Sample.stopsSecond, hs, if_false, Option.some.injEq, Prod.mk.injEq] at hc
    rw [← hc.2] at hm
    simp at hm
  refine ⟨fun h => h 1 true [.stop true [2]] rfl true [2] (by simp), fun s => ?_⟩
  by_cases hs : s = 1
  · subst hs
    refine .intro fun t ⟨found, cs, opened, hc, hm, ht⟩ => ?_
    simp only [Sample.stopsSecond, if_true, Option.some.injEq, Prod.mk.injEq] at hc
    rw [← hc.2] at hm
    simp at hm
    subst hm
    simp at ht
    exact h2 t (by omega)
  · exact h2 s hs

/-- Two close handlers that wait for each other: neither comes to its end, nor does the program in `Stop`. -/
example : CloseStops Sample.stopsEachOther 1 2 ∧ CloseStops Sample.stopsEachOther 2 1 ∧ ¬ NoCircle Sample.stopsEachOther 1 ∧
    Act.join (.closer 1) ∈ Sample.stopsEachOther.acts (.program 0) := by
  have h1 : CloseStops Sample.stopsEachOther 1 2 := ⟨true, [.stop true [2]], [2], rfl, by simp, by simp⟩
  have h2 : CloseStops Sample.stopsEachOther 2 1 := ⟨true, [.stop true [1]], [1], rfl, by simp, by simp⟩
  have hn : ∀ s, NoCircle Sample.stopsEachOther s → s = 1 ∨ s = 2 → False := by
    intro s hs
    induction hs with
    | intro _ ih =>
      rintro (rfl | rfl)
      · exact ih 2 h1 (.inr rfl)
      · exact ih 1 h2 (.inl rfl)
  exact ⟨h1, h2, fun h => hn 1 h (.inl rfl), by decide⟩

/-- The close handler of the refutation stops the server while link has its own session, and it does get there. -/
example : CloseStops Sample.stoppingSystem 1 1 ∧ Sample.possible Sample.stoppingSystem Sample.stoppingTurns = true :=
  ⟨⟨true, [.stop true [1]], [1], rfl, by simp, by simp⟩, by decide +kernel⟩

end Verif
