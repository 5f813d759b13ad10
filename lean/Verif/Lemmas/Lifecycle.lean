import Verif.Spec.Lifecycle
/-! # Lemmas on running and stopping a server -/

namespace Verif.Lifecycle
open Spec

theorem run_append (s : State) (a b : List Event) :
    s.run (a ++ b) = (s.run a).bind fun r => (r.1.run b).bind fun q => .ok (q.1, r.2 ++ q.2) := by
  induction a generalizing s with
  | nil =>
    show s.run b = (s.run b).bind fun q => .ok (q.1, [] ++ q.2)
    cases s.run b <;> rfl
  | cons i is ih =>
    show (s.step i >>= fun x => x.1.run (is ++ b) >>= fun y => .ok (y.1, x.2 ++ y.2)) =
      (s.step i >>= fun x => x.1.run is >>= fun y => .ok (y.1, x.2 ++ y.2)).bind _
    cases s.step i with
    | err e => rfl
    | panic => rfl
    | ok x =>
      simp only [Res.ok_bind, ih]
      show ((x.1.run is).bind _).bind _ = ((x.1.run is).bind _).bind _
      cases x.1.run is with
      | err e => rfl
      | panic => rfl
      | ok y =>
        simp only [Res.bind]
        cases y.1.run b with
        | err e => rfl
        | panic => rfl
        | ok z => simp [Res.bind]

/-- Between calls: nobody is in the middle of a call, and the field points to the listener that is open. -/
structure Settled (s : State) (log : List Obs) : Prop where
  place : ∀ i, s.place i = .idle ∨ ∃ l, s.place i = .serving l
  opened : s.opened = match s.field with | some l => [l] | none => []
  up : up log = s.field.isSome
  refused : ∀ l1 l2 i, log = l1 ++ .refused i :: l2 → Spec.up l1 = true
  started : ∀ l1 l2 i l, log = l1 ++ .started i l :: l2 → Spec.up l1 = false

theorem split_last {α : Type} {log l1 l2 : List α} {o x : α} (h : log ++ [o] = l1 ++ x :: l2) :
    (l1 = log ∧ x = o ∧ l2 = []) ∨ ∃ l2', log = l1 ++ x :: l2' := by
  rcases List.eq_nil_or_concat l2 with rfl | ⟨l, y, rfl⟩
  · obtain ⟨h1, h2⟩ := List.append_inj' h rfl
    exact .inl ⟨h1.symm, by simpa using h2.symm, rfl⟩
  · right
    rw [List.concat_eq_append, ← List.cons_append, ← List.append_assoc] at h
    obtain ⟨h1, -⟩ := List.append_inj' h rfl
    exact ⟨l, h1⟩

theorem Settled.quiet {s : State} {log : List Obs} (h : Settled s log) (s' : State) (o : Obs) (hp : ∀ i, s'.place i = .idle ∨ ∃ l, s'.place i = .serving l)
    (ho : s'.opened = match s'.field with | some l => [l] | none => []) (hu : Spec.up (log ++ [o]) = s'.field.isSome)
    (hr : ∀ i, o = .refused i → Spec.up log = true) (hs : ∀ i l, o = .started i l → Spec.up log = false) : Settled s' (log ++ [o]) := by
  refine ⟨hp, ho, hu, ?_, ?_⟩
  · intro l1 l2 i he
    rcases split_last he with ⟨rfl, h2, -⟩ | ⟨l2', h2⟩
    · exact hr i h2.symm
    · exact h.refused l1 l2' i h2
  · intro l1 l2 i l he
    rcases split_last he with ⟨rfl, h2, -⟩ | ⟨l2', h2⟩
    · exact hs i l h2.symm
    · exact h.started l1 l2' i l h2

theorem up_snoc (log : List Obs) (o : Obs) : Spec.up (log ++ [o]) = match o with | .started _ _ => true | .stopped _ => false | _ => Spec.up log := by
  simp only [Spec.up, List.foldl_append, List.foldl_cons, List.foldl_nil]
  cases o <;> rfl

theorem goto_settled {p : Nat → Place} (h : ∀ i, p i = .idle ∨ ∃ l, p i = .serving l) (i : Nat) (x : Place) (hx : x = .idle ∨ ∃ l, x = .serving l) :
    ∀ j, goto p i x j = .idle ∨ ∃ l, goto p i x j = .serving l := by
  intro j
  unfold goto
  split
  · exact hx
  · exact h j

theorem goto_goto (p : Nat → Place) (i : Nat) (x y : Place) : goto (goto p i x) i y = goto p i y := by
  funext j
  unfold goto
  split <;> rfl

theorem goto_same (p : Nat → Place) (i : Nat) (x : Place) : goto p i x i = x := if_pos rfl

theorem call_settled (s : State) (log : List Obs) (h : Settled s log) (c : Call) :
    ∃ s' x, s.run c.events = .ok (s', x) ∧ Settled s' (log ++ x) := by
  have same : Settled s (log ++ []) := by simpa using h
  cases c with
  | run i ok =>
    rcases h.place i with hp | ⟨l, hp⟩
    · cases hf : s.field with
      | some l =>
        refine ⟨s, [.refused i], by simp [Call.events, State.run, State.step, hp, hf], ?_⟩
        refine h.quiet s _ h.place h.opened (by rw [up_snoc]; exact h.up) (fun _ _ => by rw [h.up, hf]; rfl) (by simp)
      | none =>
        cases ok with
        | true =>
          refine ⟨{ s with field := some s.count, opened := s.count :: s.opened, count := s.count + 1, place := goto s.place i (.serving s.count) },
            [.started i s.count], by simp [Call.events, State.run, State.step, hp, hf, goto_same, goto_goto], ?_⟩
          refine h.quiet _ _ (goto_settled h.place i _ (.inr ⟨_, rfl⟩)) ?_ (by rw [up_snoc]; rfl) (by simp) (fun _ _ _ => by rw [h.up, hf]; rfl)
          have := h.opened
          rw [hf] at this
          simp [this]
        | false =>
          refine ⟨{ s with place := goto s.place i .idle }, [.failed i], by simp [Call.events, State.run, State.step, hp, hf, goto_same, goto_goto], ?_⟩
          exact h.quiet _ _ (goto_settled h.place i _ (.inl rfl)) h.opened (by rw [up_snoc]; exact h.up) (by simp) (by simp)
    · exact ⟨s, [], by simp [Call.events, State.run, State.step, hp], same⟩
  | stop i =>
    rcases h.place i with hp | ⟨l, hp⟩
    · cases hf : s.field with
      | some l =>
        refine ⟨{ s with field := none, opened := s.opened.filter (· ≠ l), place := goto s.place i .idle }, [.stopped i],
          by simp [Call.events, State.run, State.step, hp, hf, goto_same, goto_goto], ?_⟩
        refine h.quiet _ _ (goto_settled h.place i _ (.inl rfl)) ?_ (by rw [up_snoc]; rfl) (by simp) (by simp)
        have := h.opened
        rw [hf] at this
        simp [this]
      | none =>
        refine ⟨s, [.stopped i], by simp [Call.events, State.run, State.step, hp, hf], ?_⟩
        exact h.quiet s _ h.place h.opened (by rw [up_snoc, hf]; rfl) (by simp) (by simp)
    · exact ⟨s, [], by simp [Call.events, State.run, State.step, hp], same⟩
  | ends i =>
    rcases h.place i with hp | ⟨l, hp⟩
    · exact ⟨s, [], by simp [Call.events, State.run, State.step, hp], same⟩
    · refine ⟨{ s with place := goto s.place i .idle }, [.ended i], by simp [Call.events, State.run, State.step, hp], ?_⟩
      exact h.quiet _ _ (goto_settled h.place i _ (.inl rfl)) h.opened (by rw [up_snoc]; exact h.up) (by simp) (by simp)

theorem calls_settled (cs : List Call) : ∀ (s : State) (log : List Obs), Settled s log →
    ∃ s' x, s.run (cs.flatMap Call.events) = .ok (s', x) ∧ Settled s' (log ++ x) := by
  induction cs with
  | nil => exact fun s log h => ⟨s, [], rfl, by simpa using h⟩
  | cons c cs ih =>
    intro s log h
    obtain ⟨s1, x1, h1, h2⟩ := call_settled s log h c
    obtain ⟨s2, x2, h3, h4⟩ := ih s1 _ h2
    refine ⟨s2, x1 ++ x2, ?_, by rw [← List.append_assoc]; exact h4⟩
    rw [List.flatMap_cons, run_append, h1]
    simp only [Res.bind]
    rw [h3]

end Verif.Lifecycle
