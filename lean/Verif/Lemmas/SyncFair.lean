import Verif.Lemmas.SyncDeadlock
/-! Lemmas for fair runs without end. -/

namespace Verif.Sync
open Spec

variable {S : System}

theorem course_happened (c : Course S) (t : Nat) : ∃ τ, Happened S τ (c.state t) := by
  induction t with
  | zero => exact ⟨[], [], by rw [c.first]; rfl⟩
  | succ t ih =>
    obtain ⟨τ, hτ⟩ := ih
    have hn := c.next t
    cases hw : c.who t with
    | none => rw [hw] at hn; simp only [] at hn; exact ⟨τ, by rw [hn]; exact hτ⟩
    | some g =>
      rw [hw] at hn
      obtain ⟨a, ha⟩ := hn
      exact ⟨_, hτ.snoc ha⟩

theorem course_step (c : Course S) (t : Nat) (k : Goroutine) :
    (c.who t = some k ∧ ∃ a, (c.state t).todo k = a :: (c.state (t + 1)).todo k) ∨
      (c.who t ≠ some k ∧ (c.state (t + 1)).todo k = (c.state t).todo k) := by
  have hn := c.next t
  cases hw : c.who t with
  | none => rw [hw] at hn; simp only [] at hn; exact .inr ⟨by simp, by rw [hn]⟩
  | some g =>
    rw [hw] at hn
    obtain ⟨a, ha⟩ := hn
    obtain ⟨rest, _, ht, _, he⟩ := step_some ha
    by_cases hk : k = g
    · subst hk
      exact .inl ⟨rfl, a, by rw [he, effect_todo_self, ht]⟩
    · exact .inr ⟨by intro h; cases h; exact hk rfl, by rw [he, effect_todo_other _ hk]⟩

theorem course_started (c : Course S) {t u : Nat} (h : t ≤ u) {k : Goroutine} (hs : (c.state t).started k = true) :
    (c.state u).started k = true := by
  induction h with
  | refl => exact hs
  | @step u _ ih =>
    have hn := c.next u
    cases hw : c.who u with
    | none => rw [hw] at hn; simp only [] at hn; rw [hn]; exact ih
    | some g =>
      rw [hw] at hn
      obtain ⟨a, ha⟩ := hn
      obtain ⟨rest, _, _, _, he⟩ := step_some ha
      rw [he]
      exact effect_started ih

theorem course_length (c : Course S) {t u : Nat} (h : t ≤ u) (k : Goroutine) :
    ((c.state u).todo k).length ≤ ((c.state t).todo k).length := by
  induction h with
  | refl => exact Nat.le_refl _
  | @step u _ ih =>
    rcases course_step c u k with ⟨_, a, ha⟩ | ⟨_, ha⟩
    · rw [ha] at ih
      simp only [List.length_cons] at ih
      simp only [Nat.succ_eq_add_one]
      omega
    · simp only [Nat.succ_eq_add_one, ha]; exact ih

/-- Every goroutine comes to a time from which on it can make no step. -/
theorem course_rests {c : Course S} (hf : c.Fair) (g : Goroutine) : ∃ t, ∀ u, t ≤ u → (c.state u).step g = none := by
  refine Classical.byContradiction fun hc => ?_
  have henabled : ∀ t, ∃ u, t ≤ u ∧ ((c.state u).step g).isSome = true := by
    intro t
    refine Classical.byContradiction fun h => hc ⟨t, fun u hu => ?_⟩
    cases hs : (c.state u).step g with
    | none => rfl
    | some p => exact absurd ⟨u, hu, by rw [hs]; rfl⟩ h
  have hsteps := hf g henabled
  have : ∀ n t, ((c.state t).todo g).length = n → False := by
    intro n
    induction n using Nat.strongRecOn with
    | ind n ih =>
      intro t ht
      obtain ⟨u, hu, hw⟩ := hsteps t
      rcases course_step c u g with ⟨_, a, ha⟩ | ⟨hw', _⟩
      · have hl := course_length c hu g
        rw [ha] at hl
        simp only [List.length_cons] at hl
        exact ih _ (by omega) (u + 1) rfl
      · exact hw' hw
  exact this _ 0 rfl

/-- Nobody keeps a lock for ever. -/
theorem course_released {c : Course S} (hf : c.Fair) (m : Mutex) (t : Nat) : ∃ u, t ≤ u ∧ (c.state u).holder m = none := by
  refine Classical.byContradiction fun hc => ?_
  cases hm : (c.state t).holder m with
  | none => exact hc ⟨t, Nat.le_refl _, hm⟩
  | some h =>
    have hstay : ∀ u, t ≤ u → (c.state u).holder m = some h := by
      intro u hu
      induction hu with
      | refl => exact hm
      | @step u hu ih =>
        have hn := c.next u
        cases hw : c.who u with
        | none => rw [hw] at hn; simp only [] at hn; simp only [Nat.succ_eq_add_one, hn]; exact ih
        | some g =>
          rw [hw] at hn
          obtain ⟨a, ha⟩ := hn
          obtain ⟨rest, _, _, hr, he⟩ := step_some ha
          have hne : (c.state (u + 1)).holder m ≠ none := fun h0 => hc ⟨u + 1, Nat.le_succ_of_le hu, h0⟩
          simp only [Nat.succ_eq_add_one]
          rw [he] at hne ⊢
          cases a with
          | lock n =>
            by_cases hmn : m = n
            · subst hmn
              simp [State.ready, ih] at hr
            · simp [State.effect, hmn, ih]
          | unlock n =>
            by_cases hmn : m = n
            · subst hmn
              simp [State.effect] at hne
            · simp [State.effect, hmn, ih]
          | _ => simpa [State.effect] using ih
    obtain ⟨T, hT⟩ := course_rests hf h
    obtain ⟨τ, hτ⟩ := course_happened c (max t T)
    obtain ⟨a, rest, hst, ht, hr, _⟩ := holder_goes hτ (hstay _ (Nat.le_max_left _ _))
    have := hT _ (Nat.le_max_right t T)
    rw [step_of hst ht hr] at this
    cases this

/-- A goroutine that is not a send loop comes to its end, if those do for which it waits. -/
theorem course_finish {c : Course S} (hf : c.Fair) {g : Goroutine} (hg : ∀ s, g ≠ .sender s)
    (hj : ∀ k t, Act.join k ∈ S.acts g → (c.state t).started k = true → ∃ u, t ≤ u ∧ (c.state u).todo k = [])
    {t : Nat} (hst : (c.state t).started g = true) : ∃ u, t ≤ u ∧ (c.state u).todo g = [] := by
  obtain ⟨T, hT⟩ := course_rests hf g
  refine ⟨max t T, Nat.le_max_left _ _, ?_⟩
  cases ht : (c.state (max t T)).todo g with
  | nil => rfl
  | cons a rest =>
    exfalso
    have hkeep : ∀ u, max t T ≤ u → (c.state u).todo g = a :: rest := by
      intro u hu
      induction hu with
      | refl => exact ht
      | @step u hu ih =>
        rcases course_step c u g with ⟨hw, _⟩ | ⟨_, he⟩
        · have hn := c.next u
          rw [hw] at hn
          obtain ⟨b, hb⟩ := hn
          rw [hT u (Nat.le_trans (Nat.le_max_right _ _) hu)] at hb
          cases hb
        · simp only [Nat.succ_eq_add_one, he]; exact ih
    have hnot : ∀ u, max t T ≤ u → (c.state u).ready a = false := by
      intro u hu
      cases hr : (c.state u).ready a with
      | false => rfl
      | true =>
        have h0 := hT u (by omega)
        rw [step_of (course_started c (by omega) hst) (hkeep u hu) hr] at h0
        cases h0
    obtain ⟨τ, hτ⟩ := course_happened c (max t T)
    have hmem : a ∈ S.acts g := by rw [← done_todo hτ g, ht]; simp
    cases a with
    | take s b => exact absurd (take_sender hmem) (hg s)
    | lock m =>
      obtain ⟨u, hu, hm⟩ := course_released hf m (max t T)
      have := hnot u hu
      simp [State.ready, hm] at this
    | join k =>
      have hks : (c.state (max t T)).started k = true := by
        obtain ⟨x, hx, s, rfl, he⟩ := joinOK_acts S g (doneBy g τ) (.join k) rest (by rw [← done_todo hτ g, ht]) ⟨k, rfl⟩
        cases he
        exact started_of_start hτ hx
      obtain ⟨u, hu, hk⟩ := hj k _ hmem hks
      have := hnot u hu
      simp [State.ready, hk] at this
    | _ => exact absurd (hnot _ (Nat.le_refl _)) (by simp [State.ready])

/-- Who runs was started by somebody. -/
theorem started_why {τ : History} {σ : State} (h : Happened S τ σ) (g : Goroutine) (hs : σ.started g = true) :
    g = .program 0 ∨ ∃ k, (k, Act.start g) ∈ τ := by
  refine Happened.induct (P := fun τ σ => σ.started g = true → g = .program 0 ∨ ∃ k, (k, Act.start g) ∈ τ) ?_ ?_ h hs
  · intro h0
    exact .inl (by simpa [System.init] using h0)
  · intro τ σ k a σ' _ ih hstep hst
    obtain ⟨rest, _, _, _, rfl⟩ := step_some hstep
    have hold : σ.started g = true → g = .program 0 ∨ ∃ f, (f, Act.start g) ∈ τ ++ [(k, a)] := fun h0 =>
      (ih h0).imp id fun ⟨f, hf⟩ => ⟨f, List.mem_append_left _ hf⟩
    cases a with
    | start f =>
      by_cases hgf : g = f
      · subst hgf
        exact .inr ⟨k, by simp⟩
      · exact hold (by simpa [State.effect, hgf] using hst)
    | _ => exact hold (by simpa [State.effect] using hst)

theorem run_split {σ σ₁ : State} {x y : List Goroutine} {τ : History} (h : σ.run (x ++ y) = some (τ, σ₁)) :
    ∃ τ' σ' τ'', σ.run x = some (τ', σ') ∧ σ'.run y = some (τ'', σ₁) := by
  rw [run_append] at h
  cases h1 : σ.run x with
  | none => rw [h1] at h; cases h
  | some p =>
    rw [h1] at h
    simp only [] at h
    cases h2 : p.2.run y with
    | none => rw [h2] at h; cases h
    | some q =>
      rw [h2] at h
      simp only [Option.some.injEq, Prod.mk.injEq] at h
      exact ⟨p.1, p.2, q.1, rfl, by rw [h2, ← h.2]⟩

/-- A run after which nobody can make a step is a fair one. -/
theorem course_of_run {order : List Goroutine} {τ : History} {σ : State} (h : S.init.run order = some (τ, σ))
    (hend : ∀ g, σ.step g = none) : ∃ c : Course S, c.Fair ∧ c.state order.length = σ ∧
      ∀ t, c.state t = ((S.init.run (order.take t)).map (·.2)).getD S.init := by
  have hall : ∀ t, order.length ≤ t → ((S.init.run (order.take t)).map (·.2)).getD S.init = σ := by
    intro t ht
    rw [List.take_of_length_le ht, h]
    rfl
  refine ⟨{ state := fun t => ((S.init.run (order.take t)).map (·.2)).getD S.init, who := fun t => order[t]?, first := rfl, next := ?_ }, ?_, ?_⟩
  · intro t
    cases hw : order[t]? with
    | none =>
      have hl : order.length ≤ t := by simpa using hw
      simp only []
      rw [hall _ hl, hall _ (by omega)]
    | some g =>
      simp only []
      have hl : t < order.length := (List.getElem?_eq_some_iff.mp hw).1
      have hg : order = order.take t ++ g :: order.drop (t + 1) := by
        rw [← (List.getElem?_eq_some_iff.mp hw).2, ← List.drop_eq_getElem_cons, List.take_append_drop]
      have ht : order.take (t + 1) = order.take t ++ [g] := by
        rw [List.take_add_one, hw]; rfl
      have h0 := h
      rw [hg] at h0
      obtain ⟨τ', σ', τ'', h1, h2⟩ := run_split h0
      simp only [State.run] at h2
      cases hs : σ'.step g with
      | none => rw [hs] at h2; cases h2
      | some p =>
        obtain ⟨a, σ₂⟩ := p
        refine ⟨a, ?_⟩
        rw [ht, run_append, h1]
        simp [State.run, hs]
  · intro g hg
    obtain ⟨u, hu, he⟩ := hg order.length
    simp only [] at he
    rw [hall _ hu, hend] at he
    cases he
  · exact ⟨hall _ (Nat.le_refl _), fun _ => rfl⟩

end Verif.Sync
