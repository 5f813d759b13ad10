import Verif.Lemmas.SyncPrograms
/-! Lemmas for deadlocks: a goroutine with a lock can always go on, so that everyone can come to the end. -/

namespace Verif.Sync
open Spec

theorem effect_started {σ : State} {g k : Goroutine} {rest : List Act} {a : Act} (h : σ.started k = true) :
    (σ.effect g rest a).started k = true := by
  cases a with
  | start f => simp only [State.effect]; split <;> first | rfl | exact h
  | _ => simpa [State.effect] using h

/-- Everyone has only less to do. -/
theorem run_mono {σ σ' : State} {order : List Goroutine} {τ : History} (h : σ.run order = some (τ, σ')) (k : Goroutine) :
    (∃ p, σ.todo k = p ++ σ'.todo k) ∧ (σ.started k = true → σ'.started k = true) := by
  induction order generalizing σ τ with
  | nil =>
    simp only [State.run, Option.some.injEq, Prod.mk.injEq] at h
    rw [h.2]
    exact ⟨⟨[], rfl⟩, id⟩
  | cons g order ih =>
    simp only [State.run] at h
    cases h1 : σ.step g with
    | none => rw [h1] at h; cases h
    | some p =>
      obtain ⟨a, σ₁⟩ := p
      rw [h1] at h
      simp only [] at h
      cases h2 : σ₁.run order with
      | none => rw [h2] at h; cases h
      | some q =>
        obtain ⟨τ₁, σ₂⟩ := q
        rw [h2] at h
        simp only [Option.some.injEq, Prod.mk.injEq] at h
        obtain ⟨_, rfl⟩ := h
        obtain ⟨⟨p, hp⟩, hs⟩ := ih h2
        obtain ⟨rest, _, ht, _, rfl⟩ := step_some h1
        refine ⟨?_, fun h0 => hs (effect_started h0)⟩
        by_cases hk : k = g
        · subst hk
          rw [effect_todo_self] at hp
          exact ⟨a :: p, by rw [ht, hp]; rfl⟩
        · rw [effect_todo_other _ hk] at hp
          exact ⟨p, hp⟩

theorem run_cons {σ σ₁ σ₂ : State} {g : Goroutine} {a : Act} {order : List Goroutine} {τ : History} (h1 : σ.step g = some (a, σ₁))
    (h2 : σ₁.run order = some (τ, σ₂)) : σ.run (g :: order) = some ((g, a) :: τ, σ₂) := by
  simp only [State.run, h1, h2]

theorem run_join {σ σ₁ σ₂ : State} {x y : List Goroutine} {τ τ' : History} (h1 : σ.run x = some (τ, σ₁))
    (h2 : σ₁.run y = some (τ', σ₂)) : σ.run (x ++ y) = some (τ ++ τ', σ₂) := by
  rw [run_append, h1]
  simp only [h2]

theorem started_of_done {S : System} {τ : History} {σ : State} (h : Happened S τ σ) (g : Goroutine) (hd : doneBy g τ ≠ []) :
    σ.started g = true := by
  refine Happened.induct (P := fun τ σ => doneBy g τ ≠ [] → σ.started g = true) (fun h0 => absurd rfl h0) ?_ h hd
  intro τ σ k a σ' _ ih hs hd
  obtain ⟨rest, hst, _, _, rfl⟩ := step_some hs
  by_cases hg : g = k
  · subst hg; exact effect_started hst
  · rw [doneBy_snoc_other hg] at hd
    exact effect_started (ih hd)

theorem started_of_start {S : System} {τ : History} {σ : State} (h : Happened S τ σ) {g k : Goroutine} (hd : Act.start k ∈ doneBy g τ) :
    σ.started k = true := by
  refine Happened.induct (P := fun τ σ => Act.start k ∈ doneBy g τ → σ.started k = true) (fun h0 => by cases h0) ?_ h hd
  intro τ σ f a σ' _ ih hs hd
  obtain ⟨rest, hst, _, _, rfl⟩ := step_some hs
  by_cases hg : g = f
  · subst hg
    rw [doneBy_snoc_self] at hd
    rcases List.mem_append.mp hd with h1 | h1
    · exact effect_started (ih h1)
    · simp only [List.mem_singleton] at h1
      subst h1
      simp [State.effect]
  · rw [doneBy_snoc_other hg] at hd
    exact effect_started (ih hd)

/-- The goroutine that holds a lock can go on, and what it does next uses memory or releases the lock. -/
theorem holder_goes {S : System} {τ : History} {σ : State} (h : Happened S τ σ) {m : Mutex} {g : Goroutine} (hm : σ.holder m = some g) :
    ∃ a rest, σ.started g = true ∧ σ.todo g = a :: rest ∧ σ.ready a = true ∧
      (a = .unlock m ∨ (σ.effect g rest a).holder m = some g) := by
  obtain ⟨l, hl, hlm⟩ := held h g
  have hl2 := (hlm m).mp hm
  subst hl2
  have hst : σ.started g = true := by
    refine started_of_done h g fun he => ?_
    rw [he] at hl
    cases hl
  cases ht : σ.todo g with
  | nil =>
    have h1 := tidy_acts S g
    unfold Tidy at h1
    rw [← done_todo h g, ht, List.append_nil, hl] at h1
    cases h1
  | cons a rest =>
    refine ⟨a, rest, hst, rfl, ?_⟩
    obtain ⟨l, l', h1, _, h3⟩ := lockStep_next h ht
    have hlm2 := (h3 m).mp hm
    subst hlm2
    cases a with
    | unlock n =>
      simp only [lockStep] at h1
      split at h1
      · next hn =>
        cases hn
        exact ⟨rfl, .inl rfl⟩
      · cases h1
    | read c => exact ⟨rfl, .inr (by simpa [State.effect] using hm)⟩
    | write c => exact ⟨rfl, .inr (by simpa [State.effect] using hm)⟩
    | _ => simp [lockStep] at h1

/-- It comes to release it, whatever the others do or do not do. -/
theorem release {S : System} {τ : History} {σ : State} (h : Happened S τ σ) {m : Mutex} {g : Goroutine} (hm : σ.holder m = some g) :
    ∃ n τ' σ', σ.run (List.replicate n g) = some (τ', σ') ∧ σ'.holder m = none ∧ ∀ k, k ≠ g → σ'.todo k = σ.todo k := by
  induction hn : (σ.todo g).length generalizing τ σ with
  | zero =>
    obtain ⟨a, rest, _, ht, _⟩ := holder_goes h hm
    rw [ht] at hn
    cases hn
  | succ n ih =>
    obtain ⟨a, rest, hst, ht, hr, hu⟩ := holder_goes h hm
    have hs := step_of hst ht hr
    rcases hu with rfl | hu
    · refine ⟨1, _, _, run_cons hs rfl, by simp [State.effect], fun k hk => effect_todo_other _ hk _ _⟩
    · have hlen : ((σ.effect g rest a).todo g).length = n := by
        rw [effect_todo_self]
        rw [ht] at hn
        simpa using hn
      obtain ⟨x, τ', σ', h1, h2, h3⟩ := ih (h.snoc hs) hu hlen
      refine ⟨x + 1, _, σ', run_cons hs h1, h2, fun k hk => ?_⟩
      rw [h3 k hk, effect_todo_other _ hk]

/-- A goroutine that is not a send loop can come to its end, if those can for which it waits. -/
theorem finish {S : System} {g : Goroutine} (hg : ∀ s, g ≠ .sender s)
    (hj : ∀ k τ σ, Act.join k ∈ S.acts g → Happened S τ σ → σ.started k = true →
      ∃ order τ' σ', σ.run order = some (τ', σ') ∧ σ'.todo k = [])
    {τ : History} {σ : State} (h : Happened S τ σ) (hst : σ.started g = true) :
    ∃ order τ' σ', σ.run order = some (τ', σ') ∧ σ'.todo g = [] := by
  induction hn : (σ.todo g).length using Nat.strongRecOn generalizing τ σ with
  | ind n ih =>
    subst hn
    cases ht : σ.todo g with
    | nil => exact ⟨[], [], σ, rfl, ht⟩
    | cons a rest =>
      -- once the next action is ready
      have hgo : ∀ {τ : History} {σ₁ : State}, Happened S τ σ₁ → σ₁.started g = true → σ₁.todo g = a :: rest → σ₁.ready a = true →
          ∃ order τ' σ', σ₁.run order = some (τ', σ') ∧ σ'.todo g = [] := by
        intro τ σ₁ h1 hst1 ht1 hr1
        have hs := step_of hst1 ht1 hr1
        obtain ⟨order, τ', σ', h2, h3⟩ := ih _ (by rw [effect_todo_self, ht]; simp) (h1.snoc hs) (effect_started hst1) rfl
        exact ⟨_, _, _, run_cons hs h2, h3⟩
      have hmem : a ∈ S.acts g := by rw [← done_todo h g, ht]; simp
      cases a with
      | take s b => exact absurd (take_sender hmem) (hg s)
      | lock m =>
        cases hm : σ.holder m with
        | none => exact hgo h hst ht (by simp [State.ready, hm])
        | some k =>
          have hk : g ≠ k := by
            intro he
            subst he
            obtain ⟨l, l', h1, _, h3⟩ := lockStep_next h ht
            rw [h3 m] at hm
            rw [hm] at h1
            simp [lockStep] at h1
          obtain ⟨n, τ', σ', h1, h2, h3⟩ := release h hm
          have h4 := h.append h1
          obtain ⟨order, τ'', σ'', h5, h6⟩ :=
            hgo h4 ((run_mono h1 g).2 hst) (by rw [h3 g hk, ht]) (by simp [State.ready, h2])
          exact ⟨_, _, _, run_join h1 h5, h6⟩
      | join k =>
        have hks : σ.started k = true := by
          obtain ⟨t, htm, s, rfl, he⟩ := joinOK_acts S g (doneBy g τ) (.join k) rest (by rw [← done_todo h g, ht]) ⟨k, rfl⟩
          cases he
          exact started_of_start h htm
        obtain ⟨order, τ', σ', h1, h2⟩ := hj k τ σ hmem h hks
        have h4 := h.append h1
        obtain ⟨⟨p, hp⟩, hs'⟩ := run_mono h1 g
        cases p with
        | nil =>
          rw [List.nil_append] at hp
          obtain ⟨order', τ'', σ'', h5, h6⟩ := hgo h4 (hs' hst) (by rw [← hp, ht]) (by simp [State.ready, h2])
          exact ⟨_, _, _, run_join h1 h5, h6⟩
        | cons x p =>
          obtain ⟨order', τ'', σ'', h5, h6⟩ := ih _ (by rw [hp]; simp; omega) h4 (hs' hst) rfl
          exact ⟨_, _, _, run_join h1 h5, h6⟩
      | _ => exact hgo h hst ht rfl

/-- A goroutine that waits for its own end waits for ever. -/
theorem waits_for_itself {σ σ' : State} {g : Goroutine} {rest : List Act} (ht : σ.todo g = .join g :: rest) {order : List Goroutine} {τ : History}
    (h : σ.run order = some (τ, σ')) : σ'.todo g = .join g :: rest := by
  induction order generalizing σ τ with
  | nil =>
    simp only [State.run, Option.some.injEq, Prod.mk.injEq] at h
    rw [← h.2, ht]
  | cons k order ih =>
    simp only [State.run] at h
    cases h1 : σ.step k with
    | none => rw [h1] at h; cases h
    | some p =>
      obtain ⟨a, σ₁⟩ := p
      rw [h1] at h
      simp only [] at h
      cases h2 : σ₁.run order with
      | none => rw [h2] at h; cases h
      | some q =>
        obtain ⟨τ₁, σ₂⟩ := q
        rw [h2] at h
        simp only [Option.some.injEq, Prod.mk.injEq] at h
        obtain ⟨_, rfl⟩ := h
        obtain ⟨r, _, hk, hr, rfl⟩ := step_some h1
        refine ih ?_ h2
        by_cases hgk : g = k
        · subst hgk
          rw [ht] at hk
          cases hk
          simp [State.ready, ht] at hr
        · rw [effect_todo_other _ hgk, ht]

end Verif.Sync
