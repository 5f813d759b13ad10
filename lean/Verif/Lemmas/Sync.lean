import Verif.Spec.Sync
/-! Lemmas for data races and deadlocks: runs, the locks a goroutine holds, what the program of every goroutine looks like. -/

namespace Verif.Sync
open Spec

/-! ## Runs -/

theorem run_append (σ : State) (xs ys : List Goroutine) :
    σ.run (xs ++ ys) = match σ.run xs with
      | none => none
      | some (τ, σ') => match σ'.run ys with
        | none => none
        | some (τ', σ'') => some (τ ++ τ', σ'') := by
  induction xs generalizing σ with
  | nil =>
    simp only [List.nil_append, State.run]
    cases σ.run ys <;> rfl
  | cons g xs ih =>
    simp only [List.cons_append, State.run]
    cases h : σ.step g with
    | none => rfl
    | some p =>
      obtain ⟨a, σ'⟩ := p
      simp only [ih σ']
      cases h1 : σ'.run xs with
      | none => rfl
      | some p1 =>
        obtain ⟨τ, σ1⟩ := p1
        simp only []
        cases h2 : σ1.run ys <;> rfl

theorem run_order {σ σ' : State} {xs : List Goroutine} {τ : History} (h : σ.run xs = some (τ, σ')) : xs = τ.map (·.1) := by
  induction xs generalizing σ σ' τ with
  | nil => simp only [State.run, Option.some.injEq, Prod.mk.injEq] at h; rw [← h.1]; rfl
  | cons g xs ih =>
    simp only [State.run] at h
    cases h1 : σ.step g with
    | none => rw [h1] at h; cases h
    | some p =>
      obtain ⟨a, σ1⟩ := p
      rw [h1] at h
      simp only [] at h
      cases h2 : σ1.run xs with
      | none => rw [h2] at h; cases h
      | some q =>
        obtain ⟨τ1, σ2⟩ := q
        rw [h2] at h
        simp only [Option.some.injEq, Prod.mk.injEq] at h
        rw [← h.1, List.map_cons, ← ih h2]

theorem _root_.Verif.Spec.Happened.unique {S : System} {τ : History} {σ σ' : State} (h : Happened S τ σ) (h' : Happened S τ σ') : σ = σ' := by
  obtain ⟨xs, hx⟩ := h
  obtain ⟨ys, hy⟩ := h'
  rw [run_order hx] at hx
  rw [run_order hy, hx] at hy
  simp only [Option.some.injEq, Prod.mk.injEq] at hy
  exact hy.2

theorem _root_.Verif.Spec.Happened.init (S : System) : Happened S [] S.init := ⟨[], rfl⟩

theorem _root_.Verif.Spec.Happened.snoc {S : System} {τ : History} {σ σ' : State} {g : Goroutine} {a : Act} (h : Happened S τ σ)
    (hs : σ.step g = some (a, σ')) : Happened S (τ ++ [(g, a)]) σ' := by
  obtain ⟨xs, hx⟩ := h
  refine ⟨xs ++ [g], ?_⟩
  rw [run_append, hx]
  simp only [State.run, hs]

theorem _root_.Verif.Spec.Happened.append {S : System} {τ τ' : History} {σ σ' : State} {xs : List Goroutine} (h : Happened S τ σ)
    (hs : σ.run xs = some (τ', σ')) : Happened S (τ ++ τ') σ' := by
  obtain ⟨ys, hy⟩ := h
  exact ⟨ys ++ xs, by rw [run_append, hy]; simp only [hs]⟩

theorem _root_.Verif.Spec.Happened.last {S : System} {τ : History} {σ : State} {g : Goroutine} {a : Act} (h : Happened S (τ ++ [(g, a)]) σ) :
    ∃ σ', Happened S τ σ' ∧ σ'.step g = some (a, σ) := by
  obtain ⟨xs, hx⟩ := h
  have ho := run_order hx
  rw [List.map_append] at ho
  subst ho
  rw [run_append] at hx
  cases h1 : S.init.run (τ.map (·.1)) with
  | none => rw [h1] at hx; cases hx
  | some p =>
    obtain ⟨τ1, σ1⟩ := p
    rw [h1] at hx
    simp only [List.map_cons, List.map_nil, State.run] at hx
    cases h2 : σ1.step g with
    | none => rw [h2] at hx; cases hx
    | some q =>
      obtain ⟨b, σ2⟩ := q
      rw [h2] at hx
      simp only [Option.some.injEq, Prod.mk.injEq] at hx
      have hτ := List.append_inj' hx.1 rfl
      simp only [List.cons.injEq, Prod.mk.injEq, and_true, true_and] at hτ
      refine ⟨σ1, ⟨_, by rw [h1, hτ.1]⟩, ?_⟩
      rw [h2, hτ.2, hx.2]

/-- Induction over a history. -/
theorem _root_.Verif.Spec.Happened.induct {S : System} {P : History → State → Prop} (h0 : P [] S.init)
    (h1 : ∀ τ σ g a σ', Happened S τ σ → P τ σ → σ.step g = some (a, σ') → P (τ ++ [(g, a)]) σ')
    {τ : History} {σ : State} (h : Happened S τ σ) : P τ σ := by
  induction hn : τ.length generalizing τ σ with
  | zero =>
    have := List.eq_nil_of_length_eq_zero hn
    subst this
    rw [Happened.unique h (.init S)]
    exact h0
  | succ n ih =>
    rcases List.eq_nil_or_concat τ with h2 | ⟨τ', x, h2⟩
    · subst h2; cases hn
    · rw [List.concat_eq_append] at h2
      subst h2
      obtain ⟨g, a⟩ := x
      obtain ⟨σ', h3, h4⟩ := h.last
      simp only [List.length_append, List.length_cons, List.length_nil] at hn
      exact h1 _ _ _ _ _ h3 (ih h3 (by omega)) h4

theorem _root_.Verif.Spec.Happened.prefix {S : System} {τ : History} {σ : State} (h : Happened S τ σ) (i : Nat) : ∃ σ', Happened S (τ.take i) σ' := by
  refine Happened.induct (P := fun τ σ => ∀ i, ∃ σ', Happened S (τ.take i) σ') (fun i => ⟨_, by rw [List.take_nil]; exact .init S⟩) ?_ h i
  intro τ σ g a σ' h0 ih hs i
  by_cases hi : i ≤ τ.length
  · rw [List.take_append_of_le_length hi]
    exact ih i
  · rw [List.take_of_length_le (by simp; omega)]
    exact ⟨_, h0.snoc hs⟩

/-- What happened at a position of the history. -/
theorem _root_.Verif.Spec.Happened.at {S : System} {τ : History} {σ : State} (h : Happened S τ σ) {i : Nat} {g : Goroutine} {a : Act} (hi : τ[i]? = some (g, a)) :
    ∃ σ₁ σ₂, Happened S (τ.take i) σ₁ ∧ σ₁.step g = some (a, σ₂) ∧ Happened S (τ.take (i + 1)) σ₂ := by
  obtain ⟨σ₂, h2⟩ := h.prefix (i + 1)
  have h2' := h2
  rw [List.take_add_one, hi] at h2
  obtain ⟨σ₁, h3, h4⟩ := h2.last
  exact ⟨σ₁, σ₂, h3, h4, h2'⟩

/-! ## What a goroutine has done -/

/-- What a goroutine has done. -/
def doneBy (g : Goroutine) (τ : History) : List Act := (τ.filter (·.1 == g)).map (·.2)

theorem doneBy_snoc_self (g : Goroutine) (τ : History) (a : Act) : doneBy g (τ ++ [(g, a)]) = doneBy g τ ++ [a] := by
  simp [doneBy]

theorem doneBy_snoc_other {g h : Goroutine} (hne : h ≠ g) (τ : History) (a : Act) : doneBy h (τ ++ [(g, a)]) = doneBy h τ := by
  have : ¬ (g == h) = true := by simpa using fun he : g = h => hne he.symm
  simp [doneBy, this]

theorem step_some {σ σ' : State} {g : Goroutine} {a : Act} (h : σ.step g = some (a, σ')) :
    ∃ rest, σ.started g = true ∧ σ.todo g = a :: rest ∧ σ.ready a = true ∧ σ' = σ.effect g rest a := by
  unfold State.step at h
  split at h
  · next hs =>
    split at h
    · cases h
    · next b rest ht =>
      split at h
      · next hr =>
        simp only [Option.some.injEq, Prod.mk.injEq] at h
        obtain ⟨rfl, rfl⟩ := h
        exact ⟨rest, hs, ht, hr, rfl⟩
      · cases h
  · cases h

theorem step_of {σ : State} {g : Goroutine} {a : Act} {rest : List Act} (hs : σ.started g = true) (ht : σ.todo g = a :: rest)
    (hr : σ.ready a = true) : σ.step g = some (a, σ.effect g rest a) := by
  unfold State.step
  rw [if_pos hs, ht]
  simp only [hr, if_true]

theorem effect_todo_self (σ : State) (g : Goroutine) (rest : List Act) (a : Act) : (σ.effect g rest a).todo g = rest := by
  cases a <;> simp [State.effect]

theorem effect_todo_other (σ : State) {g h : Goroutine} (hne : h ≠ g) (rest : List Act) (a : Act) : (σ.effect g rest a).todo h = σ.todo h := by
  cases a <;> simp [State.effect, hne]

theorem done_todo {S : System} {τ : History} {σ : State} (h : Happened S τ σ) (g : Goroutine) : doneBy g τ ++ σ.todo g = S.acts g := by
  refine Happened.induct (P := fun τ σ => ∀ g, doneBy g τ ++ σ.todo g = S.acts g) (fun g => rfl) ?_ h g
  intro τ σ k a σ' _ ih hs g
  obtain ⟨rest, _, ht, _, rfl⟩ := step_some hs
  by_cases hg : g = k
  · subst hg
    rw [doneBy_snoc_self, effect_todo_self, List.append_assoc, ← ih g, ht]
    rfl
  · rw [doneBy_snoc_other hg, effect_todo_other _ hg, ih g]

/-- What a goroutine does at a position comes in its program after what it has done before. -/
theorem acts_split {S : System} {τ : History} {σ : State} (h : Happened S τ σ) {i : Nat} {g : Goroutine} {a : Act}
    (hi : τ[i]? = some (g, a)) : ∃ rest, S.acts g = doneBy g (τ.take i) ++ a :: rest := by
  obtain ⟨σ₁, σ₂, h1, h2, _⟩ := h.at hi
  obtain ⟨rest, _, ht, _, _⟩ := step_some h2
  exact ⟨rest, by rw [← done_todo h1 g, ht]⟩

theorem acts_mem {S : System} {τ : History} {σ : State} (h : Happened S τ σ) {i : Nat} {g : Goroutine} {a : Act}
    (hi : τ[i]? = some (g, a)) : a ∈ S.acts g := by
  obtain ⟨rest, hr⟩ := acts_split h hi
  rw [hr]
  simp

theorem mem_doneBy {g : Goroutine} {τ : History} {a : Act} {i : Nat} (h : a ∈ doneBy g (τ.take i)) : ∃ k, k < i ∧ τ[k]? = some (g, a) := by
  simp only [doneBy, List.mem_map, List.mem_filter, beq_iff_eq] at h
  obtain ⟨⟨k, b⟩, ⟨hm, hk⟩, hb⟩ := h
  simp only at hk hb
  subst hk hb
  obtain ⟨n, hn⟩ := List.mem_iff_getElem?.mp hm
  rw [List.getElem?_take] at hn
  split at hn
  · exact ⟨n, by assumption, hn⟩
  · cases hn

/-- The order of two actions of one goroutine is the one in its program. -/
theorem not_after {S : System} {τ : History} {σ : State} (h : Happened S τ σ) {first second : Act → Prop} {g : Goroutine}
    (hn : NotAfter (S.acts g) first second) {i j : Nat} {a b : Act} (hij : i < j) (hi : τ[i]? = some (g, a)) (hj : τ[j]? = some (g, b))
    (ha : first a) : ¬ second b := by
  have hp : (doneBy g τ).Pairwise fun a b => first a → ¬ second b := by
    have := done_todo h g
    unfold NotAfter at hn
    rw [← this] at hn
    exact (List.pairwise_append.mp hn).1
  unfold doneBy at hp
  rw [List.pairwise_map, List.pairwise_filter, List.pairwise_iff_getElem] at hp
  obtain ⟨hi1, hi2⟩ := List.getElem?_eq_some_iff.mp hi
  obtain ⟨hj1, hj2⟩ := List.getElem?_eq_some_iff.mp hj
  have := hp i j hi1 hj1 hij
  rw [hi2, hj2] at this
  exact this (by simp) (by simp) ha

/-! ## Locks -/

/-- The lock that guards the memory. -/
def guard : Cell → Option Mutex
  | .sessions => some .server
  | .queue => some .timer
  | .requests s => some (.session s)
  | _ => none

/-- The memory is only used by atomic operations. -/
def isAtomic : Cell → Bool
  | .seconds | .next _ | .iccID _ => true
  | _ => false

/-- A goroutine with this lock (at most one) does something; `none` if it should not. -/
def lockStep (h : Option Mutex) : Act → Option (Option Mutex)
  | .lock m => if h = none then some (some m) else none
  | .unlock m => if h = some m then some none else none
  | .read c | .write c => if isAtomic c = false ∧ h = guard c then some h else none
  | .atomicRead c | .atomicWrite c => if isAtomic c = true ∧ h = none then some h else none
  | _ => if h = none then some none else none

/-- The lock it has at the end. -/
def locks : Option Mutex → List Act → Option (Option Mutex)
  | h, [] => some h
  | h, a :: l => (lockStep h a).bind fun h' => locks h' l

theorem locks_append (h : Option Mutex) (xs ys : List Act) : locks h (xs ++ ys) = (locks h xs).bind fun h' => locks h' ys := by
  induction xs generalizing h with
  | nil => rfl
  | cons a xs ih =>
    simp only [List.cons_append, locks]
    cases lockStep h a with
    | none => rfl
    | some h' => exact ih h'

/-- A piece of program at whose beginning and end no lock is held. -/
def Tidy (l : List Act) : Prop := locks none l = some none

theorem Tidy.nil : Tidy [] := rfl

theorem Tidy.append {xs ys : List Act} (hx : Tidy xs) (hy : Tidy ys) : Tidy (xs ++ ys) := by
  unfold Tidy at *
  rw [locks_append, hx]
  exact hy

theorem Tidy.flatten {xs : List (List Act)} (h : ∀ x ∈ xs, Tidy x) : Tidy xs.flatten := by
  induction xs with
  | nil => exact .nil
  | cons x xs ih =>
    rw [List.flatten_cons]
    exact (h x (by simp)).append (ih fun y hy => h y (by simp [hy]))

theorem Tidy.flatMap {α : Type} {f : α → List Act} {xs : List α} (h : ∀ x ∈ xs, Tidy (f x)) : Tidy (xs.flatMap f) := by
  rw [List.flatMap_def]
  refine .flatten fun y hy => ?_
  obtain ⟨x, hx, rfl⟩ := List.mem_map.mp hy
  exact h x hx

theorem Tidy.replicate {x : List Act} (h : Tidy x) (n : Nat) : Tidy (List.replicate n x).flatten :=
  .flatten fun y hy => by rw [(List.mem_replicate.mp hy).2]; exact h

theorem Tidy.each {xs : List Act} (h : ∀ a ∈ xs, lockStep none a = some none) : Tidy xs := by
  induction xs with
  | nil => exact .nil
  | cons a xs ih =>
    unfold Tidy
    rw [locks, h a (by simp)]
    exact ih fun b hb => h b (by simp [hb])

theorem Tidy.ite {c : Prop} [Decidable c] {xs ys : List Act} (hx : Tidy xs) (hy : Tidy ys) : Tidy (if c then xs else ys) := by
  split <;> assumption

theorem tidy_timerRemove (b : Bool) : Tidy (timerRemove b) := by cases b <;> rfl
theorem tidy_timerUpdate (b : Bool) : Tidy (timerUpdate b) := by cases b <;> rfl
theorem tidy_getSession : Tidy getSession := rfl
theorem tidy_nextID (s n : Nat) : Tidy (nextID s n) :=
  Tidy.replicate (x := [Act.atomicRead (.next s), Act.atomicWrite (.next s)]) rfl _

theorem tidy_send (s n b : Nat) (e : SendEnd) : Tidy (send s n b e) := by
  unfold send
  refine .append (.append rfl (tidy_nextID s n)) ?_
  cases e <;> rfl

theorem tidy_addRequest (s : Nat) : Tidy (addRequest s) := by
  simp [Tidy, addRequest, locks, lockStep, guard, isAtomic]

theorem tidy_takeRequest (s : Nat) (b : Bool) : Tidy (takeRequest s b) := by
  cases b <;> simp [Tidy, takeRequest, locks, lockStep, guard, isAtomic]

theorem tidy_encode (b : Nat) (e : Encoding) : Tidy (encode b e) := by cases e <;> rfl

theorem tidy_decode (t : Option Nat) : Tidy (decode t) := by
  cases t with
  | none => rfl
  | some n => exact .append rfl (.each fun a ha => by rw [(List.mem_replicate.mp ha).2]; rfl)

theorem tidy_starts (f : Nat → Goroutine) (l : List Nat) : Tidy (l.map fun s => Act.start (f s)) :=
  .each fun a ha => by
    obtain ⟨s, _, rfl⟩ := List.mem_map.mp ha
    rfl

theorem tidy_joins (f : Nat → Goroutine) (l : List Nat) : Tidy (l.map fun s => Act.join (f s)) :=
  .each fun a ha => by
    obtain ⟨s, _, rfl⟩ := List.mem_map.mp ha
    rfl

theorem tidy_call (c : Call) : Tidy c.acts := by
  cases c with
  | run a l acc =>
    unfold Call.acts runServer
    exact .append rfl (.ite (.append rfl (tidy_starts _ _)) rfl)
  | stop r o =>
    unfold Call.acts stopServer
    exact .append rfl (.ite (.append (.append (.append rfl (tidy_starts _ _)) (tidy_joins _ _)) rfl) rfl)
  | broadcast b f => exact .append rfl (.flatMap fun x _ => tidy_send _ _ _ _)
  | send s n b e => exact tidy_send _ _ _ _
  | request s n b e cb => exact .append (tidy_send _ _ _ _) (.ite (tidy_addRequest s) rfl)
  | timerUpdate b => exact tidy_timerUpdate b
  | timerRemove b => exact tidy_timerRemove b
  | setExpiration b => cases b <;> rfl
  | encode b e => exact tidy_encode b e
  | decode t => exact tidy_decode t
  | _ => rfl

theorem tidy_calls (cs : List Call) : Tidy (calls cs) := .flatMap fun c _ => tidy_call c

theorem tidy_tick (t : Tick) : Tidy t.acts := by
  unfold Tick.acts
  refine .append ?_ (.flatMap fun x _ => .append tidy_getSession (.ite rfl rfl))
  unfold Tidy
  have h : ∀ (l : List (Nat × Bool)), locks (some .timer) (l.flatMap fun _ => [Act.read .queue, Act.write .queue]) = some (some .timer) := by
    intro l
    induction l with
    | nil => rfl
    | cons x l ih =>
      rw [List.flatMap_cons, locks_append]
      exact ih
  rw [List.append_assoc, locks_append]
  show (locks (some .timer) _) = _
  rw [locks_append, h]
  rfl

theorem tidy_delivery (s : Nat) (d : Delivery) : Tidy (d.acts s) := by
  unfold Delivery.acts
  refine .append (.append (.ite rfl rfl) ?_) ?_
  · split
    · rfl
    · exact tidy_takeRequest _ _
    · exact .append (.append (tidy_takeRequest _ _) rfl) (tidy_calls _)
  · split
    · rfl
    · exact .append (.append (tidy_timerUpdate _) rfl) (tidy_calls _)

theorem tidy_turn (s : Nat) (t : Turn) : Tidy (t.acts s) := by
  cases t with
  | unsupported n b e => exact tidy_send _ _ _ _
  | delivered d => exact tidy_delivery s d
  | part n b e d =>
    refine .append (tidy_send _ _ _ _) ?_
    cases d with
    | none => rfl
    | some d => exact tidy_delivery s d

theorem tidy_receiving (s : Nat) (x : Receiving) : Tidy (x.acts s) :=
  .append (.append (Tidy.replicate (x := [Act.read (.received s), Act.write (.received s)]) rfl _) (tidy_decode _)) rfl

/-- Every goroutine has at most one lock at any time and uses shared memory as it should. -/
theorem tidy_acts (S : System) (g : Goroutine) : Tidy (S.acts g) := by
  cases g with
  | program n => exact tidy_calls _
  | ticker => exact .flatMap fun t _ => tidy_tick t
  | receiver s =>
    refine .append (.append (.append (.append rfl (tidy_timerUpdate _)) (.flatMap fun x _ => ?_)) (tidy_receiving s _)) rfl
    exact .append (tidy_receiving s _) (tidy_turn s _)
  | sender s =>
    refine .append (.flatMap fun x _ => ?_) rfl
    exact .append (.append rfl (.ite rfl rfl)) (tidy_encode _ _)
  | closer s =>
    show Tidy (match S.closing s with | none => [] | some (found, handler) => handleClose found handler)
    split
    · rfl
    · next found handler _ =>
      refine .append (.append rfl (tidy_timerRemove _)) ?_
      cases handler with
      | none => rfl
      | some cs => exact .append rfl (tidy_calls cs)

end Verif.Sync
