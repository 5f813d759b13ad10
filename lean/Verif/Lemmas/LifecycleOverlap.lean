import Verif.Lemmas.Lifecycle
/-! # Overlapping calls of `Run` and `Stop` -/

namespace Verif.Lifecycle
open Spec

theorem goto_other (p : Nat → Place) {i j : Nat} (x : Place) (h : j ≠ i) : goto p i x j = p j := if_neg h

/-- Moving one goroutine to a place outside a set of places. -/
theorem goto_out {P : Place → Prop} {p : Nat → Place} {i : Nat} {x : Place} (hx : ¬ P x) {j : Nat} (h : P (goto p i x j)) : j ≠ i ∧ P (p j) := by
  by_cases hj : j = i
  · subst hj; rw [goto_same] at h; exact absurd h hx
  · rw [goto_other p x hj] at h; exact ⟨hj, h⟩

theorem up_append_nil (log : List Obs) : up (log ++ []) = up log := by rw [List.append_nil]

/-! ## Under every schedule -/

theorem up_step {s s' : State} {log x : List Obs} (h : up log = s.field.isSome) (ev : Event) (hs : s.step ev = .ok (s', x)) :
    up (log ++ x) = s'.field.isSome := by
  cases ev <;> simp only [State.step] at hs
  all_goals
    repeat' split at hs
  all_goals
    first
    | (cases hs; done)
    | (simp only [Res.ok.injEq, Prod.mk.injEq] at hs
       obtain ⟨rfl, rfl⟩ := hs
       first
       | (rw [List.append_nil]; exact h)
       | (rw [up_snoc]; first | exact h | rfl | simp_all))

theorem up_run (evs : List Event) : ∀ {s s' : State} {log x : List Obs}, up log = s.field.isSome → s.run evs = .ok (s', x) →
    up (log ++ x) = s'.field.isSome := by
  induction evs with
  | nil =>
    intro s s' log x h hr
    cases hr
    rw [List.append_nil]; exact h
  | cons ev evs ih =>
    intro s s' log x h hr
    simp only [State.run] at hr
    cases h1 : s.step ev with
    | err e => rw [h1] at hr; cases hr
    | panic => rw [h1] at hr; cases hr
    | ok r =>
      rw [h1, Res.ok_bind] at hr
      cases h2 : r.1.run evs with
      | err e => simp only [h2] at hr; cases hr
      | panic => simp only [h2] at hr; cases hr
      | ok q =>
        simp only [h2, Res.ok_bind] at hr
        cases hr
        have := ih (up_step h ev h1) h2
        rwa [List.append_assoc] at this

/-! ## Calls of `Stop` in turn -/

/-- At most one goroutine is in `Stop`, and before it closes the listener the field is set. -/
structure Calm (s : State) : Prop where
  one : ∀ i j, Stopping (s.place i) → Stopping (s.place j) → i = j
  set : ∀ i, s.place i = .halting → s.field ≠ none

theorem not_stopping_idle : ¬ Stopping .idle := by simp [Stopping]
theorem not_stopping_checked : ¬ Stopping .checked := by simp [Stopping]
theorem not_stopping_bound (l : Nat) : ¬ Stopping (.bound l) := by simp [Stopping]
theorem not_stopping_serving (l : Nat) : ¬ Stopping (.serving l) := by simp [Stopping]

theorem Calm.goto {s : State} (h : Calm s) (i : Nat) (x : Place) (hx : ¬ Stopping x) (s' : State) (hp : s'.place = goto s.place i x)
    (hf : s.field ≠ none → s'.field ≠ none) : Calm s' := by
  refine ⟨fun a b ha hb => ?_, fun a ha => ?_⟩
  · rw [hp] at ha hb
    exact h.one a b (goto_out hx ha).2 (goto_out hx hb).2
  · rw [hp] at ha
    have : a ≠ i := by
      rintro rfl
      rw [goto_same] at ha
      exact hx (.inl ha)
    rw [goto_other _ _ this] at ha
    exact hf (h.set a ha)

theorem Calm.step {s : State} (h : Calm s) (ev : Event) (ht : ∀ i, ev = .stop i → ∀ j, ¬ Stopping (s.place j)) :
    ∃ s' x, s.step ev = .ok (s', x) ∧ Calm s' := by
  cases ev with
  | run i =>
    simp only [State.step]
    split
    · exact ⟨_, _, rfl, h⟩
    · exact ⟨_, _, rfl, h.goto i _ not_stopping_checked _ rfl id⟩
    · exact ⟨_, _, rfl, h⟩
  | listen i ok =>
    simp only [State.step]
    split
    · split
      · exact ⟨_, _, rfl, h.goto i _ (not_stopping_bound _) _ rfl id⟩
      · exact ⟨_, _, rfl, h.goto i _ not_stopping_idle _ rfl id⟩
    · exact ⟨_, _, rfl, h⟩
  | serve i =>
    simp only [State.step]
    split
    · exact ⟨_, _, rfl, h.goto i _ (not_stopping_serving _) _ rfl (by simp)⟩
    · exact ⟨_, _, rfl, h⟩
  | ends i =>
    simp only [State.step]
    split
    · exact ⟨_, _, rfl, h.goto i _ not_stopping_idle _ rfl id⟩
    · exact ⟨_, _, rfl, h⟩
  | stop i =>
    simp only [State.step]
    split
    · rename_i l hp hf
      refine ⟨_, _, rfl, fun a b ha hb => ?_, fun a _ => by rw [hf]; simp⟩
      have key : ∀ a, Stopping (Lifecycle.goto s.place i .halting a) → a = i := by
        intro a ha
        by_cases hai : a = i
        · exact hai
        · rw [goto_other _ _ hai] at ha
          exact absurd ha (ht i rfl a)
      rw [key a ha, key b hb]
    · exact ⟨_, _, rfl, h⟩
    · exact ⟨_, _, rfl, h⟩
  | halt i =>
    simp only [State.step]
    split
    · rename_i l hp hf
      refine ⟨_, _, rfl, fun a b ha hb => ?_, fun a ha => ?_⟩
      · have key : ∀ a, Stopping (Lifecycle.goto s.place i .clearing a) → a = i := by
          intro a ha
          by_cases hai : a = i
          · exact hai
          · rw [goto_other _ _ hai] at ha
            exact h.one a i ha (.inl hp)
        rw [key a ha, key b hb]
      · by_cases hai : a = i
        · subst hai; simp [goto_same] at ha
        · exact h.set a ((goto_other s.place _ hai).symm.trans ha)
    · rename_i hp hf
      exact absurd hf (h.set i hp)
    · exact ⟨_, _, rfl, h⟩
  | clear i =>
    simp only [State.step]
    split
    · rename_i hp
      refine ⟨_, _, rfl, fun a b ha hb => ?_, fun a ha => ?_⟩
      · exact h.one a b (goto_out not_stopping_idle ha).2 (goto_out not_stopping_idle hb).2
      · have hai : a ≠ i := by rintro rfl; simp [goto_same] at ha
        exact absurd (h.one a i (.inl ((goto_other s.place _ hai).symm.trans ha)) (.inr hp)) hai
    · exact ⟨_, _, rfl, h⟩

theorem Calm.run (evs : List Event) : ∀ {s : State}, Calm s → StopsInTurn s evs → ∃ s' x, s.run evs = .ok (s', x) := by
  induction evs with
  | nil => exact fun _ _ => ⟨_, _, rfl⟩
  | cons ev evs ih =>
    intro s h ht
    obtain ⟨s1, x1, h1, h2⟩ := h.step ev ht.1
    obtain ⟨s2, x2, h3⟩ := ih h2 (ht.2 s1 x1 h1)
    exact ⟨s2, x1 ++ x2, by simp [State.run, h1, h3]⟩

theorem calm_init : Calm {} := ⟨fun _ _ h => by simp [Stopping] at h, fun _ h => by simp at h⟩

/-! ## Calls of `Run` in turn and calls of `Stop` in turn -/

structure Sound (s : State) : Prop where
  calm : Calm s
  one : ∀ i j, Starting (s.place i) → Starting (s.place j) → i = j
  off : s.field = none → ∀ i, ¬ Stopping (s.place i)
  on : s.field ≠ none → ∀ i, ¬ Starting (s.place i)
  open1 : ∀ l, s.field = some l → (∀ i, s.place i ≠ .clearing) → s.opened = [l]
  open2 : ∀ i, s.place i = .clearing → s.opened = []
  open3 : ∀ i l, s.place i = .bound l → s.opened = [l]
  open4 : s.field = none → (∀ i l, s.place i ≠ .bound l) → s.opened = []

theorem not_starting_idle : ¬ Starting .idle := by simp [Starting]
theorem not_starting_serving (l : Nat) : ¬ Starting (.serving l) := by simp [Starting]
theorem not_starting_halting : ¬ Starting .halting := by simp [Starting]
theorem not_starting_clearing : ¬ Starting .clearing := by simp [Starting]

theorem only {P : Place → Prop} {p : Nat → Place} {i : Nat} {x : Place} (h : ∀ j, j ≠ i → ¬ P (p j)) {a : Nat} (ha : P (goto p i x a)) : a = i := by
  by_cases hai : a = i
  · exact hai
  · rw [goto_other _ _ hai] at ha
    exact absurd ha (h a hai)

theorem Sound.step {s : State} (h : Sound s) (ev : Event) (hr : ∀ i, ev = .run i → ∀ j, ¬ Starting (s.place j))
    (ht : ∀ i, ev = .stop i → ∀ j, ¬ Stopping (s.place j)) {s' : State} {x : List Obs} (hs : s.step ev = .ok (s', x)) : Sound s' := by
  have hc : Calm s' := by
    obtain ⟨t, y, h1, h2⟩ := h.calm.step ev ht
    rw [hs] at h1
    cases h1
    exact h2
  cases ev with
  | run i =>
    simp only [State.step] at hs
    split at hs <;> simp only [Res.ok.injEq, Prod.mk.injEq] at hs <;> obtain ⟨rfl, -⟩ := hs
    · exact h
    · rename_i hp hf
      refine ⟨hc, fun a b ha hb => ?_, fun _ a ha => ?_, fun hn => absurd hf hn, fun l hl => ?_, fun a ha => ?_, fun a l ha => ?_, fun _ _ => ?_⟩
      · rw [only (fun j _ => hr i rfl j) ha, only (fun j _ => hr i rfl j) hb]
      · exact h.off hf a (goto_out not_stopping_checked ha).2
      · simp [hf] at hl
      · exact h.open2 a (goto_out (P := (· = .clearing)) (by simp) ha).2
      · exact h.open3 a l (goto_out (P := (· = .bound l)) (by simp) ha).2
      · exact h.open4 hf fun a l ha => hr i rfl a (.inr ⟨l, ha⟩)
    · exact h
  | listen i ok =>
    simp only [State.step] at hs
    split at hs
    · rename_i hp
      have hf : s.field = none := by
        cases hf : s.field with
        | none => rfl
        | some l => exact absurd (.inl hp) (h.on (by simp [hf]) i)
      have hall : ∀ j, j ≠ i → ¬ Starting (s.place j) := fun j hj hsj => hj (h.one j i hsj (.inl hp))
      have hempty : s.opened = [] := h.open4 hf fun a l ha => by
        by_cases hai : a = i
        · subst hai; simp [hp] at ha
        · exact hall a hai (.inr ⟨l, ha⟩)
      split at hs <;> simp only [Res.ok.injEq, Prod.mk.injEq] at hs <;> obtain ⟨rfl, -⟩ := hs
      · refine ⟨hc, fun a b ha hb => ?_, fun _ a ha => ?_, fun hn => absurd hf hn, fun l hl => ?_, fun a ha => ?_, fun a l ha => ?_, fun _ hn => ?_⟩
        · rw [only hall ha, only hall hb]
        · exact h.off hf a (goto_out (not_stopping_bound _) ha).2
        · simp [hf] at hl
        · exact absurd (.inr (goto_out (P := (· = .clearing)) (by simp) ha).2) (h.off hf a)
        · have hai : a = i := only (P := Starting) hall (a := a) (x := .bound s.count) (.inr ⟨l, ha⟩)
          subst hai
          simp only [goto_same, Place.bound.injEq] at ha
          subst ha
          simp [hempty]
        · exact absurd (goto_same _ _ _) (hn i s.count)
      · refine ⟨hc, fun a b ha hb => ?_, fun _ a ha => ?_, fun hn => absurd hf hn, fun l hl => ?_, fun a ha => ?_, fun a l ha => ?_, fun _ _ => hempty⟩
        · exact absurd (goto_out not_starting_idle ha).2 (hall a (goto_out not_starting_idle ha).1)
        · exact h.off hf a (goto_out not_stopping_idle ha).2
        · simp [hf] at hl
        · exact h.open2 a (goto_out (P := (· = .clearing)) (by simp) ha).2
        · exact h.open3 a l (goto_out (P := (· = .bound l)) (by simp) ha).2
    · simp only [Res.ok.injEq, Prod.mk.injEq] at hs; obtain ⟨rfl, -⟩ := hs; exact h
  | serve i =>
    simp only [State.step] at hs
    split at hs <;> simp only [Res.ok.injEq, Prod.mk.injEq] at hs <;> obtain ⟨rfl, -⟩ := hs
    · rename_i l hp
      have hst : Starting (s.place i) := .inr ⟨l, hp⟩
      have hf : s.field = none := by
        cases hf : s.field with
        | none => rfl
        | some l => exact absurd hst (h.on (by simp [hf]) i)
      have hall : ∀ j, j ≠ i → ¬ Starting (s.place j) := fun j hj hsj => hj (h.one j i hsj hst)
      have hnone : ∀ a, ¬ Starting (goto s.place i (.serving l) a) := fun a ha =>
        hall a (goto_out (not_starting_serving l) ha).1 (goto_out (not_starting_serving l) ha).2
      refine ⟨hc, fun a b ha hb => absurd ha (hnone a), fun hn => by simp at hn, fun _ => hnone, fun k hk _ => ?_, fun a ha => ?_, fun a k ha => ?_,
        fun hn => by simp at hn⟩
      · simp only [Option.some.injEq] at hk; subst hk; exact h.open3 i l hp
      · exact absurd (.inr (goto_out (P := (· = .clearing)) (by simp) ha).2) (h.off hf a)
      · exact absurd (.inr ⟨k, ha⟩) (hnone a)
    · exact h
  | ends i =>
    simp only [State.step] at hs
    split at hs <;> simp only [Res.ok.injEq, Prod.mk.injEq] at hs <;> obtain ⟨rfl, -⟩ := hs
    · rename_i l hp
      have back : ∀ {P : Place → Prop}, ¬ P (.serving l) → (∀ a, ¬ P (goto s.place i .idle a)) → ∀ a, ¬ P (s.place a) := by
        intro P hP hn a ha
        by_cases hai : a = i
        · subst hai; rw [hp] at ha; exact hP ha
        · exact hn a (by rw [goto_other _ _ hai]; exact ha)
      refine ⟨hc, fun a b ha hb => h.one a b (goto_out not_starting_idle ha).2 (goto_out not_starting_idle hb).2,
        fun hn a ha => h.off hn a (goto_out not_stopping_idle ha).2, fun hn a ha => h.on hn a (goto_out not_starting_idle ha).2,
        fun k hk hn => h.open1 k hk (back (P := (· = .clearing)) (by simp) hn), fun a ha => h.open2 a (goto_out (P := (· = .clearing)) (by simp) ha).2,
        fun a k ha => h.open3 a k (goto_out (P := (· = .bound k)) (by simp) ha).2,
        fun hk hn => h.open4 hk fun a k => back (P := (· = .bound k)) (by simp) (fun a => hn a k) a⟩
    · exact h
  | stop i =>
    simp only [State.step] at hs
    split at hs <;> simp only [Res.ok.injEq, Prod.mk.injEq] at hs <;> obtain ⟨rfl, -⟩ := hs
    · rename_i l hp hf
      have hon := h.on (by simp [hf])
      have hnone : ∀ a, ¬ Starting (goto s.place i .halting a) := fun a ha => hon a (goto_out not_starting_halting ha).2
      refine ⟨hc, fun a b ha hb => absurd ha (hnone a), fun hn => by simp [hf] at hn, fun _ => hnone, fun k hk _ => h.open1 k hk ?_, fun a ha => ?_,
        fun a k ha => absurd (.inr ⟨k, ha⟩) (hnone a), fun hn => by simp [hf] at hn⟩
      · exact fun a ha => ht i rfl a (.inr ha)
      · exact absurd (.inr (goto_out (P := (· = .clearing)) (by simp) ha).2) (ht i rfl a)
    · exact h
    · exact h
  | halt i =>
    simp only [State.step] at hs
    split at hs
    · rename_i l hp hf
      simp only [Res.ok.injEq, Prod.mk.injEq] at hs; obtain ⟨rfl, -⟩ := hs
      have hon := h.on (by simp [hf])
      have hnone : ∀ a, ¬ Starting (goto s.place i .clearing a) := fun a ha => hon a (goto_out not_starting_clearing ha).2
      have ho : s.opened.filter (· ≠ l) = [] := by
        rw [h.open1 l hf fun a ha => by
          have := h.calm.one a i (.inr ha) (.inl hp)
          subst this
          simp [hp] at ha]
        simp
      exact ⟨hc, fun a b ha hb => absurd ha (hnone a), fun hn => by simp [hf] at hn, fun _ => hnone, fun k _ hn => absurd (goto_same _ _ _) (hn i), fun _ _ => ho,
        fun a k ha => absurd (.inr ⟨k, ha⟩) (hnone a), fun hn => by simp [hf] at hn⟩
    · cases hs
    · simp only [Res.ok.injEq, Prod.mk.injEq] at hs; obtain ⟨rfl, -⟩ := hs; exact h
  | clear i =>
    simp only [State.step] at hs
    split at hs <;> simp only [Res.ok.injEq, Prod.mk.injEq] at hs <;> obtain ⟨rfl, -⟩ := hs
    · rename_i hp
      have hst : Stopping (s.place i) := .inr hp
      have hf : s.field ≠ none := fun hf => h.off hf i hst
      have hon := h.on hf
      have hnone : ∀ a, ¬ Starting (goto s.place i .idle a) := fun a ha => hon a (goto_out not_starting_idle ha).2
      have ho := h.open2 i hp
      refine ⟨hc, fun a b ha hb => absurd ha (hnone a), fun _ a ha => ?_, fun _ => hnone, fun k hk => by simp at hk, fun _ _ => ho,
        fun a k ha => absurd (.inr ⟨k, ha⟩) (hnone a), fun _ _ => ho⟩
      have := goto_out not_stopping_idle ha
      exact this.1 (h.calm.one a i this.2 hst)
    · exact h

theorem sound_init : Sound {} :=
  ⟨calm_init, fun _ _ h => by simp [Starting] at h, fun _ _ => by simp [Stopping], fun h => by simp at h, fun l h => by simp at h, fun _ h => by simp at h,
    fun _ _ h => by simp at h, fun _ _ => rfl⟩

theorem Sound.run (evs : List Event) : ∀ {s : State}, Sound s → RunsInTurn s evs → StopsInTurn s evs → ∃ s' x, s.run evs = .ok (s', x) ∧ Sound s' := by
  induction evs with
  | nil => exact fun h _ _ => ⟨_, _, rfl, h⟩
  | cons ev evs ih =>
    intro s h hr ht
    obtain ⟨s1, x1, h1, -⟩ := h.calm.step ev ht.1
    obtain ⟨s2, x2, h3, h4⟩ := ih (h.step ev hr.1 ht.1 h1) (hr.2 s1 x1 h1) (ht.2 s1 x1 h1)
    exact ⟨s2, x1 ++ x2, by simp [State.run, h1, h3], h4⟩

end Verif.Lifecycle
