import Verif.Lemmas.LifecycleOverlap
import Verif.Spec.LifecycleExact
/-! # Which listeners are left open, and which schedules crash -/

namespace Verif.Lifecycle
open Spec

/-- Listeners have different numbers; one that a call of `Run` holds is open and not yet the server's. -/
structure Numbered (s : State) : Prop where
  opened : ∀ l ∈ s.opened, l < s.count
  field : ∀ l, s.field = some l → l < s.count
  bound : ∀ j l, s.place j = .bound l → l < s.count ∧ l ∈ s.opened ∧ s.field ≠ some l
  one : ∀ i j l, s.place i = .bound l → s.place j = .bound l → i = j

theorem Numbered.init : Numbered {} := ⟨by simp, by simp, by simp, by simp⟩

theorem goto_bound {p : Nat → Place} {i j l : Nat} {x : Place} (hx : x ≠ .bound l) (h : goto p i x j = .bound l) : j ≠ i ∧ p j = .bound l := by
  by_cases hj : j = i
  · subst hj; rw [goto_same] at h; exact absurd h hx
  · rw [goto_other p x hj] at h; exact ⟨hj, h⟩

/-- What one step does to the listeners that are left open. -/
structure Leaves (s : State) (ev : Event) (s' : State) : Prop where
  num : Numbered s'
  stay : ∀ l, Forsaken s l → Forsaken s' l
  old : ∀ l, Forsaken s' l → Forsaken s l ∨ Forsakes s ev l
  new : ∀ l, Forsakes s ev l → Forsaken s' l

/-- A goroutine moves between places without a listener of its own. -/
theorem Leaves.move {s : State} (h : Numbered s) (ev : Event) (i : Nat) (x : Place) (hx : ∀ l, x ≠ .bound l) (hi : ∀ l, s.place i ≠ .bound l)
    (hn : ∀ l, ¬ Forsakes s ev l) : Leaves s ev { s with place := Lifecycle.goto s.place i x } := by
  have key : ∀ j l, Lifecycle.goto s.place i x j = .bound l ↔ s.place j = .bound l := by
    intro j l
    refine ⟨fun hj => (goto_bound (hx l) hj).2, fun hj => ?_⟩
    rw [goto_other]; exact hj
    rintro rfl; exact hi l hj
  refine ⟨⟨h.opened, h.field, fun j l hj => h.bound j l ((key j l).1 hj), fun a b l ha hb => h.one a b l ((key a l).1 ha) ((key b l).1 hb)⟩,
    fun l hl => ⟨hl.1, hl.2.1, fun j hj => hl.2.2 j ((key j l).1 hj)⟩, fun l hl => .inl ⟨hl.1, hl.2.1, fun j hj => hl.2.2 j ((key j l).2 hj)⟩,
    fun l hl => absurd hl (hn l)⟩

theorem Leaves.same {s : State} (h : Numbered s) (ev : Event) (hn : ∀ l, ¬ Forsakes s ev l) : Leaves s ev s :=
  ⟨h, fun _ => id, fun _ => .inl, fun l hl => absurd hl (hn l)⟩

theorem leaves_step {s s' : State} {x : List Obs} (h : Numbered s) (ev : Event) (hs : s.step ev = .ok (s', x)) : Leaves s ev s' := by
  cases ev with
  | run i =>
    have hn : ∀ l, ¬ Forsakes s (.run i) l := by rintro l ⟨-, -, ⟨_, _, h, -⟩ | ⟨_, h, -⟩⟩ <;> cases h
    simp only [State.step] at hs
    split at hs <;> (simp only [Res.ok.injEq, Prod.mk.injEq] at hs; obtain ⟨rfl, -⟩ := hs)
    · exact .same h _ hn
    · rename_i hp _
      exact .move h _ i _ (by simp) (by simp [hp]) hn
    · exact .same h _ hn
  | listen i ok =>
    have hn : ∀ l, ¬ Forsakes s (.listen i ok) l := by rintro l ⟨-, -, ⟨_, _, h, -⟩ | ⟨_, h, -⟩⟩ <;> cases h
    simp only [State.step] at hs
    split at hs
    · rename_i hp
      split at hs <;> (simp only [Res.ok.injEq, Prod.mk.injEq] at hs; obtain ⟨rfl, -⟩ := hs)
      · have key : ∀ j l, goto s.place i (.bound s.count) j = .bound l → (j = i ∧ l = s.count) ∨ (j ≠ i ∧ s.place j = .bound l) := by
          intro j l hj
          by_cases hji : j = i
          · subst hji; rw [goto_same] at hj; cases hj; exact .inl ⟨rfl, rfl⟩
          · rw [goto_other _ _ hji] at hj; exact .inr ⟨hji, hj⟩
        refine ⟨⟨?_, ?_, ?_, ?_⟩, ?_, ?_, fun l hl => absurd hl (hn l)⟩
        · intro l hl
          rcases List.mem_cons.1 hl with rfl | hl
          · exact Nat.lt_succ_self _
          · exact Nat.lt_succ_of_lt (h.opened l hl)
        · exact fun l hl => Nat.lt_succ_of_lt (h.field l hl)
        · intro j l hj
          rcases key j l hj with ⟨-, rfl⟩ | ⟨-, hj⟩
          · exact ⟨Nat.lt_succ_self _, List.mem_cons_self, fun hf => Nat.lt_irrefl _ (h.field _ hf)⟩
          · obtain ⟨a, b, c⟩ := h.bound j l hj
            exact ⟨Nat.lt_succ_of_lt a, List.mem_cons_of_mem _ b, c⟩
        · intro a b l ha hb
          rcases key a l ha with ⟨ea, el⟩ | ⟨-, ha'⟩ <;> rcases key b _ hb with ⟨eb, h2⟩ | ⟨-, hb'⟩
          · rw [ea, eb]
          · rw [el] at hb'; exact absurd (h.bound _ _ hb').1 (Nat.lt_irrefl _)
          · rw [h2] at ha'; exact absurd (h.bound _ _ ha').1 (Nat.lt_irrefl _)
          · exact h.one a b l ha' hb'
        · intro l hl
          refine ⟨List.mem_cons_of_mem _ hl.1, hl.2.1, fun j hj => ?_⟩
          rcases key j l hj with ⟨-, rfl⟩ | ⟨-, hj⟩
          · exact Nat.lt_irrefl _ (h.opened _ hl.1)
          · exact hl.2.2 j hj
        · intro l hl
          rcases List.mem_cons.1 hl.1 with rfl | h1
          · exact absurd (goto_same _ _ _) (hl.2.2 i)
          · refine .inl ⟨h1, hl.2.1, fun j hj => hl.2.2 j ?_⟩
            show goto s.place i _ j = _
            rw [goto_other]; exact hj
            rintro rfl; rw [hp] at hj; cases hj
      · exact .move h _ i _ (by simp) (by simp [hp]) hn
    · simp only [Res.ok.injEq, Prod.mk.injEq] at hs; obtain ⟨rfl, -⟩ := hs
      exact .same h _ hn
  | serve i =>
    simp only [State.step] at hs
    split at hs <;> (simp only [Res.ok.injEq, Prod.mk.injEq] at hs; obtain ⟨rfl, -⟩ := hs)
    · rename_i l0 hp
      obtain ⟨b1, b2, b3⟩ := h.bound i l0 hp
      have key : ∀ j l, goto s.place i (.serving l0) j = .bound l → j ≠ i ∧ s.place j = .bound l := fun j l hj => goto_bound (by simp) hj
      have ne : ∀ j l, goto s.place i (.serving l0) j = .bound l → l ≠ l0 := by
        rintro j l hj rfl
        obtain ⟨c1, c2⟩ := key j l hj
        exact c1 (h.one j i l c2 hp)
      refine ⟨⟨h.opened, ?_, ?_, ?_⟩, ?_, ?_, ?_⟩
      · intro l hl; cases hl; exact b1
      · intro j l hj
        obtain ⟨a, b, -⟩ := h.bound j l (key j l hj).2
        exact ⟨a, b, fun hf => ne j l hj (Option.some.inj hf).symm⟩
      · exact fun a b l ha hb => h.one a b l (key a l ha).2 (key b l hb).2
      · intro l hl
        exact ⟨hl.1, fun hf => hl.2.2 i ((Option.some.inj hf) ▸ hp), fun j hj => hl.2.2 j (key j l hj).2⟩
      · intro l hl
        by_cases hf : s.field = some l
        · exact .inr ⟨hf, hl.1, .inl ⟨i, l0, rfl, hp⟩⟩
        · refine .inl ⟨hl.1, hf, fun j hj => hl.2.2 j ?_⟩
          show goto s.place i _ j = _
          rw [goto_other]; exact hj
          rintro rfl
          rw [hp] at hj; cases hj
          exact hl.2.1 rfl
      · intro l hl
        refine ⟨hl.2.1, fun hf => b3 ((Option.some.inj hf) ▸ hl.1), fun j hj => (h.bound j l (key j l hj).2).2.2 hl.1⟩
    · rename_i hp
      refine .same h _ ?_
      rintro l ⟨-, -, ⟨_, l', e, h⟩ | ⟨_, e, -⟩⟩
      · cases e; exact hp l' h
      · cases e
  | ends i =>
    have hn : ∀ l, ¬ Forsakes s (.ends i) l := by rintro l ⟨-, -, ⟨_, _, h, -⟩ | ⟨_, h, -⟩⟩ <;> cases h
    simp only [State.step] at hs
    split at hs <;> (simp only [Res.ok.injEq, Prod.mk.injEq] at hs; obtain ⟨rfl, -⟩ := hs)
    · rename_i hp
      exact .move h _ i _ (by simp) (by simp [hp]) hn
    · exact .same h _ hn
  | stop i =>
    have hn : ∀ l, ¬ Forsakes s (.stop i) l := by rintro l ⟨-, -, ⟨_, _, h, -⟩ | ⟨_, h, -⟩⟩ <;> cases h
    simp only [State.step] at hs
    split at hs <;> (simp only [Res.ok.injEq, Prod.mk.injEq] at hs; obtain ⟨rfl, -⟩ := hs)
    · rename_i hp _
      exact .move h _ i _ (by simp) (by simp [hp]) hn
    · exact .same h _ hn
    · exact .same h _ hn
  | halt i =>
    have hn : ∀ l, ¬ Forsakes s (.halt i) l := by rintro l ⟨-, -, ⟨_, _, h, -⟩ | ⟨_, h, -⟩⟩ <;> cases h
    simp only [State.step] at hs
    split at hs
    · rename_i l0 hp hf
      simp only [Res.ok.injEq, Prod.mk.injEq] at hs; obtain ⟨rfl, -⟩ := hs
      have key : ∀ j l, goto s.place i .clearing j = .bound l → s.place j = .bound l := fun j l hj => (goto_bound (by simp) hj).2
      refine ⟨⟨fun l hl => h.opened l (List.mem_filter.1 hl).1, h.field, ?_, fun a b l ha hb => h.one a b l (key a l ha) (key b l hb)⟩, ?_, ?_,
        fun l hl => absurd hl (hn l)⟩
      · intro j l hj
        obtain ⟨a, b, c⟩ := h.bound j l (key j l hj)
        refine ⟨a, List.mem_filter.2 ⟨b, ?_⟩, c⟩
        simp only [ne_eq, decide_eq_true_eq]
        rintro rfl; exact c hf
      · intro l hl
        refine ⟨List.mem_filter.2 ⟨hl.1, ?_⟩, hl.2.1, fun j hj => hl.2.2 j (key j l hj)⟩
        simp only [ne_eq, decide_eq_true_eq]
        rintro rfl; exact hl.2.1 hf
      · intro l hl
        refine .inl ⟨(List.mem_filter.1 hl.1).1, hl.2.1, fun j hj => hl.2.2 j ?_⟩
        show goto s.place i _ j = _
        rw [goto_other]; exact hj
        rintro rfl; rw [hp] at hj; cases hj
    · cases hs
    · simp only [Res.ok.injEq, Prod.mk.injEq] at hs; obtain ⟨rfl, -⟩ := hs
      exact .same h _ hn
  | clear i =>
    simp only [State.step] at hs
    split at hs <;> (simp only [Res.ok.injEq, Prod.mk.injEq] at hs; obtain ⟨rfl, -⟩ := hs)
    · rename_i hp
      have key : ∀ j l, goto s.place i .idle j = .bound l → s.place j = .bound l := fun j l hj => (goto_bound (by simp) hj).2
      refine ⟨⟨h.opened, by simp, ?_, fun a b l ha hb => h.one a b l (key a l ha) (key b l hb)⟩, ?_, ?_, ?_⟩
      · intro j l hj
        obtain ⟨a, b, -⟩ := h.bound j l (key j l hj)
        exact ⟨a, b, by simp⟩
      · exact fun l hl => ⟨hl.1, by simp, fun j hj => hl.2.2 j (key j l hj)⟩
      · intro l hl
        by_cases hf : s.field = some l
        · exact .inr ⟨hf, hl.1, .inr ⟨i, rfl, hp⟩⟩
        · refine .inl ⟨hl.1, hf, fun j hj => hl.2.2 j ?_⟩
          show goto s.place i _ j = _
          rw [goto_other]; exact hj
          rintro rfl; rw [hp] at hj; cases hj
      · exact fun l hl => ⟨hl.2.1, by simp, fun j hj => (h.bound j l (key j l hj)).2.2 hl.1⟩
    · rename_i hp
      refine .same h _ ?_
      rintro l ⟨-, -, ⟨_, l', e, h⟩ | ⟨_, e, h⟩⟩
      · cases e
      · cases e; exact hp h

/-- A run in two parts. -/
theorem run_cons_ok {s s' : State} {ev : Event} {evs : List Event} {x : List Obs} (h : s.run (ev :: evs) = .ok (s', x)) :
    ∃ s1 y z, s.step ev = .ok (s1, y) ∧ s1.run evs = .ok (s', z) ∧ x = y ++ z := by
  simp only [State.run] at h
  cases h1 : s.step ev with
  | err e => rw [h1] at h; cases h
  | panic => rw [h1] at h; cases h
  | ok r =>
    rw [h1, Res.ok_bind] at h
    cases h2 : r.1.run evs with
    | err e => simp only [h2] at h; cases h
    | panic => simp only [h2] at h; cases h
    | ok q =>
      simp only [h2, Res.ok_bind] at h
      cases h
      exact ⟨r.1, r.2, q.2, rfl, h2, rfl⟩

theorem run_cons_of {s s1 s' : State} {ev : Event} {evs : List Event} {y z : List Obs} (h1 : s.step ev = .ok (s1, y))
    (h2 : s1.run evs = .ok (s', z)) : s.run (ev :: evs) = .ok (s', y ++ z) := by
  simp only [State.run, h1, h2, Res.ok_bind]

theorem leaves_run (evs : List Event) : ∀ {s s' : State} {x : List Obs}, Numbered s → s.run evs = .ok (s', x) →
    Numbered s' ∧ (∀ l, Forsaken s l → Forsaken s' l) ∧
    ∀ l, Forsaken s' l ↔ Forsaken s l ∨ ∃ pre ev post s1 y, evs = pre ++ ev :: post ∧ s.run pre = .ok (s1, y) ∧ Forsakes s1 ev l := by
  induction evs with
  | nil =>
    intro s s' x h hr
    cases hr
    refine ⟨h, fun _ => id, fun l => ⟨.inl, ?_⟩⟩
    rintro (hl | ⟨pre, ev, post, _, _, e, -⟩)
    · exact hl
    · cases pre <;> cases e
  | cons ev evs ih =>
    intro s s' x h hr
    obtain ⟨s1, y, z, h1, h2, rfl⟩ := run_cons_ok hr
    have hl := leaves_step h ev h1
    obtain ⟨i1, i2, i3⟩ := ih hl.num h2
    refine ⟨i1, fun l hs => i2 l (hl.stay l hs), fun l => ⟨fun hf => ?_, ?_⟩⟩
    · rcases (i3 l).1 hf with hf | ⟨pre, e, post, s2, w, rfl, hp, hk⟩
      · rcases hl.old l hf with hf | hf
        · exact .inl hf
        · exact .inr ⟨[], ev, evs, s, [], rfl, rfl, hf⟩
      · exact .inr ⟨ev :: pre, e, post, s2, y ++ w, rfl, run_cons_of h1 hp, hk⟩
    · rintro (hf | ⟨pre, e, post, s2, w, he, hp, hk⟩)
      · exact i2 l (hl.stay l hf)
      · cases pre with
        | nil =>
          cases hp
          rw [List.nil_append] at he
          cases he
          exact i2 l (hl.new l hk)
        | cons a pre =>
          rw [List.cons_append] at he
          cases he
          obtain ⟨s3, y3, z3, g1, g2, -⟩ := run_cons_ok hp
          rw [h1] at g1
          simp only [Res.ok.injEq, Prod.mk.injEq] at g1
          obtain ⟨rfl, rfl⟩ := g1
          exact (i3 l).2 (.inr ⟨pre, e, post, s2, z3, rfl, g2, hk⟩)

/-- Only a call of `Stop` that has passed its check crashes, and only when there is no server any more. -/
theorem step_panic_iff (s : State) (ev : Event) : s.step ev = .panic ↔ ∃ i, ev = .halt i ∧ s.place i = .halting ∧ s.field = none := by
  constructor
  · intro hs
    cases ev <;> simp only [State.step] at hs
    all_goals
      repeat' split at hs
    all_goals
      first
      | (cases hs; done)
      | (rename_i h1 h2; exact ⟨_, rfl, h1, h2⟩)
  · rintro ⟨i, rfl, h1, h2⟩
    simp only [State.step, h1, h2]

theorem step_not_err (s : State) (ev : Event) (e : Err) : s.step ev ≠ .err e := by
  intro hs
  cases ev <;> simp only [State.step] at hs
  all_goals
    repeat' split at hs
  all_goals cases hs

theorem run_panic_iff (evs : List Event) : ∀ s : State, s.run evs = .panic ↔
    ∃ pre i post s1 y, evs = pre ++ .halt i :: post ∧ s.run pre = .ok (s1, y) ∧ s1.place i = .halting ∧ s1.field = none := by
  induction evs with
  | nil =>
    intro s
    refine ⟨fun h => (nomatch h), ?_⟩
    rintro ⟨pre, i, post, _, _, e, -⟩
    cases pre <;> cases e
  | cons ev evs ih =>
    intro s
    constructor
    · intro h
      cases h1 : s.step ev with
      | err e => exact absurd h1 (step_not_err s ev e)
      | panic =>
        obtain ⟨i, rfl, a, b⟩ := (step_panic_iff s ev).1 h1
        exact ⟨[], i, evs, s, [], rfl, rfl, a, b⟩
      | ok r =>
        simp only [State.run, h1, Res.ok_bind] at h
        cases h2 : r.1.run evs with
        | err e => simp only [h2] at h; cases h
        | ok q => simp only [h2, Res.ok_bind] at h; cases h
        | panic =>
          obtain ⟨pre, i, post, s1, y, rfl, a, b⟩ := (ih r.1).1 h2
          exact ⟨ev :: pre, i, post, s1, r.2 ++ y, rfl, run_cons_of h1 a, b⟩
    · rintro ⟨pre, i, post, s1, y, e, a, b, c⟩
      cases pre with
      | nil =>
        cases a
        rw [List.nil_append] at e
        cases e
        simp only [State.run, (step_panic_iff s _).2 ⟨i, rfl, b, c⟩]
        rfl
      | cons q pre =>
        rw [List.cons_append] at e
        cases e
        obtain ⟨s3, y3, z3, g1, g2, -⟩ := run_cons_ok a
        have := (ih s3).2 ⟨pre, i, post, s1, z3, rfl, g2, b, c⟩
        simp only [State.run, g1, Res.ok_bind, this]
        rfl

end Verif.Lifecycle
