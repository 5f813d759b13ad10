import Verif.Lemmas.ServerTicker
/-! # Silent sessions -/

namespace Verif.Server
open Handler Spec Timer

/-- The goroutine of the session is inside `timer.Update`. -/
def Place.inUpdate : Place → Bool
  | .starting _ | .updating _ => true
  | _ => false

theorem restart_snoc (k : Nat) (l : List Obs) (o : Obs) :
    (l ++ [o]).foldl (restartNext k) (none, none) = restartNext k (l.foldl (restartNext k) (none, none)) o := by
  rw [List.foldl_append]; rfl

theorem restartNext_other {k : Nat} {o : Obs} (a : Option Int × Option Int) (h : about o ≠ some k) : restartNext k a o = a := by
  cases o <;> simp_all [about, restartNext]

/-- Only the observations about the session count. -/
theorem restart_only (k : Nat) (l : List Obs) (a : Option Int × Option Int) :
    (only k l).foldl (restartNext k) a = l.foldl (restartNext k) a := by
  induction l generalizing a with
  | nil => rfl
  | cons o l ih =>
    by_cases h : about o = some k
    · simp only [only, List.filter_cons, h, decide_true, if_true, List.foldl_cons]
      exact ih _
    · rw [List.foldl_cons, restartNext_other a h, ← ih a]
      simp [only, List.filter_cons, h]

/-- `Update` first reads the clock, then forgets the old period, then starts the new one. -/
def Ordered (k : Nat) (l : List Obs) : Prop :=
  ∀ l1 o l2, l = l1 ++ o :: l2 → o = .cancelled k ∨ o = .armed k → (restarting k l1).isSome

theorem ordered_append {k : Nat} {l o : List Obs} (h : Ordered k l) (ho : .cancelled k ∉ o ∧ .armed k ∉ o ∨ (restarting k l).isSome ∧ o.length ≤ 1) :
    Ordered k (l ++ o) := by
  intro l1 x l2 he hx
  rcases List.append_eq_append_iff.1 he with ⟨a, h1, h2⟩ | ⟨a, h1, h2⟩
  · rcases ho with ⟨ho1, ho2⟩ | ⟨ho1, ho2⟩
    · rcases hx with rfl | rfl
      · exact absurd (by rw [h2]; simp) ho1
      · exact absurd (by rw [h2]; simp) ho2
    · have : a = [] := by
        rw [h2] at ho2
        cases a with
        | nil => rfl
        | cons b a => simp at ho2
      subst this
      rw [h1, List.append_nil]
      exact ho1
  · cases a with
    | nil =>
      rcases ho with ⟨ho1, ho2⟩ | ⟨ho1, ho2⟩
      · simp at h2
        rcases hx with rfl | rfl
        · exact absurd (by rw [← h2]; simp) ho1
        · exact absurd (by rw [← h2]; simp) ho2
      · rw [List.append_nil] at h1
        rw [← h1]
        exact ho1
    | cons b a =>
      simp only [List.cons_append, List.cons.injEq] at h2
      obtain ⟨rfl, rfl⟩ := h2
      exact h l1 x a h1 hx

theorem quiet_fold {k : Nat} {o : List Obs} (h : ∀ x ∈ o, (∀ n, x ≠ .restart k n) ∧ x ≠ .armed k) (a : Option Int × Option Int) :
    o.foldl (restartNext k) a = a := by
  induction o with
  | nil => rfl
  | cons x o ih =>
    rw [List.foldl_cons]
    have : restartNext k a x = a := by
      have := h x (List.mem_cons_self ..)
      cases x <;> simp_all [restartNext]
    rw [this]
    exact ih fun y hy => h y (List.mem_cons_of_mem _ hy)

theorem life_ordered {k : Nat} {ox : Option Sess} {l : List Obs} (h : Life k ox l) :
    match ox with
    | none => l = []
    | some x => Ordered k l ∧ (restarting k l).isSome = x.place.inUpdate := by
  induction h with
  | none => rfl
  | accept =>
    refine ⟨?_, rfl⟩
    intro l1 o l2 he ho
    cases l1 with
    | nil => simp at he; rcases ho with rfl | rfl <;> simp at he
    | cons _ _ => simp at he
  | timeout _ ih =>
    rename_i x l _
    obtain ⟨h1, h2⟩ := ih
    have hq : ∀ y ∈ Obs.timeout k :: (x.close k).2, (∀ n, y ≠ .restart k n) ∧ y ≠ .armed k ∧ y ≠ .cancelled k := by
      unfold Sess.close
      split <;> simp
    refine ⟨ordered_append h1 (.inl ⟨fun hm => (hq _ hm).2.2 rfl, fun hm => (hq _ hm).2.1 rfl⟩), ?_⟩
    rw [restarting, List.foldl_append, quiet_fold fun y hy => ⟨(hq y hy).1, (hq y hy).2.1⟩]
    rw [show (x.close k).1.place = x.place by unfold Sess.close; split <;> rfl]
    exact h2
  | move _ hm ih =>
    rename_i x x' l o m _
    obtain ⟨h1, h2⟩ := ih
    have quiet (hq : ∀ y ∈ o, (∀ n, y ≠ .restart k n) ∧ y ≠ .armed k ∧ y ≠ .cancelled k) (hp : x'.place.inUpdate = x.place.inUpdate) :
        Ordered k (l ++ o) ∧ (restarting k (l ++ o)).isSome = x'.place.inUpdate := by
      refine ⟨ordered_append h1 (.inl ⟨fun hm => (hq _ hm).2.2 rfl, fun hm => (hq _ hm).2.1 rfl⟩), ?_⟩
      rw [restarting, List.foldl_append, quiet_fold fun y hy => ⟨(hq y hy).1, (hq y hy).2.1⟩, hp]
      exact h2
    cases m <;> simp only [Sess.step, call_recovered] at hm
    case restart n =>
      have : o = [.restart k n] ∧ x'.place.inUpdate = true := by
        repeat' split at hm
        all_goals first
          | (simp at hm; done)
          | (simp only [Option.some.injEq, Prod.mk.injEq] at hm; obtain ⟨rfl, rfl⟩ := hm; exact ⟨rfl, rfl⟩)
      obtain ⟨rfl, hp⟩ := this
      refine ⟨ordered_append h1 (.inl (by simp)), ?_⟩
      rw [restarting, restart_snoc, hp]
      simp [restartNext]
    case cancel =>
      have : o = [.cancelled k] ∧ x'.place.inUpdate = true ∧ x.place.inUpdate = true := by
        repeat' split at hm
        all_goals first
          | (simp at hm; done)
          | (rename_i hp; simp only [Option.some.injEq, Prod.mk.injEq] at hm; obtain ⟨rfl, rfl⟩ := hm; exact ⟨rfl, rfl, by rw [hp]; rfl⟩)
      obtain ⟨rfl, hp, hp'⟩ := this
      rw [hp'] at h2
      refine ⟨ordered_append h1 (.inr ⟨h2, by simp⟩), ?_⟩
      rw [restarting, restart_snoc, hp]
      exact h2
    case arm =>
      have : o = [.armed k] ∧ x'.place.inUpdate = false ∧ x.place.inUpdate = true := by
        repeat' split at hm
        all_goals first
          | (simp at hm; done)
          | (rename_i hp; simp only [Option.some.injEq, Prod.mk.injEq] at hm; obtain ⟨rfl, rfl⟩ := hm; exact ⟨rfl, rfl, by rw [hp]; rfl⟩)
      obtain ⟨rfl, hp, hp'⟩ := this
      rw [hp'] at h2
      refine ⟨ordered_append h1 (.inr ⟨h2, by simp⟩), ?_⟩
      rw [restarting, restart_snoc, hp]
      simp [restartNext]
    case close =>
      have hm := Option.some.inj hm
      have e1 : x' = (x.close k).1 := by rw [hm]
      have e2 : o = (x.close k).2 := by rw [hm]
      refine quiet ?_ ?_
      · rw [e2]
        unfold Sess.close
        split <;> simp
      · rw [e1]
        unfold Sess.close
        split <;> rfl
    case leave =>
      split at hm
      · rename_i hp
        simp only [Option.some.injEq, Prod.mk.injEq] at hm
        obtain ⟨rfl, rfl⟩ := hm
        refine quiet ?_ (by rw [hp]; rfl)
        unfold Sess.close
        split <;> simp
      · simp at hm
    all_goals
      repeat' split at hm
      all_goals first
        | (simp at hm; done)
        | (simp only [Option.some.injEq, Prod.mk.injEq] at hm; obtain ⟨rfl, rfl⟩ := hm; exact quiet (by simp) rfl)
        | (rename_i hp; simp only [Option.some.injEq, Prod.mk.injEq] at hm; obtain ⟨rfl, rfl⟩ := hm; exact quiet (by simp) (by rw [hp]; rfl))
        | (rename_i hp _; simp only [Option.some.injEq, Prod.mk.injEq] at hm; obtain ⟨rfl, rfl⟩ := hm; exact quiet (by simp) (by rw [hp]; rfl))

theorem only_split {k : Nat} {l l1 l2 : List Obs} {o : Obs} (h : l = l1 ++ o :: l2) (ho : about o = some k) : only k l = only k l1 ++ o :: only k l2 := by
  rw [h, only_append]
  simp [only, List.filter_cons, ho]

theorem inv_ordered {p : Int} {s : State} {log : List Obs} (h : Inv p s log) (k : Nat) : Ordered k log := by
  have hl := h.life k
  cases hx : s.sessions k with
  | none =>
    rw [hx] at hl
    have h0 : only k log = [] := life_ordered hl
    intro l1 o l2 he ho
    have : o ∈ only k log := by
      rcases ho with rfl | rfl <;> exact (mem_only rfl).2 (by rw [he]; simp)
    rw [h0] at this
    cases this
  | some x =>
    rw [hx] at hl
    obtain ⟨h1, -⟩ : Ordered k (only k log) ∧ _ := life_ordered hl
    intro l1 o l2 he ho
    have ha : about o = some k := by rcases ho with rfl | rfl <;> rfl
    have := h1 (only k l1) o (only k l2) (only_split he ha) ho
    rwa [restarting, restart_only] at this

/-- The time of the last restart is that of a restart. -/
theorem lastRestart_mem {k : Nat} {t : Int} (l : List Obs) (h : lastRestart k l = some t) : .restart k t ∈ l := by
  have key : ∀ (l : List Obs) (a : Option Int × Option Int),
      ((l.foldl (restartNext k) a).1 = some t → .restart k t ∈ l ∨ a.1 = some t) ∧
      ((l.foldl (restartNext k) a).2 = some t → .restart k t ∈ l ∨ a.1 = some t ∨ a.2 = some t) := by
    intro l
    induction l with
    | nil => exact fun a => ⟨.inr, fun h => .inr (.inr h)⟩
    | cons o l ih =>
      intro a
      rw [List.foldl_cons]
      obtain ⟨i1, i2⟩ := ih (restartNext k a o)
      have e1 : (restartNext k a o).1 = some t → o = .restart k t ∨ a.1 = some t := by
        unfold restartNext
        split
        · split
          · rename_i hk
            subst hk
            intro h
            cases h
            exact .inl rfl
          · exact .inr
        · split
          · intro h; cases h
          · exact .inr
        · exact .inr
      have e2 : (restartNext k a o).2 = some t → a.1 = some t ∨ a.2 = some t := by
        unfold restartNext
        split
        · split
          · exact .inr
          · exact .inr
        · split
          · exact .inl
          · exact .inr
        · exact .inr
      refine ⟨fun h => ?_, fun h => ?_⟩
      · rcases i1 h with h | h
        · exact .inl (List.mem_cons_of_mem _ h)
        · rcases e1 h with rfl | h
          · exact .inl (by simp)
          · exact .inr h
      · rcases i2 h with h | h | h
        · exact .inl (List.mem_cons_of_mem _ h)
        · rcases e1 h with rfl | h
          · exact .inl (by simp)
          · exact .inr (.inl h)
        · exact .inr (e2 h)
  rcases (key l (none, none)).2 h with h | h | h
  · exact h
  · cases h
  · cases h

/-- The period of a session whose last restart is complete counts, unless the session was removed or has expired. -/
theorem silent_since {p : Int} {k : Nat} {t : Int} (l : List Obs) (ho : Ordered k l) (h1 : restarting k l = none) (h2 : lastRestart k l = some t) :
    (alive p k l).since = some t ∨ .removed k ∈ l ∨
      ∃ a n ks b, l = a ++ .ticked n ks :: b ∧ ∃ t', (alive p k a).since = some t' ∧ dueAt t' p ≤ n := by
  suffices h : ∀ r : List Obs, Ordered k r.reverse → restarting k r.reverse = none → lastRestart k r.reverse = some t →
      (alive p k r.reverse).since = some t ∨ .removed k ∈ r.reverse ∨
        ∃ a n ks b, r.reverse = a ++ .ticked n ks :: b ∧ ∃ t', (alive p k a).since = some t' ∧ dueAt t' p ≤ n by
    have := h l.reverse
    rw [List.reverse_reverse] at this
    exact this ho h1 h2
  clear h1 h2 ho l
  intro r
  induction r with
  | nil => intro _ _ h; simp [lastRestart] at h
  | cons o r ih =>
    intro ho h1 h2
    rw [List.reverse_cons] at ho h1 h2 ⊢
    generalize r.reverse = l at *
    have ho' : Ordered k l := fun l1 x l2 he hx => ho l1 x (l2 ++ [o]) (by rw [he]; simp) hx
    rw [restarting, restart_snoc] at h1
    rw [lastRestart, restart_snoc] at h2
    rw [alive_append]
    show ((alive p k l).next p k o).since = some t ∨ _
    have old (hn : restartNext k (l.foldl (restartNext k) (none, none)) o = l.foldl (restartNext k) (none, none))
        (ha : (alive p k l).next p k o = alive p k l) :
        ((alive p k l).next p k o).since = some t ∨ .removed k ∈ l ++ [o] ∨
          ∃ a n ks b, l ++ [o] = a ++ .ticked n ks :: b ∧ ∃ t', (alive p k a).since = some t' ∧ dueAt t' p ≤ n := by
      rw [hn] at h1 h2
      rw [ha]
      rcases ih ho' h1 h2 with g | g | ⟨a, n, ks, b, rfl, g⟩
      · exact .inl g
      · exact .inr (.inl (List.mem_append_left _ g))
      · exact .inr (.inr ⟨a, n, ks, b ++ [o], by simp, g⟩)
    cases o with
    | restart j n =>
      by_cases hj : j = k
      · subst hj; simp [restartNext] at h1
      · exact old (by simp [restartNext, hj]) (by simp [Alive.next, hj])
    | cancelled j =>
      by_cases hj : j = k
      · subst hj
        have := ho l _ [] rfl (.inl rfl)
        simp only [restartNext] at h1
        rw [restarting, h1] at this
        cases this
      · exact old rfl (by simp [Alive.next, hj])
    | armed j =>
      by_cases hj : j = k
      · subst hj
        left
        simp only [restartNext, if_true] at h2
        simp only [Alive.next, if_true]
        rw [← h2]
        exact (alive_restart p j l {} (none, none) rfl (by simp)).1
      · exact old (by simp [restartNext, hj]) (by simp [Alive.next, hj])
    | removed j =>
      by_cases hj : j = k
      · subst hj; exact .inr (.inl (by simp))
      · exact old rfl (by simp [Alive.next, hj])
    | ticked n ks =>
      cases hs : (alive p k l).since with
      | none => exact old rfl (by simp [Alive.next, hs])
      | some t' =>
        by_cases hn : dueAt t' p ≤ n
        · exact .inr (.inr ⟨l, n, ks, [], rfl, t', hs, hn⟩)
        · exact old rfl (by simp [Alive.next, hs, hn])
    | accepted j => exact old rfl rfl
    | registered j => exact old rfl rfl
    | attached j => exact old rfl rfl
    | left j => exact old rfl rfl
    | closing j => exact old rfl rfl
    | deleted j => exact old rfl rfl
    | closeHandler j => exact old rfl rfl
    | closeDone j => exact old rfl rfl
    | timeout j => exact old rfl rfl

/-- A restart that has been completed, after which there was no other, is the last one. -/
theorem last_of_armed {k : Nat} {t : Int} {l1 l2 : List Obs} (ho : Ordered k (l1 ++ .restart k t :: l2)) (h1 : ∀ n, .restart k n ∉ l2)
    (h2 : .armed k ∈ l2) : lastRestart k (l1 ++ .restart k t :: l2) = some t ∧ restarting k (l1 ++ .restart k t :: l2) = none := by
  suffices h : ∀ r : List Obs, Ordered k (l1 ++ .restart k t :: r.reverse) → (∀ n, .restart k n ∉ r.reverse) →
      (.armed k ∈ r.reverse → (l1 ++ .restart k t :: r.reverse).foldl (restartNext k) (none, none) = (none, some t)) ∧
        (.armed k ∉ r.reverse → ((l1 ++ .restart k t :: r.reverse).foldl (restartNext k) (none, none)).1 = some t) by
    have := (h l2.reverse (by rwa [List.reverse_reverse]) (by rwa [List.reverse_reverse])).1 (by rwa [List.reverse_reverse])
    rw [List.reverse_reverse] at this
    exact ⟨by rw [lastRestart, this], by rw [restarting, this]⟩
  clear ho h1 h2 l2
  intro r
  induction r with
  | nil =>
    intro _ _
    refine ⟨by simp, fun _ => ?_⟩
    rw [List.reverse_nil, restart_snoc]
    simp [restartNext]
  | cons o r ih =>
    rw [List.reverse_cons]
    generalize r.reverse = l at *
    intro ho h1
    rw [show l1 ++ .restart k t :: (l ++ [o]) = (l1 ++ .restart k t :: l) ++ [o] by simp] at ho ⊢
    have ho' : Ordered k (l1 ++ .restart k t :: l) := fun m1 x m2 he hx => ho m1 x (m2 ++ [o]) (by rw [he]; simp) hx
    obtain ⟨ih1, ih2⟩ := ih ho' fun n hn => h1 n (List.mem_append_left _ hn)
    rw [restart_snoc]
    by_cases hoa : o = .armed k
    · subst hoa
      refine ⟨fun _ => ?_, fun hn => absurd (by simp) hn⟩
      have hs := ho _ _ [] rfl (.inr rfl)
      have hn : .armed k ∉ l := by
        intro hm
        rw [restarting, ih1 hm] at hs
        cases hs
      simp only [restartNext, if_true, ih2 hn]
    · have hq : ∀ a, restartNext k a o = a := by
        intro a
        have h3 : ∀ n, o ≠ .restart k n := by
          intro n he
          exact h1 n (by rw [he]; simp)
        cases o <;> simp_all [restartNext]
      rw [hq]
      have hm : Obs.armed k ∈ l ++ [o] ↔ Obs.armed k ∈ l := by
        simp [Ne.symm hoa]
      rw [hm]
      exact ⟨ih1, ih2⟩

end Verif.Server
