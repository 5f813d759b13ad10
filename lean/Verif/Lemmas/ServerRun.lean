import Verif.Lemmas.Server
/-! # Lemmas about whole schedules of the server -/

namespace Verif.Server
open Handler Spec Timer

theorem run_append (s : State) (a b : List Event) :
    s.run (a ++ b) = (do let (s1, x) ← s.run a; let (s2, y) ← s1.run b; .ok (s2, x ++ y)) := by
  induction a generalizing s with
  | nil =>
    simp only [List.nil_append, State.run, bind, Res.bind]
    cases s.run b <;> rfl
  | cons e es ih =>
    simp only [List.cons_append, State.run, bind, Res.bind] at ih ⊢
    cases s.step e with
    | ok p =>
      simp only [ih]
      cases p.1.run es with
      | ok q =>
        simp only
        cases q.1.run b <;> simp
      | err _ => rfl
      | panic => rfl
    | err _ => rfl
    | panic => rfl

/-- How far a goroutine is inside `Update`. -/
def Place.phase : Place → Option Bool
  | .starting b => some b
  | .updating b => some b
  | _ => none

/-- How far a session is inside `Update`. -/
def phase : Option Sess → Option Bool
  | some x => x.place.phase
  | none => none

/-- The place of the goroutine inside `Update` agrees with the log. -/
def InUpdate (p : Int) (k : Nat) (ph : Option Bool) (pending : Option Int) (pl : Option (Timer.Place Nat)) : Prop :=
  match ph with
  | none => pl = none
  | some false => ∃ t, pending = some t ∧ pl = some (.built k (dueAt t p))
  | some true => ∃ t, pending = some t ∧ pl = some (.erased k (dueAt t p))

/-- The invariant of all schedules. -/
structure Inv (p : Int) (s : State) (log : List Obs) : Prop where
  life : ∀ k, Life k (s.sessions k) (only k log)
  ids : ∀ k, s.sessions k ≠ none → 1 ≤ k ∧ k ≤ s.count
  all : ∀ k, 1 ≤ k → k ≤ s.count → s.sessions k ≠ none
  found : ∀ k, s.found = some k → s.sessions k ≠ none
  owned : Owned id s.timer
  period : s.timer.view.c.period = p
  place : ∀ k, InUpdate p k (phase (s.sessions k)) (alive p k log).pending (s.timer.view.place k)
  deadline : ∀ k, s.timer.view.c.deadline k = (alive p k log).since.map (dueAt · p)
  ticks : ∀ l1 n ks l2, log = l1 ++ .ticked n ks :: l2 → ∀ k, k ∈ ks ↔ ∃ t, (alive p k l1).since = some t ∧ dueAt t p ≤ n

theorem alive_append (p : Int) (k : Nat) (a b : List Obs) : alive p k (a ++ b) = b.foldl (Alive.next p k) (alive p k a) := List.foldl_append ..

theorem next_other {p : Int} {k j : Nat} {o : Obs} (a : Alive) (h : about o = some j) (hk : k ≠ j) : a.next p k o = a := by
  cases o <;> simp [about] at h <;> subst h <;> simp [Alive.next, Ne.symm hk]

theorem alive_other {p : Int} {k j : Nat} {o : List Obs} (l : List Obs) (h : ∀ a ∈ o, about a = some j) (hk : k ≠ j) :
    alive p k (l ++ o) = alive p k l := by
  rw [alive_append]
  generalize alive p k l = a
  induction o generalizing a with
  | nil => rfl
  | cons b bs ih =>
    rw [List.foldl_cons, next_other a (h b (by simp)) hk]
    exact ih (fun a ha => h a (by simp [ha])) a

theorem ticks_append {p : Int} {log o : List Obs} (h : ∀ l1 n ks l2, log = l1 ++ .ticked n ks :: l2 → ∀ k, k ∈ ks ↔ ∃ t, (alive p k l1).since = some t ∧ dueAt t p ≤ n)
    (ho : ∀ a ∈ o, about a ≠ none) : ∀ l1 n ks l2, log ++ o = l1 ++ .ticked n ks :: l2 → ∀ k, k ∈ ks ↔ ∃ t, (alive p k l1).since = some t ∧ dueAt t p ≤ n := by
  intro l1 n ks l2 he
  rcases List.append_eq_append_iff.1 he with ⟨a, h1, h2⟩ | ⟨a, h1, h2⟩
  · exact absurd rfl (ho (.ticked n ks) (h2 ▸ by simp))
  · cases a with
    | nil => simp at h2; exact absurd rfl (ho (.ticked n ks) (h2 ▸ by simp))
    | cons b a =>
      simp at h2; obtain ⟨rfl, _⟩ := h2
      exact h l1 n ks a h1

/-- The observations of steps that do not touch the timer leave the keepalive alone. -/
theorem quiet_alive {p : Int} {k : Nat} {x x' : Sess} {m : Move} {o : List Obs} (h : x.step k m = some (x', o)) (hm : m.timerEvent k = none)
    (l : List Obs) : alive p k (l ++ o) = alive p k l ∧ phase (some x') = phase (some x) := by
  rw [alive_append]
  generalize alive p k l = a
  cases m <;> simp only [Move.timerEvent, reduceCtorEq] at hm <;> simp only [Sess.step, call_recovered, Sess.close] at h
  all_goals
    repeat' split at h
    all_goals first
      | (simp at h; done)
      | (simp only [Option.some.injEq, Prod.mk.injEq] at h
         obtain ⟨rfl, rfl⟩ := h
         obtain ⟨pl, _, _, _, _⟩ := x
         simp_all [Alive.next, phase, Place.phase])

theorem close_alive {p : Int} {k : Nat} {x : Sess} (l : List Obs) :
    alive p k (l ++ .timeout k :: (x.close k).2) = alive p k l ∧ phase (some (x.close k).1) = phase (some x) := by
  rw [alive_append]
  unfold Sess.close
  split <;> simp [Alive.next, phase]

/-- The observations of steps on the timer. -/
theorem timer_obs {k : Nat} {x x' : Sess} {m : Move} {o : List Obs} (h : x.step k m = some (x', o)) :
    match m with
    | .restart now => x.place.phase = none ∧ x'.place.phase = some false ∧ o = [.restart k now]
    | .cancel => x.place.phase = some false ∧ x'.place.phase = some true ∧ o = [.cancelled k]
    | .arm => x.place.phase = some true ∧ x'.place.phase = none ∧ o = [.armed k]
    | .remove => x'.place.phase = x.place.phase ∧ o = [.removed k]
    | _ => True := by
  cases m <;> try trivial
  all_goals
    simp only [Sess.step] at h
    repeat' split at h
    all_goals first
      | (simp at h; done)
      | (simp only [Option.some.injEq, Prod.mk.injEq] at h
         obtain ⟨rfl, rfl⟩ := h
         simp_all [Place.phase])

/-- Part of the invariant that is about the timer. -/
structure TimerInv (p : Int) (sessions : Nat → Option Sess) (t : Shared Nat) (log : List Obs) : Prop where
  period : t.c.period = p
  place : ∀ k, InUpdate p k (phase (sessions k)) (alive p k log).pending (t.place k)
  deadline : ∀ k, t.c.deadline k = (alive p k log).since.map (dueAt · p)

theorem timer_move {p : Int} {ss : Nat → Option Sess} {t t' : Shared Nat} {log o : List Obs} {k : Nat} {x x' : Sess} {m : Move} {e : Timer.Event Nat}
    {f : List Nat} (h : TimerInv p ss t log) (hx : ss k = some x) (hm : x.step k m = some (x', o)) (he : m.timerEvent k = some e)
    (ht : t.Step e f t') : TimerInv p (fun j => if j = k then some x' else ss j) t' (log ++ o) := by
  have ho := timer_obs hm
  have hab := step_about hm
  have hpl := h.place k
  have hdl := h.deadline k
  have hper := h.period
  rw [hx] at hpl
  simp only [phase] at hpl
  cases m <;> simp only [Move.timerEvent, reduceCtorEq, Option.some.injEq] at he <;> subst he
  all_goals simp only [Shared.Step] at ht ho
  case restart now =>
    obtain ⟨h1, h2, rfl⟩ := ho
    rw [h1] at hpl
    simp only [InUpdate] at hpl
    obtain ⟨rfl, rfl⟩ := ht
    simp only [hpl]
    refine ⟨hper, fun j => ?_, fun j => ?_⟩
    · by_cases hj : j = k
      · subst hj
        simp [alive_append, Alive.next, phase, h2, InUpdate, hper]
      · rw [alive_other log hab hj]; simpa [hj] using h.place j
    · by_cases hj : j = k
      · subst hj
        simpa [alive_append, Alive.next] using hdl
      · rw [alive_other log hab hj]; exact h.deadline j
  case cancel =>
    obtain ⟨h1, h2, rfl⟩ := ho
    rw [h1] at hpl
    simp only [InUpdate] at hpl
    obtain ⟨n, hn, hpl⟩ := hpl
    obtain ⟨rfl, rfl⟩ := ht
    simp only [hpl]
    refine ⟨hper, fun j => ?_, fun j => ?_⟩
    · by_cases hj : j = k
      · subst hj
        simp [alive_append, Alive.next, phase, h2, InUpdate, hn]
      · rw [alive_other log hab hj]; simpa [hj] using h.place j
    · by_cases hj : j = k
      · subst hj
        simp [alive_append, Alive.next, Countdown.put]
      · rw [alive_other log hab hj]; simpa [hj, Countdown.put] using h.deadline j
  case arm =>
    obtain ⟨h1, h2, rfl⟩ := ho
    rw [h1] at hpl
    simp only [InUpdate] at hpl
    obtain ⟨n, hn, hpl⟩ := hpl
    obtain ⟨rfl, rfl⟩ := ht
    simp only [hpl]
    refine ⟨hper, fun j => ?_, fun j => ?_⟩
    · by_cases hj : j = k
      · subst hj
        simp [phase, h2, InUpdate]
      · rw [alive_other log hab hj]; simpa [hj] using h.place j
    · by_cases hj : j = k
      · subst hj
        simp [alive_append, Alive.next, Countdown.put, hn]
      · rw [alive_other log hab hj]; simpa [hj, Countdown.put] using h.deadline j
  case remove =>
    obtain ⟨h2, rfl⟩ := ho
    obtain ⟨rfl, rfl⟩ := ht
    refine ⟨hper, fun j => ?_, fun j => ?_⟩
    · by_cases hj : j = k
      · subst hj
        simpa [alive_append, Alive.next, phase, h2] using hpl
      · rw [alive_other log hab hj]; simpa [hj] using h.place j
    · by_cases hj : j = k
      · subst hj
        simp [alive_append, Alive.next, Countdown.put]
      · rw [alive_other log hab hj]; simpa [hj, Countdown.put] using h.deadline j

theorem timer_quiet {p : Int} {ss : Nat → Option Sess} {t : Shared Nat} {log o : List Obs} {k : Nat} {x x' : Sess}
    (h : TimerInv p ss t log) (hx : ss k = some x) (hab : ∀ a ∈ o, about a = some k)
    (ho : alive p k (log ++ o) = alive p k log ∧ phase (some x') = phase (some x)) :
    TimerInv p (fun j => if j = k then some x' else ss j) t (log ++ o) := by
  refine ⟨h.period, fun j => ?_, fun j => ?_⟩
  · by_cases hj : j = k
    · subst hj
      have := h.place j
      rw [hx] at this
      simpa [ho.1, ho.2] using this
    · rw [alive_other log hab hj]; simpa [hj] using h.place j
  · by_cases hj : j = k
    · subst hj; rw [ho.1]; exact h.deadline j
    · rw [alive_other log hab hj]; exact h.deadline j

theorem life_put {ss : Nat → Option Sess} {log o : List Obs} {k : Nat} {x' : Sess} (h : ∀ j, Life j (ss j) (only j log))
    (hab : ∀ a ∈ o, about a = some k) (hk : Life k (some x') (only k log ++ o)) (j : Nat) :
    Life j (if j = k then some x' else ss j) (only j (log ++ o)) := by
  rw [only_append]
  by_cases hj : j = k
  · subst hj; rw [only_all hab]; simpa using hk
  · rw [only_none hab hj]; simpa [hj] using h j

theorem step_inv {p : Int} {s : State} {log : List Obs} (h : Inv p s log) (ev : Event) :
    ∃ s' o, s.step ev = .ok (s', o) ∧ Inv p s' (log ++ o) := by
  have hT : TimerInv p s.sessions s.timer.view log := ⟨h.period, h.place, h.deadline⟩
  have same : Inv p s (log ++ []) := by simpa using h
  cases ev with
  | accept =>
    refine ⟨_, _, rfl, ?_⟩
    have hnew : s.sessions (s.count + 1) = none := by
      cases hc : s.sessions (s.count + 1) with
      | none => rfl
      | some x => have := h.ids (s.count + 1) (by simp [hc]); omega
    have hab : ∀ a ∈ [Obs.accepted (s.count + 1)], about a = some (s.count + 1) := by simp [about]
    have hlog : only (s.count + 1) log = [] := by
      have := h.life (s.count + 1)
      rw [hnew] at this; exact life_facts this
    have hal : ∀ j, alive p j (log ++ [.accepted (s.count + 1)]) = alive p j log := by
      intro j; rw [alive_append]; rfl
    refine ⟨life_put h.life hab (by rw [hlog]; exact .accept), ?_, ?_, ?_, h.owned, h.period, ?_, ?_, ticks_append h.ticks (by simp [about])⟩
    · intro k hk
      by_cases hj : k = s.count + 1
      · subst hj; exact ⟨by omega, Nat.le_refl _⟩
      · simp only [State.put, hj, if_false] at hk
        have := h.ids k hk
        exact ⟨this.1, Nat.le_succ_of_le this.2⟩
    · intro k h1 h2
      by_cases hj : k = s.count + 1
      · simp [State.put, hj]
      · simp only [State.put, hj, if_false]
        have h2 : k ≤ s.count + 1 := h2
        exact h.all k h1 (by omega)
    · intro k hk
      simp only [State.put] at hk ⊢
      split
      · simp
      · exact h.found k hk
    · intro j
      rw [hal]
      have := h.place j
      by_cases hj : j = s.count + 1
      · subst hj; rw [hnew] at this; simpa [State.put, phase, Place.phase] using this
      · simpa [State.put, hj] using this
    · intro j; rw [hal]; exact h.deadline j
  | move k m =>
    simp only [State.step]
    cases hx : s.sessions k with
    | none => exact ⟨s, [], rfl, same⟩
    | some x =>
      simp only
      cases hm : x.step k m with
      | none => exact ⟨s, [], rfl, same⟩
      | some r =>
        obtain ⟨x', o⟩ := r
        simp only
        have hab := step_about hm
        have hlife := life_put h.life hab (.move (hx ▸ h.life k) hm)
        have hno : ∀ a ∈ o, about a ≠ none := fun a ha => by simp [hab a ha]
        have hids : ∀ j, (if j = k then some x' else s.sessions j) ≠ none → 1 ≤ j ∧ j ≤ s.count := by
          intro j hj
          by_cases hjk : j = k
          · subst hjk; exact h.ids j (by simp [hx])
          · simp only [hjk, if_false] at hj; exact h.ids j hj
        have hall : ∀ j, 1 ≤ j → j ≤ s.count → (if j = k then some x' else s.sessions j) ≠ none := by
          intro j h1 h2
          split
          · simp
          · exact h.all j h1 h2
        have hfound : ∀ j, s.found = some j → (if j = k then some x' else s.sessions j) ≠ none := by
          intro j hj
          split
          · simp
          · exact h.found j hj
        cases he : m.timerEvent k with
        | none =>
          have hq := timer_quiet hT hx hab (quiet_alive hm he log)
          exact ⟨s.put k x', o, rfl, hlife, hids, hall, hfound, h.owned, hq.period, hq.place, hq.deadline, ticks_append h.ticks hno⟩
        | some e =>
          have hev : ∀ i k' now, e = .begin i k' now → i = id k' := by
            intro i k' now hb
            cases m <;> simp [Move.timerEvent] at he <;> subst he <;> simp at hb
            obtain ⟨rfl, rfl, _⟩ := hb; rfl
          obtain ⟨t', f, g1, g2, g3⟩ := step_owned id s.timer e h.owned hev
          have hq := timer_move hT hx hm he g3
          refine ⟨({ s with timer := t' }).put k x', o, ?_, hlife, hids, hall, hfound, g2, hq.period, hq.place, hq.deadline, ticks_append h.ticks hno⟩
          simp [State.onTimer, g1]
  | tick now =>
    simp only [State.step]
    split
    · rename_i hf
      obtain ⟨t', ks, g1, g2, g3⟩ := step_owned id s.timer (.tick now) h.owned (by intro i k n hb; cases hb)
      simp only [Shared.Step] at g3
      refine ⟨{ s with timer := t', fired := ks }, [.ticked now ks], by simp [g1], ?_⟩
      have hon : ∀ j, only j (log ++ [.ticked now ks]) = only j log := by intro j; simp [only, about]
      have hks : ∀ k, k ∈ ks ↔ ∃ t, (alive p k log).since = some t ∧ dueAt t p ≤ now := by
        intro k
        rw [g3.2.exact]
        rw [h.deadline k]
        constructor
        · rintro ⟨d, hd, hn⟩
          obtain ⟨t, ht, rfl⟩ := Option.map_eq_some_iff.1 hd
          exact ⟨t, ht, hn⟩
        · rintro ⟨t, ht, hn⟩
          exact ⟨dueAt t p, by simp [ht], hn⟩
      have hpe : ∀ j, (alive p j (log ++ [.ticked now ks])).pending = (alive p j log).pending := by
        intro j
        simp only [alive_append, List.foldl_cons, List.foldl_nil, Alive.next]
        repeat' split
        all_goals rfl
      refine ⟨fun j => by rw [hon]; exact h.life j, h.ids, h.all, h.found, g2, ?_, ?_, ?_, ?_⟩
      · exact g3.2.period.trans h.period
      · intro j
        rw [hpe]
        have := h.place j
        rw [← g3.1] at this
        exact this
      · intro j
        show t'.view.c.deadline j = _
        rw [g3.2.rest j]
        have hj := hks j
        have hd := h.deadline j
        simp only [alive_append, List.foldl_cons, List.foldl_nil, Alive.next]
        cases hs : (alive p j log).since with
        | none =>
          simp only [hs] at hj hd ⊢
          rw [if_neg (by simp [hj]), hd]; try simp [hs]
        | some t =>
          simp only [hs] at hj hd ⊢
          by_cases hn : dueAt t p ≤ now
          · rw [if_pos (hj.2 ⟨t, rfl, hn⟩)]; simp [hn]
          · rw [if_neg (by rw [hj]; rintro ⟨_, h1, h2⟩; cases h1; exact hn h2)]; simp [hn, hd, hs]
      · intro l1 n ks' l2 he
        rcases List.append_eq_append_iff.1 he with ⟨a, h1, h2⟩ | ⟨a, h1, h2⟩
        · cases a with
          | nil =>
            simp at h2 h1; obtain ⟨⟨rfl, rfl⟩, rfl⟩ := h2
            subst h1; exact hks
          | cons b a => simp at h2
        · cases a with
          | nil =>
            simp at h2 h1; obtain ⟨⟨rfl, rfl⟩, rfl⟩ := h2
            subst h1; exact hks
          | cons b a =>
            simp at h2; obtain ⟨rfl, _⟩ := h2
            exact h.ticks l1 n ks' a h1
    · exact ⟨s, [], rfl, same⟩
  | lookup =>
    simp only [State.step]
    split
    · rename_i k ks h1 h2
      refine ⟨_, [], rfl, ?_⟩
      refine ⟨by simpa using h.life, h.ids, h.all, ?_, h.owned, h.period, by simpa using h.place, by simpa using h.deadline, by simpa using h.ticks⟩
      intro j hj
      simp only at hj
      split at hj
      · rename_i hg
        cases hj
        intro hn
        have hn : s.sessions k = none := hn
        simp [State.getSession, hn] at hg
      · cases hj
    · exact ⟨s, [], rfl, same⟩
  | closeFound =>
    simp only [State.step]
    cases hf : s.found with
    | none => exact ⟨s, [], rfl, same⟩
    | some k =>
      simp only
      cases hx : s.sessions k with
      | none => exact absurd hx (h.found k hf)
      | some x =>
        simp only [State.close, hx]
        refine ⟨_, _, rfl, ?_⟩
        have hab : ∀ a ∈ Obs.timeout k :: (x.close k).2, about a = some k := by
          intro a ha
          rcases List.mem_cons.1 ha with rfl | ha
          · rfl
          · exact close_about a ha
        have hq := timer_quiet hT hx hab (close_alive log)
        refine ⟨life_put h.life hab (.timeout (hx ▸ h.life k)), ?_, ?_, ?_, h.owned, hq.period, hq.place, hq.deadline,
          ticks_append h.ticks fun a ha => by simp [hab a ha]⟩
        · intro j hj
          by_cases hjk : j = k
          · subst hjk; exact h.ids j (by simp [hx])
          · simp only [State.put, hjk, if_false] at hj; exact h.ids j hj
        · intro j h1 h2
          simp only [State.put]
          split
          · simp
          · exact h.all j h1 h2
        · intro j hj; simp at hj

theorem run_inv {p : Int} {s : State} {log : List Obs} (h : Inv p s log) (evs : List Event) :
    ∃ s' o, s.run evs = .ok (s', o) ∧ Inv p s' (log ++ o) := by
  induction evs generalizing s log with
  | nil => exact ⟨s, [], rfl, by simpa using h⟩
  | cons e es ih =>
    obtain ⟨s1, o1, h1, h2⟩ := step_inv h e
    obtain ⟨s2, o2, h3, h4⟩ := ih h2
    exact ⟨s2, o1 ++ o2, by simp [State.run, h1, h3], by simpa using h4⟩

theorem new_inv {ka : Int} {key : Option Nat} {s : State} (h : newServer ka key = .ok s) : Inv (keepalivePeriod ka) s [] := by
  have hs : s = { timer := { timer := Timer.new (keepalivePeriod ka) } } := by
    have hp : (if ka ≤ 0 then 60 else ka) = keepalivePeriod ka := by unfold keepalivePeriod; split <;> split <;> omega
    unfold newServer at h
    simp only [hp] at h
    cases key with
    | none => simp at h; exact h.symm
    | some n =>
      simp only at h
      split at h
      · cases h
      · simp at h; exact h.symm
  subst hs
  refine ⟨fun k => .none, by simp, by intro k h1 h2; simp at h2; omega, by simp, ⟨seq_new _, by simp, by simp⟩, rfl, fun k => rfl, fun k => rfl, by simp⟩

end Verif.Server
