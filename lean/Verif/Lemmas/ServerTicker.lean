import Verif.Lemmas.ServerRun
/-! # Lemmas about the goroutine of the timer, and about sessions closed too early -/

namespace Verif.Server
open Handler Spec Timer

theorem alive_restart (p : Int) (k : Nat) (log : List Obs) (a : Alive) (r : Option Int × Option Int) (h1 : a.pending = r.1)
    (h2 : ∀ t, a.since = some t → r.2 = some t) :
    (log.foldl (Alive.next p k) a).pending = (log.foldl (restartNext k) r).1 ∧
    ∀ t, (log.foldl (Alive.next p k) a).since = some t → (log.foldl (restartNext k) r).2 = some t := by
  induction log generalizing a r with
  | nil => exact ⟨h1, h2⟩
  | cons o l ih =>
    simp only [List.foldl_cons]
    apply ih
    · cases o <;> simp only [Alive.next, restartNext] <;> repeat' split
      all_goals simp_all
    · cases o <;> simp only [Alive.next, restartNext] <;> repeat' split
      all_goals simp_all

theorem since_lastRestart {p : Int} {k : Nat} {log : List Obs} {t : Int} (h : (alive p k log).since = some t) : lastRestart k log = some t :=
  (alive_restart p k log {} (none, none) rfl (by simp)).2 t h

/-- A period counts only after a restart. -/
theorem since_restart {p : Int} {k : Nat} {log : List Obs} {t : Int} (h : (alive p k log).since = some t) : .restart k t ∈ log := by
  suffices hs : ∀ a : Alive, (log.foldl (Alive.next p k) a).pending = some t ∨ (log.foldl (Alive.next p k) a).since = some t →
      a.pending = some t ∨ a.since = some t ∨ .restart k t ∈ log by
    rcases hs {} (.inr h) with h | h | h
    · simp at h
    · simp at h
    · exact h
  clear h
  induction log with
  | nil => intro a h; rcases h with h | h <;> simp_all
  | cons o l ih =>
    intro a h
    rcases ih _ h with h | h | h
    · cases o <;> simp only [Alive.next] at h <;> repeat' split at h
      all_goals simp_all
    · cases o <;> simp only [Alive.next] at h <;> repeat' split at h
      all_goals simp_all
    · simp [h]

/-- Without a restart, a period that does not count will not count. -/
theorem since_none {p : Int} {k : Nat} {l : List Obs} {a : Alive} (h : a.since = none) (hl : .armed k ∉ l) :
    (l.foldl (Alive.next p k) a).since = none := by
  induction l generalizing a with
  | nil => exact h
  | cons o l ih =>
    simp only [List.mem_cons, not_or] at hl
    rw [List.foldl_cons]
    apply ih _ hl.2
    cases o <;> simp only [Alive.next] <;> repeat' split
    all_goals simp_all

theorem getSession_iff {p : Int} {s : State} {log : List Obs} (h : Inv p s log) (k : Nat) :
    s.getSession k = true ↔ .registered k ∈ log ∧ .deleted k ∉ log := by
  have hl := h.life k
  rw [← @mem_only k _ log rfl, ← @mem_only k (.deleted k) log rfl]
  unfold State.getSession
  cases hx : s.sessions k with
  | none =>
    rw [hx] at hl
    have : only k log = [] := life_facts hl
    simp [this]
  | some x =>
    rw [hx] at hl
    have f : Facts k x (only k log) := life_facts hl
    simp only [f.inMap, f.registered, f.deleted, not_or]

/-- What the goroutine of the timer has to do, and what it has done. -/
structure Ticker (s : State) (log : List Obs) : Prop where
  expired : ∀ k, k ∈ s.fired ∨ s.found = some k → ∃ a n ks b, log = a ++ .ticked n ks :: b ∧ k ∈ ks ∧ ∀ n' ks', .ticked n' ks' ∉ b
  timeouts : ∀ l1 k l2, log = l1 ++ .timeout k :: l2 → ∃ a n ks b, l1 = a ++ .ticked n ks :: b ∧ k ∈ ks ∧ ∀ n' ks', .ticked n' ks' ∉ b
  closes : ∀ n ks, .ticked n ks ∈ log → ∀ k ∈ ks, k ∈ s.fired ∨ s.found = some k ∨ .closing k ∈ log

theorem ticker_frame {s s' : State} {log o : List Obs} (h : Ticker s log) (h1 : s'.fired = s.fired) (h2 : s'.found = s.found)
    (ho : ∀ a ∈ o, about a ≠ none ∧ ∀ k, a ≠ .timeout k) : Ticker s' (log ++ o) := by
  have hno : ∀ n ks, Obs.ticked n ks ∉ o := fun n ks hm => (ho _ hm).1 rfl
  constructor
  · intro k hk
    rw [h1, h2] at hk
    obtain ⟨a, n, ks, b, rfl, g1, g2⟩ := h.expired k hk
    exact ⟨a, n, ks, b ++ o, by simp, g1, by simp [g2, hno]⟩
  · intro l1 k l2 he
    rcases List.append_eq_append_iff.1 he with ⟨c, h3, h4⟩ | ⟨c, h3, h4⟩
    · exact absurd rfl ((ho (.timeout k) (by rw [h4]; simp)).2 k)
    · cases c with
      | nil => exact absurd rfl ((ho (.timeout k) (by simp at h4; rw [← h4]; simp)).2 k)
      | cons d c =>
        simp at h4; obtain ⟨rfl, rfl⟩ := h4
        exact h.timeouts l1 k c h3
  · intro n ks hm k hk
    rw [h1, h2]
    have hm : Obs.ticked n ks ∈ log := by
      rcases List.mem_append.1 hm with hm | hm
      · exact hm
      · exact absurd hm (hno n ks)
    rcases h.closes n ks hm k hk with h | h | h
    · exact .inl h
    · exact .inr (.inl h)
    · exact .inr (.inr (by simp [h]))

theorem step_no_timeout {k : Nat} {x x' : Sess} {m : Move} {o : List Obs} (h : x.step k m = some (x', o)) : ∀ a ∈ o, ∀ j, a ≠ .timeout j := by
  cases m <;> simp only [Sess.step, call_recovered, Sess.close] at h
  all_goals
    repeat' split at h
    all_goals first
      | (simp at h; done)
      | (simp only [Option.some.injEq, Prod.mk.injEq] at h; obtain ⟨_, rfl⟩ := h; simp)

theorem step_ticker {p : Int} {s s' : State} {log o : List Obs} {ev : Event} (hi : Inv p s log) (h : Ticker s log) (hs : s.step ev = .ok (s', o)) :
    Ticker s' (log ++ o) := by
  cases ev with
  | accept =>
    simp only [State.step, Res.ok.injEq, Prod.mk.injEq] at hs
    obtain ⟨rfl, rfl⟩ := hs
    exact ticker_frame h rfl rfl (by simp [about])
  | move k m =>
    simp only [State.step] at hs
    split at hs
    · simp only [Res.ok.injEq, Prod.mk.injEq] at hs
      obtain ⟨rfl, rfl⟩ := hs
      simpa using h
    · rename_i x hx
      split at hs
      · simp only [Res.ok.injEq, Prod.mk.injEq] at hs
        obtain ⟨rfl, rfl⟩ := hs
        simpa using h
      · rename_i x' o' hm
        cases ht : s.onTimer (m.timerEvent k) with
        | err e => rw [ht] at hs; simp at hs
        | panic => rw [ht] at hs; simp at hs
        | ok s1 =>
          rw [ht] at hs
          simp only [Res.ok_bind, Res.ok.injEq, Prod.mk.injEq] at hs
          obtain ⟨rfl, rfl⟩ := hs
          have hs1 : s1.fired = s.fired ∧ s1.found = s.found := by
            unfold State.onTimer at ht
            split at ht
            · simp at ht; subst ht; exact ⟨rfl, rfl⟩
            · rename_i e _
              cases hst : s.timer.step e with
              | err e => rw [hst] at ht; simp at ht
              | panic => rw [hst] at ht; simp at ht
              | ok r => rw [hst] at ht; simp at ht; subst ht; exact ⟨rfl, rfl⟩
          exact ticker_frame h hs1.1 hs1.2 fun a ha => ⟨by simp [step_about hm a ha], step_no_timeout hm a ha⟩
  | tick now =>
    simp only [State.step] at hs
    split at hs
    · rename_i hf
      cases hst : s.timer.step (.tick now) with
      | err e => rw [hst] at hs; simp at hs
      | panic => rw [hst] at hs; simp at hs
      | ok r =>
        rw [hst] at hs
        simp only [Res.ok_bind, Res.ok.injEq, Prod.mk.injEq] at hs
        obtain ⟨rfl, rfl⟩ := hs
        constructor
        · intro k hk
          simp only [hf.2, reduceCtorEq, or_false] at hk
          exact ⟨log, now, r.2, [], rfl, hk, by simp⟩
        · intro l1 k l2 he
          rcases List.append_eq_append_iff.1 he with ⟨c, h3, h4⟩ | ⟨c, h3, h4⟩
          · cases c <;> simp at h4
          · cases c with
            | nil => simp at h4
            | cons d c =>
              simp at h4; obtain ⟨rfl, rfl⟩ := h4
              exact h.timeouts l1 k c h3
        · intro n ks hm k hk
          rcases List.mem_append.1 hm with hm | hm
          · rcases h.closes n ks hm k hk with h | h | h
            · rw [hf.1] at h; cases h
            · rw [hf.2] at h; cases h
            · exact .inr (.inr (by simp [h]))
          · simp at hm; obtain ⟨rfl, rfl⟩ := hm
            exact .inl hk
    · simp only [Res.ok.injEq, Prod.mk.injEq] at hs
      obtain ⟨rfl, rfl⟩ := hs
      simpa using h
  | lookup =>
    simp only [State.step] at hs
    split at hs
    · rename_i k ks h1 h2
      simp only [Res.ok.injEq, Prod.mk.injEq] at hs
      obtain ⟨rfl, rfl⟩ := hs
      rw [List.append_nil]
      constructor
      · intro j hj
        apply h.expired
        rw [h1]
        simp only at hj
        rcases hj with hj | hj
        · exact .inl (by simp [hj])
        · split at hj
          · cases hj; exact .inl (by simp)
          · cases hj
      · exact h.timeouts
      · intro n ks' hm j hj
        rcases h.closes n ks' hm j hj with g | g | g
        · rw [h1] at g
          rcases List.mem_cons.1 g with rfl | g
          · by_cases hg : s.getSession j = true
            · exact .inr (.inl (by simp [hg]))
            · right; right
              -- it has a period, so it was registered; hence it has been deleted, hence closed
              obtain ⟨l1, l2, rfl⟩ := List.append_of_mem hm
              obtain ⟨t, ht, _⟩ := (hi.ticks l1 n ks' l2 rfl j).1 hj
              have hr := since_restart ht
              have hr : Obs.restart j t ∈ only j (l1 ++ .ticked n ks' :: l2) := (mem_only rfl).2 (by simp [hr])
              have hl := hi.life j
              rw [← @mem_only j _ _ rfl]
              generalize only j (l1 ++ .ticked n ks' :: l2) = l at *
              simp only [State.getSession] at hg
              cases hx : s.sessions j with
              | none =>
                rw [hx] at hl
                have : l = [] := life_facts hl
                simp [this] at hr
              | some x =>
                rw [hx] at hl
                have f : Facts j x l := life_facts hl
                simp only [hx] at hg
                rw [f.closing, f.closed]
                intro hc
                exact hg (f.inMap.2 ⟨f.restarts t hr, by simp [hc], by simp [hc], by simp [hc]⟩)
          · exact .inl g
        · rw [h2] at g; cases g
        · exact .inr (.inr g)
    · simp only [Res.ok.injEq, Prod.mk.injEq] at hs
      obtain ⟨rfl, rfl⟩ := hs
      simpa using h
  | closeFound =>
    simp only [State.step] at hs
    cases hf : s.found with
    | none =>
      simp only [hf, Res.ok.injEq, Prod.mk.injEq] at hs
      obtain ⟨rfl, rfl⟩ := hs
      simpa using h
    | some k =>
      simp only [hf, Res.ok.injEq, Prod.mk.injEq] at hs
      obtain ⟨rfl, rfl⟩ := hs
      have hno : ∀ a ∈ (s.close k).2, a = .closing k := by
        unfold State.close Sess.close
        repeat' split
        all_goals simp
      have hfired : (s.close k).1.fired = s.fired := by
        unfold State.close State.put; split <;> rfl
      constructor
      · intro j hj
        simp only [hfired, reduceCtorEq, or_false] at hj
        obtain ⟨a, n, ks, b, rfl, g1, g2⟩ := h.expired j (.inl hj)
        refine ⟨a, n, ks, b ++ .timeout k :: (s.close k).2, by simp, g1, ?_⟩
        intro n' ks' hm
        rcases List.mem_append.1 hm with hm | hm
        · exact g2 _ _ hm
        · rcases List.mem_cons.1 hm with hm | hm
          · cases hm
          · cases hno _ hm
      · intro l1 j l2 he
        rcases List.append_eq_append_iff.1 he with ⟨c, h3, h4⟩ | ⟨c, h3, h4⟩
        · cases c with
          | nil =>
            simp at h4; obtain ⟨rfl, _⟩ := h4
            simp at h3; subst h3
            exact h.expired k (.inr hf)
          | cons d c =>
            simp at h4
            have := hno (.timeout j) (by rw [h4.2]; simp)
            cases this
        · cases c with
          | nil =>
            simp at h4; obtain ⟨rfl, _⟩ := h4
            simp at h3; subst h3
            exact h.expired j (.inr hf)
          | cons d c =>
            simp at h4; obtain ⟨rfl, rfl⟩ := h4
            exact h.timeouts l1 j c h3
      · intro n ks hm j hj
        have hm : Obs.ticked n ks ∈ log := by
          rcases List.mem_append.1 hm with hm | hm
          · exact hm
          · rcases List.mem_cons.1 hm with hm | hm
            · cases hm
            · cases hno _ hm
        rcases h.closes n ks hm j hj with g | g | g
        · exact .inl (by simpa [hfired] using g)
        · right; right
          rw [hf] at g; cases g
          have hl := hi.life k
          cases hx : s.sessions k with
          | none => exact absurd hx (hi.found k hf)
          | some x =>
            rw [hx] at hl
            have f : Facts k x (only k log) := life_facts hl
            simp only [State.close, hx, Sess.close]
            split
            · rename_i hc
              have := (@mem_only k (.closing k) log rfl).1 (f.closing.2 hc)
              simp [this]
            · simp
        · exact .inr (.inr (by simp [g]))

theorem run_ticker {p : Int} {s s' : State} {log o : List Obs} {evs : List Event} (hi : Inv p s log) (h : Ticker s log)
    (hs : s.run evs = .ok (s', o)) : Ticker s' (log ++ o) := by
  induction evs generalizing s log o with
  | nil =>
    simp only [State.run, Res.ok.injEq, Prod.mk.injEq] at hs
    obtain ⟨rfl, rfl⟩ := hs
    simpa using h
  | cons e es ih =>
    obtain ⟨s1, o1, h1, h2⟩ := step_inv hi e
    obtain ⟨s2, o2, h3, _⟩ := run_inv h2 es
    simp only [State.run, h1, h3, Res.ok_bind, Res.ok.injEq, Prod.mk.injEq] at hs
    obtain ⟨rfl, rfl⟩ := hs
    rw [← List.append_assoc]
    exact ih h2 (step_ticker hi h h1) h3

theorem ticker_new {ka : Int} {key : Option Nat} {s : State} (h : newServer ka key = .ok s) : Ticker s [] := by
  have hs : s.fired = [] ∧ s.found = none := by
    unfold newServer at h
    cases key with
    | none => simp at h; subst h; exact ⟨rfl, rfl⟩
    | some n =>
      simp only at h
      split at h
      · cases h
      · simp at h; subst h; exact ⟨rfl, rfl⟩
  constructor <;> simp [hs]

/-- A session whose closing goroutine found no callback. -/
def Orphan (s : State) (k : Nat) : Prop := k ≤ s.count ∧ ∃ x, s.sessions k = some x ∧ x.closer = .skipped ∧ x.closed = true ∧ x.inMap = true ∧ x.place ≠ .accepted

theorem orphan_local {k : Nat} {x x' : Sess} {m : Move} {o : List Obs} (h : x.step k m = some (x', o)) (h1 : x.closer = .skipped)
    (h2 : x.closed = true) (h3 : x.inMap = true) (h4 : x.place ≠ .accepted) :
    (x'.closer = .skipped ∧ x'.closed = true ∧ x'.inMap = true ∧ x'.place ≠ .accepted) ∧ .closeHandler k ∉ o := by
  cases m <;> simp only [Sess.step, call_recovered, Sess.close, h1, h2] at h
  all_goals
    repeat' split at h
    all_goals first
      | (simp at h; done)
      | (simp only [Option.some.injEq, Prod.mk.injEq] at h; obtain ⟨rfl, rfl⟩ := h; simp_all; done)
      | (simp at *; done)

theorem orphan_step {p : Int} {s s' : State} {log o : List Obs} {ev : Event} {k : Nat} (hi : Inv p s log) (h : Orphan s k) (hs : s.step ev = .ok (s', o)) :
    Orphan s' k ∧ .closeHandler k ∉ o := by
  obtain ⟨hk, x, hx, h1, h2, h3, h4⟩ := h
  cases ev with
  | accept =>
    simp only [State.step, Res.ok.injEq, Prod.mk.injEq] at hs
    obtain ⟨rfl, rfl⟩ := hs
    refine ⟨⟨Nat.le_succ_of_le hk, x, ?_, h1, h2, h3, h4⟩, by simp⟩
    simp [State.put, hx, show k ≠ s.count + 1 by omega]
  | move j m =>
    simp only [State.step] at hs
    split at hs
    · simp only [Res.ok.injEq, Prod.mk.injEq] at hs
      obtain ⟨rfl, rfl⟩ := hs
      exact ⟨⟨hk, x, hx, h1, h2, h3, h4⟩, by simp⟩
    · rename_i y hy
      split at hs
      · simp only [Res.ok.injEq, Prod.mk.injEq] at hs
        obtain ⟨rfl, rfl⟩ := hs
        exact ⟨⟨hk, x, hx, h1, h2, h3, h4⟩, by simp⟩
      · rename_i y' o' hm
        cases ht : s.onTimer (m.timerEvent j) with
        | err e => rw [ht] at hs; simp at hs
        | panic => rw [ht] at hs; simp at hs
        | ok s1 =>
          rw [ht] at hs
          simp only [Res.ok_bind, Res.ok.injEq, Prod.mk.injEq] at hs
          obtain ⟨rfl, rfl⟩ := hs
          have hs1 : s1.count = s.count ∧ s1.sessions = s.sessions := by
            unfold State.onTimer at ht
            split at ht
            · simp at ht; subst ht; exact ⟨rfl, rfl⟩
            · rename_i e _
              cases hst : s.timer.step e with
              | err e => rw [hst] at ht; simp at ht
              | panic => rw [hst] at ht; simp at ht
              | ok r => rw [hst] at ht; simp at ht; subst ht; exact ⟨rfl, rfl⟩
          by_cases hj : k = j
          · subst hj
            rw [hx] at hy; cases hy
            obtain ⟨g, g'⟩ := orphan_local hm h1 h2 h3 h4
            exact ⟨⟨by simpa [State.put, hs1.1] using hk, y', by simp [State.put], g⟩, g'⟩
          · refine ⟨⟨by simpa [State.put, hs1.1] using hk, x, by simp [State.put, hj, hs1.2, hx], h1, h2, h3, h4⟩, ?_⟩
            intro hm'
            have := step_about hm _ hm'
            simp [about] at this; exact hj this
  | tick now =>
    simp only [State.step] at hs
    split at hs
    · cases hst : s.timer.step (.tick now) with
      | err e => rw [hst] at hs; simp at hs
      | panic => rw [hst] at hs; simp at hs
      | ok r =>
        rw [hst] at hs
        simp only [Res.ok_bind, Res.ok.injEq, Prod.mk.injEq] at hs
        obtain ⟨rfl, rfl⟩ := hs
        exact ⟨⟨hk, x, hx, h1, h2, h3, h4⟩, by simp⟩
    · simp only [Res.ok.injEq, Prod.mk.injEq] at hs
      obtain ⟨rfl, rfl⟩ := hs
      exact ⟨⟨hk, x, hx, h1, h2, h3, h4⟩, by simp⟩
  | lookup =>
    simp only [State.step] at hs
    split at hs <;>
    · simp only [Res.ok.injEq, Prod.mk.injEq] at hs
      obtain ⟨rfl, rfl⟩ := hs
      exact ⟨⟨hk, x, hx, h1, h2, h3, h4⟩, by simp⟩
  | closeFound =>
    simp only [State.step] at hs
    split at hs
    · rename_i j hf
      simp only [Res.ok.injEq, Prod.mk.injEq] at hs
      obtain ⟨rfl, rfl⟩ := hs
      cases hy : s.sessions j with
      | none => exact absurd hy (hi.found j hf)
      | some y =>
        simp only [State.close, hy]
        refine ⟨⟨hk, ?_⟩, ?_⟩
        · by_cases hj : k = j
          · subst hj
            rw [hx] at hy; cases hy
            exact ⟨x, by simp [State.put, Sess.close, h2], h1, h2, h3, h4⟩
          · exact ⟨x, by simp [State.put, hj, hx], h1, h2, h3, h4⟩
        · unfold Sess.close; split <;> simp
    · simp only [Res.ok.injEq, Prod.mk.injEq] at hs
      obtain ⟨rfl, rfl⟩ := hs
      exact ⟨⟨hk, x, hx, h1, h2, h3, h4⟩, by simp⟩

theorem orphan_run {p : Int} {s s' : State} {log o : List Obs} {evs : List Event} {k : Nat} (hi : Inv p s log) (h : Orphan s k)
    (hs : s.run evs = .ok (s', o)) : Orphan s' k ∧ .closeHandler k ∉ o := by
  induction evs generalizing s log o with
  | nil =>
    simp only [State.run, Res.ok.injEq, Prod.mk.injEq] at hs
    obtain ⟨rfl, rfl⟩ := hs
    exact ⟨h, by simp⟩
  | cons e es ih =>
    obtain ⟨s1, o1, h1, h2⟩ := step_inv hi e
    obtain ⟨s2, o2, h3, _⟩ := run_inv h2 es
    simp only [State.run, h1, h3, Res.ok_bind, Res.ok.injEq, Prod.mk.injEq] at hs
    obtain ⟨rfl, rfl⟩ := hs
    obtain ⟨g1, g2⟩ := orphan_step hi h h1
    obtain ⟨g3, g4⟩ := ih h2 g1 h3
    exact ⟨g3, by simp [g2, g4]⟩

end Verif.Server
