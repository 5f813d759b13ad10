import Verif.Spec.StopFair
import Verif.Lemmas.Endless
import Verif.Lemmas.Shutdown
/-! # Lemmas: `Stop` in the long run -/

namespace Verif.Server

/-- How far the goroutine that closes a session is. -/
def Closer.rank : Closer → Nat
  | .idle => 0
  | .started => 1
  | .deleting => 2
  | .removing => 3
  | .handling => 4
  | .done => 5
  | .skipped => 5

/-- The same for session `k`. -/
def rankOf (s : State) (k : Nat) : Nat :=
  match s.sessions k with
  | some x => x.closer.rank
  | none => 0

theorem rank_close (k : Nat) (x : Sess) (hx : x.closed = false → x.closer = .idle) : x.closer.rank ≤ (x.close k).1.closer.rank := by
  unfold Sess.close
  split
  · exact Nat.le_refl _
  · rename_i h
    rw [hx (by simpa using h)]
    exact Nat.zero_le _

theorem rank_sess {k : Nat} {x x' : Sess} {m : Move} {o : List Obs} (hx : x.closed = false → x.closer = .idle) (h : x.step k m = some (x', o)) :
    x.closer.rank ≤ x'.closer.rank := by
  cases m with
  | leave =>
    simp only [Sess.step] at h
    split at h
    · cases h; exact rank_close k x hx
    · cases h
  | close =>
    simp only [Sess.step, Option.some.injEq] at h
    have := rank_close k x hx
    rwa [h] at this
  | handler u =>
    simp only [Sess.step, call_recovered] at h
    split at h
    · rename_i hc; cases h; rw [hc]; exact Nat.le_succ _
    · cases h
  | callbacks =>
    simp only [Sess.step] at h
    (repeat' split at h) <;> cases h <;> simp_all [Closer.rank]
  | _ =>
    simp only [Sess.step] at h
    (repeat' split at h) <;> cases h <;> simp_all [Closer.rank]

theorem onTimer_sessions {s t : State} {e : Option (Timer.Event Nat)} (h : s.onTimer e = .ok t) : t.sessions = s.sessions ∧ t.count = s.count := by
  cases e with
  | none => cases h; exact ⟨rfl, rfl⟩
  | some e =>
    unfold State.onTimer at h
    obtain ⟨⟨a, b⟩, h1, h2⟩ := Res.bind_ok h
    cases h2
    exact ⟨rfl, rfl⟩

/-- The goroutine that closes a session never goes back. -/
theorem rank_step {p : Int} {s t : State} {log : List Obs} {e : Event} {o : List Obs} (hi : Inv p s log) (h : s.step e = .ok (t, o)) (k : Nat) :
    rankOf s k ≤ rankOf t k := by
  have idle : ∀ k x, s.sessions k = some x → x.closed = false → x.closer = .idle := by
    intro k x hx hc
    have hl := hi.life k
    rw [hx] at hl
    have f : Facts k x _ := life_facts hl
    cases hcl : x.closer with
    | idle => rfl
    | _ => rw [f.closed.2 (by rw [hcl]; simp)] at hc; cases hc
  have close : ∀ j, rankOf s k ≤ rankOf (s.close j).1 k := by
    intro j
    unfold State.close
    cases hx : s.sessions j with
    | none => exact Nat.le_refl _
    | some x =>
      by_cases hj : k = j
      · subst hj
        simp only [rankOf, State.put, hx, if_true]
        exact rank_close k x (idle k x hx)
      · simp [rankOf, State.put, hj]
  cases e with
  | accept =>
    cases h
    by_cases hk : k = s.count + 1
    · have : s.sessions k = none := by
        cases hx : s.sessions k with
        | none => rfl
        | some x => have := (hi.ids k (by rw [hx]; simp)).2; omega
      simp [rankOf, this]
    · simp [rankOf, State.put, hk]
  | move j m =>
    simp only [State.step] at h
    split at h
    · cases h; exact Nat.le_refl _
    · rename_i x hx
      split at h
      · cases h; exact Nat.le_refl _
      · rename_i x' o' hst
        obtain ⟨s1, h1, h2⟩ := Res.bind_ok h
        cases h2
        obtain ⟨e1, -⟩ := onTimer_sessions h1
        by_cases hj : k = j
        · subst hj
          simp only [rankOf, State.put, hx, if_true]
          exact rank_sess (idle k x hx) hst
        · simp [rankOf, State.put, hj, e1]
  | tick now =>
    simp only [State.step] at h
    split at h
    · obtain ⟨⟨a, b⟩, h1, h2⟩ := Res.bind_ok h
      cases h2
      exact Nat.le_refl _
    · cases h; exact Nat.le_refl _
  | lookup =>
    simp only [State.step] at h
    split at h <;> cases h <;> exact Nat.le_refl _
  | closeFound =>
    simp only [State.step] at h
    split at h
    · cases h; exact close _
    · cases h; exact Nat.le_refl _

theorem rank_run {p : Int} {s t : State} {log : List Obs} {es : List Event} {o : List Obs} (hi : Inv p s log) (h : s.run es = .ok (t, o)) (k : Nat) :
    rankOf s k ≤ rankOf t k := by
  induction es generalizing s log o with
  | nil => cases h; exact Nat.le_refl _
  | cons e es ih =>
    rw [State.run] at h
    obtain ⟨⟨t1, y⟩, h1, h2⟩ := Res.bind_ok h
    obtain ⟨⟨u, z⟩, h3, h4⟩ := Res.bind_ok h2
    cases h4
    obtain ⟨s1, o1, g1, g2⟩ := step_inv hi e
    rw [h1] at g1
    cases g1
    exact Nat.le_trans (rank_step hi h1 k) (ih g2 h3)

theorem rank_le (s : State) (k : Nat) : rankOf s k ≤ 5 := by
  unfold rankOf
  split
  · rename_i x _; cases x.closer <;> decide
  · omega

/-- What the goroutine does next. -/
def Turn (r : Nat) : Move → Prop
  | .callbacks => r = 1
  | .delete => r = 2
  | .remove => r = 3
  | .handler _ => r = 4
  | _ => False

theorem rank_move {s t : State} {k : Nat} {m : Move} {o : List Obs} (hm : Turn (rankOf s k) m) (h : s.step (.move k m) = .ok (t, o)) :
    rankOf s k < rankOf t k := by
  simp only [State.step] at h
  unfold rankOf at hm ⊢
  cases hx : s.sessions k with
  | none => rw [hx] at hm; cases m <;> simp [Turn] at hm
  | some x =>
    rw [hx] at hm h
    simp only at hm h ⊢
    cases m <;> simp only [Turn] at hm
    all_goals
      cases hc : x.closer <;> simp [hc, Closer.rank] at hm
      simp only [Sess.step, hc, if_true, call_recovered] at h
    · cases ha : x.attached
      all_goals
        simp only [ha, Bool.false_eq_true, if_true, if_false] at h
        obtain ⟨s1, h1, h2⟩ := Res.bind_ok h
        cases h2
        simp [State.put, Closer.rank]
    all_goals
      obtain ⟨s1, h1, h2⟩ := Res.bind_ok h
      cases h2
      simp [State.put, Closer.rank]

end Verif.Server

namespace Verif.Shutdown
open Handler Session Spec Spec.Stop
variable {env : Env} {key : Option DecKey} {endErr : Err} {auto : Bool}

theorem rank_step {p : Int} {s t : State} {log x : List Obs} {e : Event} (hi : Inv p s log) (h : s.step env key endErr auto e = .ok (t, x)) (k : Nat) :
    Server.rankOf s.world.server k ≤ Server.rankOf t.world.server k := by
  obtain ⟨es, h1⟩ := world_step h
  obtain ⟨es', h2⟩ := World.server_run h1
  exact Server.rank_run hi.good.server h2 k

theorem rank_move {s t : State} {x : List Obs} {k : Nat} {m : Server.Move} (hm : Server.Turn (Server.rankOf s.world.server k) m)
    (h : s.step env key endErr auto (.world (.move k m)) = .ok (t, x)) : Server.rankOf s.world.server k < Server.rankOf t.world.server k := by
  have h1 : s.onWorld env key endErr auto (.move k m) = .ok (t, x) := h
  obtain ⟨w, y, h2, rfl, rfl⟩ := onWorld_inv h1
  have h3 : s.world.onServer (.move k m) = .ok (w, y) := by
    cases m <;> first | exact h2 | exact absurd hm (by simp [Server.Turn])
  unfold World.State.onServer at h3
  obtain ⟨⟨v, o⟩, h4, h5⟩ := Res.bind_ok h3
  cases h5
  exact Server.rank_move hm h4

theorem rank_returned {s : Server.State} {k : Nat} : closeReturned s k = true ↔ Server.rankOf s k = 5 := by
  unfold closeReturned Server.rankOf
  cases s.sessions k with
  | none => simp
  | some x => cases hc : x.closer <;> simp [hc, Server.Closer.rank]

theorem rank_closed {p : Int} {s : State} {log : List Obs} (hi : Inv p s log) {k : Nat} (hk : closed k ∈ log) : 1 ≤ Server.rankOf s.world.server k := by
  have hc := (hi.good.closed k).2 (mem_world.2 hk)
  unfold World.isClosed at hc
  have hl := hi.good.server.life k
  unfold Server.rankOf
  cases hx : s.world.server.sessions k with
  | none => simp [hx] at hc
  | some x =>
    rw [hx] at hl
    simp only [hx] at hc
    have f : Server.Facts k x _ := Server.life_facts hl
    have hne := f.closed.1 hc
    cases hcl : x.closer <;> simp [hcl, Server.Closer.rank] at hne ⊢

/-- How the phase and the maps change. -/
theorem phase_cases {s s' : State} {e : Event} {x : List Obs} (h : s.step env key endErr auto e = .ok (s', x)) :
    (∀ i, s.phase = .between i → s'.phase = .between i ∨ (i < maps ∧ ∃ left, s'.phase = .closing i left) ∨ (maps ≤ i ∧ s'.phase = .waiting)) ∧
    (∀ i left, s.phase = .closing i left → s'.phase = .closing i left ∨ (∃ k ∈ left, s'.phase = .closing i (left.filter (· ≠ k))) ∨ (left = [] ∧ s'.phase = .between (i + 1))) ∧
    (s.phase = .waiting → s'.phase = .returned ∨ (s'.phase = .waiting ∧ (s'.held = s.held ∨ ∃ k, s'.held = s.held.filter (· ≠ k)))) := by
  have done {s s' : State} (h : s'.phase = s.phase) (h' : s.phase = .waiting → s'.held = s.held) :
      (∀ i, s.phase = .between i → s'.phase = .between i ∨ (i < maps ∧ ∃ left, s'.phase = .closing i left) ∨ (maps ≤ i ∧ s'.phase = .waiting)) ∧
      (∀ i left, s.phase = .closing i left → s'.phase = .closing i left ∨ (∃ k ∈ left, s'.phase = .closing i (left.filter (· ≠ k))) ∨ (left = [] ∧ s'.phase = .between (i + 1))) ∧
      (s.phase = .waiting → s'.phase = .returned ∨ (s'.phase = .waiting ∧ (s'.held = s.held ∨ ∃ k, s'.held = s.held.filter (· ≠ k)))) := by
    rw [h]
    exact ⟨fun i hi => .inl hi, fun i l hi => .inl hi, fun hi => .inr ⟨hi, .inl (h' hi)⟩⟩
  have one {s s' : State} {e : World.Event} {x : List Obs} (h : s.onWorld env key endErr auto e = .ok (s', x)) : s'.phase = s.phase ∧ s'.held = s.held := by
    obtain ⟨w, y, -, rfl, rfl⟩ := onWorld_inv h
    exact ⟨rfl, rfl⟩
  cases e with
  | connect => simp only [State.step] at h; split at h <;> cases h <;> exact done rfl fun _ => rfl
  | enter =>
    simp only [State.step] at h
    split at h
    · cases h; exact done rfl fun _ => rfl
    · unfold State.enter at h
      obtain ⟨⟨t, y⟩, h1, h2⟩ := Res.bind_ok h
      obtain ⟨g1, g2⟩ := one h1
      simp only at h2
      split at h2
      · obtain ⟨⟨t, y⟩, h4, h5⟩ := Res.bind_ok h2
        obtain ⟨g3, g4⟩ := one h4
        cases h5
        exact done (g3.trans g1) fun _ => g4.trans g2
      · rename_i hm
        cases h2
        exact done g1 fun hw => absurd (by rw [hw]; rfl) hm
  | release k =>
    simp only [State.step] at h
    split at h
    · cases h
      exact ⟨fun i hi => .inl hi, fun i l hi => .inl hi, fun hi => .inr ⟨hi, .inr ⟨k, rfl⟩⟩⟩
    · cases h; exact done rfl fun _ => rfl
  | stop =>
    simp only [State.step] at h
    split at h
    · rename_i hs
      cases h
      rw [hs]
      refine ⟨?_, ?_, ?_⟩ <;> simp
    · cases h; exact done rfl fun _ => rfl
  | lock =>
    simp only [State.step] at h
    split at h
    · rename_i i hs
      rw [hs]
      split at h <;> cases h
      · refine ⟨?_, by simp, by simp⟩
        intro j hj
        cases hj
        exact .inr (.inl ⟨‹_›, _, rfl⟩)
      · refine ⟨?_, by simp, by simp⟩
        intro j hj
        cases hj
        exact .inr (.inr ⟨by omega, rfl⟩)
    · cases h; exact done rfl fun _ => rfl
  | closeNext k =>
    simp only [State.step] at h
    split at h
    · rename_i i left hs
      split at h
      · rename_i hk
        obtain ⟨⟨t, y⟩, h1, h2⟩ := Res.bind_ok h
        cases h2
        rw [hs]
        refine ⟨by simp, ?_, by simp⟩
        intro j l hj
        cases hj
        exact .inr (.inl ⟨k, hk, rfl⟩)
      · cases h; exact done rfl fun _ => rfl
    · cases h; exact done rfl fun _ => rfl
  | unlock =>
    simp only [State.step] at h
    split at h
    · rename_i i hs
      cases h
      rw [hs]
      refine ⟨by simp, ?_, by simp⟩
      intro j l hj
      cases hj
      exact .inr (.inr ⟨rfl, rfl⟩)
    · cases h; exact done rfl fun _ => rfl
  | finish =>
    simp only [State.step] at h
    split at h
    · rename_i hs
      cases h
      rw [hs.1]
      exact ⟨by simp, by simp, fun _ => .inl rfl⟩
    · cases h; exact done rfl fun _ => rfl
  | world e =>
    cases e with
    | accept => cases h; exact done rfl fun _ => rfl
    | _ => exact done (one h).1 fun _ => (one h).2

/-- A run without end: the states and what was observed before each event. -/
structure Endless (env : Env) (key : Option DecKey) (endErr : Err) (auto : Bool) (p : Int) (ev : Nat → Event) (st : Nat → State) (log : Nat → List Obs) : Prop where
  inv : ∀ n, Inv p (st n) (log n)
  tally : ∀ n, Tally (st n) (log n)
  step : ∀ n, ∃ x, (st n).step env key endErr auto (ev n) = .ok (st (n + 1), x) ∧ log (n + 1) = log n ++ x

variable {p : Int} {ev : Nat → Event} {st : Nat → State} {log : Nat → List Obs}

theorem Endless.mono (h : Endless env key endErr auto p ev st log) {o : Obs} {n m : Nat} (hm : n ≤ m) (ho : o ∈ log n) : o ∈ log m := by
  obtain ⟨d, rfl⟩ : ∃ d, m = n + d := ⟨m - n, by omega⟩
  clear hm
  induction d with
  | zero => exact ho
  | succ d ih =>
    obtain ⟨x, -, hx⟩ := h.step (n + d)
    rw [← Nat.add_assoc, hx]
    exact List.mem_append_left _ ih

/-- The goroutine that closes a session comes to its end. -/
theorem Endless.closes (h : Endless env key endErr auto p ev st log) (hf : Fair ev) {k : Nat} {n : Nat} (hk : closed k ∈ log n) :
    ∃ m, n ≤ m ∧ closeReturned (st m).world.server k = true := by
  simp only [rank_returned]
  have go : ∀ r d, r + d = 5 → ∀ n, closed k ∈ log n → Server.rankOf (st n).world.server k = r → ∃ m, n ≤ m ∧ Server.rankOf (st m).world.server k = 5 := by
    intro r d
    induction d using Nat.strongRecOn generalizing r with
    | ind d ih =>
      intro hr n hk hn
      by_cases h5 : r = 5
      · exact ⟨n, Nat.le_refl _, by rw [hn, h5]⟩
      · have h1 := rank_closed (h.inv n) hk
        rw [hn] at h1
        obtain ⟨q, hq, hturn⟩ : ∃ q : Event → Prop, Again ev q ∧ ∀ e, q e → ∃ m, e = .world (.move k m) ∧ Server.Turn r m := by
          obtain rfl | rfl | rfl | rfl : r = 1 ∨ r = 2 ∨ r = 3 ∨ r = 4 := by omega
          · exact ⟨_, hf.callbacks k, fun e he => ⟨_, he, rfl⟩⟩
          · exact ⟨_, hf.delete k, fun e he => ⟨_, he, rfl⟩⟩
          · exact ⟨_, hf.remove k, fun e he => ⟨_, he, rfl⟩⟩
          · exact ⟨_, hf.handler k, fun e ⟨u, he⟩ => ⟨_, he, rfl⟩⟩
        obtain ⟨m, g1, g2⟩ := hq.until (Q := fun i => Server.rankOf (st i).world.server k = r) (R := fun i => r < Server.rankOf (st i).world.server k) hn
          (by
            intro i _ hi
            obtain ⟨x, hx, -⟩ := h.step i
            have := rank_step (h.inv i) hx k
            rw [hi] at this
            rcases Nat.lt_or_eq_of_le this with g | g
            · exact .inr g
            · exact .inl g.symm)
          (by
            intro i _ hi he
            obtain ⟨x, hx, -⟩ := h.step i
            obtain ⟨mv, e1, e2⟩ := hturn _ he
            rw [e1] at hx
            have := rank_move (by rw [hi]; exact e2) hx
            rwa [hi] at this)
        have g3 := Server.rank_le (st m).world.server k
        obtain ⟨m', g4, g5⟩ := ih (5 - Server.rankOf (st m).world.server k) (by omega) _ (by omega) m (h.mono g1 hk) rfl
        exact ⟨m', by omega, g5⟩
  have := Server.rank_le (st n).world.server k
  exact go _ (5 - Server.rankOf (st n).world.server k) (by omega) n hk rfl

theorem Endless.stays (h : Endless env key endErr auto p ev st log) {n m : Nat} (hm : n ≤ m) (hw : (st n).phase = .waiting) :
    (st m).phase = .returned ∨ ((st m).phase = .waiting ∧ (st m).held.length ≤ (st n).held.length) := by
  obtain ⟨d, rfl⟩ : ∃ d, m = n + d := ⟨m - n, by omega⟩
  clear hm
  induction d with
  | zero => exact .inr ⟨hw, Nat.le_refl _⟩
  | succ d ih =>
    obtain ⟨x, hx, -⟩ := h.step (n + d)
    rcases ih with g | ⟨g1, g2⟩
    · exact .inl ((phase_step hx).2 g)
    · rcases (phase_cases hx).2.2 g1 with g | ⟨g3, g4 | ⟨k, g4⟩⟩
      · exact .inl g
      · exact .inr ⟨g3, by rw [← Nat.add_assoc, g4]; exact g2⟩
      · exact .inr ⟨g3, by rw [← Nat.add_assoc, g4]; exact Nat.le_trans (List.length_filter_le _ _) g2⟩

/-- When it waits, it returns at some time. -/
theorem Endless.returns (h : Endless env key endErr auto p ev st log) (hf : Fair ev) {n : Nat} (hw : (st n).phase = .waiting) : ∃ m, n ≤ m ∧ (st m).phase = .returned := by
  generalize hl : (st n).held.length = l
  induction l using Nat.strongRecOn generalizing n with
  | ind l ih =>
    cases hh : (st n).held with
    | nil =>
      refine hf.finish.until (Q := fun i => (st i).phase = .waiting ∧ (st i).held = []) ⟨hw, hh⟩ ?_ ?_
      · rintro i - ⟨h1, h2⟩
        obtain ⟨x, hx, -⟩ := h.step i
        rcases (phase_cases hx).2.2 h1 with g | ⟨g3, g4 | ⟨k, g4⟩⟩
        · exact .inr g
        · exact .inl ⟨g3, by rw [g4, h2]⟩
        · exact .inl ⟨g3, by rw [g4, h2]; rfl⟩
      · rintro i - ⟨h1, h2⟩ he
        obtain ⟨x, hx, -⟩ := h.step i
        rw [he] at hx
        simp only [State.step, h1, h2, and_self, if_true, Res.ok.injEq, Prod.mk.injEq] at hx
        rw [← hx.1]
    | cons k held =>
      have hk : closed k ∈ log n := by
        rcases (h.inv n).marked k ((h.tally n).held k (by simp [hh])) (by rw [hw]; rfl) with g | ⟨i, l, g, -⟩
        · exact g
        · rw [hw] at g; cases g
      obtain ⟨m, h1, h2⟩ := h.closes hf hk
      rcases h.stays h1 hw with g | ⟨g1, g2⟩
      · exact ⟨m, h1, g⟩
      · obtain ⟨m', h3, h4⟩ : ∃ m', m ≤ m' ∧ ((st m').phase = .returned ∨ ((st m').phase = .waiting ∧ (st m').held.length < l)) := by
          by_cases hlt : (st m).held.length < l
          · exact ⟨m, Nat.le_refl _, .inr ⟨g1, hlt⟩⟩
          · by_cases hkm : k ∈ (st m).held
            · refine (hf.release k).until (Q := fun i => (st i).phase = .waiting ∧ (st i).held.length ≤ l ∧ k ∈ (st i).held ∧ closeReturned (st i).world.server k = true)
                ⟨g1, by omega, hkm, h2⟩ ?_ ?_
              · rintro i - ⟨a1, a2, a3, a4⟩
                obtain ⟨x, hx, -⟩ := h.step i
                have a5 : closeReturned (st (i + 1)).world.server k = true := by
                  have b1 := rank_step (h.inv i) hx k
                  have b2 := Server.rank_le (st (i + 1)).world.server k
                  rw [rank_returned] at a4 ⊢
                  omega
                rcases (phase_cases hx).2.2 a1 with g | ⟨g3, g4 | ⟨j, g4⟩⟩
                · exact .inr (.inl g)
                · exact .inl ⟨g3, by rw [g4]; exact a2, by rw [g4]; exact a3, a5⟩
                · by_cases hj : k = j
                  · refine .inr (.inr ⟨g3, ?_⟩)
                    rw [g4]
                    refine Nat.lt_of_lt_of_le (List.length_filter_lt_length_iff_exists.2 ⟨k, a3, by simp [hj]⟩) a2
                  · exact .inl ⟨g3, by rw [g4]; exact Nat.le_trans (List.length_filter_le _ _) a2, by rw [g4]; exact List.mem_filter.2 ⟨a3, by simpa using hj⟩, a5⟩
              · rintro i - ⟨a1, a2, a3, a4⟩ he
                obtain ⟨x, hx, -⟩ := h.step i
                rw [he] at hx
                simp only [State.step, a1, a4, Phase.locked, and_self, if_true] at hx
                simp only [Res.ok.injEq, Prod.mk.injEq] at hx
                rw [← hx.1]
                exact .inr ⟨rfl, Nat.lt_of_lt_of_le (List.length_filter_lt_length_iff_exists.2 ⟨k, a3, by simp⟩) a2⟩
            · exfalso
              -- the maps only shrink, and `k` is gone
              have hsub : ∀ d, (st (n + d)).phase = .waiting → (∀ j ∈ (st (n + d)).held, j ∈ (st n).held) ∧ ((st (n + d)).held.length = l → (st (n + d)).held = (st n).held) := by
                intro d
                induction d with
                | zero => intro _; exact ⟨fun j hj => hj, fun _ => rfl⟩
                | succ d ihd =>
                  intro hp
                  have hp' : (st (n + d)).phase = .waiting ∧ (st (n + d)).held.length ≤ l := by
                    rcases h.stays (show n ≤ n + d by omega) hw with g | ⟨g, g'⟩
                    · obtain ⟨x, hx, -⟩ := h.step (n + d)
                      have := (phase_step hx).2 g
                      rw [← Nat.add_assoc] at hp
                      rw [hp] at this
                      cases this
                    · exact ⟨g, by omega⟩
                  obtain ⟨q1, q2⟩ := ihd hp'.1
                  obtain ⟨x, hx, -⟩ := h.step (n + d)
                  rcases (phase_cases hx).2.2 hp'.1 with g | ⟨-, g4 | ⟨j, g4⟩⟩
                  · rw [← Nat.add_assoc, g] at hp; cases hp
                  · rw [← Nat.add_assoc, g4]; exact ⟨q1, q2⟩
                  · rw [← Nat.add_assoc, g4]
                    refine ⟨fun j hj => q1 j (List.mem_filter.1 hj).1, fun hlen => ?_⟩
                    have hfull : (st (n + d)).held.length = l := Nat.le_antisymm hp'.2 (by rw [← hlen]; exact List.length_filter_le _ _)
                    rw [← q2 hfull]
                    exact List.filter_eq_self.2 (List.length_filter_eq_length_iff.1 (by rw [hlen, hfull]))
              have := (hsub (m - n) (by rw [show n + (m - n) = m by omega]; exact g1)).2 (by rw [show n + (m - n) = m by omega]; omega)
              rw [show n + (m - n) = m by omega] at this
              rw [this, hh] at hkm
              simp at hkm
        rcases h4 with g | ⟨g3, g4⟩
        · exact ⟨m', by omega, g⟩
        · obtain ⟨m'', h5, h6⟩ := ih _ g4 g3 rfl
          exact ⟨m'', by omega, h6⟩

/-- All sessions of a map are closed at some time. -/
theorem Endless.unlocks (h : Endless env key endErr auto p ev st log) (hf : Fair ev) {i : Nat} {left : List Nat} {n : Nat} (hp : (st n).phase = .closing i left) :
    ∃ m, n ≤ m ∧ (st m).phase = .between (i + 1) := by
  generalize hl : left.length = l
  induction l using Nat.strongRecOn generalizing n left with
  | ind l ih =>
    cases left with
    | nil =>
      refine hf.unlock.until (Q := fun j => (st j).phase = .closing i []) hp ?_ ?_
      · intro j _ hj
        obtain ⟨x, hx, -⟩ := h.step j
        rcases (phase_cases hx).2.1 _ _ hj with g | ⟨k, hk, -⟩ | ⟨-, g⟩
        · exact .inl g
        · cases hk
        · exact .inr g
      · intro j _ hj he
        obtain ⟨x, hx, -⟩ := h.step j
        rw [he] at hx
        simp only [State.step, hj, Res.ok.injEq, Prod.mk.injEq] at hx
        rw [← hx.1]
    | cons k left =>
      obtain ⟨m, h1, left', h2, h3⟩ : ∃ m, n ≤ m ∧ ∃ left', (st m).phase = .closing i left' ∧ left'.length < l := by
        refine (hf.closes k).until (Q := fun j => (st j).phase = .closing i (k :: left)) hp ?_ ?_
        · intro j _ hj
          obtain ⟨x, hx, -⟩ := h.step j
          rcases (phase_cases hx).2.1 _ _ hj with g | ⟨a, ha, g⟩ | ⟨g, -⟩
          · exact .inl g
          · exact .inr ⟨_, g, by rw [← hl]; exact List.length_filter_lt_length_iff_exists.2 ⟨a, ha, by simp⟩⟩
          · cases g
        · intro j _ hj he
          obtain ⟨x, hx, -⟩ := h.step j
          rw [he] at hx
          simp only [State.step, hj, List.mem_cons, true_or, if_true] at hx
          obtain ⟨⟨t, y⟩, g1, g2⟩ := Res.bind_ok hx
          simp only [Res.ok.injEq, Prod.mk.injEq] at g2
          rw [← g2.1]
          exact ⟨_, rfl, by rw [← hl]; exact List.length_filter_lt_length_iff_exists.2 ⟨k, by simp, by simp⟩⟩
      obtain ⟨m', h4, h5⟩ := ih _ h3 h2 rfl
      exact ⟨m', by omega, h5⟩

/-- All maps are done at some time. -/
theorem Endless.waits (h : Endless env key endErr auto p ev st log) (hf : Fair ev) {i : Nat} {n : Nat} (hp : (st n).phase = .between i) :
    ∃ m, n ≤ m ∧ (st m).phase = .waiting := by
  generalize hl : maps - i = l
  induction l using Nat.strongRecOn generalizing n i with
  | ind l ih =>
    obtain ⟨m, h1, h2⟩ := hf.lock.until (Q := fun j => (st j).phase = .between i)
      (R := fun j => (i < maps ∧ ∃ left, (st j).phase = .closing i left) ∨ (st j).phase = .waiting) hp
      (by
        intro j _ hj
        obtain ⟨x, hx, -⟩ := h.step j
        rcases (phase_cases hx).1 _ hj with g | g | ⟨-, g⟩
        · exact .inl g
        · exact .inr (.inl g)
        · exact .inr (.inr g))
      (by
        intro j _ hj he
        obtain ⟨x, hx, -⟩ := h.step j
        rw [he] at hx
        simp only [State.step, hj] at hx
        split at hx <;> simp only [Res.ok.injEq, Prod.mk.injEq] at hx <;> rw [← hx.1]
        · exact .inl ⟨‹_›, _, rfl⟩
        · exact .inr rfl)
    rcases h2 with ⟨hlt, left, h2⟩ | h2
    · obtain ⟨m', h3, h4⟩ := h.unlocks hf h2
      obtain ⟨m'', h5, h6⟩ := ih (maps - (i + 1)) (by omega) h4 rfl
      exact ⟨m'', by omega, h6⟩
    · exact ⟨m, h1, h2⟩

/-- `Stop` returns at some time. -/
theorem Endless.stops (h : Endless env key endErr auto p ev st log) (hf : Fair ev) {n : Nat} (hs : .stopping ∈ log n) : ∃ m, n ≤ m ∧ .stopped ∈ log m := by
  have fin : ∀ {n}, (st n).phase = .waiting → ∃ m, n ≤ m ∧ .stopped ∈ log m := by
    intro n hw
    obtain ⟨m, h1, h2⟩ := h.returns hf hw
    exact ⟨m, h1, (h.inv m).stopped.2 h2⟩
  have mid : ∀ {n i}, (st n).phase = .between i → ∃ m, n ≤ m ∧ .stopped ∈ log m := by
    intro n i hb
    obtain ⟨m, h1, h2⟩ := h.waits hf hb
    obtain ⟨m', h3, h4⟩ := fin h2
    exact ⟨m', by omega, h4⟩
  cases hx : (st n).phase with
  | serving => exact absurd hx ((h.inv n).stopping.1 hs)
  | between i => exact mid hx
  | closing i left =>
    obtain ⟨m, h1, h2⟩ := h.unlocks hf hx
    obtain ⟨m', h3, h4⟩ := mid h2
    exact ⟨m', by omega, h4⟩
  | waiting => exact fin hx
  | returned => exact ⟨n, Nat.le_refl _, (h.inv n).stopped.2 hx⟩

theorem run_before {s t : State} {es es' : List Event} {x : List Obs} (h : s.run env key endErr auto (es ++ es') = .ok (t, x)) :
    ∃ s1 y z, s.run env key endErr auto es = .ok (s1, y) ∧ s1.run env key endErr auto es' = .ok (t, z) ∧ x = y ++ z := by
  induction es generalizing s x with
  | nil => exact ⟨s, [], x, rfl, h, rfl⟩
  | cons e es ih =>
    obtain ⟨u, y, z, h1, h2, rfl⟩ := run_cons_inv h
    obtain ⟨s1, y', z', g1, g2, rfl⟩ := ih h2
    refine ⟨s1, y ++ y', z', ?_, g2, by simp⟩
    rw [State.run, h1, Res.ok_bind]
    simp only [g1, Res.ok_bind]

theorem endless_of_runs {s0 : State} (hi : Inv p s0 []) (ht : Tally s0 []) (h : ∀ n, s0.run env key endErr auto (firsts ev n) = .ok (st n, log n)) :
    Endless env key endErr auto p ev st log := by
  refine ⟨fun n => by simpa using inv_run hi (h n), fun n => by simpa using tally_run ht (h n), fun n => ?_⟩
  have h1 := h (n + 1)
  rw [firsts_succ] at h1
  obtain ⟨s1, y, z, g1, g2, g3⟩ := run_before h1
  rw [h n] at g1
  simp only [Res.ok.injEq, Prod.mk.injEq] at g1
  obtain ⟨rfl, rfl⟩ := g1
  obtain ⟨t, x, y, e1, e2, rfl⟩ := run_cons_inv g2
  cases e2
  exact ⟨x, e1, by rw [g3]; simp⟩

end Verif.Shutdown
