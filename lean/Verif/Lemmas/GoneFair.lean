import Verif.Lemmas.StopLoops
import Verif.Lemmas.ServerSilent
import Verif.Spec.GoneFair
/-! # Lemmas: silent sessions in the long run -/

namespace Verif.Server
open Handler Spec Timer

/-- The first restart of the period is complete. -/
def Place.timedOnce : Place → Bool
  | .timed | .checked | .looping | .updating _ | .ended => true
  | _ => false

theorem life_restarted {k : Nat} {ox : Option Sess} {l : List Obs} (h : Life k ox l) :
    match ox with
    | none => True
    | some x => x.place.timedOnce = true → (lastRestart k l).isSome := by
  induction h with
  | none => trivial
  | accept => simp [Place.timedOnce]
  | timeout _ ih =>
    rename_i x l _
    have hq : ∀ y ∈ Obs.timeout k :: (x.close k).2, (∀ n, y ≠ .restart k n) ∧ y ≠ .armed k := by
      unfold Sess.close
      split <;> simp
    intro h
    have h : (x.close k).1.place.timedOnce = true := h
    rw [lastRestart, List.foldl_append, quiet_fold hq]
    rw [show (x.close k).1.place = x.place by unfold Sess.close; split <;> rfl] at h
    exact ih h
  | move hl hm ih =>
    rename_i x x' l o m
    have quiet (hq : ∀ y ∈ o, (∀ n, y ≠ .restart k n) ∧ y ≠ .armed k) (hp : x'.place.timedOnce = true → x.place.timedOnce = true) :
        x'.place.timedOnce = true → (lastRestart k (l ++ o)).isSome := by
      intro h
      rw [lastRestart, List.foldl_append, quiet_fold hq]
      exact ih (hp h)
    cases m <;> simp only [Sess.step, call_recovered] at hm
    case restart n =>
      have : o = [.restart k n] ∧ (x'.place.timedOnce = true → x.place.timedOnce = true) := by
        repeat' split at hm
        all_goals first
          | (simp at hm; done)
          | (rename_i hp; simp only [Option.some.injEq, Prod.mk.injEq] at hm; obtain ⟨rfl, rfl⟩ := hm; exact ⟨rfl, by rw [hp]; simp [Place.timedOnce]⟩)
      obtain ⟨rfl, hp⟩ := this
      intro h
      rw [lastRestart, restart_snoc]
      simp only [restartNext, if_true]
      exact ih (hp h)
    case arm =>
      have : o = [.armed k] ∧ x.place.inUpdate = true := by
        repeat' split at hm
        all_goals first
          | (simp at hm; done)
          | (rename_i hp; simp only [Option.some.injEq, Prod.mk.injEq] at hm; obtain ⟨rfl, rfl⟩ := hm; exact ⟨rfl, by rw [hp]; rfl⟩)
      obtain ⟨rfl, hp⟩ := this
      intro _
      obtain ⟨-, h2⟩ : Ordered k l ∧ _ := life_ordered hl
      rw [hp] at h2
      rw [lastRestart, restart_snoc]
      simp only [restartNext, if_true]
      exact h2
    case close =>
      have hm := Option.some.inj hm
      have e1 : x' = (x.close k).1 := by rw [hm]
      have e2 : o = (x.close k).2 := by rw [hm]
      refine quiet ?_ ?_
      · rw [e2]
        unfold Sess.close
        split <;> simp
      · rw [e1, show (x.close k).1.place = x.place by unfold Sess.close; split <;> rfl]
        exact id
    case leave =>
      split at hm
      · rename_i hp
        simp only [Option.some.injEq, Prod.mk.injEq] at hm
        obtain ⟨rfl, rfl⟩ := hm
        refine quiet ?_ (by rw [hp]; simp [Place.timedOnce])
        unfold Sess.close
        split <;> simp
      · simp at hm
    case check =>
      split at hm
      · rename_i hp
        simp only [Option.some.injEq, Prod.mk.injEq] at hm
        obtain ⟨rfl, rfl⟩ := hm
        exact quiet (by simp) (by rw [hp]; simp [Place.timedOnce])
      · simp at hm
    all_goals
      repeat' split at hm
      all_goals first
        | (simp at hm; done)
        | (simp only [Option.some.injEq, Prod.mk.injEq] at hm; obtain ⟨rfl, rfl⟩ := hm; exact quiet (by simp) id)
        | (rename_i hp; simp only [Option.some.injEq, Prod.mk.injEq] at hm; obtain ⟨rfl, rfl⟩ := hm; exact quiet (by simp) (by rw [hp]; simp [Place.timedOnce]))
        | (rename_i hp _; simp only [Option.some.injEq, Prod.mk.injEq] at hm; obtain ⟨rfl, rfl⟩ := hm; exact quiet (by simp) (by rw [hp]; simp [Place.timedOnce]))

/-- What the goroutine of the timer has still to do before its next tick. -/
def State.queue (s : State) : Nat := 2 * s.fired.length + if s.found = none then 0 else 1

theorem queue_zero {s : State} : s.queue = 0 ↔ s.fired = [] ∧ s.found = none := by
  unfold State.queue
  constructor
  · intro h
    refine ⟨List.eq_nil_of_length_eq_zero (by omega), ?_⟩
    by_cases hf : s.found = none
    · exact hf
    · rw [if_neg hf] at h; omega
  · rintro ⟨h1, h2⟩
    simp [h1, h2]

theorem onTimer_queue {s t : State} {e : Option (Timer.Event Nat)} (h : s.onTimer e = .ok t) : t.queue = s.queue := by
  unfold State.onTimer at h
  split at h
  · cases h; rfl
  · obtain ⟨⟨c, _⟩, -, h2⟩ := Res.bind_ok h
    cases h2
    rfl

theorem move_queue {s t : State} {k : Nat} {m : Move} {o : List Obs} (h : s.step (.move k m) = .ok (t, o)) : t.queue = s.queue := by
  simp only [State.step] at h
  split at h
  · cases h; rfl
  · split at h
    · cases h; rfl
    · obtain ⟨u, h1, h2⟩ := Res.bind_ok h
      cases h2
      exact onTimer_queue (t := u) h1

theorem lookup_queue {s t : State} {o : List Obs} (h : s.step .lookup = .ok (t, o)) : t.queue ≤ s.queue ∧ (s.found = none → s.fired ≠ [] → t.queue < s.queue) := by
  simp only [State.step] at h
  split at h
  · rename_i k ks h1 h2
    cases h
    have hb : ∀ o : Option Nat, (if o = none then 0 else 1) ≤ 1 := by intro o; split <;> omega
    have := hb (if s.getSession k then some k else none)
    simp only [State.queue, h1, h2, if_true, List.length_cons]
    refine ⟨by omega, fun _ _ => by omega⟩
  · rename_i hne
    cases h
    refine ⟨Nat.le_refl _, fun h1 h2 => ?_⟩
    obtain ⟨k, ks, hk⟩ := List.exists_cons_of_ne_nil h2
    exact absurd h1 (hne k ks hk)

theorem close_queue (s : State) (k : Nat) : (s.close k).1.fired = s.fired := by
  unfold State.close
  split <;> rfl

theorem closeFound_queue {s t : State} {o : List Obs} (h : s.step .closeFound = .ok (t, o)) : t.queue ≤ s.queue ∧ (s.found ≠ none → t.queue < s.queue) := by
  simp only [State.step] at h
  split at h
  · rename_i k hk
    cases h
    simp only [State.queue, hk, close_queue, if_true]
    simp
  · rename_i hk
    cases h
    exact ⟨Nat.le_refl _, fun hn => absurd hk hn⟩

end Verif.Server

namespace Verif.World
open Handler Session Spec
variable {env : Env} {key : Option DecKey} {endErr : Err} {auto : Bool}

theorem queue_step {s s' : State} {e : Event} {x : List Obs} (h : s.step env key endErr auto e = .ok (s', x)) (he : ∀ now, e ≠ .tick now) :
    s'.server.queue ≤ s.server.queue := by
  have mv {s s' : State} {k : Nat} {m : Server.Move} {x : List Obs} (h : s.onServer (.move k m) = .ok (s', x)) : s'.server.queue ≤ s.server.queue := by
    obtain ⟨t, o, h1, rfl, rfl⟩ := onServer_inv h
    exact Nat.le_of_eq (Server.move_queue h1)
  have sys {e : System.Event} {x : List Obs} (h : s.onSystem env key endErr auto e = .ok (s', x)) : s'.server.queue ≤ s.server.queue := by
    obtain ⟨t, o, h1, rfl, rfl⟩ := onSystem_inv h
    exact Nat.le_refl _
  cases e with
  | accept =>
    obtain ⟨t, o, h1, rfl, rfl⟩ := onServer_inv h
    cases h1
    exact Nat.le_refl _
  | move k m =>
    cases m with
    | leave => cases h; exact Nat.le_refl _
    | restart now =>
      simp only [State.step] at h
      split at h
      · cases h; exact Nat.le_refl _
      · exact mv h
    | _ => exact mv h
  | tick now => exact absurd rfl (he now)
  | lookup =>
    obtain ⟨t, o, h1, rfl, rfl⟩ := onServer_inv h
    exact (Server.lookup_queue h1).1
  | closeFound =>
    obtain ⟨t, o, h1, rfl, rfl⟩ := onServer_inv h
    exact (Server.closeFound_queue h1).1
  | receive k =>
    simp only [State.step] at h
    split at h
    · obtain ⟨t, u, o, ht, h1, h2⟩ := receive_inv h
      rcases h2 with ⟨m, -, rfl, -⟩ | ⟨-, v, p, h2, rfl, -⟩ | ⟨-, -, rfl, -⟩
      · exact Nat.le_refl _
      · exact Nat.le_of_eq (Server.move_queue h2)
      · exact Nat.le_refl _
    · cases h; exact Nat.le_refl _
  | dispatch k now =>
    simp only [State.step] at h
    split at h
    · obtain ⟨u, o, h1, h2⟩ := dispatch_inv h
      rcases h2 with ⟨-, rfl, -⟩ | ⟨hd, v, p, -, h2, rfl, -⟩
      · exact Nat.le_refl _
      · exact Nat.le_of_eq (Server.move_queue h2)
    · cases h; exact Nat.le_refl _
  | call k =>
    simp only [State.step] at h
    repeat' split at h
    all_goals (cases h; exact Nat.le_refl _)
  | finish k u =>
    simp only [State.step] at h
    split at h
    · obtain ⟨-, -, h2⟩ := Res.bind_ok h
      cases h2
      exact Nat.le_refl _
    · cases h; exact Nat.le_refl _
  | _ => exact sys h

/-- Nothing happens at a tick before the goroutine of the timer has finished with the last one. -/
theorem queue_tick {s s' : State} {now : Int} {x : List Obs} (h : s.step env key endErr auto (.tick now) = .ok (s', x)) :
    (s.server.queue ≠ 0 → s' = s ∧ x = []) ∧ (s.server.queue = 0 → ∃ ks, x = [.server (.ticked now ks)]) := by
  obtain ⟨t, o, h1, rfl, rfl⟩ := onServer_inv h
  simp only [Server.State.step] at h1
  split at h1
  · rename_i hz
    have hz := Server.queue_zero.2 hz
    obtain ⟨⟨c, ks⟩, -, h2⟩ := Res.bind_ok h1
    cases h2
    exact ⟨fun hn => absurd hz hn, fun _ => ⟨ks, rfl⟩⟩
  · rename_i hz
    cases h1
    exact ⟨fun _ => ⟨rfl, rfl⟩, fun h0 => absurd (Server.queue_zero.1 h0) hz⟩

end Verif.World

namespace Verif.Shutdown
open Handler Session Spec Spec.Stop World
variable {env : Env} {key : Option DecKey} {endErr : Err} {auto : Bool} {p : Int} {ev : Nat → Event} {st : Nat → State} {log : Nat → List Obs}

theorem onWorld_inv' {s s' : State} {e : World.Event} {x : List Obs} (h : s.onWorld env key endErr auto e = .ok (s', x)) :
    ∃ w y, s.world.step env key endErr auto e = .ok (w, y) ∧ s' = { s with world := w } ∧ x = y.map .world := by
  unfold State.onWorld at h
  obtain ⟨⟨w, y⟩, h1, h2⟩ := Res.bind_ok h
  cases h2
  exact ⟨w, y, h1, rfl, rfl⟩

theorem queue_step {s s' : State} {e : Event} {x : List Obs} (h : s.step env key endErr auto e = .ok (s', x)) (he : ∀ now, e ≠ .world (.tick now)) :
    s'.world.server.queue ≤ s.world.server.queue := by
  have ow {s s' : State} {e : World.Event} {x : List Obs} (h : s.onWorld env key endErr auto e = .ok (s', x)) (he : ∀ now, e ≠ .tick now) :
      s'.world.server.queue ≤ s.world.server.queue := by
    obtain ⟨w, y, h1, rfl, rfl⟩ := onWorld_inv' h
    exact World.queue_step h1 he
  cases e with
  | world e =>
    have hn : ∀ now, e ≠ .tick now := fun now hx => he now (by rw [hx])
    cases e with
    | accept => cases h; exact Nat.le_refl _
    | tick now => exact absurd rfl (he now)
    | _ => exact ow h hn
  | enter =>
    simp only [State.step] at h
    split at h
    · cases h; exact Nat.le_refl _
    · unfold State.enter at h
      obtain ⟨⟨t, y⟩, h1, h2⟩ := Res.bind_ok h
      have g1 := ow h1 (by simp)
      simp only at h2
      split at h2
      · obtain ⟨⟨u, z⟩, h3, h4⟩ := Res.bind_ok h2
        have g2 := ow h3 (by simp)
        cases h4
        exact Nat.le_trans g2 g1
      · cases h2
        exact g1
  | closeNext k =>
    simp only [State.step] at h
    split at h
    · split at h
      · obtain ⟨⟨t, y⟩, h1, h2⟩ := Res.bind_ok h
        have g1 := ow h1 (by simp)
        cases h2
        exact g1
      · cases h; exact Nat.le_refl _
    · cases h; exact Nat.le_refl _
  | _ =>
    simp only [State.step] at h
    repeat' split at h
    all_goals (cases h; exact Nat.le_refl _)

theorem queue_tick {s s' : State} {now : Int} {x : List Obs} (h : s.step env key endErr auto (.world (.tick now)) = .ok (s', x)) :
    (s.world.server.queue ≠ 0 → s' = s ∧ x = []) ∧ (s.world.server.queue = 0 → ∃ ks, x = [.world (.server (.ticked now ks))]) := by
  obtain ⟨w, y, h1, rfl, rfl⟩ := onWorld_inv' (s := s) (e := .tick now) h
  obtain ⟨g1, g2⟩ := World.queue_tick h1
  refine ⟨fun hn => ?_, fun h0 => ?_⟩
  · obtain ⟨rfl, rfl⟩ := g1 hn
    exact ⟨rfl, rfl⟩
  · obtain ⟨ks, rfl⟩ := g2 h0
    exact ⟨ks, rfl⟩

/-- The goroutine of the timer finishes with a tick. -/
theorem Endless.emptied (h : Endless env key endErr auto p ev st log) (hc : Clock ev) (n : Nat) : ∃ m, n ≤ m ∧ (st m).world.server.queue = 0 := by
  generalize hq : (st n).world.server.queue = q
  induction q using Nat.strongRecOn generalizing n with
  | ind q ih =>
    by_cases h0 : q = 0
    · exact ⟨n, Nat.le_refl _, by rw [hq, h0]⟩
    -- until the queue is shorter, it is as it is
    have stay (i : Nat) (hi : (st i).world.server.queue = q) : (st (i + 1)).world.server.queue ≤ q := by
      obtain ⟨x, hx, -⟩ := h.step i
      by_cases ht : ∃ now, ev i = .world (.tick now)
      · obtain ⟨now, ht⟩ := ht
        rw [ht] at hx
        rw [((queue_tick hx).1 (by rw [hi]; exact h0)).1, hi]
        exact Nat.le_refl _
      · rw [← hi]
        exact queue_step hx fun now hn => ht ⟨now, hn⟩
    obtain ⟨m, h1, h2⟩ : ∃ m, n ≤ m ∧ (st m).world.server.queue < q := by
      obtain ⟨m, h1, h2⟩ := hc.closeFound.until (Q := fun i => (st i).world.server.queue = q)
        (R := fun i => (st i).world.server.queue < q ∨ ((st i).world.server.queue = q ∧ (st i).world.server.found = none)) hq
        (by
          intro i _ hi
          have := stay i hi
          rcases Nat.lt_or_eq_of_le this with g | g
          · exact .inr (.inl g)
          · exact .inl g)
        (by
          intro i _ hi he
          have hle := stay i hi
          rcases Nat.lt_or_eq_of_le hle with g | g
          · exact .inl g
          · refine .inr ⟨g, ?_⟩
            obtain ⟨x, hx, -⟩ := h.step i
            rw [he] at hx
            obtain ⟨w, y, h1, h2, rfl⟩ := onWorld_inv' (s := st i) (e := .closeFound) hx
            obtain ⟨t, o, h3, rfl, rfl⟩ := onServer_inv h1
            have hf : (st i).world.server.found = none := by
              by_cases hf : (st i).world.server.found = none
              · exact hf
              · have := (Server.closeFound_queue h3).2 hf
                rw [h2] at g
                simp only at g
                omega
            have ht : t = (st i).world.server := by
              simp only [Server.State.step, hf] at h3
              cases h3
              rfl
            rw [h2, ht]
            exact hf)
      rcases h2 with h2 | ⟨h2, h3⟩
      · exact ⟨m, h1, h2⟩
      · have keep (i : Nat) (hi : (st i).world.server.queue = q ∧ (st i).world.server.found = none) :
            ((st (i + 1)).world.server.queue = q ∧ (st (i + 1)).world.server.found = none) ∨ (st (i + 1)).world.server.queue < q := by
          rcases Nat.lt_or_eq_of_le (stay i hi.1) with g | g
          · exact .inr g
          · refine .inl ⟨g, ?_⟩
            -- an odd queue is one with a session that was found
            by_cases hf : (st (i + 1)).world.server.found = none
            · exact hf
            · have e1 := hi.1
              rw [← g] at e1
              unfold Server.State.queue at e1
              rw [if_neg hf, if_pos hi.2] at e1
              omega
        obtain ⟨m', h4, h5⟩ := hc.lookup.until (Q := fun i => (st i).world.server.queue = q ∧ (st i).world.server.found = none)
          (R := fun i => (st i).world.server.queue < q) ⟨h2, h3⟩ (fun i _ hi => keep i hi)
          (by
            intro i _ hi he
            obtain ⟨x, hx, -⟩ := h.step i
            rw [he] at hx
            obtain ⟨w, y, h1, h2, rfl⟩ := onWorld_inv' (s := st i) (e := .lookup) hx
            obtain ⟨t, o, h3, rfl, rfl⟩ := onServer_inv h1
            have hfi : (st i).world.server.fired ≠ [] := fun hn => h0 (by rw [← hi.1]; exact Server.queue_zero.2 ⟨hn, hi.2⟩)
            have := (Server.lookup_queue h3).2 hi.2 hfi
            rw [h2, ← hi.1]
            exact this)
        exact ⟨m', by omega, h5⟩
    obtain ⟨m', h3, h4⟩ := ih _ h2 m rfl
    exact ⟨m', by omega, h4⟩

/-- There is a tick that counts, and later the goroutine of the timer has finished with it. -/
theorem Endless.ticks (h : Endless env key endErr auto p ev st log) (hc : Clock ev) (n : Nat) (t : Int) :
    ∃ j m now ks later, n ≤ j ∧ j < m ∧ t ≤ now ∧ log m = log j ++ .world (.server (.ticked now ks)) :: later ∧ (st m).world.server.queue = 0 := by
  obtain ⟨N, hN⟩ := hc.late t
  obtain ⟨m0, h1, h2⟩ := h.emptied hc (max n N)
  obtain ⟨j, h3, ⟨now, h4⟩, h5⟩ := hc.tick.next m0
  have hz : ∀ d, m0 + d ≤ j → (st (m0 + d)).world.server.queue = 0 := by
    intro d
    induction d with
    | zero => intro _; exact h2
    | succ d ih =>
      intro hd
      obtain ⟨x, hx, -⟩ := h.step (m0 + d)
      have := queue_step hx fun now hn => h5 (m0 + d) (by omega) (by omega) ⟨now, hn⟩
      rw [ih (by omega)] at this
      rw [← Nat.add_assoc]
      omega
  have hj := hz (j - m0) (by omega)
  rw [show m0 + (j - m0) = j by omega] at hj
  obtain ⟨x, hx, hlog⟩ := h.step j
  rw [h4] at hx
  obtain ⟨ks, rfl⟩ := (queue_tick hx).2 hj
  obtain ⟨m, h6, h7⟩ := h.emptied hc (j + 1)
  obtain ⟨later, hl⟩ := h.longer h6
  exact ⟨j, m, now, ks, later, by omega, by omega, hN j (by omega) now h4, by rw [hl, hlog]; simp, h7⟩

/-- The goroutine of a session comes to a place where it stays. -/
theorem Endless.settles (h : Endless env key endErr auto p ev st log) {k n : Nat} (hk : placeOf (st n).world.server k ≠ none) :
    ∃ N, n ≤ N ∧ placeOf (st N).world.server k ≠ none ∧ (∀ m, N ≤ m → remains (st m).world k = remains (st N).world k ∧ Still k (st N).world (st m).world ∧
      ∃ later, log m = log N ++ later ∧ ∀ o ∈ later.filterMap worldView, World.Quiet k o) := by
  generalize hr : remains (st n).world k = r
  induction r using Nat.strongRecOn generalizing n with
  | ind r ih =>
    have stay : ∀ d, placeOf (st (n + d)).world.server k ≠ none := by
      intro d
      induction d with
      | zero => exact hk
      | succ d ihd =>
        obtain ⟨x, hx, -⟩ := h.step (n + d)
        obtain ⟨evs, h1⟩ := world_step hx
        exact World.place_stays_run (h.inv (n + d)).good h1 ihd
    by_cases hx : ∃ m, n ≤ m ∧ remains (st m).world k < r
    · obtain ⟨m, h1, h2⟩ := hx
      have := stay (m - n)
      rw [show n + (m - n) = m by omega] at this
      obtain ⟨N, h3, h4⟩ := ih _ h2 this rfl
      exact ⟨N, by omega, h4⟩
    · refine ⟨n, Nat.le_refl _, hk, fun m hm => ?_⟩
      obtain ⟨d, rfl⟩ : ∃ d, m = n + d := ⟨m - n, by omega⟩
      clear hm
      induction d with
      | zero => exact ⟨rfl, ⟨rfl, rfl, rfl⟩, [], by simp, by simp⟩
      | succ d ihd =>
        obtain ⟨g1, g2, later, g3, g4⟩ := ihd
        obtain ⟨x, hx', hlog⟩ := h.step (n + d)
        obtain ⟨evs, h1⟩ := world_step hx'
        rcases rank_run (h.inv (n + d)).good h1 (stay d) with g | ⟨⟨b1, b2, b3⟩, g, q⟩
        · exact absurd ⟨n + d + 1, by omega, by omega⟩ hx
        · refine ⟨by rw [← Nat.add_assoc]; omega, ⟨b1.trans g2.1, b2.trans g2.2.1, b3.trans g2.2.2⟩, later ++ x, ?_, ?_⟩
          · rw [← Nat.add_assoc, hlog, g3, List.append_assoc]
          · intro o ho
            rw [List.filterMap_append] at ho
            exact (List.mem_append.1 ho).elim (g4 o) (q o)

/-- The goroutine of a session gets past `timer.Update`. -/
theorem Endless.timed (h : Endless env key endErr auto p ev st log) {k n : Nat} (hs : Starts ev k) (hk : placeOf (st n).world.server k ≠ none)
    (hn : ∀ m, n ≤ m → remains (st m).world k = remains (st n).world k) :
    ∃ q, placeOf (st n).world.server k = some q ∧ q.timedOnce = true ∧ q.inUpdate = false := by
  have no (hx : ∃ m, n ≤ m ∧ remains (st m).world k < remains (st n).world k) : False := by
    obtain ⟨m, h1, h2⟩ := hx
    rw [hn m h1] at h2
    exact Nat.lt_irrefl _ h2
  cases hp : placeOf (st n).world.server k with
  | none => exact absurd hp hk
  | some q =>
    refine ⟨q, rfl, ?_⟩
    cases q with
    | accepted => exact (no (h.less_move hk hp hs.register (by simp) (by simp) fun x hx => ⟨_, _, by simp [Server.Sess.step, hx]; exact ⟨rfl, rfl⟩, by simp⟩)).elim
    | registered => exact (no (h.less_restart hk hp hs.restart)).elim
    | starting c =>
      cases c
      · exact (no (h.less_move hk hp hs.cancel (by simp) (by simp) fun x hx => ⟨_, _, by simp [Server.Sess.step, hx]; exact ⟨rfl, rfl⟩, by simp⟩)).elim
      · exact (no (h.less_move hk hp hs.arm (by simp) (by simp) fun x hx => ⟨_, _, by simp [Server.Sess.step, hx]; exact ⟨rfl, rfl⟩, by simp⟩)).elim
    | updating c =>
      cases c
      · exact (no (h.less_move hk hp hs.cancel (by simp) (by simp) fun x hx => ⟨_, _, by simp [Server.Sess.step, hx]; exact ⟨rfl, rfl⟩, by simp⟩)).elim
      · exact (no (h.less_move hk hp hs.arm (by simp) (by simp) fun x hx => ⟨_, _, by simp [Server.Sess.step, hx]; exact ⟨rfl, rfl⟩, by simp⟩)).elim
    | _ => exact ⟨rfl, rfl⟩

/-- The period counts when the goroutine is past `timer.Update`. -/
theorem counting {s : State} {l : List Obs} (hi : Inv p s l) {k : Nat} {q : Server.Place} (hq : placeOf s.world.server k = some q) (h1 : q.timedOnce = true)
    (h2 : q.inUpdate = false) : restarting k ((l.filterMap worldView).filterMap serverView) = none ∧
      ∃ t, lastRestart k ((l.filterMap worldView).filterMap serverView) = some t := by
  have hl := hi.good.server.life k
  unfold placeOf at hq
  obtain ⟨x, hx, rfl⟩ := Option.map_eq_some_iff.1 hq
  rw [hx] at hl
  obtain ⟨-, g1⟩ : Server.Ordered k _ ∧ (restarting k _).isSome = x.place.inUpdate := Server.life_ordered hl
  have g2 : x.place.timedOnce = true → (lastRestart k _).isSome := Server.life_restarted hl
  have g2 := g2 h1
  rw [h2] at g1
  rw [restarting, Server.restart_only] at g1
  rw [lastRestart, Server.restart_only] at g2
  exact ⟨by simpa [restarting] using g1, Option.isSome_iff_exists.1 g2⟩

/-- Observations that do not concern the session leave this as it is. -/
theorem counting_quiet {l later : List World.Obs} {k : Nat} (h : ∀ o ∈ later, World.Quiet k o) :
    restarting k ((l ++ later).filterMap serverView) = restarting k (l.filterMap serverView) ∧
      lastRestart k ((l ++ later).filterMap serverView) = lastRestart k (l.filterMap serverView) := by
  have hq : ∀ y ∈ later.filterMap serverView, (∀ n, y ≠ .restart k n) ∧ y ≠ .armed k := by
    intro y hy
    obtain ⟨o, ho, he⟩ := List.mem_filterMap.1 hy
    have e : o = .server y := by
      cases o <;> simp_all [serverView]
    have := h o ho
    rw [e] at this
    constructor
    · rintro n rfl
      exact this rfl
    · rintro rfl
      exact this rfl
  rw [List.filterMap_append]
  unfold restarting lastRestart
  rw [List.foldl_append, Server.quiet_fold hq]
  exact ⟨rfl, rfl⟩

/-- A session that has been taken out of the maps of link is not entered again. -/
theorem held_step {s s' : State} {e : Event} {x : List Obs} (h : s.step env key endErr auto e = .ok (s', x)) {k : Nat} (hk : k ≤ s.world.server.count) (hn : k ∉ s.held) :
    k ∉ s'.held := by
  cases e with
  | connect =>
    simp only [State.step] at h
    split at h <;> cases h <;> exact hn
  | enter =>
    simp only [State.step] at h
    split at h
    · cases h; exact hn
    · unfold State.enter at h
      obtain ⟨⟨t, y⟩, h1, h2⟩ := Res.bind_ok h
      obtain ⟨w, z, h3, rfl, rfl⟩ := onWorld_inv h1
      simp only at h2
      split at h2
      · obtain ⟨⟨t, y⟩, h4, h5⟩ := Res.bind_ok h2
        obtain ⟨w, z, h6, rfl, rfl⟩ := onWorld_inv h4
        cases h5
        exact hn
      · cases h2
        intro hm
        rcases List.mem_cons.1 hm with rfl | hm
        · omega
        · exact hn hm
  | release j =>
    simp only [State.step] at h
    split at h <;> cases h
    · exact fun hm => hn (List.mem_filter.1 hm).1
    · exact hn
  | stop =>
    simp only [State.step] at h
    split at h <;> cases h <;> exact hn
  | lock =>
    simp only [State.step] at h
    (repeat' split at h) <;> cases h <;> exact hn
  | closeNext k =>
    simp only [State.step] at h
    split at h
    · split at h
      · obtain ⟨⟨t, y⟩, h1, h2⟩ := Res.bind_ok h
        obtain ⟨w, z, h6, rfl, rfl⟩ := onWorld_inv h1
        cases h2
        exact hn
      · cases h; exact hn
    · cases h; exact hn
  | unlock =>
    simp only [State.step] at h
    split at h <;> cases h <;> exact hn
  | finish =>
    simp only [State.step] at h
    split at h <;> cases h <;> exact hn
  | world e =>
    cases e with
    | accept => cases h; exact hn
    | _ =>
      obtain ⟨w, z, h6, rfl, rfl⟩ := onWorld_inv h
      exact hn

/-- The number of a session that was made. -/
theorem Endless.number (h : Endless env key endErr auto p ev st log) {k n : Nat} (hk : made k ∈ log n) : k ≤ (st n).world.server.count := by
  have := (made_place (h.inv n)).1 hk
  exact ((h.inv n).good.server.ids k fun hx => this (by simp [placeOf, hx])).2

/-- A session that is closed is taken out of the maps of link at some time. -/
theorem Endless.released (h : Endless env key endErr auto p ev st log) (hf : Fair ev) {k n : Nat} (hm : made k ∈ log n) (hk : closed k ∈ log n) :
    ∃ m, n ≤ m ∧ ∀ i, m ≤ i → k ∉ (st i).held := by
  have keep {m : Nat} (h1 : n ≤ m) (h2 : k ∉ (st m).held) : ∀ i, m ≤ i → k ∉ (st i).held := by
    intro i hi
    obtain ⟨d, rfl⟩ : ∃ d, i = m + d := ⟨i - m, by omega⟩
    clear hi
    induction d with
    | zero => exact h2
    | succ d ih =>
      obtain ⟨x, hx, -⟩ := h.step (m + d)
      exact held_step hx (h.number (h.mono (by omega) hm)) ih
  by_cases hs : ∃ N, .stopping ∈ log N
  · obtain ⟨N, hN⟩ := hs
    obtain ⟨m, h1, h2⟩ := h.stops hf (h.mono (Nat.le_max_right n N) hN)
    have h3 := (h.inv m).empty ((h.inv m).stopped.1 h2)
    exact ⟨m, by omega, keep (by omega) (by rw [h3]; simp)⟩
  · obtain ⟨m, h1, h2⟩ := h.closes hf hk
    obtain ⟨m', h3, h4⟩ : ∃ m', m ≤ m' ∧ k ∉ (st m').held := by
      refine (hf.release k).until (Q := fun i => closeReturned (st i).world.server k = true) h2 ?_ ?_
      · intro i _ a4
        obtain ⟨x, hx, -⟩ := h.step i
        have b1 := rank_step (h.inv i) hx k
        have b2 := Server.rank_le (st (i + 1)).world.server k
        refine .inl ?_
        rw [rank_returned] at a4 ⊢
        omega
      · intro i _ a4 he
        obtain ⟨x, hx, -⟩ := h.step i
        have hp : (st i).phase = .serving := by
          by_cases hp : (st i).phase = .serving
          · exact hp
          · exact absurd ⟨i, (h.inv i).stopping.2 hp⟩ hs
        rw [he] at hx
        simp only [State.step, hp, a4, Phase.locked, and_self, if_true, Res.ok.injEq, Prod.mk.injEq] at hx
        rw [← hx.1]
        simp
    exact ⟨m', by omega, keep (by omega) h4⟩

end Verif.Shutdown
