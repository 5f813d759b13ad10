import Verif.Spec.Shutdown
import Verif.Lemmas.WorldSafe
/-! # Lemmas for stopping a server -/

namespace Verif.Shutdown
open Handler Session Spec Spec.Stop

section
variable {env : Env} {key : Option DecKey} {endErr : Err} {auto : Bool}

/-! ## The sessions -/

theorem worldView_map (x : List World.Obs) : (x.map Obs.world).filterMap worldView = x := by
  induction x with
  | nil => rfl
  | cons a l ih => simp [worldView, ih]

theorem mem_world {o : World.Obs} {log : List Obs} : o ∈ log.filterMap worldView ↔ .world o ∈ log := by
  rw [List.mem_filterMap]
  constructor
  · rintro ⟨a, ha, he⟩
    cases a <;> simp [worldView] at he
    subst he
    exact ha
  · intro h
    exact ⟨_, h, rfl⟩

theorem onWorld_inv {s s' : State} {e : World.Event} {x : List Obs} (h : s.onWorld env key endErr auto e = .ok (s', x)) :
    ∃ w y, s.world.step env key endErr auto e = .ok (w, y) ∧ s' = { s with world := w } ∧ x = y.map .world := by
  unfold State.onWorld at h
  obtain ⟨⟨w, y⟩, h1, h2⟩ := Res.bind_ok h
  cases h2
  exact ⟨w, y, h1, rfl, rfl⟩

/-- A session is made by `accept` only. -/
theorem server_made {s t : Server.State} {e : Server.Event} {o : List Server.Obs} {j : Nat} (h : s.step e = .ok (t, o)) (hm : .accepted j ∈ o) :
    e = .accept := by
  cases e with
  | accept => rfl
  | move k m =>
    rcases World.move_cases h with ⟨-, rfl⟩ | ⟨x, y, -, h2, -⟩
    · cases hm
    · exfalso
      cases m <;> simp only [Server.Sess.step, Server.Sess.close] at h2 <;> (repeat' split at h2) <;>
        first
          | (cases h2; done)
          | (cases h2; simp at hm; done)
          | (simp only [Option.some.injEq, Prod.mk.injEq] at h2; obtain ⟨-, rfl⟩ := h2; simp at hm; done)
          | (simp only [Option.some.injEq, Prod.mk.injEq] at h2; obtain ⟨-, rfl⟩ := h2; split at hm <;> simp at hm; done)
  | tick n =>
    simp only [Server.State.step] at h
    split at h
    · obtain ⟨⟨t, ks⟩, -, h2⟩ := Res.bind_ok h
      cases h2
      simp at hm
    · cases h; cases hm
  | lookup =>
    simp only [Server.State.step] at h
    split at h <;> cases h <;> cases hm
  | closeFound =>
    simp only [Server.State.step, Server.State.close, Server.Sess.close] at h
    (repeat' split at h) <;> cases h <;> simp at hm

theorem onServer_made {s t : World.State} {e : Server.Event} {x : List World.Obs} {j : Nat} (h : s.onServer e = .ok (t, x))
    (hm : .server (.accepted j) ∈ x) : e = .accept := by
  obtain ⟨u, o, h1, -, rfl⟩ := World.onServer_inv h
  refine server_made h1 (j := j) ?_
  simpa using hm

theorem world_made {s t : World.State} {e : World.Event} {x : List World.Obs} {j : Nat} (h : s.step env key endErr auto e = .ok (t, x))
    (hm : .server (.accepted j) ∈ x) : e = .accept := by
  have no (y : List (Nat × Act)) : World.Obs.server (.accepted j) ∉ y.map fun a => World.Obs.act a.1 a.2 := by simp
  unfold World.State.step at h
  split at h
  · rfl
  · cases h; cases hm
  · split at h
    · cases h; cases hm
    · cases onServer_made h hm
  · cases onServer_made h hm
  · cases onServer_made h hm
  · cases onServer_made h hm
  · cases onServer_made h hm
  · split at h
    · obtain ⟨_, u, o, -, -, h2⟩ := World.receive_inv h
      rcases h2 with ⟨m, -, -, rfl⟩ | ⟨-, v, p, h2, -, rfl⟩ | ⟨-, -, -, rfl⟩
      · simp at hm
      · rcases List.mem_append.1 hm with hm | hm
        · exact absurd hm (no _)
        · cases server_made h2 (j := j) (by simpa using hm)
      · exact absurd hm (no _)
    · cases h; cases hm
  · obtain ⟨u, o, -, -, rfl⟩ := World.onSystem_inv h; exact absurd hm (no _)
  · obtain ⟨u, o, -, -, rfl⟩ := World.onSystem_inv h; exact absurd hm (no _)
  · obtain ⟨u, o, -, -, rfl⟩ := World.onSystem_inv h; exact absurd hm (no _)
  · obtain ⟨u, o, -, -, rfl⟩ := World.onSystem_inv h; exact absurd hm (no _)
  · split at h
    · obtain ⟨u, o, -, h2⟩ := World.dispatch_inv h
      rcases h2 with ⟨-, -, rfl⟩ | ⟨hd, v, p, -, h2, -, rfl⟩
      · exact absurd hm (no _)
      · rcases List.mem_append.1 hm with hm | hm
        · cases server_made h2 (j := j) (by simpa using hm)
        · exact absurd hm (no _)
    · cases h; cases hm
  · split at h
    · split at h
      · cases h; simp at hm
      · cases h; cases hm
    · cases h; cases hm
  · split at h
    · obtain ⟨_, -, h2⟩ := Res.bind_ok h
      cases h2
      simp at hm
    · cases h; cases hm
  · obtain ⟨u, o, -, -, rfl⟩ := World.onSystem_inv h; exact absurd hm (no _)
  · obtain ⟨u, o, -, -, rfl⟩ := World.onSystem_inv h; exact absurd hm (no _)

theorem accept_step (s : World.State) : s.step env key endErr auto .accept =
    .ok ({ s with server := { s.server.put (s.server.count + 1) {} with count := s.server.count + 1 } }, [.server (.accepted (s.server.count + 1))]) := rfl

/-- A session that exists is closed by `Close`. -/
theorem close_step {p : Int} {s t : World.State} {log x : List World.Obs} {k : Nat} (hg : World.Good p s log)
    (hk : .server (.accepted k) ∈ log) (h : s.step env key endErr auto (.move k .close) = .ok (t, x)) : .server (.closing k) ∈ log ++ x := by
  have hg' := World.good_step hg h
  rw [← hg'.closed k]
  obtain ⟨u, o, h1, rfl, rfl⟩ := World.onServer_inv (show s.onServer (.move k .close) = .ok (t, x) from h)
  have hl := hg.server.life k
  have hm : Server.Obs.accepted k ∈ Server.only k (log.filterMap serverView) := (Server.mem_only rfl).2 (World.mem_server.2 hk)
  cases hx : s.server.sessions k with
  | none =>
    rw [hx] at hl
    have : Server.only k (log.filterMap serverView) = [] := Server.life_facts hl
    rw [this] at hm
    cases hm
  | some y =>
    obtain ⟨-, h2⟩ := World.move_some hx (m := .close) (y := (y.close k).1) (o' := (y.close k).2) rfl h1
    simp only [World.isClosed, h2, if_true]
    unfold Server.Sess.close
    split
    · assumption
    · rfl

theorem closeReturned_iff {p : Int} {s : World.State} {log : List World.Obs} (hg : World.Good p s log) (k : Nat) :
    closeReturned s.server k = true ↔ .server (.closeDone k) ∈ log := by
  rw [← World.mem_server, ← Server.mem_only (k := k) rfl]
  have hl := hg.server.life k
  unfold closeReturned
  cases hx : s.server.sessions k with
  | none =>
    rw [hx] at hl
    have : Server.only k (log.filterMap serverView) = [] := Server.life_facts hl
    simp [this]
  | some x =>
    rw [hx] at hl
    rw [(Server.life_facts hl : Server.Facts k x _).done]
    simp

/-- The goroutine that closes a session comes to its end only if the session is closed. -/
theorem done_closed {p : Int} {s : World.State} {log : List World.Obs} (hg : World.Good p s log) {k : Nat} (hd : .server (.closeDone k) ∈ log) :
    .server (.closing k) ∈ log := by
  rw [← World.mem_server, ← Server.mem_only (k := k) rfl] at hd ⊢
  have hl := hg.server.life k
  cases hx : s.server.sessions k with
  | none =>
    rw [hx] at hl
    have : Server.only k (log.filterMap serverView) = [] := Server.life_facts hl
    rw [this] at hd
    cases hd
  | some x =>
    rw [hx] at hl
    have f : Server.Facts k x _ := Server.life_facts hl
    rw [f.closing, f.closed]
    rcases f.done.1 hd with h | h <;> simp [h]

/-! ## The invariant -/

/-- Session `k` was made before `Stop` was called. -/
def Early (k : Nat) (log : List Obs) : Prop := ∃ l1 l2, log = l1 ++ l2 ∧ made k ∈ l1 ∧ .stopping ∉ l1

theorem early_append {k : Nat} {log x : List Obs} (h : Early k (log ++ x)) : Early k log ∨ made k ∈ x ∧ .stopping ∉ log := by
  obtain ⟨l1, l2, h1, h2, h3⟩ := h
  rcases List.append_eq_append_iff.1 h1 with ⟨a, rfl, rfl⟩ | ⟨a, rfl, rfl⟩
  · rcases List.mem_append.1 h2 with h2 | h2
    · exact .inl ⟨log, [], by simp, h2, fun h => h3 (List.mem_append_left _ h)⟩
    · exact .inr ⟨List.mem_append_left _ h2, fun h => h3 (List.mem_append_left _ h)⟩
  · exact .inl ⟨l1, a, rfl, h2, h3⟩

/-- What is known of a state and the log so far. -/
structure Inv (p : Int) (s : State) (log : List Obs) : Prop where
  good : World.Good p s.world (log.filterMap worldView)
  unheld : ∀ k, made k ∈ log → k ∉ s.held → closed k ∈ log
  marked : ∀ k, made k ∈ log → s.phase.marked k = true → closed k ∈ log ∨ ∃ i left, s.phase = .closing i left ∧ k ∈ left
  early : ∀ k, Early k log → k ∈ s.held ∨ closeEnded k ∈ log
  stopping : .stopping ∈ log ↔ s.phase ≠ .serving
  stopped : .stopped ∈ log ↔ s.phase = .returned
  empty : s.phase = .returned → s.held = []

theorem inv_start {ka : Int} {rsa : Option Nat} {s0 : Server.State} (h0 : Server.newServer ka rsa = .ok s0) (reads : Nat → List Bytes) :
    Inv (keepalivePeriod ka) (start s0 reads) [] := by
  refine ⟨World.good_start h0 reads, ?_, ?_, ?_, ?_, ?_, ?_⟩
  · intro k h; cases h
  · intro k h; cases h
  · rintro k ⟨l1, l2, h1, h2, -⟩
    have : l1 = [] := (List.append_eq_nil_iff.1 h1.symm).1
    rw [this] at h2
    cases h2
  · simp [start]
  · simp [start]
  · intro h; cases h

/-- A step after which the same phase and sessions are there, and no session more. -/
theorem inv_world {p : Int} {s s' : State} {e : World.Event} {log x : List Obs} (hi : Inv p s log) (he : e ≠ .accept)
    (h : s.onWorld env key endErr auto e = .ok (s', x)) : Inv p s' (log ++ x) := by
  obtain ⟨w, y, h1, rfl, rfl⟩ := onWorld_inv h
  have hn : ∀ k, made k ∉ y.map Obs.world := fun k hk => he (world_made h1 (j := k) (by simpa using hk))
  refine ⟨?_, ?_, ?_, ?_, ?_, ?_, hi.empty⟩
  · rw [List.filterMap_append, worldView_map]
    exact World.good_step hi.good h1
  · intro k hk hh
    rcases List.mem_append.1 hk with hk | hk
    · exact List.mem_append_left _ (hi.unheld k hk hh)
    · exact absurd hk (hn k)
  · intro k hk hh
    rcases List.mem_append.1 hk with hk | hk
    · exact (hi.marked k hk hh).imp (List.mem_append_left _) id
    · exact absurd hk (hn k)
  · intro k hk
    rcases early_append hk with hk | ⟨hk, -⟩
    · exact (hi.early k hk).imp id (List.mem_append_left _)
    · exact absurd hk (hn k)
  · rw [← hi.stopping]; simp
  · rw [← hi.stopped]; simp

theorem inv_enter {p : Int} {s s' : State} {log x : List Obs} (hi : Inv p s log) (hl : s.phase.locked (s.world.server.count + 1) = false)
    (h : s.enter env key endErr auto = .ok (s', x)) : Inv p s' (log ++ x) ∧ s'.phase = s.phase ∧
      (s.phase.marked (s.world.server.count + 1) = true → x = [made (s.world.server.count + 1), closed (s.world.server.count + 1)]) := by
  unfold State.enter at h
  obtain ⟨⟨t, y⟩, h1, h2⟩ := Res.bind_ok h
  obtain ⟨w, z, h3, rfl, rfl⟩ := onWorld_inv h1
  have hg := World.good_step hi.good h3
  rw [accept_step] at h3
  simp only [Res.ok.injEq, Prod.mk.injEq] at h3
  obtain ⟨rfl, rfl⟩ := h3
  generalize hk : s.world.server.count + 1 = k at *
  have hlog : (log ++ [made k]).filterMap worldView = log.filterMap worldView ++ [.server (.accepted k)] := by
    rw [List.filterMap_append]; rfl
  simp only at h2
  split at h2
  · rename_i hm
    obtain ⟨⟨t, y⟩, h4, h5⟩ := Res.bind_ok h2
    obtain ⟨w, z, h6, rfl, rfl⟩ := onWorld_inv h4
    cases h5
    have hc := close_step hg (List.mem_append_right _ (by simp)) h6
    have hw : z = [.server (.closing k)] := by
      obtain ⟨u, o, h7, -, rfl⟩ := World.onServer_inv (show World.State.onServer _ (.move k .close) = .ok _ from h6)
      obtain ⟨rfl, -⟩ := World.move_some (x := {}) (y := (Server.Sess.close k {}).1) (o' := (Server.Sess.close k {}).2) (by simp [Server.State.put]) rfl h7
      rfl
    subst hw
    refine ⟨⟨?_, ?_, ?_, ?_, ?_, ?_, hi.empty⟩, rfl, fun _ => rfl⟩
    · rw [show log ++ (List.map Obs.world [.server (.accepted k)] ++ List.map Obs.world [.server (.closing k)]) = (log ++ [made k]) ++ [closed k] by simp [made, closed],
        List.filterMap_append, hlog]
      exact World.good_step hg h6
    · intro j hj hh
      rcases List.mem_append.1 hj with hj | hj
      · exact List.mem_append_left _ (hi.unheld j hj hh)
      · have : j = k := by simpa [made] using hj
        subst this
        simp
    · intro j hj hh
      rcases List.mem_append.1 hj with hj | hj
      · exact (hi.marked j hj hh).imp (List.mem_append_left _) id
      · have : j = k := by simpa [made] using hj
        subst this
        exact .inl (by simp)
    · intro j hj
      rcases early_append hj with hj | ⟨hj, hs⟩
      · exact (hi.early j hj).imp id (List.mem_append_left _)
      · exfalso
        rw [hi.stopping, Decidable.not_not] at hs
        rw [hs] at hm
        cases hm
    · rw [← hi.stopping]; simp
    · rw [← hi.stopped]; simp
  · rename_i hm
    cases h2
    refine ⟨⟨?_, ?_, ?_, ?_, ?_, ?_, ?_⟩, rfl, fun h => absurd h hm⟩
    · rw [show List.map Obs.world [.server (.accepted k)] = [made k] from rfl, hlog]
      exact hg
    · intro j hj hh
      rcases List.mem_append.1 hj with hj | hj
      · exact List.mem_append_left _ (hi.unheld j hj (fun h => hh (List.mem_cons_of_mem _ h)))
      · have : j = k := by simpa [made] using hj
        subst this
        exact absurd (List.mem_cons_self ..) hh
    · intro j hj hh
      rcases List.mem_append.1 hj with hj | hj
      · exact (hi.marked j hj hh).imp (List.mem_append_left _) id
      · have : j = k := by simpa [made] using hj
        subst this
        exact absurd hh hm
    · intro j hj
      rcases early_append hj with hj | ⟨hj, hs⟩
      · exact (hi.early j hj).imp (List.mem_cons_of_mem _) (List.mem_append_left _)
      · have : j = k := by simpa [made] using hj
        subst this
        exact .inl (List.mem_cons_self ..)
    · rw [← hi.stopping]; simp
    · rw [← hi.stopped]; simp
    · intro hp
      simp only at hp
      rw [hp] at hm
      exact absurd rfl hm

/-- A step of `Stop`, or of the goroutine that takes a session out of its map. -/
theorem inv_quiet {p : Int} {s s' : State} {log x : List Obs} (hi : Inv p s log) (hx : ∀ o ∈ x, ∀ y, o ≠ .world y)
    (hw : s'.world = s.world) (hh : ∀ k, made k ∈ log → k ∉ s'.held → k ∉ s.held ∨ closed k ∈ log)
    (hm : ∀ k, made k ∈ log → s'.phase.marked k = true → closed k ∈ log ∨ ∃ i left, s'.phase = .closing i left ∧ k ∈ left)
    (he : ∀ k, k ∈ s.held → k ∈ s'.held ∨ closeEnded k ∈ log) (h1 : .stopping ∈ log ++ x ↔ s'.phase ≠ .serving)
    (h2 : .stopped ∈ log ++ x ↔ s'.phase = .returned) (h3 : s'.phase = .returned → s'.held = []) : Inv p s' (log ++ x) := by
  have hv : x.filterMap worldView = [] := by
    rw [List.filterMap_eq_nil_iff]
    intro o ho
    cases o with
    | world y => exact absurd rfl (hx _ ho y)
    | _ => rfl
  have hn (y : World.Obs) : .world y ∈ log ++ x ↔ .world y ∈ log := by
    rw [List.mem_append, or_iff_left (fun h => hx _ h y rfl)]
  refine ⟨?_, ?_, ?_, ?_, h1, h2, h3⟩
  · rw [List.filterMap_append, hv, List.append_nil, hw]
    exact hi.good
  · intro k hk hk'
    rw [hn] at hk ⊢
    rcases hh k hk hk' with h | h
    · exact hi.unheld k hk h
    · exact h
  · intro k hk hk'
    rw [hn] at hk ⊢
    exact hm k hk hk'
  · intro k hk
    rw [hn]
    rcases early_append hk with hk | ⟨hk, -⟩
    · rcases hi.early k hk with h | h
      · exact he k h
      · exact .inr h
    · exact absurd rfl (hx _ hk _)

theorem inv_step {p : Int} {s s' : State} {e : Event} {log x : List Obs} (hi : Inv p s log) (h : s.step env key endErr auto e = .ok (s', x)) :
    Inv p s' (log ++ x) := by
  have nothing : Inv p s (log ++ []) := by simpa using hi
  have held_closed {k : Nat} (hk : closeReturned s.world.server k = true) : closeEnded k ∈ log ∧ closed k ∈ log := by
    rw [closeReturned_iff hi.good] at hk
    exact ⟨mem_world.1 hk, mem_world.1 (done_closed hi.good hk)⟩
  cases e with
  | connect =>
    simp only [State.step] at h
    split at h <;> cases h
    · rename_i hp
      exact inv_quiet hi (by simp) rfl (fun k _ h => .inl h) (fun k hk hm => hi.marked k hk hm) (fun k h => .inl h)
        (by simpa using hi.stopping) (by simpa using hi.stopped) hi.empty
    · exact nothing
  | enter =>
    simp only [State.step] at h
    split at h
    · cases h; exact nothing
    · rename_i hn
      exact (inv_enter hi (by simpa using fun hl => hn (.inr hl)) h).1
  | release k =>
    simp only [State.step] at h
    split at h <;> cases h
    · rename_i hc
      refine inv_quiet hi (by simp) rfl (fun j hj h => ?_) hi.marked (fun j h => ?_) (by simpa using hi.stopping) (by simpa using hi.stopped) ?_
      · by_cases hjk : j = k
        · exact .inr (hjk ▸ (held_closed hc.2).2)
        · exact .inl (fun hj => h (List.mem_filter.2 ⟨hj, by simpa using hjk⟩))
      · by_cases hjk : j = k
        · exact .inr (hjk ▸ (held_closed hc.2).1)
        · exact .inl (List.mem_filter.2 ⟨h, by simpa using hjk⟩)
      · intro hp
        simp [hi.empty hp]
    · exact nothing
  | stop =>
    simp only [State.step] at h
    split at h <;> cases h
    · rename_i hp
      refine inv_quiet hi (by simp) rfl (fun k _ h => .inl h) (fun k hk hm => ?_) (fun k h => .inl h) (by simp) ?_ (fun h => by cases h)
      · simp [Phase.marked] at hm
      · have := hi.stopped
        simp [hp] at this
        simp [this]
    · exact nothing
  | lock =>
    simp only [State.step] at h
    split at h
    · rename_i i hp
      have h1 := hi.stopping
      have h2 := hi.stopped
      rw [hp] at h1 h2
      split at h <;> cases h
      · refine inv_quiet hi (by simp) rfl (fun k _ h => .inl h) (fun k hk hm => ?_) (fun k h => .inl h) (by simpa using h1) (by simpa using h2) (fun h => by cases h)
        simp only [Phase.marked, decide_eq_true_eq] at hm
        by_cases hki : k % maps = i
        · by_cases hh : k ∈ s.held
          · exact .inr ⟨i, _, rfl, List.mem_filter.2 ⟨hh, by simpa using hki⟩⟩
          · exact .inl (hi.unheld k hk hh)
        · rcases hi.marked k hk (by rw [hp]; simp [Phase.marked]; omega) with h | ⟨j, l, h, -⟩
          · exact .inl h
          · rw [hp] at h; cases h
      · rename_i hlt
        refine inv_quiet hi (by simp) rfl (fun k _ h => .inl h) (fun k hk hm => ?_) (fun k h => .inl h) (by simpa using h1) (by simpa using h2) (fun h => by cases h)
        have : k % maps < maps := Nat.mod_lt _ (by decide)
        rcases hi.marked k hk (by rw [hp]; simp [Phase.marked]; omega) with h | ⟨j, l, h, -⟩
        · exact .inl h
        · rw [hp] at h; cases h
    · cases h; exact nothing
  | closeNext k =>
    simp only [State.step] at h
    split at h
    · rename_i i left hp
      split at h
      · obtain ⟨⟨t, y⟩, h1, h2⟩ := Res.bind_ok h
        cases h2
        have hi' := inv_world hi (by simp) h1
        obtain ⟨w, z, h3, rfl, rfl⟩ := onWorld_inv h1
        have q1 := hi'.stopping
        have q2 := hi'.stopped
        simp only [hp] at q1 q2
        have := inv_quiet (s' := { s with world := w, phase := .closing i (left.filter (· ≠ k)) }) (x := []) hi' (by simp) rfl
          (fun k _ h => .inl h) (fun j hj hm => ?_) (fun k h => .inl h) (by simpa using q1) (by simpa using q2) (fun h => by cases h)
        · simpa using this
        · have hm' : s.phase.marked j = true := by
            rw [hp]; exact hm
          rcases hi'.marked j hj hm' with h | ⟨i', l, h, hjl⟩
          · exact .inl h
          · simp only [hp, Phase.closing.injEq] at h
            obtain ⟨rfl, rfl⟩ := h
            by_cases hjk : j = k
            · subst hjk
              left
              have hj' : .server (.accepted j) ∈ log.filterMap worldView := by
                rw [mem_world]
                rcases List.mem_append.1 hj with hj | hj
                · exact hj
                · cases world_made h3 (j := j) (by simpa using hj)
              have := close_step hi.good hj' h3
              rw [← worldView_map z, ← List.filterMap_append, mem_world] at this
              exact this
            · exact .inr ⟨i, _, rfl, List.mem_filter.2 ⟨hjl, by simpa using hjk⟩⟩
      · cases h; exact nothing
    · cases h; exact nothing
  | unlock =>
    simp only [State.step] at h
    split at h
    · rename_i i hp
      cases h
      have h1 := hi.stopping
      have h2 := hi.stopped
      rw [hp] at h1 h2
      refine inv_quiet hi (by simp) rfl (fun k _ h => .inl h) (fun k hk hm => ?_) (fun k h => .inl h) (by simpa using h1) (by simpa using h2) (fun h => by cases h)
      simp only [Phase.marked, decide_eq_true_eq] at hm
      rcases hi.marked k hk (by rw [hp]; simp [Phase.marked]; omega) with h | ⟨j, l, h, hl⟩
      · exact .inl h
      · rw [hp] at h
        cases h
        cases hl
    · cases h; exact nothing
  | finish =>
    simp only [State.step] at h
    split at h <;> cases h
    · rename_i hp
      have h1 := hi.stopping
      simp only [hp.1, ne_eq, reduceCtorEq, not_false_eq_true, iff_true] at h1
      refine inv_quiet hi (by simp) rfl (fun k _ h => .inl h) (fun k hk _ => ?_) (fun k h => .inl h) (by simp [h1]) (by simp) (fun _ => hp.2)
      rcases hi.marked k hk (by rw [hp.1]; rfl) with h | ⟨j, l, h, -⟩
      · exact .inl h
      · rw [hp.1] at h; cases h
    · exact nothing
  | world e =>
    cases e with
    | accept => cases h; exact nothing
    | _ => exact inv_world hi (by simp) h

theorem run_cons_inv {s s' : State} {e : Event} {es : List Event} {x : List Obs} (h : s.run env key endErr auto (e :: es) = .ok (s', x)) :
    ∃ t y z, s.step env key endErr auto e = .ok (t, y) ∧ t.run env key endErr auto es = .ok (s', z) ∧ x = y ++ z := by
  unfold State.run at h
  obtain ⟨⟨t, y⟩, h1, h2⟩ := Res.bind_ok h
  obtain ⟨⟨u, z⟩, h3, h4⟩ := Res.bind_ok h2
  cases h4
  exact ⟨t, y, z, h1, h3, rfl⟩

theorem run_append {s t u : State} {es es' : List Event} {x y : List Obs} (h : s.run env key endErr auto es = .ok (t, x))
    (h' : t.run env key endErr auto es' = .ok (u, y)) : s.run env key endErr auto (es ++ es') = .ok (u, x ++ y) := by
  induction es generalizing s x with
  | nil => cases h; simpa using h'
  | cons e es ih =>
    obtain ⟨a, p, q, h1, h2, rfl⟩ := run_cons_inv h
    rw [List.cons_append, State.run, h1, Res.ok_bind]
    simp only [ih h2, Res.ok_bind, List.append_assoc]

theorem inv_run {p : Int} {s s' : State} {es : List Event} {log x : List Obs} (hi : Inv p s log) (h : s.run env key endErr auto es = .ok (s', x)) :
    Inv p s' (log ++ x) := by
  induction es generalizing s log x with
  | nil => cases h; simpa using hi
  | cons e es ih =>
    obtain ⟨t, y, z, h1, h2, rfl⟩ := run_cons_inv h
    rw [← List.append_assoc]
    exact ih (inv_step hi h1) h2

/-! ## Counting -/

theorem count_nil {y : List World.Obs} (h : ∀ k, World.Obs.server (.accepted k) ∉ y) :
    (y.map Obs.world).countP isMade = 0 ∧ (y.map Obs.world).count .connected = 0 := by
  constructor
  · rw [List.countP_eq_zero]
    intro o ho hm
    obtain ⟨a, ha, rfl⟩ := List.mem_map.1 ho
    unfold isMade at hm
    split at hm
    · rename_i k he
      cases he
      exact h k ha
    · cases hm
  · rw [List.count_eq_zero]
    simp

/-- The sessions in the maps were made, and each was made for a connection. -/
structure Tally (s : State) (log : List Obs) : Prop where
  held : ∀ k ∈ s.held, made k ∈ log
  count : log.count .connected = log.countP isMade + s.arriving

theorem tally_same {s s' : State} {log x : List Obs} (hi : Tally s log) (hh : ∀ k ∈ s'.held, k ∈ s.held) (ha : s'.arriving = s.arriving)
    (hx : x.countP isMade = 0 ∧ x.count .connected = 0) : Tally s' (log ++ x) := by
  refine ⟨fun k hk => List.mem_append_left _ (hi.held k (hh k hk)), ?_⟩
  rw [List.count_append, List.countP_append, hx.1, hx.2, ha, hi.count]
  omega

theorem tally_world {s s' : State} {e : World.Event} {log x : List Obs} (hi : Tally s log) (he : e ≠ .accept)
    (h : s.onWorld env key endErr auto e = .ok (s', x)) : Tally s' (log ++ x) := by
  obtain ⟨w, y, h1, rfl, rfl⟩ := onWorld_inv h
  exact tally_same hi (fun k h => h) rfl (count_nil fun k hk => he (world_made h1 hk))

theorem tally_step {s s' : State} {e : Event} {log x : List Obs} (hi : Tally s log) (h : s.step env key endErr auto e = .ok (s', x)) :
    Tally s' (log ++ x) := by
  have nothing : Tally s (log ++ []) := by simpa using hi
  cases e with
  | connect =>
    simp only [State.step] at h
    split at h <;> cases h
    · refine ⟨fun k hk => List.mem_append_left _ (hi.held k hk), ?_⟩
      rw [List.count_append, List.countP_append, hi.count]
      simp [isMade]
      omega
    · exact nothing
  | enter =>
    simp only [State.step] at h
    split at h
    · cases h; exact nothing
    · rename_i hn
      have ha : s.arriving ≠ 0 := fun ha => hn (.inl ha)
      unfold State.enter at h
      obtain ⟨⟨t, y⟩, h1, h2⟩ := Res.bind_ok h
      obtain ⟨w, z, h3, rfl, rfl⟩ := onWorld_inv h1
      rw [accept_step] at h3
      simp only [Res.ok.injEq, Prod.mk.injEq] at h3
      obtain ⟨rfl, rfl⟩ := h3
      simp only at h2
      split at h2
      · obtain ⟨⟨t, y⟩, h4, h5⟩ := Res.bind_ok h2
        obtain ⟨w, z, h6, rfl, rfl⟩ := onWorld_inv h4
        cases h5
        obtain ⟨c1, c2⟩ := count_nil (y := z) fun k hk => by cases world_made h6 hk
        refine ⟨fun k hk => List.mem_append_left _ (hi.held k hk), ?_⟩
        simp only [List.count_append, List.countP_append, hi.count, c1, c2, List.map_cons, List.map_nil]
        simp [isMade]
        omega
      · cases h2
        refine ⟨fun k hk => ?_, ?_⟩
        · rcases List.mem_cons.1 hk with rfl | hk
          · simp
          · exact List.mem_append_left _ (hi.held k hk)
        · simp only [List.count_append, List.countP_append, hi.count, List.map_cons, List.map_nil]
          simp [isMade]
          omega
  | release k =>
    simp only [State.step] at h
    split at h <;> cases h
    · exact tally_same hi (fun j hj => (List.mem_filter.1 hj).1) rfl (by simp)
    · exact nothing
  | stop =>
    simp only [State.step] at h
    split at h <;> cases h
    · exact tally_same hi (fun j hj => hj) rfl (by simp [isMade])
    · exact nothing
  | lock =>
    simp only [State.step] at h
    (repeat' split at h) <;> cases h
    · exact tally_same hi (fun j hj => hj) rfl (by simp)
    · exact tally_same hi (fun j hj => hj) rfl (by simp)
    · exact nothing
  | closeNext k =>
    simp only [State.step] at h
    split at h
    · split at h
      · obtain ⟨⟨t, y⟩, h1, h2⟩ := Res.bind_ok h
        cases h2
        have := tally_world hi (by simp) h1
        exact ⟨this.held, this.count⟩
      · cases h; exact nothing
    · cases h; exact nothing
  | unlock =>
    simp only [State.step] at h
    split at h <;> cases h
    · exact tally_same hi (fun j hj => hj) rfl (by simp)
    · exact nothing
  | finish =>
    simp only [State.step] at h
    split at h <;> cases h
    · exact tally_same hi (fun j hj => hj) rfl (by simp [isMade])
    · exact nothing
  | world e =>
    cases e with
    | accept => cases h; exact nothing
    | _ => exact tally_world hi (by simp) h

theorem tally_run {s s' : State} {es : List Event} {log x : List Obs} (hi : Tally s log) (h : s.run env key endErr auto es = .ok (s', x)) :
    Tally s' (log ++ x) := by
  induction es generalizing s log x with
  | nil => cases h; simpa using hi
  | cons e es ih =>
    obtain ⟨t, y, z, h1, h2, rfl⟩ := run_cons_inv h
    rw [← List.append_assoc]
    exact ih (tally_step hi h1) h2

/-! ## The schedule of the rest -/

theorem world_step {s s' : State} {e : Event} {x : List Obs} (h : s.step env key endErr auto e = .ok (s', x)) :
    ∃ evs, s.world.run env key endErr auto evs = .ok (s'.world, x.filterMap worldView) := by
  have one {s s' : State} {e : World.Event} {x : List Obs} (h : s.onWorld env key endErr auto e = .ok (s', x)) :
      ∃ evs, s.world.run env key endErr auto evs = .ok (s'.world, x.filterMap worldView) := by
    obtain ⟨w, y, h1, rfl, rfl⟩ := onWorld_inv h
    exact ⟨[e], by rw [worldView_map]; simp [World.State.run, h1]⟩
  cases e with
  | connect => simp only [State.step] at h; split at h <;> cases h <;> exact ⟨[], rfl⟩
  | enter =>
    simp only [State.step] at h
    split at h
    · cases h; exact ⟨[], rfl⟩
    · unfold State.enter at h
      obtain ⟨⟨t, y⟩, h1, h2⟩ := Res.bind_ok h
      obtain ⟨w, z, h3, rfl, rfl⟩ := onWorld_inv h1
      simp only at h2
      split at h2
      · obtain ⟨⟨t, y⟩, h4, h5⟩ := Res.bind_ok h2
        obtain ⟨w', z', h6, rfl, rfl⟩ := onWorld_inv h4
        cases h5
        refine ⟨[.accept] ++ [.move (s.world.server.count + 1) .close], ?_⟩
        rw [List.filterMap_append, worldView_map, worldView_map]
        exact World.run_snoc (by simp [World.State.run, h3]) h6
      · cases h2
        exact ⟨[.accept], by rw [worldView_map]; simp [World.State.run, h3]⟩
  | release k => simp only [State.step] at h; split at h <;> cases h <;> exact ⟨[], rfl⟩
  | stop => simp only [State.step] at h; split at h <;> cases h <;> exact ⟨[], rfl⟩
  | lock => simp only [State.step] at h; (repeat' split at h) <;> cases h <;> exact ⟨[], rfl⟩
  | closeNext k =>
    simp only [State.step] at h
    split at h
    · split at h
      · obtain ⟨⟨t, y⟩, h1, h2⟩ := Res.bind_ok h
        cases h2
        obtain ⟨evs, h3⟩ := one h1
        exact ⟨evs, h3⟩
      · cases h; exact ⟨[], rfl⟩
    · cases h; exact ⟨[], rfl⟩
  | unlock => simp only [State.step] at h; (repeat' split at h) <;> cases h <;> exact ⟨[], rfl⟩
  | finish => simp only [State.step] at h; split at h <;> cases h <;> exact ⟨[], rfl⟩
  | world e =>
    cases e with
    | accept => cases h; exact ⟨[], rfl⟩
    | _ => exact one h

theorem world_append {s t u : World.State} {es es' : List World.Event} {x y : List World.Obs} (h : s.run env key endErr auto es = .ok (t, x))
    (h' : t.run env key endErr auto es' = .ok (u, y)) : s.run env key endErr auto (es ++ es') = .ok (u, x ++ y) := by
  induction es generalizing s x with
  | nil => cases h; simpa using h'
  | cons e es ih =>
    obtain ⟨a, p, q, h1, h2, rfl⟩ := World.run_cons_inv h
    rw [List.cons_append, World.State.run, h1, Res.ok_bind]
    simp only [ih h2, Res.ok_bind, List.append_assoc]

/-- What the sessions do is one of the schedules of `Model/World.lean`. -/
theorem world_run {s s' : State} {es : List Event} {x : List Obs} (h : s.run env key endErr auto es = .ok (s', x)) :
    ∃ evs, s.world.run env key endErr auto evs = .ok (s'.world, x.filterMap worldView) := by
  induction es generalizing s x with
  | nil => cases h; exact ⟨[], rfl⟩
  | cons e es ih =>
    obtain ⟨t, y, z, h1, h2, rfl⟩ := run_cons_inv h
    obtain ⟨e1, h3⟩ := world_step h1
    obtain ⟨e2, h4⟩ := ih h2
    exact ⟨e1 ++ e2, by rw [List.filterMap_append]; exact world_append h3 h4⟩

/-! ## Splitting a schedule -/

/-- What is observed of `Stop` itself is observed alone. -/
theorem step_alone {s s' : State} {e : Event} {x : List Obs} {o : Obs} (h : s.step env key endErr auto e = .ok (s', x)) (ho : ∀ y, o ≠ .world y)
    (hm : o ∈ x) : x = [o] := by
  have no {s s' : State} {e : World.Event} {x : List Obs} (h : s.onWorld env key endErr auto e = .ok (s', x)) : o ∉ x := by
    obtain ⟨w, y, -, -, rfl⟩ := onWorld_inv h
    rw [List.mem_map]
    rintro ⟨a, -, rfl⟩
    exact ho a rfl
  cases e with
  | connect => simp only [State.step] at h; split at h <;> cases h <;> simp_all
  | enter =>
    simp only [State.step] at h
    split at h
    · cases h; cases hm
    · unfold State.enter at h
      obtain ⟨⟨t, y⟩, h1, h2⟩ := Res.bind_ok h
      simp only at h2
      split at h2
      · obtain ⟨⟨t, y⟩, h4, h5⟩ := Res.bind_ok h2
        cases h5
        rcases List.mem_append.1 hm with hm | hm
        · exact absurd hm (no h1)
        · exact absurd hm (no h4)
      · cases h2
        exact absurd hm (no h1)
  | release k => simp only [State.step] at h; split at h <;> cases h <;> simp_all
  | stop => simp only [State.step] at h; split at h <;> cases h <;> simp_all
  | lock => simp only [State.step] at h; (repeat' split at h) <;> cases h <;> simp_all
  | closeNext k =>
    simp only [State.step] at h
    split at h
    · split at h
      · obtain ⟨⟨t, y⟩, h1, h2⟩ := Res.bind_ok h
        cases h2
        exact absurd hm (no h1)
      · cases h; cases hm
    · cases h; cases hm
  | unlock => simp only [State.step] at h; (repeat' split at h) <;> cases h <;> simp_all
  | finish => simp only [State.step] at h; split at h <;> cases h <;> simp_all
  | world e =>
    cases e with
    | accept => cases h; cases hm
    | _ => exact absurd hm (no h)

theorem run_split {s s' : State} {es : List Event} {l1 l2 : List Obs} {o : Obs} (ho : ∀ y, o ≠ .world y)
    (h : s.run env key endErr auto es = .ok (s', l1 ++ o :: l2)) :
    ∃ e1 e2 t, s.run env key endErr auto e1 = .ok (t, l1 ++ [o]) ∧ t.run env key endErr auto e2 = .ok (s', l2) := by
  induction es generalizing s l1 with
  | nil =>
    unfold State.run at h
    simp only [Res.ok.injEq, Prod.mk.injEq] at h
    simp at h
  | cons e es ih =>
    obtain ⟨t, y, z, h1, h2, h3⟩ := run_cons_inv h
    have one : s.run env key endErr auto [e] = .ok (t, y) := by simp [State.run, h1]
    rcases World.append_split h3.symm with ⟨c, rfl, rfl⟩ | ⟨c, rfl, rfl⟩
    · have := step_alone h1 ho (by simp)
      cases l1 with
      | cons a l1 => simp at this
      | nil =>
        simp only [List.nil_append, List.cons.injEq, true_and] at this
        subst this
        exact ⟨[e], es, t, one, h2⟩
    · obtain ⟨e1, e2, u, g1, g2⟩ := ih h2
      refine ⟨[e] ++ e1, e2, u, ?_, g2⟩
      have := run_append one g1
      simpa using this

/-! ## After `Stop` -/

theorem phase_step {s s' : State} {e : Event} {x : List Obs} (h : s.step env key endErr auto e = .ok (s', x)) :
    (s.phase ≠ .serving → s'.phase ≠ .serving ∧ .connected ∉ x) ∧ (s.phase = .returned → s'.phase = .returned) := by
  have one {s s' : State} {e : World.Event} {x : List Obs} (h : s.onWorld env key endErr auto e = .ok (s', x)) : s'.phase = s.phase ∧ .connected ∉ x := by
    obtain ⟨w, y, -, rfl, rfl⟩ := onWorld_inv h
    exact ⟨rfl, by simp⟩
  have done {s s' : State} {x : List Obs} (h : s'.phase = s.phase ∧ .connected ∉ x) :
      (s.phase ≠ .serving → s'.phase ≠ .serving ∧ .connected ∉ x) ∧ (s.phase = .returned → s'.phase = .returned) := by
    rw [h.1]
    exact ⟨fun g => ⟨g, h.2⟩, id⟩
  cases e with
  | connect => simp only [State.step] at h; split at h <;> cases h <;> simp_all
  | enter =>
    simp only [State.step] at h
    split at h
    · cases h; exact done ⟨rfl, by simp⟩
    · unfold State.enter at h
      obtain ⟨⟨t, y⟩, h1, h2⟩ := Res.bind_ok h
      obtain ⟨g1, g2⟩ := one h1
      simp only at h2
      split at h2
      · obtain ⟨⟨t, y⟩, h4, h5⟩ := Res.bind_ok h2
        obtain ⟨g3, g4⟩ := one h4
        cases h5
        exact done ⟨g3.trans g1, by simp [g2, g4]⟩
      · cases h2
        exact done ⟨g1, g2⟩
  | release k => simp only [State.step] at h; split at h <;> cases h <;> exact done ⟨rfl, by simp⟩
  | stop => simp only [State.step] at h; split at h <;> cases h <;> simp_all
  | lock => simp only [State.step] at h; (repeat' split at h) <;> cases h <;> simp_all
  | closeNext k =>
    simp only [State.step] at h
    split at h
    · split at h
      · obtain ⟨⟨t, y⟩, h1, h2⟩ := Res.bind_ok h
        cases h2
        have := (one h1).2
        simp_all
      · cases h; exact done ⟨rfl, by simp⟩
    · cases h; exact done ⟨rfl, by simp⟩
  | unlock => simp only [State.step] at h; (repeat' split at h) <;> cases h <;> simp_all
  | finish => simp only [State.step] at h; split at h <;> cases h <;> simp_all
  | world e =>
    cases e with
    | accept => cases h; exact done ⟨rfl, by simp⟩
    | _ => exact done (one h)

theorem no_connected {s s' : State} {es : List Event} {x : List Obs} (hp : s.phase ≠ .serving) (h : s.run env key endErr auto es = .ok (s', x)) :
    .connected ∉ x := by
  induction es generalizing s x with
  | nil => cases h; simp
  | cons e es ih =>
    obtain ⟨t, y, z, h1, h2, rfl⟩ := run_cons_inv h
    obtain ⟨g1, g2⟩ := (phase_step h1).1 hp
    simp [g2, ih g1 h2]

theorem no_stopping {s s' : State} {es : List Event} {x : List Obs} (hp : s.phase ≠ .serving) (h : s.run env key endErr auto es = .ok (s', x)) :
    .stopping ∉ x := by
  induction es generalizing s x with
  | nil => cases h; simp
  | cons e es ih =>
    obtain ⟨t, y, z, h1, h2, rfl⟩ := run_cons_inv h
    have hy : .stopping ∉ y := by
      intro hm
      have := step_alone h1 (by simp) hm
      subst this
      have no {s s' : State} {e : World.Event} {x : List Obs} (h : s.onWorld env key endErr auto e = .ok (s', x)) : .stopping ∉ x := by
        obtain ⟨w, y, -, -, rfl⟩ := onWorld_inv h
        simp
      cases e with
      | stop => simp only [State.step, hp, if_false] at h1; cases h1
      | connect => simp only [State.step] at h1; split at h1 <;> simp at h1
      | enter =>
        simp only [State.step] at h1
        split at h1
        · simp at h1
        · unfold State.enter at h1
          obtain ⟨⟨t, y⟩, h3, h4⟩ := Res.bind_ok h1
          have g3 := no h3
          simp only at h4
          split at h4
          · obtain ⟨⟨t, w⟩, h5, h6⟩ := Res.bind_ok h4
            have g5 := no h5
            simp only [Res.ok.injEq, Prod.mk.injEq] at h6
            have : .stopping ∈ y ++ w := by rw [h6.2]; simp
            simp [g3, g5] at this
          · simp only [Res.ok.injEq, Prod.mk.injEq] at h4
            rw [h4.2] at g3
            simp at g3
      | release k => simp only [State.step] at h1; split at h1 <;> simp at h1
      | lock => simp only [State.step] at h1; (repeat' split at h1) <;> simp at h1
      | closeNext k =>
        simp only [State.step] at h1
        split at h1
        · split at h1
          · obtain ⟨⟨t, y⟩, h3, h4⟩ := Res.bind_ok h1
            have := no h3
            simp only [Res.ok.injEq, Prod.mk.injEq] at h4
            rw [h4.2] at this
            simp at this
          · simp at h1
        · simp at h1
      | unlock => simp only [State.step] at h1; (repeat' split at h1) <;> simp at h1
      | finish => simp only [State.step] at h1; split at h1 <;> simp at h1
      | world e =>
        cases e with
        | accept => simp [State.step] at h1
        | _ => exact no h1 (by simp)
    simp [hy, ih ((phase_step h1).1 hp).1 h2]

theorem count_view (a : List Obs) (k : Nat) : a.count (closeCalled k) = (a.filterMap sessionView).count (.closeHandler k) := by
  induction a with
  | nil => rfl
  | cons o a ih =>
    rw [List.count_cons, ih, List.filterMap_cons]
    cases o with
    | world w =>
      cases w with
      | server x => simp [sessionView, worldView, serverView, List.count_cons, closeCalled]
      | _ => simp [sessionView, worldView, serverView, closeCalled]
    | _ => simp [sessionView, worldView, closeCalled]

/-- Once `Stop` has returned, each session that is made is closed at once. -/
theorem made_closed {p : Int} {s s' : State} {es : List Event} {log x : List Obs} (hi : Inv p s log) (hp : s.phase = .returned)
    (h : s.run env key endErr auto es = .ok (s', x)) {k : Nat} (hk : made k ∈ x) : ∃ a b, x = a ++ made k :: closed k :: b := by
  induction es generalizing s log x with
  | nil => cases h; cases hk
  | cons e es ih =>
    obtain ⟨t, y, z, h1, h2, rfl⟩ := run_cons_inv h
    by_cases hz : made k ∈ z
    · obtain ⟨a, b, rfl⟩ := ih (inv_step hi h1) ((phase_step h1).2 hp) h2 hz
      exact ⟨y ++ a, b, by simp⟩
    · have hy : made k ∈ y := (List.mem_append.1 hk).resolve_right hz
      have no {s s' : State} {e : World.Event} {x : List Obs} (h : s.onWorld env key endErr auto e = .ok (s', x)) (he : e ≠ .accept) : made k ∉ x := by
        obtain ⟨w, y, h1, -, rfl⟩ := onWorld_inv h
        exact fun hm => he (world_made h1 (j := k) (by simpa using hm))
      cases e with
      | enter =>
        simp only [State.step] at h1
        split at h1
        · cases h1; cases hy
        · rename_i hn
          obtain ⟨-, -, h3⟩ := inv_enter hi (by simpa using fun hl => hn (.inr hl)) h1
          have h4 := h3 (by rw [hp]; rfl)
          subst h4
          have hk' : k = s.world.server.count + 1 := by simpa using hy
          subst hk'
          exact ⟨[], z, rfl⟩
      | connect => simp only [State.step] at h1; split at h1 <;> cases h1 <;> simp at hy
      | release k => simp only [State.step] at h1; split at h1 <;> cases h1 <;> simp at hy
      | stop => simp only [State.step] at h1; split at h1 <;> cases h1 <;> simp at hy
      | lock => simp only [State.step] at h1; (repeat' split at h1) <;> cases h1 <;> simp at hy
      | closeNext k =>
        simp only [State.step, hp] at h1
        cases h1; cases hy
      | unlock => simp only [State.step] at h1; (repeat' split at h1) <;> cases h1 <;> simp at hy
      | finish => simp only [State.step] at h1; split at h1 <;> cases h1 <;> simp at hy
      | world e =>
        cases e with
        | accept => cases h1; cases hy
        | _ => exact absurd hy (no h1 (by simp))

/-! ## What is still received -/

theorem unmade_place {p : Int} {s : State} {log : List Obs} (hi : Inv p s log) {k : Nat} (hk : World.placeOf s.world.server k ≠ none) : made k ∈ log := by
  have hl := hi.good.server.life k
  unfold World.placeOf at hk
  cases hx : s.world.server.sessions k with
  | none => simp [hx] at hk
  | some x =>
    rw [hx] at hl
    have f : Server.Facts k x _ := Server.life_facts hl
    have : Server.Obs.accepted k ∈ Server.only k ((log.filterMap worldView).filterMap serverView) := by
      rw [← List.count_pos_iff, f.accepted]
      exact Nat.one_pos
    exact mem_world.1 (World.mem_server.1 ((Server.mem_only rfl).1 this))

theorem returned_closed {p : Int} {s : State} {log : List Obs} (hi : Inv p s log) (hp : s.phase = .returned) {k : Nat} (hk : made k ∈ log) : closed k ∈ log := by
  rcases hi.marked k hk (by rw [hp]; rfl) with h | ⟨i, l, h, -⟩
  · exact h
  · rw [hp] at h; cases h

/-- What a step of the server is in the rest, once `Stop` has returned: nothing, one step, or a session is made and closed. -/
theorem late_step {s s' : State} {e : Event} {x : List Obs} (hp : s.phase = .returned) (h : s.step env key endErr auto e = .ok (s', x)) :
    (s'.world = s.world ∧ x.filterMap worldView = []) ∨
      (∃ ev, ev ≠ .accept ∧ s.world.step env key endErr auto ev = .ok (s'.world, x.filterMap worldView)) ∨
      ∃ w y z, s.world.step env key endErr auto .accept = .ok (w, y) ∧ w.step env key endErr auto (.move (s.world.server.count + 1) .close) = .ok (s'.world, z) ∧
        x.filterMap worldView = y ++ z := by
  cases e with
  | connect => simp only [State.step] at h; split at h <;> cases h <;> exact .inl ⟨rfl, rfl⟩
  | enter =>
    simp only [State.step] at h
    split at h
    · cases h; exact .inl ⟨rfl, rfl⟩
    · unfold State.enter at h
      obtain ⟨⟨t, y⟩, h1, h2⟩ := Res.bind_ok h
      obtain ⟨w, z, h3, rfl, rfl⟩ := onWorld_inv h1
      simp only at h2
      rw [if_pos (by rw [hp]; rfl)] at h2
      obtain ⟨⟨t, y⟩, h4, h5⟩ := Res.bind_ok h2
      obtain ⟨w', z', h6, rfl, rfl⟩ := onWorld_inv h4
      cases h5
      refine .inr (.inr ⟨w, z, z', h3, h6, ?_⟩)
      rw [List.filterMap_append, worldView_map, worldView_map]
  | release k => simp only [State.step] at h; split at h <;> cases h <;> exact .inl ⟨rfl, rfl⟩
  | stop => simp only [State.step] at h; split at h <;> cases h <;> exact .inl ⟨rfl, rfl⟩
  | lock => simp only [State.step] at h; (repeat' split at h) <;> cases h <;> exact .inl ⟨rfl, rfl⟩
  | closeNext k => simp only [State.step, hp] at h; cases h; exact .inl ⟨rfl, rfl⟩
  | unlock => simp only [State.step] at h; (repeat' split at h) <;> cases h <;> exact .inl ⟨rfl, rfl⟩
  | finish => simp only [State.step] at h; split at h <;> cases h <;> exact .inl ⟨rfl, rfl⟩
  | world e =>
    have one (he : e ≠ .accept) (h : s.onWorld env key endErr auto e = .ok (s', x)) :
        ∃ ev, ev ≠ .accept ∧ s.world.step env key endErr auto ev = .ok (s'.world, x.filterMap worldView) := by
      obtain ⟨w, y, h1, rfl, rfl⟩ := onWorld_inv h
      exact ⟨e, he, by rw [worldView_map]; exact h1⟩
    cases e with
    | accept => cases h; exact .inl ⟨rfl, rfl⟩
    | _ => exact .inr (.inl (one (by simp) h))

/-- Steps of the server that concern sessions only receive nothing. -/
theorem closedInv_server {k : Nat} {b : Bytes} {w w' : World.State} {e : Server.Event} {log y : List World.Obs} (h : w.onServer e = .ok (w', y))
    (hi : World.ClosedInv env key endErr k b w log) : World.ClosedInv env key endErr k b w' (log ++ y) := by
  obtain ⟨u, o, -, rfl, rfl⟩ := World.onServer_inv h
  have : (o.map World.Obs.server).filterMap (receivedBy k) = [] := by
    rw [List.filterMap_eq_nil_iff]
    intro a ha
    obtain ⟨c, -, rfl⟩ := List.mem_map.1 ha
    rfl
  obtain ⟨T, h1, h2⟩ := hi
  exact ⟨T, by rw [List.filterMap_append, this, List.append_nil]; exact h1, h2⟩

theorem late_run {p : Int} {k : Nat} {b : Bytes} {s s' : State} {es : List Event} {log0 x : List Obs} {log : List World.Obs} (hg : Inv p s log0)
    (hp : s.phase = .returned) (hi : World.ClosedInv env key endErr k b s.world log) (h : s.run env key endErr auto es = .ok (s', x)) :
    World.ClosedInv env key endErr k b s'.world (log ++ x.filterMap worldView) := by
  induction es generalizing s log0 log x with
  | nil => cases h; simpa using hi
  | cons e es ih =>
    obtain ⟨t, y, z, h1, h2, rfl⟩ := run_cons_inv h
    rw [List.filterMap_append, ← List.append_assoc]
    refine ih (inv_step hg h1) ((phase_step h1).2 hp) ?_ h2
    rcases late_step hp h1 with ⟨h3, h4⟩ | ⟨ev, -, h3⟩ | ⟨w, c, d, h3, h4, h5⟩
    · rw [h4, List.append_nil, h3]
      exact hi
    · refine World.closedInv_shape (hg.good.fits k) (fun hk => ?_) hi (World.good_shape hg.good h3 k)
      rw [hg.good.closed, mem_world]
      exact returned_closed hg hp (unmade_place hg hk)
    · rw [h5, ← List.append_assoc]
      exact closedInv_server (show World.State.onServer _ _ = _ from h4) (closedInv_server (show World.State.onServer _ _ = _ from h3) hi)

/-- Nothing can be received from an empty buffer if nothing arrives. -/
theorem receiveMany_empty {C : BodyCodec Entity} {n : Nat} {l : List (Message Entity)} {T : RecvState}
    (h : receiveMany C key endErr n ⟨[], []⟩ = (l.map .ok, T)) (hl : l.length = n) : n = 0 := by
  cases n with
  | zero => rfl
  | succ n =>
    exfalso
    cases l with
    | nil => simp at hl
    | cons m l =>
      have := congrArg Prod.fst h
      simp [receiveMany, Codec.receive, Codec.readFromBuffer, Codec.recvLoop] at this

/-- A session that receives nothing, and has nothing to do, does not call a handler. -/
theorem idle_run {p : Int} {k : Nat} {s s' : World.State} {es : List World.Event} {log x : List World.Obs} (hg : World.Good p s log)
    (hm : ¬ World.Mid (s.sys.conns k).place) (hb : s.busy k = .idle) (h : s.run env key endErr auto es = .ok (s', x)) (hr : ∀ m, .received k m ∉ x) :
    ∀ i m, .called k i m ∉ x := by
  induction es generalizing s log x with
  | nil => cases h; simp
  | cons e es ih =>
    obtain ⟨t, y, z, h1, h2, rfl⟩ := World.run_cons_inv h
    have hr1 : ∀ m, .received k m ∉ y := fun m hm => hr m (List.mem_append_left _ hm)
    have hr2 : ∀ m, .received k m ∉ z := fun m hm => hr m (List.mem_append_right _ hm)
    have next : ¬ World.Mid (t.sys.conns k).place ∧ t.busy k = .idle ∧ ∀ i m, .called k i m ∉ y := by
      cases World.good_shape hg h1 k with
      | quiet hq _ b _ d _ => exact ⟨fun h => hm (d h), b.trans hb, fun i m h => by simpa [World.Quiet] using hq _ h⟩
      | receive m => exact absurd (by simp) (hr1 m)
      | leave o a b c d e ho => exact ⟨by rw [e]; simp [World.Mid], by rw [d]; exact hb, by rcases ho with rfl | rfl <;> simp⟩
      | first n a b c d => exact ⟨by rw [d]; exact hm, by rw [c]; exact hb, by simp⟩
      | armFirst a b c d => exact ⟨by rw [d]; exact hm, by rw [c]; exact hb, by simp⟩
      | arm a b c d => exact ⟨by rw [d]; exact hm, by rw [c]; exact hb, by simp⟩
      | dispatch n h m a b c d e => exact absurd (by rw [e]; simp [World.Mid]) hm
      | call h m a b c => rw [hb] at c; cases c
      | finish h m u a b => rw [hb] at b; cases b
    intro i m hc
    rcases List.mem_append.1 hc with hc | hc
    · exact next.2.2 i m hc
    · exact ih (World.good_step hg h1) next.1 next.2.1 h2 hr2 i m hc

/-- Sessions that do not exist have nothing to do. -/
theorem idle_unmade {k : Nat} {s : World.State} (hf : World.Fits k s) (hk : World.placeOf s.server k = none) :
    ¬ World.Mid (s.sys.conns k).place ∧ s.busy k = .idle := by
  refine ⟨fun h => ?_, ?_⟩
  · have := (hf.mid h).1
    rw [hk] at this
    cases this
  · cases hb : s.busy k with
    | idle => rfl
    | chosen i m =>
      rcases hf.chosen i m hb with h | ⟨c, h⟩ <;> rw [hk] at h <;> cases h
    | running i m =>
      have h := hf.running i m hb
      rw [hk] at h
      cases h

/-- The loop of a session that does not exist has read nothing. -/
theorem unmade_buffer {ka : Int} {rsa : Option Nat} {s0 : Server.State} (h0 : Server.newServer ka rsa = .ok s0) {reads : Nat → List Bytes} {es : List Event}
    {s : State} {log : List Obs} (h : (start s0 reads).run env key endErr auto es = .ok (s, log)) {k : Nat} (hk : World.placeOf s.world.server k = none) :
    (s.world.sys.conns k).recv.buffer = [] := by
  obtain ⟨evs, h1⟩ := world_run h
  have : ∀ (evs : List World.Event) (w w' : World.State) (l x : List World.Obs), World.Good (keepalivePeriod ka) w l → (w.sys.conns k).recv.buffer = [] →
      w.run env key endErr auto evs = .ok (w', x) → World.placeOf w'.server k = none → (w'.sys.conns k).recv.buffer = [] := by
    intro evs
    induction evs with
    | nil => intro w w' l x _ hb hr _; cases hr; exact hb
    | cons e evs ih =>
      intro w w' l x hg hb hr hn
      obtain ⟨t, y, z, g1, g2, rfl⟩ := World.run_cons_inv hr
      have hg' := World.good_step hg g1
      have ht : World.placeOf t.server k = none := by
        obtain ⟨v, g3⟩ := World.server_run g2
        cases hx : World.placeOf t.server k with
        | none => rfl
        | some q =>
          exfalso
          have hgz := World.good_run hg' g2
          have l1 := hg'.server.life k
          have l2 := hgz.server.life k
          unfold World.placeOf at hx hn
          cases hy : t.server.sessions k with
          | none => simp [hy] at hx
          | some a =>
            cases hz : w'.server.sessions k with
            | some b => simp [hz] at hn
            | none =>
              rw [hy] at l1
              rw [hz] at l2
              have f : Server.Facts k a _ := Server.life_facts l1
              have n : Server.only k _ = [] := Server.life_facts l2
              have c := f.accepted
              rw [List.filterMap_append, Server.only_append, List.append_eq_nil_iff] at n
              rw [n.1] at c
              cases c
      refine ih t w' _ z hg' ?_ g2 hn
      cases World.good_shape hg g1 k with
      | quiet _ _ _ r => rw [r]; exact hb
      | receive m a b => rw [b, a] at ht; cases ht
      | leave o a b => rw [b] at ht; cases ht
      | first n a b => rw [b] at ht; cases ht
      | armFirst a b => rw [b] at ht; cases ht
      | arm a b => rw [b] at ht; cases ht
      | dispatch n i m a b => rw [b] at ht; cases ht
      | call i m a b => rw [b, a] at ht; cases ht
      | finish i m u a b c d => rw [d]; exact hb
  exact this evs _ _ [] _ (World.good_start h0 reads) rfl h1 hk

/-! ## `Stop` can return -/

theorem onWorld_ok {p : Int} {s : State} {log : List Obs} (hi : Inv p s log) (k : Nat) : ∃ r, s.onWorld env key endErr auto (.move k .close) = .ok r := by
  obtain ⟨r, hr⟩ := World.onServer_ok hi.good (.move k .close)
  exact ⟨_, by rw [State.onWorld, show s.world.step env key endErr auto (.move k .close) = .ok r from hr]; rfl⟩

/-- `Stop` closes the sessions in a map and goes on. -/
theorem can_unlock {p : Int} {i : Nat} (left : List Nat) : ∀ {s : State} {log : List Obs}, Inv p s log → s.phase = .closing i left →
    ∃ es t x, s.run env key endErr auto es = .ok (t, x) ∧ t.phase = .between (i + 1) := by
  intro s log hi hp
  generalize hn : left.length = n
  induction n using Nat.strongRecOn generalizing left s log with
  | _ n ih =>
    cases left with
    | nil =>
      refine ⟨[.unlock], { s with phase := .between (i + 1) }, [], ?_, rfl⟩
      simp [State.run, State.step, hp]
    | cons k left =>
      obtain ⟨⟨u, y⟩, hr⟩ := onWorld_ok (env := env) (key := key) (endErr := endErr) (auto := auto) hi k
      have hs : s.step env key endErr auto (.closeNext k) = .ok ({ u with phase := .closing i ((k :: left).filter (· ≠ k)) }, y) := by
        simp [State.step, hp, hr]
      have hlt : ((k :: left).filter (· ≠ k)).length < n := by
        subst hn
        have := List.length_filter_le (fun j => decide (j ≠ k)) left
        simp
        simp at this
        omega
      obtain ⟨es, t, x, h1, h2⟩ := ih _ hlt _ (inv_step hi hs) rfl rfl
      exact ⟨.closeNext k :: es, t, y ++ x, by rw [State.run, hs, Res.ok_bind]; simp only [h1, Res.ok_bind], h2⟩

theorem can_wait {p : Int} {i : Nat} {s : State} {log : List Obs} (hi : Inv p s log) (hp : s.phase = .between i) :
    ∃ es t x, s.run env key endErr auto es = .ok (t, x) ∧ t.phase = .waiting := by
  generalize hn : maps - i = n
  induction n generalizing i s log with
  | zero =>
    refine ⟨[.lock], { s with phase := .waiting }, [], ?_, rfl⟩
    simp [State.run, State.step, hp, show ¬ i < maps by omega]
  | succ n ih =>
    have h1 : s.run env key endErr auto [.lock] = .ok ({ s with phase := .closing i (s.held.filter fun k => k % maps = i) }, []) := by
      simp [State.run, State.step, hp, show i < maps by omega]
    have hi1 := inv_run hi h1
    obtain ⟨e2, t, y, h2, h3⟩ := can_unlock (env := env) (key := key) (endErr := endErr) (auto := auto) _ hi1 rfl
    obtain ⟨e3, u, z, h4, h5⟩ := ih (inv_run hi1 h2) h3 (by omega)
    exact ⟨_, u, _, run_append (run_append h1 h2) h4, h5⟩

/-- The steps that are left for the goroutine that closes session `k`. -/
def closing (k : Nat) (u : UserCode) : List Event :=
  [.world (.move k .callbacks), .world (.move k .delete), .world (.move k .remove), .world (.move k (.handler u))]

theorem world_moves {ms : List (Nat × Server.Move)} (hm : ∀ a ∈ ms, (∀ n, a.2 ≠ .restart n) ∧ a.2 ≠ .leave) {s : State} {v : Server.State}
    {o : List Server.Obs} (h : s.world.server.run (ms.map fun a => .move a.1 a.2) = .ok (v, o)) :
    s.run env key endErr auto (ms.map fun a => .world (.move a.1 a.2)) =
      .ok ({ s with world := { s.world with server := v } }, o.map fun a => .world (.server a)) := by
  induction ms generalizing s o with
  | nil => cases h; rfl
  | cons a ms ih =>
    rw [List.map_cons, Server.State.run] at h
    obtain ⟨⟨t, y⟩, h1, h2⟩ := Res.bind_ok h
    obtain ⟨⟨u, z⟩, h3, h4⟩ := Res.bind_ok h2
    cases h4
    have hs : s.step env key endErr auto (.world (.move a.1 a.2)) = .ok ({ s with world := { s.world with server := t } }, y.map fun a => .world (.server a)) := by
      obtain ⟨g1, g2⟩ := hm a (by simp)
      obtain ⟨k, m⟩ := a
      have : s.world.onServer (.move k m) = .ok ({ s.world with server := t }, y.map .server) := by
        rw [World.State.onServer, h1]; rfl
      cases m <;> first
        | exact absurd rfl (g1 _)
        | exact absurd rfl g2
        | (simp only [State.step, State.onWorld, World.State.step, this, Res.ok_bind, List.map_map]; rfl)
    have := ih (s := { s with world := { s.world with server := t } }) (fun a ha => hm a (List.mem_cons_of_mem _ ha)) h3
    rw [List.map_cons, State.run, hs, Res.ok_bind]
    simp only [this, Res.ok_bind, List.map_append]

theorem can_close {p : Int} {s : State} {log : List Obs} (hi : Inv p s log) {k : Nat} (hk : closed k ∈ log) (u : UserCode) :
    ∃ t x, s.run env key endErr auto (closing k u) = .ok (t, x) ∧ t.phase = s.phase ∧ t.held = s.held ∧ closeReturned t.world.server k = true := by
  have hc := (hi.good.closed k).2 (mem_world.2 hk)
  unfold World.isClosed at hc
  have hl := hi.good.server.life k
  obtain ⟨v, o, h1, -⟩ := Server.run_inv hi.good.server [.move k .callbacks, .move k .delete, .move k .remove, .move k (.handler u)]
  refine ⟨_, _, world_moves (ms := [(k, .callbacks), (k, .delete), (k, .remove), (k, .handler u)]) (by simp) h1, rfl, rfl, ?_⟩
  cases hx : s.world.server.sessions k with
  | none => simp [hx] at hc
  | some x =>
    rw [hx] at hl
    simp only [hx] at hc
    have f : Server.Facts k x _ := Server.life_facts hl
    have hne := f.closed.1 hc
    obtain ⟨t1, g1, r1, -⟩ : ∃ c' f', s.world.server.timer.step (.remove k) = .ok (c', f') ∧ _ :=
      Timer.step_owned id s.world.server.timer (.remove k) hi.good.server.owned (by intro i k n hb; cases hb)
    have hcb := f.callback
    unfold closeReturned
    cases hat : x.attached <;> cases hcl : x.closer <;> simp [hcl, hat] at hne hcb <;>
      simp [Server.State.run, Server.State.step, hx, Server.Sess.step, hcl, hat, Server.State.onTimer, Server.Move.timerEvent, Server.State.put, r1,
        Server.call_recovered] at h1 <;>
      (obtain ⟨rfl, _⟩ := h1; simp [hx, hcl])

/-- Once all maps are done, the sessions are taken out of them and `Stop` returns. -/
theorem can_return {p : Int} (u : UserCode) {s : State} {log : List Obs} (hi : Inv p s log) (ht : Tally s log) (hp : s.phase = .waiting) :
    ∃ es t x, s.run env key endErr auto es = .ok (t, x) ∧ t.phase = .returned := by
  generalize hn : s.held.length = n
  induction n using Nat.strongRecOn generalizing s log with
  | _ n ih =>
    cases hh : s.held with
    | nil =>
      refine ⟨[.finish], { s with phase := .returned }, [.stopped], ?_, rfl⟩
      simp [State.run, State.step, hp, hh]
    | cons k held =>
      have hk : closed k ∈ log := by
        rcases hi.marked k (ht.held k (by simp [hh])) (by rw [hp]; rfl) with h | ⟨i, l, h, -⟩
        · exact h
        · rw [hp] at h; cases h
      obtain ⟨t, x, h1, h2, h3, h4⟩ := can_close (env := env) (key := key) (endErr := endErr) (auto := auto) hi hk u
      have h5 : t.run env key endErr auto [.release k] = .ok ({ t with held := t.held.filter (· ≠ k) }, []) := by
        simp [State.run, State.step, h2, hp, Phase.locked, h4]
      have hlt : (t.held.filter (· ≠ k)).length < n := by
        subst hn
        have := List.length_filter_le (fun j => decide (j ≠ k)) held
        rw [h3, hh]
        simp
        simp at this
        omega
      have h6 := run_append h1 h5
      obtain ⟨es, v, y, h7, h8⟩ := ih _ hlt (inv_run hi h6) (tally_run ht h6) (by simp [h2, hp]) rfl
      exact ⟨_, v, _, run_append h6 h7, h8⟩

end
end Verif.Shutdown
