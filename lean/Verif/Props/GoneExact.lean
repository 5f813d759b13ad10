import Verif.Props.ServerExact
import Verif.Props.GoneFair
import Verif.Spec.ShutdownExact
/-! # C97, C100: exactly which sessions a server forgets that is stopped or whose terminals have gone -/

namespace Verif
open Spec Spec.Stop Handler Session Shutdown

variable {env : Env} {key : Option DecKey} {endErr : Err} {auto : Bool} {ka : Int} {rsa : Option Nat} {s0 : Server.State} {reads : Nat → List Bytes}
  {es : List Shutdown.Event} {s t : Shutdown.State}

private theorem view (l : List Shutdown.Obs) : List.filterMap serverView (List.filterMap worldView l) = l.filterMap sessionView := by
  rw [List.filterMap_filterMap]
  rfl

/-- The close of a session has come to its end; what is to come later depends on the close callback only. -/
theorem settled_close (h0 : Server.newServer ka rsa = .ok s0) {l later : List Shutdown.Obs} {k : Nat} {more : List Shutdown.Event}
    (h : (Shutdown.start s0 reads).run env key endErr auto es = .ok (t, l)) (hr : enteredFor k ∈ l) (hd : closeEnded k ∈ l)
    (h' : t.run env key endErr auto more = .ok (s, later)) :
    (CallbackBeforeEnd k l → l.count (closeCalled k) = 1 ∧ closeCalled k ∉ later ∧ s.world.server.getSession k = false) ∧
      (¬ CallbackBeforeEnd k l → l.count (closeCalled k) = 0 ∧ closeCalled k ∉ later ∧ s.world.server.getSession k = true) := by
  obtain ⟨w1, g1⟩ := Shutdown.world_run h
  obtain ⟨v1, g2⟩ := World.server_run g1
  obtain ⟨w, g3⟩ := Shutdown.world_run h'
  obtain ⟨v, g4⟩ := World.server_run g3
  rw [view] at g2 g4
  have g2 : s0.run v1 = .ok (t.world.server, l.filterMap sessionView) := g2
  have hd' : .closeDone k ∈ l.filterMap sessionView := List.mem_filterMap.2 ⟨_, hd, rfl⟩
  have hr' : .registered k ∈ l.filterMap sessionView := List.mem_filterMap.2 ⟨_, hr, rfl⟩
  obtain ⟨c1, c2⟩ := C37_exact_partial h0 g2 hd'
  obtain ⟨-, c3⟩ := C36_exact_partial h0 g2 hr' hd'
  refine ⟨fun hc => ?_, fun hn => ?_⟩
  · have g5 : s0.run (v1 ++ v) = .ok (s.world.server, l.filterMap sessionView ++ later.filterMap sessionView) := by
      rw [Server.run_append, g2]; simp [g4]
    have hc' : AttachedBeforeEnd k (l.filterMap sessionView ++ later.filterMap sessionView) := by
      obtain ⟨a, b, he, hm⟩ := hc
      exact ⟨a, b ++ later.filterMap sessionView, by rw [he]; simp, hm⟩
    have n1 := c1.2 hc
    have n2 := (C37_exact_partial h0 g5 (List.mem_append_left _ hd')).1.2 hc'
    rw [List.count_append, n1] at n2
    refine ⟨(Shutdown.count_view l k).trans n1, ?_, (C36_exact_partial h0 g5 (List.mem_append_left _ hr') (List.mem_append_left _ hd')).1.2 hc'⟩
    rw [← List.count_eq_zero, Shutdown.count_view]
    omega
  · obtain ⟨n1, n2⟩ := c2 hn
    refine ⟨(Shutdown.count_view l k).trans n1, ?_, c3 hn v _ _ g4⟩
    intro hm
    exact n2 hr' v _ _ g4 (List.mem_filterMap.2 ⟨_, hm, rfl⟩)

/-- C97, exactly: of the sessions that were made before `Stop` was called and had been entered for `GetSession` when it returned, those are forgotten whose close
callback was in place when their closing goroutine ended: their close handler has run once. The others stay for ever, and their close handler never runs. Missing: the
property for the latter, and sessions made later. -/
theorem C97_exact_partial (h0 : Server.newServer ka rsa = .ok s0) {l0 l1 l2 : List Shutdown.Obs}
    (h : (Shutdown.start s0 reads).run env key endErr auto es = .ok (s, l0 ++ .stopping :: l1 ++ .stopped :: l2)) {k : Nat} (hk : made k ∈ l0)
    (hr : enteredFor k ∈ l0 ++ .stopping :: l1) :
    (CallbackBeforeEnd k (l0 ++ .stopping :: l1) →
        (l0 ++ .stopping :: l1).count (closeCalled k) = 1 ∧ closeCalled k ∉ l2 ∧ s.world.server.getSession k = false) ∧
      (¬ CallbackBeforeEnd k (l0 ++ .stopping :: l1) →
        (l0 ++ .stopping :: l1).count (closeCalled k) = 0 ∧ closeCalled k ∉ l2 ∧ s.world.server.getSession k = true) := by
  have hd := C97_waits h0 h hk
  generalize l0 ++ .stopping :: l1 = l at *
  obtain ⟨e1, e2, t, h1, h2⟩ := Shutdown.run_split (by simp) h
  have := settled_close (k := k) h0 h1 (by simp [hr]) (by simp [hd]) h2
  have e : CallbackBeforeEnd k (l ++ [.stopped]) ↔ CallbackBeforeEnd k l := by
    unfold CallbackBeforeEnd
    rw [List.filterMap_append]
    show AttachedBeforeEnd k (l.filterMap sessionView ++ []) ↔ _
    rw [List.append_nil]
  rw [e, List.count_append] at this
  simpa using this

variable {ev : Nat → Shutdown.Event} {st : Nat → Shutdown.State} {log : Nat → List Shutdown.Obs}

/-- C100, exactly: in every run in which the clock goes on and nothing is neglected, there is a time from which on every session that was entered for `GetSession` is
either forgotten, its close handler having run once, or stays for ever without it; and it is the first if and only if its close callback was in place when its closing
goroutine ended. Missing: the property for the others. -/
theorem C100_exact_partial (h0 : Server.newServer ka rsa = .ok s0)
    (h : ∀ n, (Shutdown.start s0 reads).run env key endErr auto (firsts ev n) = .ok (st n, log n)) (hc : Clock ev) (hf : Fair ev) {N k : Nat} (hs : Starts ev k)
    (hk : enteredFor k ∈ log N) :
    ∃ M, N ≤ M ∧ closeEnded k ∈ log M ∧
      (CallbackBeforeEnd k (log M) → ∀ n, M ≤ n → (log n).count (closeCalled k) = 1 ∧ (st n).world.server.getSession k = false) ∧
      (¬ CallbackBeforeEnd k (log M) → ∀ n, M ≤ n → (log n).count (closeCalled k) = 0 ∧ (st n).world.server.getSession k = true) := by
  have he : Shutdown.Endless env key endErr auto (keepalivePeriod ka) ev st log :=
    Shutdown.endless_of_runs (Shutdown.inv_start h0 reads) ⟨by simp [Shutdown.start], by simp [Shutdown.start]⟩ h
  have hm : made k ∈ log N := by
    refine (Shutdown.made_place (he.inv N)).2 fun hn => ?_
    have hx : (st N).world.server.sessions k = none := by simpa [World.placeOf] using hn
    have hl := (he.inv N).good.server.life k
    rw [hx] at hl
    have hl : Server.only k _ = [] := Server.life_facts hl
    have hm := (Server.mem_only (k := k) rfl).2 (World.mem_server.2 (Shutdown.mem_world.2 hk))
    rw [hl] at hm
    cases hm
  obtain ⟨M1, h1, h2⟩ := C100_closed h0 h hc hm hs
  obtain ⟨M, h3, h4⟩ := C97_fair_closes h0 h hf (h2 _ (Nat.le_refl _))
  have hr : enteredFor k ∈ log M := he.mono (by omega) hk
  have hrun : ∀ d, ∃ more later, (st M).run env key endErr auto more = .ok (st (M + d), later) ∧ log (M + d) = log M ++ later := by
    intro d
    induction d with
    | zero => exact ⟨[], [], rfl, by simp⟩
    | succ d ih =>
      obtain ⟨more, later, g1, g2⟩ := ih
      obtain ⟨x, g3, g4⟩ := he.step (M + d)
      refine ⟨more ++ [ev (M + d)], later ++ x, Shutdown.run_append g1 ?_, ?_⟩
      · simp [Shutdown.State.run, g3, ← Nat.add_assoc]
      · rw [← Nat.add_assoc, g4, g2, List.append_assoc]
  refine ⟨M, by omega, h4 M (Nat.le_refl _), fun hb n hn => ?_, fun hb n hn => ?_⟩
  all_goals
    obtain ⟨d, rfl⟩ : ∃ d, n = M + d := ⟨n - M, by omega⟩
    obtain ⟨more, later, g1, g2⟩ := hrun d
    obtain ⟨a1, a2⟩ := settled_close h0 (h M) hr (h4 M (Nat.le_refl _)) g1
  · obtain ⟨b1, b2, b3⟩ := a1 hb
    exact ⟨by rw [g2, List.count_append, b1, List.count_eq_zero.2 b2], b3⟩
  · obtain ⟨b1, b2, b3⟩ := a2 hb
    exact ⟨by rw [g2, List.count_append, b1, List.count_eq_zero.2 b2], b3⟩

/-- Both cases occur when a server is stopped. (Runs without end that meet the hypotheses of `C100_exact_partial` are in `Props/GoneFair.lean`; the session of
`Sample.goneEarly` there is one that stays.) -/
example : (CallbackBeforeEnd 1 ((Sample.stopLog (fun _ => [Sample.beat]) Sample.stopStopped).take 22) ∧
      enteredFor 1 ∈ (Sample.stopLog (fun _ => [Sample.beat]) Sample.stopStopped).take 22) ∧
    (¬ CallbackBeforeEnd 1 (Sample.stopLog (fun _ => []) Sample.stopEarly) ∧ enteredFor 1 ∈ Sample.stopLog (fun _ => []) Sample.stopEarly) := by
  refine ⟨⟨⟨(((Sample.stopLog (fun _ => [Sample.beat]) Sample.stopStopped).take 21).filterMap sessionView), [], by decide +kernel, by decide +kernel⟩,
    by decide +kernel⟩, ?_, by decide +kernel⟩
  rintro ⟨l1, l2, he, hm⟩
  have : Server.Obs.attached 1 ∉ (Sample.stopLog (fun _ => []) Sample.stopEarly).filterMap sessionView := by decide +kernel
  exact this (by rw [he]; simp [hm])

end Verif
