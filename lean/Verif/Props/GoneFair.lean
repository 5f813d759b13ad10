import Verif.Lemmas.GoneFair
import Verif.Props.StopFair
/-! # C100: terminals that have gone do not stay in the server

`ev` is any run without end of the server of `Props/Shutdown.lean`, whether `Stop` is called in it or not; `firsts ev n` is how far it is after `n` steps. Every terminal
sends so many bytes, `reads k`, and then falls silent; `receive` need not be given turns. -/

namespace Verif
open Spec Spec.Stop Handler Session Shutdown

variable {env : Env} {key : Option DecKey} {endErr : Err} {auto : Bool} {ka : Int} {rsa : Option Nat} {s0 : Server.State} {reads : Nat → List Bytes}
  {ev : Nat → Shutdown.Event} {st : Nat → Shutdown.State} {log : Nat → List Shutdown.Obs}

private theorem endless (h0 : Server.newServer ka rsa = .ok s0) (h : ∀ n, (Shutdown.start s0 reads).run env key endErr auto (firsts ev n) = .ok (st n, log n)) :
    Shutdown.Endless env key endErr auto (keepalivePeriod ka) ev st log :=
  Shutdown.endless_of_runs (Shutdown.inv_start h0 reads) ⟨by simp [Shutdown.start], by simp [Shutdown.start]⟩ h

/-- Every session that is made is closed at some time in every run in which the clock goes on, the goroutine of the timer is given turns, and the goroutine of the
session is given turns while it starts and while it restarts the period. The loop of the session may wait for the terminal for ever, and so may a handler. -/
theorem C100_closed (h0 : Server.newServer ka rsa = .ok s0)
    (h : ∀ n, (Shutdown.start s0 reads).run env key endErr auto (firsts ev n) = .ok (st n, log n)) (hc : Clock ev) {N k : Nat} (hk : made k ∈ log N)
    (hs : Starts ev k) : ∃ M, N ≤ M ∧ ∀ n, M ≤ n → closed k ∈ log n := by
  have he := endless h0 h
  obtain ⟨N1, h1, h2, h3⟩ := he.settles ((Shutdown.made_place (he.inv N)).1 hk)
  obtain ⟨q, hq, hq1, hq2⟩ := he.timed hs h2 fun m hm => (h3 m hm).1
  obtain ⟨g1, t, g2⟩ := Shutdown.counting (he.inv N1) hq hq1 hq2
  obtain ⟨j, m, now, ks, later, h4, h5, h6, h7, h8⟩ := he.ticks hc N1 (dueAt t (keepalivePeriod ka))
  obtain ⟨-, -, l', hl', hq'⟩ := h3 j h4
  obtain ⟨e1, e2⟩ := Shutdown.counting_quiet (l := (log N1).filterMap worldView) hq'
  rw [← List.filterMap_append, ← hl'] at e1 e2
  have hm := h m
  rw [h7] at hm
  obtain ⟨w, hw⟩ := Shutdown.world_run hm
  obtain ⟨v, hv⟩ := World.server_run hw
  have hv : s0.run v = .ok ((st m).world.server, ((log j).filterMap worldView).filterMap serverView ++ .ticked now ks :: (later.filterMap worldView).filterMap serverView) := by
    rw [List.filterMap_append, List.filterMap_append] at hv
    exact hv
  have hcl := silent_closed_due h0 hv (e1.trans g1) (e2.trans g2) h6 (Server.queue_zero.1 h8)
  have : closed k ∈ log m := by
    rw [h7]
    refine Shutdown.mem_world.1 (World.mem_server.1 ?_)
    rw [List.filterMap_append, List.filterMap_append]
    exact hcl
  exact ⟨m, by omega, fun n hn => he.mono hn this⟩

/-- With every goroutine given turns, nothing of the session goes on: it is closed, its closing has come to its end and so has its loop. -/
theorem C100_over (h0 : Server.newServer ka rsa = .ok s0)
    (h : ∀ n, (Shutdown.start s0 reads).run env key endErr auto (firsts ev n) = .ok (st n, log n)) (hc : Clock ev) (hf : Fair ev) {N k : Nat} (hk : made k ∈ log N)
    (hr : Runs ev k) : ∃ M, N ≤ M ∧ ∀ n, M ≤ n → closed k ∈ log n ∧ closeEnded k ∈ log n ∧ loopEnded k ∈ log n := by
  obtain ⟨M1, h1, h2⟩ := C100_closed h0 h hc hk ⟨hr.register, hr.restart, hr.cancel, hr.arm⟩
  obtain ⟨M2, h3, h4⟩ := C97_fair_closes h0 h hf (h2 _ (Nat.le_refl _))
  obtain ⟨M3, h5, h6⟩ := C97_fair_loops_end h0 h hk hr
  exact ⟨max M2 M3, by omega, fun n hn => ⟨h2 n (by omega), h4 n (by omega), h6 n (by omega)⟩⟩

/-- Nor does link keep it: from some time on the session is in none of its maps, whether `Stop` is called or not. -/
theorem C100_released (h0 : Server.newServer ka rsa = .ok s0)
    (h : ∀ n, (Shutdown.start s0 reads).run env key endErr auto (firsts ev n) = .ok (st n, log n)) (hc : Clock ev) (hf : Fair ev) {N k : Nat} (hk : made k ∈ log N)
    (hs : Starts ev k) : ∃ M, N ≤ M ∧ ∀ n, M ≤ n → k ∉ (st n).held := by
  have he := endless h0 h
  obtain ⟨M1, h1, h2⟩ := C100_closed h0 h hc hk hs
  obtain ⟨M2, h3, h4⟩ := he.released hf (he.mono h1 hk) (h2 _ (Nat.le_refl _))
  exact ⟨M2, by omega, h4⟩

/-- C100, partial: the server forgets a session whose close callback was put in place while it was open. From some time on its close handler has been called, exactly
once, and `GetSession` does not find it. Missing: sessions that are closed before, see `C100_refuted`. -/
theorem C100_gone_partial (h0 : Server.newServer ka rsa = .ok s0)
    (h : ∀ n, (Shutdown.start s0 reads).run env key endErr auto (firsts ev n) = .ok (st n, log n)) (hc : Clock ev) (hf : Fair ev) {N k : Nat} (hs : Starts ev k)
    (ha : .world (.server (.attached k)) ∈ log N) (ho : closed k ∉ log N) :
    ∃ M, N ≤ M ∧ ∀ n, M ≤ n → (log n).count (closeCalled k) = 1 ∧ (st n).world.server.getSession k = false := by
  have he := endless h0 h
  have hk : made k ∈ log N := by
    refine (Shutdown.made_place (he.inv N)).2 fun hn => ?_
    have hx : (st N).world.server.sessions k = none := by simpa [World.placeOf] using hn
    have hl := (he.inv N).good.server.life k
    rw [hx] at hl
    have hl : Server.only k _ = [] := Server.life_facts hl
    have hm := (Server.mem_only (k := k) rfl).2 (World.mem_server.2 (Shutdown.mem_world.2 ha))
    rw [hl] at hm
    cases hm
  obtain ⟨M1, h1, h2⟩ := C100_closed h0 h hc hk hs
  obtain ⟨M2, h3, h4⟩ := C97_fair_closes h0 h hf (h2 _ (Nat.le_refl _))
  refine ⟨M2, by omega, fun n hn => ?_⟩
  obtain ⟨w, hw⟩ := Shutdown.world_run (h n)
  obtain ⟨v, hv⟩ := World.server_run hw
  have view (l : List Shutdown.Obs) : List.filterMap serverView (List.filterMap worldView l) = l.filterMap sessionView := by
    rw [List.filterMap_filterMap]
    rfl
  rw [view] at hv
  have hin : AttachedInTime k ((log n).filterMap sessionView) := by
    obtain ⟨later, hl⟩ := he.longer (show N ≤ n by omega)
    have hc := h2 n (by omega)
    rw [hl] at hc ⊢
    have hc : closed k ∈ later := (List.mem_append.1 hc).resolve_left ho
    obtain ⟨a, b, rfl⟩ := List.append_of_mem hc
    refine ⟨(log N).filterMap sessionView ++ a.filterMap sessionView, b.filterMap sessionView, ?_, List.mem_append_left _ (List.mem_filterMap.2 ⟨_, ha, rfl⟩)⟩
    rw [List.filterMap_append, List.filterMap_append, List.append_assoc]
    rfl
  have hd : .closeDone k ∈ (log n).filterMap sessionView := List.mem_filterMap.2 ⟨_, h4 n hn, rfl⟩
  exact ⟨(Shutdown.count_view _ k).trans (C37_exactly_once_partial h0 hv hin hd), C36_closed_not_found_partial h0 hv hin hd⟩

namespace Sample
/-- The goroutine of a session has started the period and is then slow: the period ends before it puts the close callback in place. -/
def goneEarly : List Shutdown.Event :=
  [.connect, .enter, .world (.move 1 .register), .world (.move 1 (.restart 0)), .world (.move 1 .cancel), .world (.move 1 .arm), .world (.tick 60), .world .lookup,
    .world .closeFound, .world (.move 1 .callbacks)]
end Sample

/-- C100 is false of the code: a session that the timer closes before the goroutine of the session has put the close callback in place is found by `GetSession` for
ever, and its close handler never runs. -/
theorem C100_refuted : ∃ es s log, (Shutdown.start Sample.server fun _ => []).run Sample.env none .eof true es = .ok (s, log) ∧ closed 1 ∈ log ∧ closeEnded 1 ∈ log ∧
    closeCalled 1 ∉ log ∧
    ∀ more s' later, s.run Sample.env none .eof true more = .ok (s', later) → s'.world.server.getSession 1 = true ∧ closeCalled 1 ∉ later := by
  obtain ⟨s, h⟩ := Sample.stopLog_run (reads := fun _ => []) (es := Sample.goneEarly) (by decide +kernel)
  have hl : Sample.stopLog (fun _ => []) Sample.goneEarly =
      [.connected, made 1, .world (.server (.registered 1)), .world (.server (.restart 1 0)), .world (.server (.cancelled 1)), .world (.server (.armed 1)),
        .world (.server (.ticked 60 [1])), .world (.server (.timeout 1)), closed 1, closeEnded 1] := by decide +kernel
  rw [hl] at h
  refine ⟨_, s, _, h, by simp, by simp, by simp, fun more s' later hmore => ?_⟩
  have hi := Shutdown.inv_run (Shutdown.inv_start Sample.server_new _) h
  rw [List.nil_append] at hi
  have ho : Server.Orphan s.world.server 1 := by
    have f := hi.good.server.life 1
    cases hx : s.world.server.sessions 1 with
    | none =>
      rw [hx] at f
      have : Server.only 1 _ = [] := Server.life_facts f
      exact absurd this (by decide +kernel)
    | some x =>
      rw [hx] at f
      have f : Server.Facts 1 x _ := Server.life_facts f
      have hp : x.place ≠ .accepted := f.registered.1 (by decide +kernel)
      have hsk : x.closer = .skipped := by
        rcases f.done.1 (by decide +kernel) with hd | hd
        · exact absurd (f.deleted.2 (.inr (.inr hd))) (by decide +kernel)
        · exact hd
      exact ⟨(hi.good.server.ids 1 (by simp [hx])).2, x, hx, hsk, f.closing.1 (by decide +kernel),
        f.inMap.2 ⟨hp, by simp [hsk], by simp [hsk], by simp [hsk]⟩, hp⟩
  obtain ⟨w, g1⟩ := Shutdown.world_run hmore
  obtain ⟨v, g2⟩ := World.server_run g1
  obtain ⟨⟨-, y, hy, -, -, hmap, -⟩, hn⟩ := Server.orphan_run hi.good.server ho g2
  refine ⟨by simp [Server.State.getSession, hy, hmap], fun hm => hn ?_⟩
  exact World.mem_server.2 (Shutdown.mem_world.2 hm)

/-! ## Cases that meet the hypotheses -/

namespace Sample
/-- A run without end: a heartbeat is handled, and then everything is given turns in an order that is not regular. The clock shows the number of the turn. If
`hears` is false, nothing more comes from the terminals and their connections stay open. -/
def goneRun (hears : Bool) (n : Nat) : Shutdown.Event :=
  match stopHandled[n]? with
  | some e => e
  | none =>
    match code n % 27 with
    | 15 => if hears then .world (.receive (code n / 27)) else .enter
    | 24 => .world (.tick n)
    | 25 => .world .lookup
    | 26 => .world .closeFound
    | i => stopTurn i (code n / 27)

theorem goneRun_turns {hears : Bool} {i : Nat} (k : Nat) (hi : i < 24) (h15 : i ≠ 15 ∨ hears = true) {q : Shutdown.Event → Prop} (hq : q (stopTurn i k)) :
    Again (goneRun hears) q := by
  intro n
  obtain ⟨m, h1, h2⟩ := code_again (27 * k + i) (n + stopHandled.length)
  refine ⟨m, by omega, ?_⟩
  have hn : stopHandled[m]? = none := List.getElem?_eq_none (by omega)
  have e1 : code m / 27 = k := by omega
  have e2 : code m % 27 = i := by omega
  simp only [goneRun, hn, e1, e2]
  split
  · rcases h15 with h15 | rfl
    · exact absurd rfl h15
    · exact hq
  · omega
  · omega
  · omega
  · exact hq

theorem goneRun_clock (hears : Bool) : Clock (goneRun hears) where
  late t := by
    refine ⟨t.toNat + stopHandled.length, fun n hn now he => ?_⟩
    have h1 : stopHandled[n]? = none := List.getElem?_eq_none (by omega)
    simp only [goneRun, h1] at he
    split at he
    · split at he <;> cases he
    · cases he; omega
    · cases he
    · cases he
    · unfold stopTurn at he
      split at he <;> cases he
  tick n := by
    obtain ⟨m, h1, h2⟩ := code_again 24 (n + stopHandled.length)
    have hn : stopHandled[m]? = none := List.getElem?_eq_none (by omega)
    exact ⟨m, by omega, m, by simp only [goneRun, hn, h2]⟩
  lookup n := by
    obtain ⟨m, h1, h2⟩ := code_again 25 (n + stopHandled.length)
    have hn : stopHandled[m]? = none := List.getElem?_eq_none (by omega)
    exact ⟨m, by omega, by simp only [goneRun, hn, h2]⟩
  closeFound n := by
    obtain ⟨m, h1, h2⟩ := code_again 26 (n + stopHandled.length)
    have hn : stopHandled[m]? = none := List.getElem?_eq_none (by omega)
    exact ⟨m, by omega, by simp only [goneRun, hn, h2]⟩

theorem goneRun_starts (hears : Bool) (k : Nat) : Starts (goneRun hears) k where
  register := goneRun_turns (i := 9) k (by omega) (by simp) rfl
  restart := goneRun_turns (i := 10) k (by omega) (by simp) ⟨_, rfl⟩
  cancel := goneRun_turns (i := 11) k (by omega) (by simp) rfl
  arm := goneRun_turns (i := 12) k (by omega) (by simp) rfl

theorem goneRun_fair (hears : Bool) : Fair (goneRun hears) where
  lock := goneRun_turns (i := 0) 0 (by omega) (by simp) rfl
  unlock := goneRun_turns (i := 1) 0 (by omega) (by simp) rfl
  closes k := goneRun_turns (i := 2) k (by omega) (by simp) rfl
  finish := goneRun_turns (i := 3) 0 (by omega) (by simp) rfl
  callbacks k := goneRun_turns (i := 4) k (by omega) (by simp) rfl
  delete k := goneRun_turns (i := 5) k (by omega) (by simp) rfl
  remove k := goneRun_turns (i := 6) k (by omega) (by simp) rfl
  handler k := goneRun_turns (i := 7) k (by omega) (by simp) ⟨_, rfl⟩
  release k := goneRun_turns (i := 8) k (by omega) (by simp) rfl

theorem goneRun_runs (k : Nat) : Runs (goneRun true) k where
  register := goneRun_turns (i := 9) k (by omega) (by simp) rfl
  restart := goneRun_turns (i := 10) k (by omega) (by simp) ⟨_, rfl⟩
  cancel := goneRun_turns (i := 11) k (by omega) (by simp) rfl
  arm := goneRun_turns (i := 12) k (by omega) (by simp) rfl
  closedYet := goneRun_turns (i := 13) k (by omega) (by simp) rfl
  attach := goneRun_turns (i := 14) k (by omega) (by simp) rfl
  receive := goneRun_turns (i := 15) k (by omega) (by simp) rfl
  process := goneRun_turns (i := 16) k (by omega) (by simp) ⟨_, _, rfl⟩
  check := goneRun_turns (i := 17) k (by omega) (by simp) rfl
  merge := goneRun_turns (i := 18) k (by omega) (by simp) ⟨_, rfl⟩
  note := goneRun_turns (i := 19) k (by omega) (by simp) ⟨_, rfl⟩
  dispatch := goneRun_turns (i := 20) k (by omega) (by simp) ⟨_, rfl⟩
  call := goneRun_turns (i := 21) k (by omega) (by simp) rfl
  finish := goneRun_turns (i := 22) k (by omega) (by simp) ⟨_, rfl⟩
end Sample

/-- In such a run the session handles a heartbeat and is open with its close callback in place; so it is closed and forgotten at some time, whether its terminal closes
the connection or not, and if it does the loop ends too. -/
theorem C100_example (hears : Bool) : ∃ (st : Nat → Shutdown.State) (log : Nat → List Shutdown.Obs),
    (∀ n, (Shutdown.start Sample.server fun _ => [Sample.beat]).run Sample.env none .eof true (firsts (Sample.goneRun hears) n) = .ok (st n, log n)) ∧
    (∃ N, made 1 ∈ log N ∧ closed 1 ∉ log N ∧ called 1 5 Sample.beatMessage ∈ log N) ∧ (∃ M, ∀ n, M ≤ n → closed 1 ∈ log n) ∧
    (∃ M, ∀ n, M ≤ n → (log n).count (closeCalled 1) = 1 ∧ (st n).world.server.getSession 1 = false) ∧
    (∃ M, ∀ n, M ≤ n → 1 ∉ (st n).held) ∧ (hears = true → ∃ M, ∀ n, M ≤ n → loopEnded 1 ∈ log n) := by
  have hr : ∀ n, ∃ r : Shutdown.State × List Shutdown.Obs,
      (Shutdown.start Sample.server fun _ => [Sample.beat]).run Sample.env none .eof true (firsts (Sample.goneRun hears) n) = .ok r :=
    fun n => by
      obtain ⟨s, log, h⟩ := C97_no_crash (env := Sample.env) (key := none) (endErr := .eof) (auto := true) (reads := fun _ => [Sample.beat]) Sample.server_new
        (fun _ h => by cases h) (fun _ => Sample.stopFair_clean) (firsts (Sample.goneRun hears) n)
      exact ⟨_, h⟩
  obtain ⟨r, h⟩ := Classical.axiomOfChoice hr
  have h : ∀ n, (Shutdown.start Sample.server fun _ => [Sample.beat]).run Sample.env none .eof true (firsts (Sample.goneRun hears) n) = .ok ((r n).1, (r n).2) := h
  have hN : (r Sample.stopHandled.length).2 = Sample.stopLog (fun _ => [Sample.beat]) Sample.stopHandled := by
    have h1 : firsts (Sample.goneRun hears) Sample.stopHandled.length = Sample.stopHandled := by cases hears <;> decide +kernel
    have h2 := h Sample.stopHandled.length
    rw [h1] at h2
    rw [Sample.stopLog, h2]
  have hm : made 1 ∈ (r Sample.stopHandled.length).2 := by rw [hN]; decide +kernel
  have ha : .world (.server (.attached 1)) ∈ (r Sample.stopHandled.length).2 := by rw [hN]; decide +kernel
  have ho : closed 1 ∉ (r Sample.stopHandled.length).2 := by rw [hN]; decide +kernel
  have hcl : called 1 5 Sample.beatMessage ∈ (r Sample.stopHandled.length).2 := by rw [hN]; decide +kernel
  refine ⟨fun n => (r n).1, fun n => (r n).2, h, ⟨_, hm, ho, hcl⟩, ?_, ?_, ?_, ?_⟩
  · obtain ⟨M, -, h1⟩ := C100_closed Sample.server_new h (Sample.goneRun_clock hears) hm (Sample.goneRun_starts hears 1)
    exact ⟨M, h1⟩
  · obtain ⟨M, -, h1⟩ := C100_gone_partial Sample.server_new h (Sample.goneRun_clock hears) (Sample.goneRun_fair hears) (Sample.goneRun_starts hears 1) ha ho
    exact ⟨M, h1⟩
  · obtain ⟨M, -, h1⟩ := C100_released Sample.server_new h (Sample.goneRun_clock hears) (Sample.goneRun_fair hears) hm (Sample.goneRun_starts hears 1)
    exact ⟨M, h1⟩
  · rintro rfl
    obtain ⟨M, -, h1⟩ := C100_over Sample.server_new h (Sample.goneRun_clock true) (Sample.goneRun_fair true) hm (Sample.goneRun_runs 1)
    exact ⟨M, fun n hn => (h1 n hn).2.2⟩

end Verif
