import Verif.Lemmas.StopSafe
import Verif.Lemmas.StopLoops
import Verif.Props.Shutdown
/-! # C97: `Stop` returns in every fair run

`ev` is any run without end of the server of `Props/Shutdown.lean`; `firsts ev n` is how far it is after `n` steps. -/

namespace Verif
open Spec Spec.Stop Handler Session Shutdown

namespace Sample
/-- A heartbeat is handled, and `Stop` is called. -/
def stopStart : List Shutdown.Event := stopHandled ++ [.stop]

/-- The kinds of turns. -/
def stopTurn (i k : Nat) : Shutdown.Event :=
  match i with
  | 0 => .lock
  | 1 => .unlock
  | 2 => .closeNext k
  | 3 => .finish
  | 4 => .world (.move k .callbacks)
  | 5 => .world (.move k .delete)
  | 6 => .world (.move k .remove)
  | 7 => .world (.move k (.handler (if k % 2 = 1 then .panics else .returns)))
  | 8 => .release k
  | 9 => .world (.move k .register)
  | 10 => .world (.move k (.restart 70))
  | 11 => .world (.move k .cancel)
  | 12 => .world (.move k .arm)
  | 13 => .world (.move k .check)
  | 14 => .world (.move k .attach)
  | 15 => .world (.receive k)
  | 16 => .world (.process k .ok .returns)
  | 17 => .world (.check k)
  | 18 => .world (.merge k .ok)
  | 19 => .world (.note k .panics)
  | 20 => .world (.dispatch k 71)
  | 21 => .world (.call k)
  | 22 => .world (.finish k .panics)
  | _ => .enter

/-- A run without end: a heartbeat is handled, `Stop` is called, and then everything is given turns in an order that is not regular. The close handlers of the
sessions with odd numbers panic. -/
def stopFair (n : Nat) : Shutdown.Event :=
  match stopStart[n]? with
  | some e => e
  | none => stopTurn (code n % 24) (code n / 24)

theorem stopFair_turns {i : Nat} (k : Nat) (hi : i < 24) {q : Shutdown.Event → Prop} (hq : q (stopTurn i k)) : Again stopFair q := by
  intro n
  obtain ⟨m, h1, h2⟩ := code_again (24 * k + i) (n + stopStart.length)
  refine ⟨m, by omega, ?_⟩
  have hn : stopStart[m]? = none := List.getElem?_eq_none (by omega)
  have e1 : code m / 24 = k := by omega
  have e2 : code m % 24 = i := by omega
  simp only [stopFair, hn, e1, e2]
  exact hq
end Sample

variable {env : Env} {key : Option DecKey} {endErr : Err} {auto : Bool} {ka : Int} {rsa : Option Nat} {s0 : Server.State} {reads : Nat → List Bytes}
  {ev : Nat → Shutdown.Event} {st : Nat → Shutdown.State} {log : Nat → List Shutdown.Obs}

private theorem endless (h0 : Server.newServer ka rsa = .ok s0) (h : ∀ n, (Shutdown.start s0 reads).run env key endErr auto (firsts ev n) = .ok (st n, log n)) :
    Shutdown.Endless env key endErr auto (keepalivePeriod ka) ev st log :=
  Shutdown.endless_of_runs (Shutdown.inv_start h0 reads) ⟨by simp [Shutdown.start], by simp [Shutdown.start]⟩ h

/-- The server does not crash, stopped or not, if the key has a modulus and no frame that is sent has fewer than two bytes between its delimiters. -/
theorem C97_no_crash (h0 : Server.newServer ka rsa = .ok s0) (hkey : ∀ k, key = some k → 0 < k.size)
    (hc : ∀ k x, ¬ [0x7e, x, 0x7e] <:+: (reads k).flatten) (es : List Shutdown.Event) :
    ∃ s log, (Shutdown.start s0 reads).run env key endErr auto es = .ok (s, log) := by
  obtain ⟨⟨s, log⟩, h⟩ := Shutdown.run_ok h0 hkey hc es
  exact ⟨s, log, h⟩

/-- `Stop` returns in every fair run, whatever else happens meanwhile. -/
theorem C97_fair_returns (h0 : Server.newServer ka rsa = .ok s0)
    (h : ∀ n, (Shutdown.start s0 reads).run env key endErr auto (firsts ev n) = .ok (st n, log n)) (hf : Fair ev) {N : Nat} (hs : .stopping ∈ log N) :
    ∃ M, N ≤ M ∧ ∀ n, M ≤ n → .stopped ∈ log n := by
  have he := endless h0 h
  obtain ⟨M, h1, h2⟩ := he.stops hf hs
  exact ⟨M, h1, fun n hn => he.mono hn h2⟩

/-- Every session that is closed comes to the end of its closing in every fair run, whether `Stop` closed it or not. -/
theorem C97_fair_closes (h0 : Server.newServer ka rsa = .ok s0)
    (h : ∀ n, (Shutdown.start s0 reads).run env key endErr auto (firsts ev n) = .ok (st n, log n)) (hf : Fair ev) {N k : Nat} (hk : closed k ∈ log N) :
    ∃ M, N ≤ M ∧ ∀ n, M ≤ n → closeEnded k ∈ log n := by
  have he := endless h0 h
  obtain ⟨M, h1, h2⟩ := he.closes hf hk
  have h3 : closeEnded k ∈ log M := Shutdown.mem_world.1 ((Shutdown.closeReturned_iff (he.inv M).good k).1 h2)
  exact ⟨M, h1, fun n hn => he.mono hn h3⟩

/-- Once `Stop` is called, every session that was made before is closed in every fair run, and its closing comes to its end before `Stop` returns. -/
theorem C97_fair_closed (h0 : Server.newServer ka rsa = .ok s0)
    (h : ∀ n, (Shutdown.start s0 reads).run env key endErr auto (firsts ev n) = .ok (st n, log n)) (hf : Fair ev) {N k : Nat} (hs : .stopping ∈ log N)
    (hk : made k ∈ log N) : ∃ M, N ≤ M ∧ closed k ∈ log M ∧ closeEnded k ∈ log M := by
  obtain ⟨M, h1, h2⟩ := C97_fair_returns h0 h hf hs
  have he := endless h0 h
  obtain ⟨a, b, hab⟩ := List.append_of_mem (h2 M (Nat.le_refl _))
  have h3 := h M
  rw [hab] at h3
  have hc : closed k ∈ log M := by
    obtain ⟨g1, g2⟩ := C97_all_closed h0 h3 k
    have := he.mono h1 hk
    rw [hab] at this ⊢
    rcases List.mem_append.1 this with hm | hm
    · exact List.mem_append_left _ (g1 hm)
    · have hm : made k ∈ b := by simpa using hm
      obtain ⟨x, y, rfl⟩ := g2 hm
      simp
  obtain ⟨M', h4, h5⟩ := C97_fair_closes h0 h hf hc
  exact ⟨M', by omega, he.mono h4 hc, h5 M' (Nat.le_refl _)⟩

/-- The loop of every session ends in every fair run. -/
theorem C97_fair_loops_end (h0 : Server.newServer ka rsa = .ok s0)
    (h : ∀ n, (Shutdown.start s0 reads).run env key endErr auto (firsts ev n) = .ok (st n, log n)) {N k : Nat} (hk : made k ∈ log N) (hf : Runs ev k) :
    ∃ M, N ≤ M ∧ ∀ n, M ≤ n → loopEnded k ∈ log n := by
  have he := endless h0 h
  have hp : World.placeOf (st N).world.server k ≠ none := (Shutdown.made_place (he.inv N)).1 hk
  obtain ⟨M, h1, h2⟩ := he.leaves hf hp
  exact ⟨M, h1, fun n hn => he.mono hn ((Shutdown.ended_place (he.inv M)).2 h2)⟩

/-- Handlers can still be called after `Stop` has returned, see `C97_refuted`, but not for ever: in every fair run there is a time from which on no message is
received and no handler is called, for any session. -/
theorem C97_fair_quiet (h0 : Server.newServer ka rsa = .ok s0)
    (h : ∀ n, (Shutdown.start s0 reads).run env key endErr auto (firsts ev n) = .ok (st n, log n)) (hf : Fair ev) (hr : ∀ k, Runs ev k) {N : Nat}
    (hs : .stopping ∈ log N) :
    ∃ M, N ≤ M ∧ .stopped ∈ log M ∧ ∀ n, M ≤ n → ∃ later, log n = log M ++ later ∧ ∀ k, (∀ m, received k m ∉ later) ∧ ∀ i m, called k i m ∉ later := by
  have he := endless h0 h
  obtain ⟨M, h1, h2⟩ := C97_fair_returns h0 h hf hs
  obtain ⟨a, b, hab⟩ := List.append_of_mem (h2 M (Nat.le_refl _))
  obtain ⟨M', h3, h4⟩ : ∃ M', M ≤ M' ∧ ∀ k, made k ∈ a → loopEnded k ∈ log M' := by
    have hsub : ∀ o ∈ a, o ∈ log M := fun o ho => by rw [hab]; exact List.mem_append_left _ ho
    clear hab
    induction a with
    | nil => exact ⟨M, Nat.le_refl _, by simp⟩
    | cons o a ih =>
      obtain ⟨M1, g1, g2⟩ := ih fun o ho => hsub o (List.mem_cons_of_mem _ ho)
      by_cases ho : ∃ k, o = made k
      · obtain ⟨k, rfl⟩ := ho
        obtain ⟨M2, g3, g4⟩ := C97_fair_loops_end h0 h (he.mono g1 (hsub _ (List.mem_cons_self ..))) (hr k)
        refine ⟨M2, by omega, fun j hj => ?_⟩
        rcases List.mem_cons.1 hj with hj | hj
        · cases hj; exact g4 _ (Nat.le_refl _)
        · exact he.mono g3 (g2 j hj)
      · exact ⟨M1, g1, fun k hk => g2 k (by rcases List.mem_cons.1 hk with hk | hk; · exact absurd ⟨k, hk.symm⟩ ho
                                            · exact hk)⟩
  refine ⟨M', by omega, h2 _ h3, fun n hn => ?_⟩
  obtain ⟨later, hl⟩ := he.longer hn
  refine ⟨later, hl, fun k => ?_⟩
  by_cases hk : made k ∈ a
  · obtain ⟨c, d, hcd⟩ := List.append_of_mem (h4 k hk)
    have g := h n
    rw [hl, hcd] at g
    obtain ⟨g1, g2⟩ := C97_after_loop (l1 := c) (l2 := d ++ later) h0 (by simpa using g)
    exact ⟨fun m hm => g1 m (by simp [hm]), fun i m hm => g2 i m (by simp [hm])⟩
  · obtain ⟨later', hl'⟩ := he.longer h3
    have g := h n
    rw [hl, hl', hab] at g
    obtain ⟨g1, g2⟩ := C97_late_sessions (l1 := a) (l2 := b ++ later' ++ later) h0 (by simpa using g) hk
    exact ⟨fun m hm => g1 m (by simp [hm]), fun i m hm => g2 i m (by simp [hm])⟩

/-! ## Cases that meet the hypotheses -/

/-- The run of the example is fair. -/
theorem Sample.stopFair_fair : Fair Sample.stopFair where
  lock := Sample.stopFair_turns (i := 0) 0 (by omega) rfl
  unlock := Sample.stopFair_turns (i := 1) 0 (by omega) rfl
  closes k := Sample.stopFair_turns (i := 2) k (by omega) rfl
  finish := Sample.stopFair_turns (i := 3) 0 (by omega) rfl
  callbacks k := Sample.stopFair_turns (i := 4) k (by omega) rfl
  delete k := Sample.stopFair_turns (i := 5) k (by omega) rfl
  remove k := Sample.stopFair_turns (i := 6) k (by omega) rfl
  handler k := Sample.stopFair_turns (i := 7) k (by omega) ⟨_, rfl⟩
  release k := Sample.stopFair_turns (i := 8) k (by omega) rfl

/-- So are the goroutines of all sessions. -/
theorem Sample.stopFair_runs (k : Nat) : Runs Sample.stopFair k where
  register := Sample.stopFair_turns (i := 9) k (by omega) rfl
  restart := Sample.stopFair_turns (i := 10) k (by omega) ⟨_, rfl⟩
  cancel := Sample.stopFair_turns (i := 11) k (by omega) rfl
  arm := Sample.stopFair_turns (i := 12) k (by omega) rfl
  closedYet := Sample.stopFair_turns (i := 13) k (by omega) rfl
  attach := Sample.stopFair_turns (i := 14) k (by omega) rfl
  receive := Sample.stopFair_turns (i := 15) k (by omega) rfl
  process := Sample.stopFair_turns (i := 16) k (by omega) ⟨_, _, rfl⟩
  check := Sample.stopFair_turns (i := 17) k (by omega) rfl
  merge := Sample.stopFair_turns (i := 18) k (by omega) ⟨_, rfl⟩
  note := Sample.stopFair_turns (i := 19) k (by omega) ⟨_, rfl⟩
  dispatch := Sample.stopFair_turns (i := 20) k (by omega) ⟨_, rfl⟩
  call := Sample.stopFair_turns (i := 21) k (by omega) rfl
  finish := Sample.stopFair_turns (i := 22) k (by omega) ⟨_, rfl⟩

/-- The bytes of the example. -/
theorem Sample.stopFair_clean (x : UInt8) : ¬ [0x7e, x, 0x7e] <:+: [Sample.beat].flatten := by
  rintro ⟨a, b, h⟩
  have hl := congrArg List.length h
  have h1 : ([Sample.beat].flatten)[a.length]? = some 0x7e := by rw [← h]; simp
  have h2 : ([Sample.beat].flatten)[a.length + 2]? = some 0x7e := by rw [← h]; simp
  have hlt : a.length < [Sample.beat].flatten.length := by rw [← h]; simp
  have key : ∀ i, i < [Sample.beat].flatten.length → ([Sample.beat].flatten)[i]? = some 0x7e → ([Sample.beat].flatten)[i + 2]? ≠ some 0x7e := by decide +kernel
  exact key _ hlt h1 h2

/-- In it a session is made and handles a heartbeat before `Stop` is called; so `Stop` returns, and the session has been closed. -/
theorem C97_fair_example : ∃ (st : Nat → Shutdown.State) (log : Nat → List Shutdown.Obs), (∀ n, (Shutdown.start Sample.server fun _ => [Sample.beat]).run Sample.env none .eof true (firsts Sample.stopFair n) = .ok (st n, log n)) ∧
    (∃ M, ∀ n, M ≤ n → .stopped ∈ log n) ∧ (∃ M, closed 1 ∈ log M ∧ closeEnded 1 ∈ log M) ∧ ∃ M, ∀ n, M ≤ n → loopEnded 1 ∈ log n := by
  have hr : ∀ n, ∃ r : Shutdown.State × List Shutdown.Obs, (Shutdown.start Sample.server fun _ => [Sample.beat]).run Sample.env none .eof true (firsts Sample.stopFair n) = .ok r :=
    fun n => by
      obtain ⟨s, log, h⟩ := C97_no_crash (env := Sample.env) (key := none) (endErr := .eof) (auto := true) (reads := fun _ => [Sample.beat]) Sample.server_new
        (fun _ h => by cases h) (fun _ => Sample.stopFair_clean) (firsts Sample.stopFair n)
      exact ⟨_, h⟩
  obtain ⟨r, h⟩ := Classical.axiomOfChoice hr
  have h : ∀ n, (Shutdown.start Sample.server fun _ => [Sample.beat]).run Sample.env none .eof true (firsts Sample.stopFair n) = .ok ((r n).1, (r n).2) := h
  have hN : (r Sample.stopStart.length).2 = Sample.stopLog (fun _ => [Sample.beat]) Sample.stopStart := by
    have h1 : firsts Sample.stopFair Sample.stopStart.length = Sample.stopStart := by decide +kernel
    have h2 := h Sample.stopStart.length
    rw [h1] at h2
    rw [Sample.stopLog, h2]
  have hs : Shutdown.Obs.stopping ∈ (r Sample.stopStart.length).2 := by rw [hN]; decide +kernel
  have hm : made 1 ∈ (r Sample.stopStart.length).2 := by rw [hN]; decide +kernel
  refine ⟨fun n => (r n).1, fun n => (r n).2, h, ?_, ?_, ?_⟩
  · obtain ⟨M, -, h1⟩ := C97_fair_returns Sample.server_new h Sample.stopFair_fair hs
    exact ⟨M, h1⟩
  · obtain ⟨M, -, h1⟩ := C97_fair_closed Sample.server_new h Sample.stopFair_fair hs hm
    exact ⟨M, h1⟩
  · obtain ⟨M, -, h1⟩ := C97_fair_loops_end Sample.server_new h hm (Sample.stopFair_runs 1)
    exact ⟨M, h1⟩

end Verif
