import Verif.Lemmas.StopAll
import Verif.Lemmas.WorldOffer
import Verif.Props.StopFair
import Verif.Props.Stream
/-! # C101: everything a terminal sends is handled; and C79: exactly what is still handled when a session is closed

In the first half a schedule `es` is any interleaving of the goroutines of a server, as in `Props/World.lean`. In the second half `ev` is any run without end of
the server of `Props/Shutdown.lean`. -/

namespace Verif
open Spec Spec.Stop Handler Session

variable {env : Env} {key : Option DecKey} {endErr : Err} {auto : Bool} {ka : Int} {rsa : Option Nat} {s0 : Server.State} {reads : Nat → List Bytes}

section
variable {es : List World.Event} {s : World.State} {log : List World.Obs}

private theorem good (h0 : Server.newServer ka rsa = .ok s0) (h : (World.start s0 reads).run env key endErr auto es = .ok (s, log)) :
    World.Good (keepalivePeriod ka) s log := by
  simpa using World.good_run (World.good_start h0 reads) h

/-- The goroutine of a session of which it is observed that its loop ended is at its end. -/
private theorem ended (h0 : Server.newServer ka rsa = .ok s0) (h : (World.start s0 reads).run env key endErr auto es = .ok (s, log)) {k : Nat} :
    .server (.left k) ∈ log ↔ World.placeOf s.server k = some .ended := by
  have hl := (good h0 h).server.life k
  have hm : .server (.left k) ∈ log ↔ Server.Obs.left k ∈ Server.only k (log.filterMap serverView) :=
    ⟨fun h => (Server.mem_only rfl).2 (World.mem_server.2 h), fun h => World.mem_server.1 ((Server.mem_only rfl).1 h)⟩
  rw [hm]
  unfold World.placeOf
  cases hx : s.server.sessions k with
  | none =>
    rw [hx] at hl
    have f : Server.only k _ = [] := Server.life_facts hl
    rw [f]
    simp
  | some x =>
    rw [hx] at hl
    have f : Server.Facts k x _ := Server.life_facts hl
    rw [f.left]
    simp

/-- If the loop closes the session, because the connection has ended or what came could not be decoded, then everything that arrived before was received. -/
theorem C101_all_received (h0 : Server.newServer ka rsa = .ok s0) {k : Nat} {l1 l2 : List World.Obs}
    (h : (World.start s0 reads).run env key endErr auto es = .ok (s, l1 ++ .server (.closing k) :: .server (.left k) :: l2)) :
    AllFrom env key endErr ⟨[], reads k⟩ ((l1 ++ .server (.closing k) :: .server (.left k) :: l2).filterMap (receivedBy k)) := by
  have := World.openInv_run (k := k) (c := ⟨[], reads k⟩) (log := []) (World.good_start h0 reads)
    ⟨fun _ _ => rfl, fun l1 l2 hx => by simp at hx⟩ h
  exact this.ended l1 l2 rfl

/-- The messages for the handlers are passed to `dispatchMessage`, each once and in the order in which they were received; at most one is still on its way. -/
theorem C101_passed_in_order (h : (World.start s0 reads).run env key endErr auto es = .ok (s, log)) (k : Nat) :
    ∃ rest, rest.length ≤ 1 ∧ (log.filterMap (receivedBy k)).filter (ordinary auto) = (log.filterMap (passedBy k)).filter (ordinary auto) ++ rest := by
  have hi := World.offerInv_run (s := World.start s0 reads) (auto := auto) (k := k) (log := []) ⟨trivial, rfl⟩ h
  refine ⟨World.pending auto (s.sys.conns k).place, ?_, ?_⟩
  · unfold World.pending
    split <;> first | exact List.length_filter_le _ _ | simp
  · rw [← World.passedBy_eq]
    exact hi.all.symm

/-- When the loop has ended, all of them were passed on; every handler that was found was called and has returned. -/
theorem C101_all_handled (h0 : Server.newServer ka rsa = .ok s0) (h : (World.start s0 reads).run env key endErr auto es = .ok (s, log)) {k : Nat}
    (hl : .server (.left k) ∈ log) :
    (log.filterMap (passedBy k)).filter (ordinary auto) = (log.filterMap (receivedBy k)).filter (ordinary auto) ∧
      log.filterMap (calledBy k) = log.filterMap (foundBy k) ∧ log.countP (isReturn k) = log.countP (isCall k) := by
  have hg := good h0 h
  have hp := (ended h0 h).1 hl
  have hf := hg.fits k
  have hi := World.offerInv_run (s := World.start s0 reads) (auto := auto) (k := k) (log := []) ⟨trivial, rfl⟩ h
  have hb : s.busy k = .idle := by
    cases hb : s.busy k with
    | idle => rfl
    | chosen i m => rcases hf.chosen i m hb with g | ⟨c, g⟩ <;> rw [hp] at g <;> cases g
    | running i m => have g := hf.running i m hb; rw [hp] at g; cases g
  have h1 := (hg.logs k).pairs
  have h2 := (hg.logs k).balance
  have h3 := hi.all
  rw [hb] at h1 h2
  rw [hf.ended.2 hp, List.nil_append, World.passedBy_eq] at h3
  refine ⟨by simpa [World.pending] using h3, by simpa using h1.symm, by simpa using h2.symm⟩

/-- The handler that is found for a message is the one registered last for its number, and none is found only if none was registered. -/
theorem C101_right_handler (h : (World.start s0 reads).run env key endErr auto es = .ok (s, log)) (k : Nat) (m : Message Entity) (l1 l2 : List World.Obs) :
    (∀ i, log = l1 ++ .act k (.handle i m) :: l2 → lastRegistered m.header.msgID ((l1.filterMap loopView).map (·.2)) = some i) ∧
    (log = l1 ++ .act k (.unhandled m) :: l2 → lastRegistered m.header.msgID ((l1.filterMap loopView).map (·.2)) = none) := by
  have hi := World.handInv_run (log := []) ⟨fun id => rfl, fun l1 k i m l2 hx => by simp at hx, fun l1 k m l2 hx => by simp at hx⟩ h
  exact ⟨fun i hx => hi.found l1 k i m l2 hx, fun hx => hi.missed l1 k m l2 hx⟩

/-- The keepalive does not close a session as long as, at every tick, less than the period has passed since its period was restarted last, that is since the last
message for which there is a handler, or since it was accepted (C78). The second condition excludes times at the end of the range of 64 bits. -/
theorem C101_in_time (h0 : Server.newServer ka rsa = .ok s0) (h : (World.start s0 reads).run env key endErr auto es = .ok (s, log)) {k : Nat}
    (hin : ∀ l1 l2 now ks t, log = l1 ++ .server (.ticked now ks) :: l2 → lastRestart k (l1.filterMap serverView) = some t → now < t + keepalivePeriod ka)
    (hof : ∀ t, .server (.restart k t) ∈ log → t + keepalivePeriod ka < 2 ^ 63) : .server (.timeout k) ∉ log := by
  intro hm
  obtain ⟨l1, l2, rfl⟩ := List.append_of_mem hm
  obtain ⟨a, n, ks, b, t, rfl, h2, h3, -⟩ := C78_closed_after_period_partial h0 h fun t ht => hof t (List.mem_append_left _ ht)
  have := hin a (b ++ .server (.timeout k) :: l2) n ks t (by simp) h2
  omega

/-- C79, partial: which messages are received after somebody else has closed the session: all that are completely in the buffer at that moment, and no others. -/
theorem C79_exact_partial (h0 : Server.newServer ka rsa = .ok s0) (h : (World.start s0 reads).run env key endErr auto es = .ok (s, log))
    {k : Nat} (hc : .server (.closing k) ∈ log) (hl : .server (.left k) ∉ log) {es' : List World.Event} {s' : World.State} {later : List World.Obs}
    (h' : s.run env key endErr auto es' = .ok (s', later)) (hl' : .server (.left k) ∈ later) :
    AllFrom env key endErr ⟨(s.sys.conns k).recv.buffer, []⟩ (later.filterMap (receivedBy k)) := by
  have hg := good h0 h
  have h2 := World.good_run hg h'
  have hn : (s.sys.conns k).place ≠ .ended := fun hp => hl ((ended h0 h).2 ((hg.fits k).ended.1 hp))
  have h3 : (World.start s0 reads).run env key endErr auto (es ++ es') = .ok (s', log ++ later) := Shutdown.world_append h h'
  have hp' : (s'.sys.conns k).place = .ended := (h2.fits k).ended.2 ((ended h0 h3).1 (List.mem_append_right _ hl'))
  exact World.drained_run (p := keepalivePeriod ka) (log := []) hg hc ⟨_, rfl, fun _ => rfl⟩ (fun hp => absurd hp hn) h' hp'

end

section
variable {ev : Nat → Shutdown.Event} {st : Nat → Shutdown.State} {log : Nat → List Shutdown.Obs}

private theorem endless (h0 : Server.newServer ka rsa = .ok s0) (h : ∀ n, (Shutdown.start s0 reads).run env key endErr auto (firsts ev n) = .ok (st n, log n)) :
    Shutdown.Endless env key endErr auto (keepalivePeriod ka) ev st log :=
  Shutdown.endless_of_runs (Shutdown.inv_start h0 reads) ⟨by simp [Shutdown.start], by simp [Shutdown.start]⟩ h

private theorem goes_on {p : Int} (he : Shutdown.Endless env key endErr auto p ev st log) {n m : Nat} (hm : n ≤ m) :
    ∃ es y, (st n).run env key endErr auto es = .ok (st m, y) ∧ log m = log n ++ y := by
  induction hm with
  | refl => exact ⟨[], [], rfl, by simp⟩
  | @step m hm ih =>
    obtain ⟨es, y, h1, h2⟩ := ih
    obtain ⟨x, h3, h4⟩ := he.step m
    refine ⟨es ++ [ev m], y ++ x, ?_, by rw [h4, h2, List.append_assoc]⟩
    exact Shutdown.run_append h1 (by simp [Shutdown.State.run, h3, Res.ok_bind])

/-- In every run without end in which its goroutine is not neglected, a session that nobody else closes receives everything that arrives and passes it to the
handlers. -/
theorem C101_fair_all (h0 : Server.newServer ka rsa = .ok s0)
    (h : ∀ n, (Shutdown.start s0 reads).run env key endErr auto (firsts ev n) = .ok (st n, log n)) {N k : Nat} (hk : made k ∈ log N) (hf : Runs ev k)
    (hs : ∀ n, ev n ≠ .stop) (hc : ∀ n, ev n ≠ .world (.move k .close)) (ht : ∀ n, .world (.server (.timeout k)) ∉ log n) :
    ∃ ms M, AllFrom env key endErr ⟨[], reads k⟩ ms ∧ N ≤ M ∧ ∀ n, M ≤ n →
      ((log n).filterMap worldView).filterMap (receivedBy k) = ms ∧
      (((log n).filterMap worldView).filterMap (passedBy k)).filter (ordinary auto) = ms.filter (ordinary auto) ∧
      ((log n).filterMap worldView).filterMap (calledBy k) = ((log n).filterMap worldView).filterMap (foundBy k) ∧
      ((log n).filterMap worldView).countP (isReturn k) = ((log n).filterMap worldView).countP (isCall k) := by
  have he := endless h0 h
  have hst : (st 0).phase = .serving ∧ log 0 = [] := by
    have h' : Res.ok (Shutdown.start s0 reads, []) = Res.ok (st 0, log 0) := h 0
    simp only [Res.ok.injEq, Prod.mk.injEq] at h'
    rw [← h'.1, ← h'.2]
    exact ⟨rfl, rfl⟩
  obtain ⟨M, h1, h2⟩ := C97_fair_loops_end h0 h hk hf
  have all : ∀ n, M ≤ n → AllFrom env key endErr ⟨[], reads k⟩ (((log n).filterMap worldView).filterMap (receivedBy k)) := by
    intro n hn
    obtain ⟨evs, hw⟩ := Shutdown.world_run (h n)
    have hl : .server (.left k) ∈ (log n).filterMap worldView := Shutdown.mem_world.2 (h2 n hn)
    have hcl := World.left_closing (log := []) (World.good_start h0 reads) (by simp) hw (by simpa using hl)
    rw [List.nil_append] at hcl
    obtain ⟨a, b, hab⟩ := List.append_of_mem (Shutdown.mem_world.1 hcl)
    obtain ⟨c, rfl⟩ := he.itself (k := k) hst.1 hst.2 hs hc ht n a b hab
    have hx : (log n).filterMap worldView = a.filterMap worldView ++ .server (.closing k) :: .server (.left k) :: c.filterMap worldView := by
      rw [hab]
      simp [List.filterMap_append, List.filterMap_cons, worldView]
    rw [hx] at hw ⊢
    exact C101_all_received h0 hw
  refine ⟨_, M, all M (Nat.le_refl _), h1, fun n hn => ?_⟩
  have heq := World.allFrom_unique (all n hn) (all M (Nat.le_refl _))
  obtain ⟨evs, hw⟩ := Shutdown.world_run (h n)
  obtain ⟨g1, g2, g3⟩ := C101_all_handled h0 hw (k := k) (Shutdown.mem_world.2 (h2 n hn))
  exact ⟨heq, by rw [g1, heq], g2, g3⟩

/-- From end to end: a terminal sends messages with registered bodies and closes the connection; they arrive in arbitrary pieces. Then they are all received,
with their contents and in order, and those that are not parts of uploads are passed to the handlers. -/
theorem C101_fair_terminal (h0 : Server.newServer ka rsa = .ok s0)
    (h : ∀ n, (Shutdown.start s0 reads).run env key endErr auto (firsts ev n) = .ok (st n, log n)) {N k : Nat} (hk : made k ∈ log N) (hf : Runs ev k)
    (hs : ∀ n, ev n ≠ .stop) (hc : ∀ n, ev n ≠ .world (.move k .close)) (ht : ∀ n, .world (.server (.timeout k)) ∉ log n)
    (ms : List (Message Entity × Entity)) (hms : ∀ x ∈ ms, Sendable env x.1 x.2) (sent : List Bytes)
    (hsent : ms.map (fun x => Codec.sendBytes (entityCodec env) none x.1) = sent.map .ok) (hr : ∀ c ∈ reads k, c.length ≤ 128)
    (hb : (reads k).flatten = sent.flatten) :
    ∃ ds M, ds.length = ms.length ∧ (∀ p ∈ ms.zip ds, Carries p.1.1 p.1.2 p.2) ∧ N ≤ M ∧ ∀ n, M ≤ n →
      ((log n).filterMap worldView).filterMap (receivedBy k) = ds ∧
      (((log n).filterMap worldView).filterMap (passedBy k)).filter (ordinary auto) = ds.filter (fun m => !isPart auto m) ∧
      ((log n).filterMap worldView).filterMap (calledBy k) = ((log n).filterMap worldView).filterMap (foundBy k) ∧
      ((log n).filterMap worldView).countP (isReturn k) = ((log n).filterMap worldView).countP (isCall k) := by
  obtain ⟨sent', ds, g1, g2, g3, g4⟩ := C12_same_for_all_pieces env key ms hms
  have hss : sent' = sent := by
    rw [hsent] at g1
    exact (List.map_inj_right (fun _ _ h => by cases h; rfl)).1 g1.symm
  subst hss
  obtain ⟨xs, M, e1, e2, e3⟩ := C101_fair_all h0 h hk hf hs hc ht
  have hx : xs = ds := by
    have hg := g4 endErr (reads k) hr hb 1
    refine World.allFrom_unique e1 ⟨endErr, (receiveMany (entityCodec env) key endErr (ds.length + 1) ⟨[], reads k⟩).2, ?_⟩
    rw [← g2] at hg
    exact Prod.ext hg rfl
  subst hx
  refine ⟨xs, M, g2, g3, e2, fun n hn => ?_⟩
  obtain ⟨f1, f2, f3⟩ := e3 n hn
  refine ⟨f1, f2.trans ?_, f3⟩
  refine List.filter_congr fun d hd => ?_
  obtain ⟨i, hi, rfl⟩ := List.getElem_of_mem hd
  have hz := g3 (ms[i]'(by omega), xs[i]) (List.mem_iff_getElem.2 ⟨i, by simp; omega, by simp⟩)
  have hbd : hasBody xs[i] = true := by have := hz.1; simp only at this; simp [hasBody, this]
  simp [ordinary, hbd]

/-- C79, partial: in every run without end in which its goroutine is not neglected, a session that is closed still receives exactly the messages that are
completely in its buffer. -/
theorem C79_fair_partial (h0 : Server.newServer ka rsa = .ok s0)
    (h : ∀ n, (Shutdown.start s0 reads).run env key endErr auto (firsts ev n) = .ok (st n, log n)) {N k : Nat} (hc : closed k ∈ log N)
    (hl : loopEnded k ∉ log N) (hf : Runs ev k) :
    ∃ ms M, AllFrom env key endErr ⟨((st N).world.sys.conns k).recv.buffer, []⟩ ms ∧ N ≤ M ∧ ∀ n, M ≤ n → ∃ later, log n = log N ++ later ∧
      (later.filterMap worldView).filterMap (receivedBy k) = ms := by
  have he := endless h0 h
  have hk : made k ∈ log N := by
    refine (Shutdown.made_place (he.inv N)).2 fun hn => ?_
    have hx : (st N).world.server.sessions k = none := by simpa [World.placeOf] using hn
    have hl := (he.inv N).good.server.life k
    rw [hx] at hl
    have f : Server.only k _ = [] := Server.life_facts hl
    have : Server.Obs.closing k ∈ Server.only k (((log N).filterMap worldView).filterMap serverView) :=
      (Server.mem_only rfl).2 (World.mem_server.2 (Shutdown.mem_world.2 hc))
    rw [f] at this
    cases this
  obtain ⟨M, h1, h2⟩ := C97_fair_loops_end h0 h hk hf
  obtain ⟨evs, hw⟩ := Shutdown.world_run (h N)
  have all : ∀ n, M ≤ n → ∃ later, log n = log N ++ later ∧
      AllFrom env key endErr ⟨((st N).world.sys.conns k).recv.buffer, []⟩ ((later.filterMap worldView).filterMap (receivedBy k)) := by
    intro n hn
    obtain ⟨es', y, hr, hlog⟩ := goes_on he (Nat.le_trans h1 hn)
    obtain ⟨evs', hw'⟩ := Shutdown.world_run hr
    refine ⟨y, hlog, C79_exact_partial h0 hw (Shutdown.mem_world.2 hc) (fun hm => hl (Shutdown.mem_world.1 hm)) hw' ?_⟩
    have := h2 n hn
    rw [hlog] at this
    exact Shutdown.mem_world.2 ((List.mem_append.1 this).resolve_left hl)
  obtain ⟨y, hy, hall⟩ := all M (Nat.le_refl _)
  refine ⟨_, M, hall, h1, fun n hn => ?_⟩
  obtain ⟨z, hz, hz'⟩ := all n hn
  exact ⟨z, hz, World.allFrom_unique hz' hall⟩
end

/-! ## Cases that meet the hypotheses -/

namespace Sample
/-- A run without end: a handler is registered, a connection is accepted, a heartbeat is handled, and then everything is given turns in an order that is not
regular. `Stop` is not called. -/
def allFair (n : Nat) : Shutdown.Event :=
  match stopHandled[n]? with
  | some e => e
  | none => stopTurn (code n % 24) (code n / 24)

theorem allFair_turns {i : Nat} (k : Nat) (hi : i < 24) {q : Shutdown.Event → Prop} (hq : q (stopTurn i k)) : Again allFair q := by
  intro n
  obtain ⟨m, h1, h2⟩ := code_again (24 * k + i) (n + stopHandled.length)
  refine ⟨m, by omega, ?_⟩
  have hn : stopHandled[m]? = none := List.getElem?_eq_none (by omega)
  have e1 : code m / 24 = k := by omega
  have e2 : code m % 24 = i := by omega
  simp only [allFair, hn, e1, e2]
  exact hq

theorem allFair_runs (k : Nat) : Runs allFair k where
  register := allFair_turns (i := 9) k (by omega) rfl
  restart := allFair_turns (i := 10) k (by omega) ⟨_, rfl⟩
  cancel := allFair_turns (i := 11) k (by omega) rfl
  arm := allFair_turns (i := 12) k (by omega) rfl
  closedYet := allFair_turns (i := 13) k (by omega) rfl
  attach := allFair_turns (i := 14) k (by omega) rfl
  receive := allFair_turns (i := 15) k (by omega) rfl
  process := allFair_turns (i := 16) k (by omega) ⟨_, _, rfl⟩
  check := allFair_turns (i := 17) k (by omega) rfl
  merge := allFair_turns (i := 18) k (by omega) ⟨_, rfl⟩
  note := allFair_turns (i := 19) k (by omega) ⟨_, rfl⟩
  dispatch := allFair_turns (i := 20) k (by omega) ⟨_, rfl⟩
  call := allFair_turns (i := 21) k (by omega) rfl
  finish := allFair_turns (i := 22) k (by omega) ⟨_, rfl⟩

/-- Nobody closes a session in it but its loop. -/
theorem allFair_open (n : Nat) : allFair n ≠ .stop ∧ (∀ k, allFair n ≠ .world (.move k .close)) ∧ allFair n ≠ .world .closeFound := by
  unfold allFair
  split
  · rename_i e he
    have hm := List.mem_of_getElem? he
    have key : ∀ e ∈ stopHandled, e ≠ .stop ∧ e ≠ .world (.move 1 .close) ∧ e ≠ .world .closeFound := by decide +kernel
    have key2 : ∀ e ∈ stopHandled, ∀ k, e ≠ .world (.move k .close) := by
      simp [stopHandled, worldHandled, worldOpened]
    exact ⟨(key e hm).1, key2 e hm, (key e hm).2.2⟩
  · unfold stopTurn
    split <;> simp

/-- The terminal's heartbeat. -/
theorem beat_sendable : Sendable env beatMessage (.m0002 {}) where
  body := rfl
  range := trivial
  icc0 := by decide
  icc1 := by decide
  size := by intro b e' h; cases h; decide
  plain := by decide
  packet := by decide

/-- It arrives in two pieces. -/
def beatPieces : Nat → List Bytes := fun _ => [beat.take 6, beat.drop 6]
end Sample

/-- The terminal of the example sends a heartbeat, which arrives in two pieces, and closes the connection. -/
theorem C101_fair_example : ∃ (st : Nat → Shutdown.State) (log : Nat → List Shutdown.Obs),
    (∀ n, (Shutdown.start Sample.server Sample.beatPieces).run Sample.env none .eof true (firsts Sample.allFair n) = .ok (st n, log n)) ∧
    ∃ M, ∀ n, M ≤ n → ((log n).filterMap worldView).filterMap (receivedBy 1) = [Sample.beatMessage] ∧
      (((log n).filterMap worldView).filterMap (passedBy 1)).filter (ordinary true) = [Sample.beatMessage] := by
  have hr : ∀ n, ∃ r : Shutdown.State × List Shutdown.Obs,
      (Shutdown.start Sample.server Sample.beatPieces).run Sample.env none .eof true (firsts Sample.allFair n) = .ok r := fun n => by
    obtain ⟨s, log, h⟩ := C97_no_crash (env := Sample.env) (key := none) (endErr := .eof) (auto := true) (reads := Sample.beatPieces) Sample.server_new
      (fun _ h => by cases h) (fun _ => Sample.stopFair_clean) (firsts Sample.allFair n)
    exact ⟨_, h⟩
  obtain ⟨r, h⟩ := Classical.axiomOfChoice hr
  have h : ∀ n, (Shutdown.start Sample.server Sample.beatPieces).run Sample.env none .eof true (firsts Sample.allFair n) = .ok ((r n).1, (r n).2) := h
  have hN : (r Sample.stopHandled.length).2 = Sample.stopLog Sample.beatPieces Sample.stopHandled := by
    have h1 : firsts Sample.allFair Sample.stopHandled.length = Sample.stopHandled := by decide +kernel
    have h2 := h Sample.stopHandled.length
    rw [h1] at h2
    rw [Sample.stopLog, h2]
  have hm : made 1 ∈ (r Sample.stopHandled.length).2 := by rw [hN]; decide +kernel
  have hb : received 1 Sample.beatMessage ∈ (r Sample.stopHandled.length).2 := by rw [hN]; decide +kernel
  have he := endless (st := fun n => (r n).1) (log := fun n => (r n).2) Sample.server_new h
  have hst : (r 0).1.phase = .serving ∧ (r 0).2 = [] := by
    have h' : Res.ok (Shutdown.start Sample.server Sample.beatPieces, []) = Res.ok ((r 0).1, (r 0).2) := h 0
    simp only [Res.ok.injEq, Prod.mk.injEq] at h'
    rw [← h'.1, ← h'.2]
    exact ⟨rfl, rfl⟩
  obtain ⟨ds, M, g1, -, g2, g3⟩ := C101_fair_terminal Sample.server_new h hm (Sample.allFair_runs 1) (fun n => (Sample.allFair_open n).1)
    (fun n => (Sample.allFair_open n).2.1 1) (he.untimed hst.1 hst.2 (fun n => (Sample.allFair_open n).1) (fun n => (Sample.allFair_open n).2.2) 1)
    [(Sample.beatMessage, .m0002 {})] (by simpa using Sample.beat_sendable) [Sample.beat] (by decide +kernel) (by decide +kernel) (by decide +kernel)
  have hd : ds = [Sample.beatMessage] := by
    have h1 := (g3 M (Nat.le_refl _)).1
    have h2 : Sample.beatMessage ∈ ds := by
      rw [← h1]
      refine List.mem_filterMap.2 ⟨.received 1 Sample.beatMessage, Shutdown.mem_world.2 (he.mono g2 hb), by simp [receivedBy]⟩
    cases ds with
    | nil => cases g1
    | cons d ds =>
      cases ds with
      | nil => rw [List.mem_singleton.1 h2]
      | cons d' ds => simp at g1
  subst hd
  refine ⟨fun n => (r n).1, fun n => (r n).2, h, M, fun n hn => ?_⟩
  obtain ⟨f1, f2, -⟩ := g3 n hn
  exact ⟨f1, f2.trans (by decide +kernel)⟩

/-- The condition of `C101_in_time` is met: a tick 59 seconds after the heartbeat. -/
example : let log := Sample.worldLog (fun _ => [Sample.beat]) (Sample.worldHandled ++ [.tick 60])
    log = log.take 15 ++ [.server (.ticked 60 [])] ∧ lastRestart 1 ((log.take 15).filterMap serverView) = some 1 ∧ (60 : Int) < 1 + keepalivePeriod 60 ∧
      (log.filterMap serverView).filterMap (fun | .restart _ t => some t | _ => none) = [0, 1] := by decide +kernel

/-- In the example of `C79_refuted` the session is closed while a complete message is in its buffer; it is received, and then the loop ends. -/
example : AllFrom Sample.env none .eof ⟨Sample.beat, []⟩ [Sample.beatMessage] :=
  ⟨.eof, ⟨[], []⟩, by decide +kernel⟩

/-- Its loop ends after it has handled that message. -/
example : ((Sample.worldLog (fun _ => [Sample.beat ++ Sample.beat]) (Sample.worldLate ++ [.finish 1 .returns, .receive 1])).drop 15).filterMap (receivedBy 1) =
      [Sample.beatMessage] ∧
    .server (.left 1) ∈ (Sample.worldLog (fun _ => [Sample.beat ++ Sample.beat]) (Sample.worldLate ++ [.finish 1 .returns, .receive 1])).drop 15 := by
  decide +kernel

/-- If the buffer holds only a piece of a message when the session is closed, nothing more is received. -/
example : AllFrom Sample.env none .eof ⟨Sample.beat.take 9, []⟩ [] :=
  ⟨.eof, ⟨Sample.beat.take 9, []⟩, by decide +kernel⟩

/-- The loop closes the session after two messages, one in two pieces; both were received. -/
example : (Sample.worldLog (fun _ => [Sample.beat ++ Sample.beat.take 4, Sample.beat.drop 4])
      (Sample.worldHandled ++ [.receive 1, .process 1 .ok .returns, .dispatch 1 2, .move 1 .cancel, .move 1 .arm, .call 1, .finish 1 .panics, .receive 1])).drop 22 =
    [.returned 1 5 .panics, .act 1 .closed, .server (.closing 1), .server (.left 1)] := by decide +kernel

end Verif
