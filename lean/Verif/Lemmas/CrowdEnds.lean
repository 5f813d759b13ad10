import Verif.Lemmas.CrowdLive
/-! # The example client among others gets to its end -/

namespace Verif.Crowd
open Converse Programs Session Handler Spec

section
variable {σ : Type} {env : Env} {key : Option DecKey} {endErr : Err} {auto : Bool} {P : Program σ}

theorem replicate_turns_conn (k n : Nat) : arrivedOn k (List.replicate n (.turn k .ok)) = [] := by
  induction n with
  | zero => rfl
  | succ n ih => rw [List.replicate_succ, arrivedOn_cons, ih]; rfl

theorem run_arrive (s : State σ) (k : Nat) (piece : Bytes) : ∃ s', s.run env key endErr auto P [.arrive k piece] = .ok (s', []) :=
  ⟨{ s with conns := fun j => if j = k then { s.conns k with recv := { (s.conns k).recv with reads := (s.conns k).recv.reads ++ [piece] } } else s.conns j }, rfl⟩

/-- A loop that is given turns gets done with what has arrived, after any run. -/
theorem rest_after {user : Nat → σ} {accepts : Nat → List Bool} {es : List Event} {s : State σ} {log : List (Nat × Ev)}
    (hr : (State.start user accepts).run env key endErr auto P es = .ok (s, log)) (k : Nat) {N : RecvState → Prop} (hno : NoPanic env key endErr N)
    (hN : (s.conns k).place ≠ .ended → N (s.conns k).recv) :
    ∃ (n : Nat) (s' : State σ) (x : List Ev), (State.start user accepts).run env key endErr auto P (es ++ List.replicate n (.turn k .ok)) = .ok (s', log ++ x.map fun e => (k, e)) ∧
      NothingToDo env key (s'.conns k) := by
  have hs := run_safe_after es (safe_start (fun _ => True) trivial user accepts) hr k
  obtain ⟨fs', c', x, h1, h2⟩ := comes_to_rest (auto := auto) (P := P) hno _ (⟨hN, hs.place⟩ : Safe N s.fs (s.conns k)) (Nat.le_refl _)
  obtain ⟨n, hn⟩ := h1.run k s.conns rfl
  refine ⟨n, { fs := fs', conns := fun j => if j = k then c' else s.conns j }, x, ?_, by simpa using h2⟩
  rw [run_append', hr]
  simp only [Res.bind]
  rw [hn]

theorem notStarved {c : RecvState} (h : ∀ e, (Codec.receive (entityCodec env) key e c).1 = .err e) : starved env key c = true := by
  cases hs : starved env key c with
  | true => rfl
  | false =>
    have h1 := h .eof
    rw [receive_not_starved .eof .unexpectedEOF hs, h .unexpectedEOF] at h1
    cases h1

end

variable {env : Env} {now : Nat → Time} {pkey own : PubKey} {file : Bytes} {key : Option DecKey} {xs ys : List (Bytes × Message Entity)}

theorem Crowded.turns {σ : Type} {run : List Event → Res (Crowd.State σ × List (Nat × Ev))} {bytes : List (Message Entity) → Bytes} {client : List Bytes → Res Bytes}
    {k : Nat} {es : List Event} {down : List Bytes} (h : Crowded run bytes client k es down) (n : Nat) :
    Crowded run bytes client k (es ++ List.replicate n (.turn k .ok)) down := by
  induction n with
  | zero => simpa using h
  | succ n ih => rw [List.replicate_succ', ← List.append_assoc]; exact .turn ih

/-- What others have done has nothing to do with uploads. -/
def Quiet (k : Nat) (log : List (Nat × Ev)) : Prop := ∀ x ∈ log, x.1 ≠ k → evUpload x.2 = none

theorem Quiet.apart {k : Nat} {log : List (Nat × Ev)} (h : Quiet k log) : Apart k log := by
  intro x _ y hy _ hk u _ hu
  rw [h y hy hk] at hu
  cases hu

theorem Quiet.more {k : Nat} {log : List (Nat × Ev)} (h : Quiet k log) (x : List Ev) : Quiet k (log ++ x.map fun e => (k, e)) := by
  intro y hy hk
  rcases List.mem_append.1 hy with hy | hy
  · exact h y hy hk
  · obtain ⟨e, -, rfl⟩ := List.mem_map.1 hy
    exact absurd rfl hk

/-- At most what a server with this client alone has done, and within the bounds. -/
theorem crowded_facts (h : ExampleOK env now pkey own file) (c : Course env key now pkey own file xs ys) (pub : Option EncKey) (ec es : Err) (tc : Nat) (hc : 10 < tc)
    {user : Nat → Data} {accepts : Nat → List Bool} {k : Nat} (hu : user k = none) (hacc : accepts k = []) {evs : List Event} {down : List Bytes}
    (hj : Crowded ((State.start user accepts).run env key es true (server (some own))) (Converse.wire env pub) (clientSends env now pkey file ec tc) k evs down)
    {s log} (hr : (State.start user accepts).run env key es true (server (some own)) evs = .ok (s, log)) (ha : Apart k log) :
    ∃ n s' log' b, (∀ x ∈ arrivedOn k evs, x.length ≤ 128) ∧ clientSends env now pkey file ec tc down = .ok b ∧ (arrivedOn k evs).flatten <+: b ∧ b <+: joinedFrames xs ∧
      Complete xs (arrivedOn k evs).flatten.length n ∧ ({ user := none } : Converse.State Data).run true (server (some own)) (turns (xs.take n)) = .ok (s', log') ∧
      sentIn (logOf k log) <+: sentIn log' ∧ sentIn log' <+: exampleMessages own ∧ (s.conns k).place ≠ .ended ∧
      (NothingToDo env key (s.conns k) → logOf k log = log' ∧ (s.conns k).sess.user = s'.user) ∧
      (∃ l, Got env key es l ⟨[], arrivedOn k evs⟩ (s.conns k).recv) := by
  have hreach := crowded_reach h c pub ec es tc 9 hc (by omega) hu hacc hj hr ha
  have hcalm := Crowded.calm hj
  obtain ⟨u1, u2, ⟨b, u3, u4, u5⟩, -⟩ := reach_invariant (c.bounded h pub ec es tc 9 hc (by omega)) hreach
  have hgone := not_hungUp hcalm.stays
  obtain ⟨fs, ms, S, done, hi⟩ := start_inv hr ha hcalm.calls (Q := (· = .ok)) rfl hcalm.files
  rw [hu, hacc] at hi
  obtain ⟨n, s', log', n1, n2, n3, n4, n5⟩ := course_inv c h.file u1 (u4.trans u5) hgone hi
  obtain ⟨s'', log'', r1, r2, -⟩ := c.after h.file n
  rw [n2] at r1
  simp only [Res.ok.injEq, Prod.mk.injEq] at r1
  obtain ⟨rfl, rfl⟩ := r1
  refine ⟨n, s', log', b, u1, u3, u4, u5, n1, n2, n3, r2, n4, ?_, ?_⟩
  · rintro (hp | ⟨hw, -, hst⟩)
    · exact absurd hp n4
    · exact n5 hw hst
  · by_cases hw : (s.conns k).place = .waiting
    · exact ⟨_, (hi.waiting hw).2.2⟩
    · obtain ⟨m, x, -, -, hg, -⟩ := hi.middle hw n4
      exact ⟨_, hg⟩

/-- From any moment on, the client and its connection can come to the end. -/
theorem crowded_settles (h : ExampleOK env now pkey own file) (c : Course env key now pkey own file xs ys) (pub : Option EncKey) (ec es : Err) (tc : Nat) (hc : 10 < tc)
    {user : Nat → Data} {accepts : Nat → List Bool} {k : Nat} (hu : user k = none) (hacc : accepts k = []) (d : Nat) : ∀ {evs : List Event} {down : List Bytes},
    Crowded ((State.start user accepts).run env key es true (server (some own))) (Converse.wire env pub) (clientSends env now pkey file ec tc) k evs down →
    ∀ {s log}, (State.start user accepts).run env key es true (server (some own)) evs = .ok (s, log) → Quiet k log →
    ((joinedFrames xs).length - (arrivedOn k evs).flatten.length) + ((joinedFrames ys).length - down.flatten.length) = d →
    ∃ (evs' : List Event) (down' : List Bytes) (s' : State Data) (x : List Ev), (∀ e ∈ evs', e.conn = k) ∧
      Crowded ((State.start user accepts).run env key es true (server (some own))) (Converse.wire env pub) (clientSends env now pkey file ec tc) k (evs ++ evs') (down ++ down') ∧
      (State.start user accepts).run env key es true (server (some own)) (evs ++ evs') = .ok (s', log ++ x.map fun e => (k, e)) ∧
      AllArrived env key (Converse.wire env pub) (clientSends env now pkey file ec tc) k (evs ++ evs') (down ++ down') s' (log ++ x.map fun e => (k, e)) := by
  induction d using Nat.strongRecOn with
  | ind d ih =>
  intro evs down hj s log hr hq hd
  obtain ⟨-, -, -, b0, f1, -, f2, f3, -, -, -, -, f4, -, l, f5⟩ := crowded_facts h c pub ec es tc hc hu hacc hj hr hq.apart
  -- the loop gets done with what has arrived
  obtain ⟨n, s1, x1, g1, g2⟩ := rest_after hr k (N := fun r => ∃ l, Got env key es l ⟨[], arrivedOn k evs⟩ r) (by
    rintro r ⟨l, hl⟩
    obtain ⟨n, n1, n2, n3, n4, n5⟩ := frames_got c.fx f1 (f2.trans f3) hl
    refine ⟨?_, ?_⟩
    · rcases Nat.lt_or_eq_of_le n2 with hlt | heq
      · obtain ⟨m, hm⟩ := n5 hlt
        rw [hm]
        simp
      · rw [n4 heq]
        simp
    · intro m hm
      exact ⟨l ++ [m], hl.snoc (Prod.ext hm rfl)⟩) (fun _ => ⟨l, f5⟩)
  have hj1 := Crowded.turns hj n
  have hq1 := hq.more x1
  have ha1 : arrivedOn k (evs ++ List.replicate n (.turn k .ok)) = arrivedOn k evs := by rw [arrivedOn_append, replicate_turns_conn, List.append_nil]
  have ht1 : ∀ e ∈ List.replicate n (Event.turn k .ok), e.conn = k := by
    intro e he
    rw [List.eq_of_mem_replicate he]
    rfl
  obtain ⟨n1, s', log', b, k1, k2, k3, k4, k5, k6, k7, k8, k9, k10, -⟩ := crowded_facts h c pub ec es tc hc hu hacc hj1 g1 hq1.apart
  have hreach := crowded_reach h c pub ec es tc 9 hc (by omega) hu hacc hj1 g1 hq1.apart
  obtain ⟨-, -, -, ⟨bd, d1, d2, d3⟩⟩ := reach_invariant (c.bounded h pub ec es tc 9 hc (by omega)) hreach
  have hy : bd = Converse.wire env pub (sentIn (logOf k (log ++ x1.map fun e => (k, e)))) := by
    obtain ⟨n', s'', log'', c1, c2, -, c4, -, -, c7⟩ := c.server h pub es 9 (by omega) k1 (k3.trans k4)
    obtain rfl := complete_unique k5 c1
    rw [k6] at c2
    simp only [Res.ok.injEq, Prod.mk.injEq] at c2
    obtain ⟨rfl, rfl⟩ := c2
    rw [d1] at c7
    rw [(k10 g2).1, c.wire h.own pub k8, Res.ok.inj c7]
  have l3 := k3.length_le
  have l4 := k4.length_le
  have l2 := d2.length_le
  have ld := d3.length_le
  rw [ha1] at k3 l3
  by_cases c2 : down.flatten = bd
  · by_cases c1 : (arrivedOn k evs).flatten = b
    · refine ⟨_, [], s1, x1, ht1, by rw [List.append_nil]; exact hj1, g1, ?_, ?_, g2⟩
      · rw [List.append_nil, k2, ha1, c1]
      · rw [List.append_nil, c2, hy]
    · obtain ⟨z, hz⟩ := next_piece k3 c1
      have lz := hz.length_le
      have e1 : (arrivedOn k evs ++ [[z]]).flatten.length = (arrivedOn k evs).flatten.length + 1 := by simp
      have hj2 := Crowded.toServer (c := [z]) hj1 k2 (by simp) (by rw [ha1]; exact hz)
      obtain ⟨s0, g1'⟩ : ∃ s0, (State.start user accepts).run env key es true (server (some own)) (evs ++ List.replicate n (.turn k .ok) ++ [.arrive k [z]]) =
          .ok (s0, log ++ x1.map fun e => (k, e)) := by
        obtain ⟨s0, h0⟩ := run_arrive (env := env) (key := key) (endErr := es) (auto := true) (P := server (some own)) s1 k [z]
        refine ⟨s0, ?_⟩
        rw [run_append', g1]
        simp only [Res.bind]
        rw [h0]
        simp only [List.append_nil]
      have ha2 : arrivedOn k (evs ++ List.replicate n (.turn k .ok) ++ [.arrive k [z]]) = arrivedOn k evs ++ [[z]] := by
        rw [arrivedOn_append, ha1]
        simp [arrivedOn]
      obtain ⟨evs', down', s2, x2, r1, r2, r3, r4⟩ := ih _ (by rw [ha2]; omega) hj2 g1' hq1 rfl
      refine ⟨List.replicate n (.turn k .ok) ++ .arrive k [z] :: evs', down', s2, x1 ++ x2, ?_, ?_, ?_, ?_⟩
      · intro e he
        rcases List.mem_append.1 he with he | he
        · exact ht1 e he
        · rcases List.mem_cons.1 he with rfl | he
          · rfl
          · exact r1 e he
      · simpa using r2
      · simpa using r3
      · simpa using r4
  · obtain ⟨z, hz⟩ := next_piece d2 c2
    have lz := hz.length_le
    have e1 : (down ++ [[z]]).flatten.length = down.flatten.length + 1 := by simp
    have hj2 := Crowded.toClient (c := [z]) hj1 g1 (by simp) (by rw [← hy]; exact hz)
    obtain ⟨evs', down', s2, x2, r1, r2, r3, r4⟩ := ih _ (by rw [ha1]; omega) hj2 g1 hq1 rfl
    refine ⟨List.replicate n (.turn k .ok) ++ evs', [z] :: down', s2, x1 ++ x2, ?_, ?_, ?_, ?_⟩
    · intro e he
      rcases List.mem_append.1 he with he | he
      · exact ht1 e he
      · exact r1 e he
    · simpa using r2
    · simpa using r3
    · simpa using r4

end Verif.Crowd
