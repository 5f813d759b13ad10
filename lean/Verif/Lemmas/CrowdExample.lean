import Verif.Lemmas.CrowdSafe
import Verif.Props.Programs
/-! # The example programs at one of many connections -/

namespace Verif.Crowd
open Converse Session Handler Spec Programs

theorem run_append' {σ : Type} (env : Env) (key : Option DecKey) (endErr : Err) (auto : Bool) (P : Program σ) (es es' : List Event) : ∀ s : State σ,
    s.run env key endErr auto P (es ++ es') = (s.run env key endErr auto P es).bind fun r => (r.1.run env key endErr auto P es').bind fun q => .ok (q.1, r.2 ++ q.2) := by
  induction es with
  | nil =>
    intro s
    show s.run env key endErr auto P es' = (s.run env key endErr auto P es').bind fun q => .ok (q.1, [] ++ q.2)
    cases s.run env key endErr auto P es' <;> rfl
  | cons e es ih =>
    intro s
    rw [List.cons_append, State.run, State.run]
    cases hr : (s.conns e.conn).step env key endErr auto P e s.fs with
    | err e => rfl
    | panic => rfl
    | ok r =>
      simp only [Res.ok_bind]
      rw [ih]
      generalize State.run env key endErr auto P _ es = a
      cases a with
      | err e => rfl
      | panic => rfl
      | ok a =>
        simp only [Res.bind, Res.ok_bind]
        generalize State.run env key endErr auto P _ es' = b
        cases b with
        | err e => rfl
        | panic => rfl
        | ok b => simp [Res.ok_bind]

/-- The first part of a run that works. -/
theorem run_before {σ : Type} {env : Env} {key : Option DecKey} {endErr : Err} {auto : Bool} {P : Program σ} {es es' : List Event} {s t : State σ}
    {log : List (Nat × Ev)} (h : s.run env key endErr auto P (es ++ es') = .ok (t, log)) :
    ∃ s1 x y, s.run env key endErr auto P es = .ok (s1, x) ∧ s1.run env key endErr auto P es' = .ok (t, y) ∧ log = x ++ y := by
  rw [run_append'] at h
  cases h1 : s.run env key endErr auto P es with
  | err e => rw [h1] at h; cases h
  | panic => rw [h1] at h; cases h
  | ok r =>
    rw [h1] at h
    simp only [Res.bind] at h
    cases h2 : r.1.run env key endErr auto P es' with
    | err e => rw [h2] at h; cases h
    | panic => rw [h2] at h; cases h
    | ok q =>
      rw [h2] at h
      simp only [Res.ok.injEq, Prod.mk.injEq] at h
      exact ⟨r.1, r.2, q.2, rfl, by rw [h2, ← h.1], h.2.symm⟩

theorem Apart.before {k : Nat} {x y : List (Nat × Ev)} (h : Apart k (x ++ y)) : Apart k x :=
  fun a ha b hb => h a (List.mem_append_left _ ha) b (List.mem_append_left _ hb)

/-- A connection among others, from the start. -/
theorem start_alone {σ : Type} {env : Env} {key : Option DecKey} {endErr : Err} {auto : Bool} {P : Program σ} {user : Nat → σ} {accepts : Nat → List Bool}
    {es : List Event} {s : State σ} {log : List (Nat × Ev)} (hr : (State.start user accepts).run env key endErr auto P es = .ok (s, log)) (k : Nat) (ha : Apart k log) :
    ∃ s', (State.start user accepts).run env key endErr auto P (eventsOf k es) = .ok (s', (logOf k log).map fun x => (k, x)) ∧ s'.conns k = s.conns k := by
  classical
  obtain ⟨t, h1, h2, -⟩ := run_alone env key endErr auto P (fun u => decide (∃ x ∈ log, x.1 = k ∧ evUpload x.2 = some u)) k es (s := State.start user accepts)
    (s' := State.start user accepts) rfl (sameFiles_refl _ _) trivial hr (by
      intro x hx u hu
      by_cases hk : x.1 = k
      · simp only [hk, decide_true, decide_eq_true_eq]
        exact ⟨x, hx, hk, hu⟩
      · simp only [hk, decide_false, decide_eq_false_iff_not]
        rintro ⟨y, hy, hy1, hy2⟩
        exact ha y hy x hx hy1 hk u hy2 hu)
  exact ⟨t, h1, h2⟩

theorem arrivedOn_eventsOf (k : Nat) (es : List Event) : arrivedOn k (eventsOf k es) = arrivedOn k es := by
  induction es with
  | nil => rfl
  | cons e es ih =>
    unfold eventsOf at ih ⊢
    rw [List.filter_cons]
    by_cases hk : e.conn = k
    · rw [if_pos (by simpa using hk), arrivedOn_cons, ih, arrivedOn_cons k e es]
    · rw [if_neg (by simpa using hk), ih, arrivedOn_cons k e es, arrivedOn_other hk, List.nil_append]

/-- The course of a connection among others. -/
theorem start_inv {σ : Type} {env : Env} {key : Option DecKey} {endErr : Err} {auto : Bool} {P : Program σ} {user : Nat → σ} {accepts : Nat → List Bool}
    {es : List Event} {s : State σ} {log : List (Nat × Ev)} (hr : (State.start user accepts).run env key endErr auto P es = .ok (s, log)) {k : Nat} (ha : Apart k log)
    (ho : OwnCalls k es) {Q : Outcome → Prop} (hQ : Q .ok) (hq : ∀ o, Event.turn k o ∈ es → Q o) :
    ∃ fs ms S done, Inv env key endErr auto P Q (HungUp k es) { user := user k, accepts := accepts k } (arrivedOn k es) (logOf k log) fs (s.conns k) ms S done := by
  obtain ⟨t, h1, h2⟩ := start_alone hr k ha
  have hmem : ∀ e, e ∈ eventsOf k es → e ∈ es ∧ e.conn = k := fun e he => by simpa [eventsOf] using he
  have hH : ∀ a b, HungUp k es a → HungUp k es (a ++ b) := fun a b ⟨es1, es2, h, hp⟩ => ⟨es1, es2, h, hp.trans (List.prefix_append _ _)⟩
  have hh : ∀ es1 es2, eventsOf k es = es1 ++ .hangUp k :: es2 → HungUp k es ([] ++ arrivedOn k es1) := by
    intro es1 es2 he
    obtain ⟨l1, l2, rfl, hl1, hl2⟩ := List.filter_eq_append_iff.1 he
    obtain ⟨l3, l4, rfl, hl3, -, -⟩ := List.filter_eq_cons_iff.1 hl2
    refine ⟨l1 ++ l3, l4, by simp, ?_⟩
    have : es1 = eventsOf k (l1 ++ l3) := by
      rw [eventsOf, List.filter_append, hl1, List.filter_eq_nil_iff.2 hl3, List.append_nil]
    rw [this, arrivedOn_eventsOf]
    exact List.prefix_rfl
  obtain ⟨ms, S, done, hi⟩ := run_inv hQ hH k (eventsOf k es) (fun e he => (hmem e he).2) ⟨fun e he => ho.1 e (hmem _ he).1, fun e cb he => ho.2 e cb (hmem _ he).1⟩
    (fun o he => hq o (hmem _ he).1) hh (inv_start env key endErr auto P Q _ user accepts k) h1
  rw [arrivedOn_eventsOf, logOf_own, List.nil_append, List.nil_append, h2] at hi
  exact ⟨t.fs, ms, S, done, hi⟩

theorem not_hungUp {k : Nat} {es : List Event} (h : Event.hangUp k ∉ es) (a : List Bytes) : ¬ HungUp k es a := by
  rintro ⟨es1, es2, rfl, -⟩
  exact h (by simp)

/-- The messages received from the first bytes of frames. -/
theorem frames_got {env : Env} {key : Option DecKey} {e : Err} {xs : List (Bytes × Message Entity)} (hx : Frames env key xs) {reads : List Bytes}
    (hr : ∀ c ∈ reads, c.length ≤ 128) (hp : reads.flatten <+: joinedFrames xs) {l : List (Message Entity)} {r : RecvState} (h : Got env key e l ⟨[], reads⟩ r) :
    ∃ n, Complete xs reads.flatten.length n ∧ l.length ≤ n ∧ l = (xs.take l.length).map (·.2) ∧
      (l.length = n → (Codec.receive (entityCodec env) key e r).1 = .err e) ∧ (l.length < n → ∃ m, (Codec.receive (entityCodec env) key e r).1 = .ok m) := by
  obtain ⟨n, n1, n2, n3, n4⟩ := C12_cut_anywhere (entityCodec env) key e xs hx reads hr hp (l.length + 1)
  have hl : (xs.take n).length = n := by simp; omega
  rw [show n + (l.length + 1) = l.length + (n + 1) by omega, Codec.receiveMany_append, h] at n4
  simp only [receiveMany] at n4
  generalize (receiveMany (entityCodec env) key e n (Codec.receive (entityCodec env) key e r).2).1 = z at n4
  have hle : l.length ≤ n := by
    apply Nat.le_of_not_lt
    intro hlt
    have := congrArg (fun w => w[n]?) n4
    rw [List.getElem?_append_left (by simpa using hlt), List.getElem?_append_right (by rw [List.length_map, hl]; omega), List.length_map, hl, Nat.sub_self] at this
    simp [hlt, List.getElem?_replicate] at this
  have hmap : l.map Res.ok = ((xs.take l.length).map (·.2)).map Res.ok := by
    have := congrArg (List.take l.length) n4
    rw [List.take_append_of_le_length (by simp), List.take_of_length_le (by simp), List.take_append_of_le_length (by simp; omega), ← List.map_take, List.take_take,
      Nat.min_eq_left hle] at this
    rw [this, List.map_map]
    rfl
  have hget := congrArg (fun w => w[l.length]?) n4
  rw [List.getElem?_append_right (by simp)] at hget
  simp only [List.length_map, Nat.sub_self, List.getElem?_cons_zero] at hget
  refine ⟨n, ⟨n1, n2, n3⟩, hle, (List.map_inj_right fun a b hab => Res.ok.inj hab).1 hmap, fun heq => ?_, fun hlt => ?_⟩
  · rw [List.getElem?_append_right (by rw [List.length_map, hl]; omega)] at hget
    simp only [List.length_map, hl, heq, Nat.sub_self] at hget
    simpa using hget
  · rw [List.getElem?_append_left (by simp; omega)] at hget
    have hn : l.length < (xs.take n).length := by omega
    rw [List.getElem?_map, List.getElem?_eq_getElem hn] at hget
    exact ⟨_, Option.some.inj hget⟩

theorem complete_unique {xs : List (Bytes × Message Entity)} {len n n' : Nat} (h : Complete xs len n) (h' : Complete xs len n') : n = n' :=
  Nat.le_antisymm (h.mono h' (Nat.le_refl _)) (h'.mono h (Nat.le_refl _))

/-- Messages with file operations that succeed. -/
theorem turns_of {xs : List (Bytes × Message Entity)} {ms : List (Message Entity × Outcome × Outcome)} (ho : ∀ x ∈ ms, x.2.1 = .ok ∧ x.2.2 = .ok)
    (h : ms.map (·.1) = xs.map (·.2)) : ms = turns xs := by
  induction ms generalizing xs with
  | nil =>
    cases xs with
    | nil => rfl
    | cons x xs => cases h
  | cons m ms ih =>
    cases xs with
    | nil => cases h
    | cons x xs =>
      simp only [List.map_cons, List.cons.injEq] at h
      obtain ⟨o1, o2⟩ := ho m (by simp)
      rw [ih (fun y hy => ho y (by simp [hy])) h.2]
      obtain ⟨m, a, b⟩ := m
      simp only at h o1 o2
      rw [turns, turns, List.map_cons, h.1, o1, o2]

variable {env : Env} {now : Nat → Time} {pkey own : PubKey} {file : Bytes} {key : Option DecKey} {xs ys : List (Bytes × Message Entity)}

theorem sentIn_append (x y : List Ev) : sentIn (x ++ y) = sentIn x ++ sentIn y := List.filterMap_append

/-- The connection of the example client: at most what a server with this client alone has done. -/
theorem course_inv (c : Course env key now pkey own file xs ys) (hf : file.length = 2048) {endErr : Err} {up : List Bytes} (hu : ∀ x ∈ up, x.length ≤ 128)
    (hp : up.flatten <+: joinedFrames xs) {log : List Ev} {fs : FS} {conn : Conn Data} {ms : List (Message Entity × Outcome × Outcome)} {S : Converse.State Data}
    {done : List Ev} {H : List Bytes → Prop} (hg : ∀ a, ¬ H a) (hi : Inv env key endErr true (server (some own)) (· = .ok) H { user := none } up log fs conn ms S done) :
    ∃ n s' log', Complete xs up.flatten.length n ∧ ({ user := none } : Converse.State Data).run true (server (some own)) (turns (xs.take n)) = .ok (s', log') ∧
      sentIn log <+: sentIn log' ∧ conn.place ≠ .ended ∧
      (conn.place = .waiting → (∀ e, (Codec.receive (entityCodec env) key e conn.recv).1 = .err e) → log = log' ∧ conn.sess.user = s'.user) := by
  by_cases hw : conn.place = .waiting
  · obtain ⟨w1, w2, w3⟩ := hi.waiting hw
    obtain ⟨n, n1, n2, n3, n4, n5⟩ := frames_got c.fx hu hp w3
    obtain ⟨s', log', r1, -⟩ := c.after hf n
    have hms := turns_of hi.outcomes n3
    have hrun := hi.run
    rw [hms] at hrun
    refine ⟨n, s', log', n1, r1, ?_, by rw [hw]; simp, fun _ hs => ?_⟩
    · rw [w1]
      exact Course.after_mono _ n n2 hrun r1
    · have hn : (ms.map (·.1)).length = n := by
        rcases Nat.lt_or_eq_of_le n2 with hlt | heq
        · obtain ⟨m, hm⟩ := n5 hlt
          rw [hs endErr] at hm
          cases hm
        · exact heq
      rw [hn, r1] at hrun
      simp only [Res.ok.injEq, Prod.mk.injEq] at hrun
      rw [w1, ← hrun.2, hrun.1, w2]
      exact ⟨rfl, rfl⟩
  by_cases he : conn.place = .ended
  · obtain ⟨w1, w2, before, r, e, w3, w4, w5, w6⟩ := hi.ended he
    have hb : ∀ x ∈ before, x.length ≤ 128 := fun x hx => hu x (w3.subset hx)
    have hfl : before.flatten <+: up.flatten := by
      obtain ⟨t, rfl⟩ := w3
      rw [List.flatten_append]
      exact List.prefix_append _ _
    have any : ∀ e', e = e' := by
      intro e'
      obtain ⟨n0, n1, n2, n3, n4, n5⟩ := frames_got c.fx hb (hfl.trans hp) (w4.anyEnd e')
      rw [receive_not_starved endErr e' (w6.resolve_right (hg _))] at w5
      rcases Nat.lt_or_eq_of_le n2 with hlt | heq
      · obtain ⟨m, hm⟩ := n5 hlt
        rw [w5] at hm
        cases hm
      · have := n4 heq
        rw [w5] at this
        exact Res.err.inj this
    have h1 := any .other
    have h2 := any .notFoundPrefixID
    rw [h1] at h2
    cases h2
  · obtain ⟨m, x, m1, m2, m3, g, m4, m5⟩ := hi.middle hw he
    obtain ⟨n, n1, n2, n3, -⟩ := frames_got c.fx hu hp m3
    obtain ⟨s', log', r1, -⟩ := c.after hf n
    obtain ⟨s1, l1, q1, -⟩ := c.after hf (ms.map (·.1) ++ [m]).length
    have hms : ms ++ [(m, .ok, .ok)] = turns (xs.take (ms.map (·.1) ++ [m]).length) := by
      refine turns_of ?_ (by rw [← n3]; simp)
      intro y hy
      rcases List.mem_append.1 hy with hy | hy
      · exact hi.outcomes y hy
      · rw [List.mem_singleton.1 hy]
        exact ⟨rfl, rfl⟩
    refine ⟨n, s', log', n1, r1, ?_, he, fun h => absurd h hw⟩
    have hmono := Course.after_mono _ n n2 q1 r1
    refine List.IsPrefix.trans ?_ hmono
    rw [← hms, Converse.run_append, hi.run, Res.bind, Converse.State.run] at q1
    have hg' : g (.ok, .ok) = (.ok, .ok) := by
      obtain ⟨a, b⟩ := m4 (.ok, .ok) rfl rfl
      exact Prod.ext a b
    have hpr := m5 (.ok, .ok)
    rw [hg'] at hpr
    rw [hpr] at q1
    cases hrest : rest true (server (some own)) { conn.sess with fs := fs } (.ok, .ok) conn.place with
    | err e => rw [hrest] at q1; cases q1
    | panic => rw [hrest] at q1; cases q1
    | ok w =>
      rw [hrest] at q1
      simp only [prepend, Res.bind, Res.ok_bind, Converse.State.run, Res.ok.injEq, Prod.mk.injEq] at q1
      rw [← q1.2, m2, List.append_nil, ← List.cons_append, ← List.append_assoc, sentIn_append (done ++ _)]
      exact List.prefix_append _ _

/-! ## The client and the crowd -/

theorem arrivedOn_append (k : Nat) (es es' : List Event) : arrivedOn k (es ++ es') = arrivedOn k es ++ arrivedOn k es' := List.filterMap_append

/-- What happens on the connection of the client. -/
structure Calm (k : Nat) (es : List Event) : Prop where
  calls : OwnCalls k es
  files : ∀ o, Event.turn k o ∈ es → o = .ok
  stays : Event.hangUp k ∉ es

theorem Crowded.calm {σ : Type} {run : List Event → Res (Crowd.State σ × List (Nat × Ev))} {bytes : List (Message Entity) → Bytes} {client : List Bytes → Res Bytes}
    {k : Nat} {es : List Event} {down : List Bytes} (h : Crowded run bytes client k es down) : Calm k es := by
  induction h with
  | start => exact ⟨⟨by simp, by simp⟩, by simp, by simp⟩
  | other _ he ih =>
    obtain ⟨⟨h1, h2⟩, h3, h4⟩ := ih
    refine ⟨⟨fun e hm => ?_, fun e cb hm => ?_⟩, fun o hm => ?_, fun hm => ?_⟩ <;> rcases List.mem_append.1 hm with hm | hm
    · exact h1 e hm
    · exact he (by rw [← List.mem_singleton.1 hm]; rfl)
    · exact h2 e cb hm
    · exact he (by rw [← List.mem_singleton.1 hm]; rfl)
    · exact h3 o hm
    · exact absurd (by rw [← List.mem_singleton.1 hm]; rfl) he
    · exact h4 hm
    · exact he (by rw [← List.mem_singleton.1 hm]; rfl)
  | turn _ ih =>
    obtain ⟨⟨h1, h2⟩, h3, h4⟩ := ih
    refine ⟨⟨fun e hm => ?_, fun e cb hm => ?_⟩, fun o hm => ?_, fun hm => ?_⟩ <;> rcases List.mem_append.1 hm with hm | hm
    · exact h1 e hm
    · simp at hm
    · exact h2 e cb hm
    · simp at hm
    · exact h3 o hm
    · simpa using hm
    · exact h4 hm
    · simp at hm
  | toServer _ _ _ _ ih =>
    obtain ⟨⟨h1, h2⟩, h3, h4⟩ := ih
    refine ⟨⟨fun e hm => ?_, fun e cb hm => ?_⟩, fun o hm => ?_, fun hm => ?_⟩ <;> rcases List.mem_append.1 hm with hm | hm
    · exact h1 e hm
    · simp at hm
    · exact h2 e cb hm
    · simp at hm
    · exact h3 o hm
    · simp at hm
    · exact h4 hm
    · simp at hm
  | toClient _ _ _ _ ih => exact ih

/-- The pieces that arrive at the two ends could also arrive if the server had no other connections. -/
theorem crowded_reach (h : ExampleOK env now pkey own file) (c : Course env key now pkey own file xs ys) (pub : Option EncKey) (ec es : Err) (tc ts : Nat) (hc : 10 < tc)
    (ht : 8 < ts) {user : Nat → Data} {accepts : Nat → List Bool} {k : Nat} (hu : user k = none) (hacc : accepts k = []) {evs : List Event} {down : List Bytes}
    (hj : Crowded ((State.start user accepts).run env key es true (server (some own))) (Converse.wire env pub) (clientSends env now pkey file ec tc) k evs down) :
    ∀ {s log}, (State.start user accepts).run env key es true (server (some own)) evs = .ok (s, log) → Apart k log →
      Reach (clientSends env now pkey file ec tc) (serverSends env key pub (some own) es ts) (arrivedOn k evs) down := by
  induction hj with
  | start => intro s log _ _; exact .start
  | other _ he ih =>
    intro s log hr ha
    obtain ⟨s1, x, y, r1, -, rfl⟩ := run_before hr
    rw [arrivedOn_append, arrivedOn_other he, List.append_nil]
    exact ih r1 (Apart.before ha)
  | turn _ ih =>
    intro s log hr ha
    obtain ⟨s1, x, y, r1, -, rfl⟩ := run_before hr
    rw [arrivedOn_append, show arrivedOn k [.turn k .ok] = [] from rfl, List.append_nil]
    exact ih r1 (Apart.before ha)
  | toServer _ hb hl hp ih =>
    intro s log hr ha
    obtain ⟨s1, x, y, r1, -, rfl⟩ := run_before hr
    rw [arrivedOn_append, show ∀ p, arrivedOn k [.arrive k p] = [p] from fun p => by simp [arrivedOn]]
    exact .toServer (ih r1 (Apart.before ha)) hb hl hp
  | @toClient evs down s1 log1 p hj' hrun hl hp ih =>
    intro s log hr ha
    rw [hrun] at hr
    cases hr
    have hreach := ih hrun ha
    have hcalm := Crowded.calm hj'
    obtain ⟨u1, u2, ⟨b, u3, u4, u5⟩, -⟩ := reach_invariant (c.bounded h pub ec es tc ts hc ht) hreach
    have hgone := not_hungUp hcalm.stays
    obtain ⟨fs, ms, S, done, hi⟩ := start_inv hrun ha hcalm.calls (Q := (· = .ok)) rfl hcalm.files
    rw [hu, hacc] at hi
    obtain ⟨n, s', log', n1, n2, n3, -⟩ := course_inv c h.file u1 (u4.trans u5) hgone hi
    obtain ⟨n', s'', log'', g1, g2, -, g4, -, -, g7⟩ := c.server h pub es ts ht u1 (u4.trans u5)
    obtain rfl := complete_unique n1 g1
    rw [n2] at g2
    simp only [Res.ok.injEq, Prod.mk.injEq] at g2
    obtain ⟨rfl, rfl⟩ := g2
    refine .toClient hreach g7 hl (hp.trans ?_)
    rw [c.wire h.own pub (n3.trans g4)]
    have := joinedFrames_take (ys.take (sentIn log').length) (sentIn (logOf k log1)).length
    rwa [List.take_take, Nat.min_eq_left n3.length_le] at this

end Verif.Crowd
