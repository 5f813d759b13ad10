import Verif.Spec.World
import Verif.Lemmas.SystemParts
import Verif.Lemmas.ServerTicker
/-! # The whole server: its parts are runs of the models of the parts -/

namespace Verif.World
open Handler Session Spec

section
variable {env : Env} {key : Option DecKey} {endErr : Err} {auto : Bool}

theorem serverView_server (o : List Server.Obs) : (o.map Obs.server).filterMap serverView = o := by
  induction o with
  | nil => rfl
  | cons a l ih => simp [serverView, ih]

theorem serverView_acts (x : List (Nat × Act)) : (x.map fun a => Obs.act a.1 a.2).filterMap serverView = [] := by
  induction x with
  | nil => rfl
  | cons a l ih =>
    rw [List.map_cons, List.filterMap_cons_none rfl]
    exact ih

theorem loopView_server (o : List Server.Obs) : (o.map Obs.server).filterMap loopView = [] := by
  induction o with
  | nil => rfl
  | cons a l ih =>
    rw [List.map_cons, List.filterMap_cons_none rfl]
    exact ih

theorem loopView_acts (x : List (Nat × Act)) : (x.map fun a => Obs.act a.1 a.2).filterMap loopView = x := by
  induction x with
  | nil => rfl
  | cons a l ih => simp [loopView, ih]

theorem onServer_inv {s s' : State} {e : Server.Event} {x : List Obs} (h : s.onServer e = .ok (s', x)) :
    ∃ t o, s.server.step e = .ok (t, o) ∧ s' = { s with server := t } ∧ x = o.map .server := by
  unfold State.onServer at h
  obtain ⟨⟨t, o⟩, h1, h2⟩ := Res.bind_ok h
  cases h2
  exact ⟨t, o, h1, rfl, rfl⟩

theorem onSystem_inv {s s' : State} {e : System.Event} {x : List Obs} (h : s.onSystem env key endErr auto e = .ok (s', x)) :
    ∃ t o, s.sys.step env key endErr auto e = .ok (t, o) ∧ s' = { s with sys := t } ∧ x = o.map fun a => .act a.1 a.2 := by
  unfold State.onSystem at h
  obtain ⟨⟨t, o⟩, h1, h2⟩ := Res.bind_ok h
  cases h2
  exact ⟨t, o, h1, rfl, rfl⟩

/-- A step of the whole is nothing or one step of the life of the sessions. -/
def ServerPart (s s' : State) (x : List Obs) : Prop :=
  (s'.server = s.server ∧ x.filterMap serverView = []) ∨ ∃ e, s.server.step e = .ok (s'.server, x.filterMap serverView)

/-- The state of the loops before the step: if the session is closed, its connection delivers nothing more. -/
def Before (s : State) (t : System.State) : Prop := t = s.sys ∨ ∃ k, t = hangUp s.sys k

/-- A step of the whole is nothing or one step of the loops. -/
def LoopPart (env : Env) (key : Option DecKey) (endErr : Err) (auto : Bool) (s s' : State) (x : List Obs) : Prop :=
  (s'.sys = s.sys ∧ x.filterMap loopView = []) ∨
    ∃ t e, Before s t ∧ t.step env key endErr auto e = .ok (s'.sys, x.filterMap loopView)

theorem parts_server {s s' : State} {e : Server.Event} {x : List Obs} (h : s.onServer e = .ok (s', x)) :
    ServerPart s s' x ∧ LoopPart env key endErr auto s s' x := by
  obtain ⟨t, o, h1, rfl, rfl⟩ := onServer_inv h
  exact ⟨.inr ⟨e, by rw [serverView_server]; exact h1⟩, .inl ⟨rfl, loopView_server _⟩⟩

theorem parts_system {s s' : State} {e : System.Event} {x : List Obs} (h : s.onSystem env key endErr auto e = .ok (s', x)) :
    ServerPart s s' x ∧ LoopPart env key endErr auto s s' x := by
  obtain ⟨t, o, h1, rfl, rfl⟩ := onSystem_inv h
  exact ⟨.inl ⟨rfl, serverView_acts _⟩, .inr ⟨s.sys, e, .inl rfl, by rw [loopView_acts]; exact h1⟩⟩

theorem parts_nothing {s : State} : ServerPart s s [] ∧ LoopPart env key endErr auto s s [] := ⟨.inl ⟨rfl, rfl⟩, .inl ⟨rfl, rfl⟩⟩

theorem receive_inv {s s' : State} {k : Nat} {x : List Obs} (h : s.receive env key endErr auto k = .ok (s', x)) :
    ∃ t u o, t = (if isClosed s.server k then hangUp s.sys k else s.sys) ∧ t.step env key endErr auto (.receive k) = .ok (u, o) ∧
      ((∃ m, (u.conns k).place = .received m ∧ s' = { s with sys := u } ∧ x = (o.map fun a => Obs.act a.1 a.2) ++ [.received k m]) ∨
       ((u.conns k).place = .ended ∧ ∃ v p, s.server.step (.move k .leave) = .ok (v, p) ∧ s' = { s with sys := u, server := v } ∧
          x = (o.map fun a => Obs.act a.1 a.2) ++ p.map .server) ∨
       ((∀ m, (u.conns k).place ≠ .received m) ∧ (u.conns k).place ≠ .ended ∧ s' = { s with sys := u } ∧ x = o.map fun a => Obs.act a.1 a.2)) := by
  unfold State.receive at h
  obtain ⟨⟨s1, y⟩, h1, h2⟩ := Res.bind_ok h
  obtain ⟨u, o, h3, rfl, rfl⟩ := onSystem_inv h1
  refine ⟨_, u, o, rfl, ?_, ?_⟩
  · rw [← h3]
    split <;> rfl
  simp only at h2
  split at h2
  · rename_i m hm
    cases h2
    refine .inl ⟨m, hm, ?_, rfl⟩
    split <;> rfl
  · rename_i hm
    obtain ⟨⟨s2, z⟩, h4, h5⟩ := Res.bind_ok h2
    obtain ⟨v, p, h6, rfl, rfl⟩ := onServer_inv h4
    cases h5
    refine .inr (.inl ⟨hm, v, p, ?_, ?_, rfl⟩)
    · rw [← h6]
      split <;> rfl
    · split <;> rfl
  · rename_i hm1 hm2
    cases h2
    refine .inr (.inr ⟨hm1, hm2, ?_, rfl⟩)
    split <;> rfl

theorem dispatch_inv {s s' : State} {k : Nat} {now : Int} {m : Message Entity} {x : List Obs}
    (h : s.dispatch env key endErr auto k now m = .ok (s', x)) :
    ∃ u o, s.sys.step env key endErr auto (.dispatch k .returns) = .ok (u, o) ∧
      ((s.sys.handlers m.header.msgID = none ∧ s' = { s with sys := u } ∧ x = o.map fun a => Obs.act a.1 a.2) ∨
       ∃ hd v p, s.sys.handlers m.header.msgID = some hd ∧ s.server.step (.move k (.restart now)) = .ok (v, p) ∧
        s' = { server := v, sys := u, busy := fun j => if j = k then .chosen hd m else s.busy j } ∧
        x = p.map .server ++ o.map fun a => Obs.act a.1 a.2) := by
  unfold State.dispatch at h
  obtain ⟨⟨s1, y⟩, h1, h2⟩ := Res.bind_ok h
  obtain ⟨u, o, h3, rfl, rfl⟩ := onSystem_inv h1
  refine ⟨u, o, h3, ?_⟩
  simp only at h2
  split at h2
  · rename_i hn
    cases h2
    exact .inl ⟨hn, rfl, rfl⟩
  · rename_i hd hn
    obtain ⟨⟨s2, z⟩, h4, h5⟩ := Res.bind_ok h2
    obtain ⟨v, p, h6, rfl, rfl⟩ := onServer_inv h4
    cases h5
    exact .inr ⟨hd, v, p, hn, h6, rfl, rfl⟩

theorem step_parts {s s' : State} {e : Event} {x : List Obs} (h : s.step env key endErr auto e = .ok (s', x)) :
    ServerPart s s' x ∧ LoopPart env key endErr auto s s' x := by
  unfold State.step at h
  split at h
  · exact parts_server h
  · cases h; exact parts_nothing
  · split at h
    · cases h; exact parts_nothing
    · exact parts_server h
  · exact parts_server h
  · exact parts_server h
  · exact parts_server h
  · exact parts_server h
  · rename_i k
    split at h
    · obtain ⟨t, u, o, ht, h1, h2⟩ := receive_inv h
      have hb : Before s t := by
        rw [ht]
        split
        · exact .inr ⟨_, rfl⟩
        · exact .inl rfl
      rcases h2 with ⟨m, -, rfl, rfl⟩ | ⟨-, v, p, h2, rfl, rfl⟩ | ⟨-, -, rfl, rfl⟩
      · refine ⟨.inl ⟨rfl, ?_⟩, .inr ⟨t, .receive k, hb, ?_⟩⟩
        · rw [List.filterMap_append, serverView_acts]
          rfl
        · rw [List.filterMap_append, loopView_acts]
          exact h1.trans (by simp [loopView])
      · refine ⟨.inr ⟨.move k .leave, ?_⟩, .inr ⟨t, .receive k, hb, ?_⟩⟩
        · rw [List.filterMap_append, serverView_acts, serverView_server]
          exact h2
        · rw [List.filterMap_append, loopView_acts, loopView_server, List.append_nil]
          exact h1
      · refine ⟨.inl ⟨rfl, serverView_acts _⟩, .inr ⟨t, .receive k, hb, ?_⟩⟩
        rw [loopView_acts]
        exact h1
    · cases h; exact parts_nothing
  · exact parts_system h
  · exact parts_system h
  · exact parts_system h
  · exact parts_system h
  · split at h
    · rename_i k now _ m _
      obtain ⟨u, o, h1, h2⟩ := dispatch_inv h
      rcases h2 with ⟨-, rfl, rfl⟩ | ⟨hd, v, p, -, h2, rfl, rfl⟩
      · refine ⟨.inl ⟨rfl, serverView_acts _⟩, .inr ⟨s.sys, .dispatch k .returns, .inl rfl, ?_⟩⟩
        rw [loopView_acts]
        exact h1
      · refine ⟨.inr ⟨.move k (.restart now), ?_⟩, .inr ⟨s.sys, .dispatch k .returns, .inl rfl, ?_⟩⟩
        · rw [List.filterMap_append, serverView_acts, serverView_server, List.append_nil]
          exact h2
        · rw [List.filterMap_append, loopView_acts, loopView_server, List.nil_append]
          exact h1
    · cases h; exact parts_nothing
  · split at h
    · split at h
      · cases h; exact ⟨.inl ⟨rfl, rfl⟩, .inl ⟨rfl, rfl⟩⟩
      · cases h; exact parts_nothing
    · cases h; exact parts_nothing
  · split at h
    · obtain ⟨-, -, h⟩ := Res.bind_ok h
      cases h
      exact ⟨.inl ⟨rfl, rfl⟩, .inl ⟨rfl, rfl⟩⟩
    · cases h; exact parts_nothing
  · exact parts_system h
  · exact parts_system h

theorem run_cons_inv {s s' : State} {e : Event} {es : List Event} {x : List Obs} (h : s.run env key endErr auto (e :: es) = .ok (s', x)) :
    ∃ t y z, s.step env key endErr auto e = .ok (t, y) ∧ t.run env key endErr auto es = .ok (s', z) ∧ x = y ++ z := by
  unfold State.run at h
  obtain ⟨⟨t, y⟩, h1, h2⟩ := Res.bind_ok h
  obtain ⟨⟨u, z⟩, h3, h4⟩ := Res.bind_ok h2
  cases h4
  exact ⟨t, y, z, h1, h3, rfl⟩

/-- The life of the sessions in the whole server is one of the schedules of `Model/Server.lean`. -/
theorem server_run {s s' : State} {es : List Event} {x : List Obs} (h : s.run env key endErr auto es = .ok (s', x)) :
    ∃ evs, s.server.run evs = .ok (s'.server, x.filterMap serverView) := by
  induction es generalizing s x with
  | nil => cases h; exact ⟨[], rfl⟩
  | cons e es ih =>
    obtain ⟨t, y, z, h1, h2, rfl⟩ := run_cons_inv h
    obtain ⟨evs, h3⟩ := ih h2
    rcases (step_parts h1).1 with ⟨h4, h5⟩ | ⟨ev, h4⟩
    · refine ⟨evs, ?_⟩
      rw [List.filterMap_append, h5, List.nil_append, ← h4]
      exact h3
    · refine ⟨ev :: evs, ?_⟩
      rw [List.filterMap_append]
      simp [Server.State.run, h4, h3]

/-! ## The loops -/

/-- The same state with other bytes to come. -/
def setReads (s : System.State) (f : Nat → List Bytes) : System.State :=
  { s with conns := fun k => { s.conns k with recv := { (s.conns k).recv with reads := f k } } }

theorem recvLoop_local {C : BodyCodec Entity} {rs rs' : List Bytes} {b b' : Bytes} {r : Res (Message Entity)}
    (h : Codec.recvLoop C key endErr rs b = (r, ⟨b', rs'⟩)) :
    ∃ c, rs = c ++ rs' ∧ ∀ f, f <+: rs' → Codec.recvLoop C key endErr (c ++ f) b = (r, ⟨b', f⟩) := by
  induction rs generalizing b with
  | nil =>
    cases h
    refine ⟨[], rfl, fun f hf => ?_⟩
    rw [List.prefix_nil.1 hf]
    rfl
  | cons c rs ih =>
    have hone (f : List Bytes) : Codec.recvLoop C key endErr (c :: f) b =
        if (b ++ c).length = 0 then Codec.recvLoop C key endErr f (b ++ c)
        else if (b ++ c).length > 0xffff then (.err .bodyTooLong, ⟨b ++ c, f⟩)
        else match Codec.readFromBuffer C key (b ++ c) with
          | (.ok (some m), buf') => (.ok m, ⟨buf', f⟩)
          | (.ok none, buf') => Codec.recvLoop C key endErr f buf'
          | (.err e, buf') => (.err e, ⟨buf', f⟩)
          | (.panic, buf') => (.panic, ⟨buf', f⟩) := by
      rw [Codec.recvLoop]
      rcases Codec.readFromBuffer C key (b ++ c) with ⟨⟨_ | _⟩ | _ | _, _⟩ <;> rfl
    rw [hone] at h
    split at h
    · rename_i h0
      obtain ⟨d, rfl, hd⟩ := ih h
      refine ⟨c :: d, rfl, fun f hf => ?_⟩
      rw [List.cons_append, hone, if_pos h0]
      exact hd f hf
    split at h
    · rename_i h0 h1
      cases h
      refine ⟨[c], rfl, fun f _ => ?_⟩
      rw [List.cons_append, hone, if_neg h0, if_pos h1, List.nil_append]
    rename_i h0 h1
    split at h <;> rename_i h2
    · cases h
      refine ⟨[c], rfl, fun f _ => ?_⟩
      rw [List.cons_append, hone, if_neg h0, if_neg h1, h2, List.nil_append]
    · obtain ⟨d, rfl, hd⟩ := ih h
      refine ⟨c :: d, rfl, fun f hf => ?_⟩
      rw [List.cons_append, hone, if_neg h0, if_neg h1, h2]
      exact hd f hf
    · cases h
      refine ⟨[c], rfl, fun f _ => ?_⟩
      rw [List.cons_append, hone, if_neg h0, if_neg h1, h2, List.nil_append]
    · cases h
      refine ⟨[c], rfl, fun f _ => ?_⟩
      rw [List.cons_append, hone, if_neg h0, if_neg h1, h2, List.nil_append]

/-- `Receive` depends only on the reads it makes. -/
theorem receive_local {C : BodyCodec Entity} {T T' : RecvState} {r : Res (Message Entity)} (h : Codec.receive C key endErr T = (r, T')) :
    ∃ c, T.reads = c ++ T'.reads ∧ ∀ f, f <+: T'.reads → Codec.receive C key endErr ⟨T.buffer, c ++ f⟩ = (r, ⟨T'.buffer, f⟩) := by
  unfold Codec.receive at h
  split at h <;> rename_i hx
  · cases h
    exact ⟨[], rfl, fun f _ => by simp [Codec.receive, hx]⟩
  · obtain ⟨b', rs'⟩ := T'
    obtain ⟨c, h1, h2⟩ := recvLoop_local h
    refine ⟨c, h1, fun f hf => ?_⟩
    simp only [Codec.receive, hx]
    exact h2 f hf
  · cases h
    exact ⟨[], rfl, fun f _ => by simp [Codec.receive, hx]⟩
  · cases h
    exact ⟨[], rfl, fun f _ => by simp [Codec.receive, hx]⟩

theorem setReads_put (s : System.State) (k : Nat) (c : System.Conn) (f : Nat → List Bytes) :
    setReads (s.put k c) f = (setReads s f).put k { c with recv := { c.recv with reads := f k } } := by
  unfold setReads System.State.put
  congr 1
  funext j
  simp only
  split
  · rename_i h; subst h; rfl
  · rfl

theorem setReads_goto (s : System.State) (k : Nat) (p : System.Place) (f : Nat → List Bytes) :
    setReads (s.goto k p) f = (setReads s f).goto k p := by
  unfold System.State.goto
  rw [setReads_put]
  rfl

theorem setReads_message (s : System.State) (k : Nat) (u : UserCode) (m : Message Entity) (f : Nat → List Bytes) :
    (setReads s f).message k u m = (s.message k u m >>= fun p => .ok (setReads p.1 f, p.2)) := by
  unfold System.State.message
  rw [show (setReads s f).view k = s.view k from rfl]
  cases (s.view k).message { callback := u } m with
  | ok p => simp only [Res.ok_bind, setReads_put]; rfl
  | err e => rfl
  | panic => rfl

theorem setReads_store (s : System.State) (k : Nat) (o : Outcome) (m : Message Entity) (b : T0801) (p : Packet) (d : Bytes)
    (f : Nat → List Bytes) : (setReads s f).store k o m b p d = (setReads (s.store k o m b p d).1 f, (s.store k o m b p d).2) := by
  unfold System.State.store
  simp only
  rw [show (setReads s f).fs = s.fs from rfl]
  split <;> rw [setReads_goto] <;> rfl

/-- The reads are looked at by `Receive` only. -/
theorem setReads_step_eq (s : System.State) (e : System.Event) (f : Nat → List Bytes) (he : ∀ k, e ≠ .receive k) :
    (setReads s f).step env key endErr auto e = (s.step env key endErr auto e >>= fun p => .ok (setReads p.1 f, p.2)) := by
  cases e with
  | receive k => exact absurd rfl (he k)
  | process k o u =>
    unfold System.State.step
    simp only
    rw [show ((setReads s f).conns k).place = (s.conns k).place from rfl]
    cases (s.conns k).place with
    | received m =>
      simp only
      cases m.body with
      | val e =>
        simp only
        split
        · exact setReads_message ..
        · cases e with
          | m0801 b =>
            simp only
            split
            · rw [setReads_store]; rfl
            · rfl
          | _ => exact setReads_message ..
      | _ => simp only [Res.ok_bind, setReads_goto]
    | _ => rfl
  | check k =>
    unfold System.State.step
    simp only
    rw [show ((setReads s f).conns k).place = (s.conns k).place from rfl]
    cases (s.conns k).place with
    | stored m b p =>
      simp only
      split
      · simp only [Res.ok_bind, setReads_goto]
      · rw [show (setReads s f).fs = s.fs from rfl]
        cases (Loop.partFile m b p).isFull s.fs with
        | ok full => cases full <;> simp [Res.ok_bind, setReads_goto]
        | _ => rfl
    | _ => rfl
  | merge k o =>
    unfold System.State.step
    simp only
    rw [show ((setReads s f).conns k).place = (s.conns k).place from rfl]
    cases (s.conns k).place with
    | full m b p =>
      simp only
      rw [show (setReads s f).fs = s.fs from rfl]
      cases (Loop.partFile m b p).merge o s.fs with
      | ok r =>
        obtain ⟨g, c⟩ := r
        cases c <;> simp only [Res.ok_bind, setReads_goto] <;> rfl
      | _ => rfl
    | _ => rfl
  | note k u =>
    unfold System.State.step
    simp only
    rw [show ((setReads s f).conns k).place = (s.conns k).place from rfl]
    cases (s.conns k).place with
    | merged m => exact setReads_message ..
    | _ => rfl
  | dispatch k u =>
    unfold System.State.step
    simp only
    rw [show ((setReads s f).conns k).place = (s.conns k).place from rfl, show (setReads s f).view k = s.view k from rfl]
    cases (s.conns k).place with
    | noted m =>
      simp only
      cases (s.view k).dispatch { handler := u } m with
      | ok p => simp only [Res.ok_bind, setReads_goto]
      | _ => rfl
    | _ => rfl
  | addHandler id h' => cases h' <;> rfl
  | addRequest k r =>
    simp only [System.State.step, Res.ok_bind, setReads_put]
    rfl

/-- The same bytes to come. -/
def readsOf (s : System.State) (k : Nat) : List Bytes := (s.conns k).recv.reads

theorem setReads_self (s : System.State) : setReads s (readsOf s) = s := rfl

/-- A step can be made with fewer bytes to come afterwards. -/
theorem step_fewer {s t : System.State} {e : System.Event} {x : List (Nat × Act)} (f : Nat → List Bytes) (hf : ∀ k, f k <+: readsOf t k)
    (h : s.step env key endErr auto e = .ok (t, x)) :
    ∃ g, (∀ k, g k <+: readsOf s k) ∧ (setReads s g).step env key endErr auto e = .ok (setReads t f, x) := by
  by_cases he : ∃ k, e = .receive k
  · obtain ⟨k, rfl⟩ := he
    by_cases hp : (s.conns k).place = .waiting
    · have hrec : ∃ r T', Codec.receive (entityCodec env) key endErr (s.conns k).recv = (r, T') ∧
          ∃ p, t = s.put k { s.conns k with place := p, recv := T' } ∧ ∀ u : System.State, (u.conns k).place = .waiting → ∀ T'',
            Codec.receive (entityCodec env) key endErr (u.conns k).recv = (r, T'') →
            u.step env key endErr auto (.receive k) = .ok (u.put k { u.conns k with place := p, recv := T'' }, x) := by
        simp only [System.State.step, hp] at h
        split at h
        · rename_i m T hr
          cases h
          exact ⟨_, _, hr, _, rfl, fun u hu T'' hu' => by simp only [System.State.step, hu, hu']⟩
        · rename_i m T hr
          cases h
          exact ⟨_, _, hr, _, rfl, fun u hu T'' hu' => by simp only [System.State.step, hu, hu']⟩
        · cases h
      obtain ⟨r, T', hr, p, rfl, hstep⟩ := hrec
      obtain ⟨c, hc1, hc2⟩ := receive_local hr
      have hfk : f k <+: T'.reads := by simpa [readsOf, System.State.put] using hf k
      refine ⟨fun j => if j = k then c ++ f k else f j, fun j => ?_, ?_⟩
      · simp only
        split
        · rename_i hj
          subst hj
          rw [readsOf, hc1]
          exact (List.prefix_append_right_inj c).2 hfk
        · rename_i hj
          simpa [readsOf, System.State.put, hj] using hf j
      · rw [hstep (setReads s fun j => if j = k then c ++ f k else f j) hp ⟨T'.buffer, f k⟩ (by
          have := hc2 (f k) hfk
          simpa [setReads] using this)]
        refine congrArg Res.ok (Prod.ext ?_ rfl)
        simp only [setReads, System.State.put]
        congr 1
        funext j
        by_cases hj : j = k <;> simp [hj]
    · have hn : ∀ u : System.State, (u.conns k).place = (s.conns k).place → u.step env key endErr auto (.receive k) = .ok (u, []) := by
        intro u hu
        cases hq : (s.conns k).place with
        | waiting => exact absurd hq hp
        | _ => simp only [System.State.step, hu, hq]
      rw [hn s rfl] at h
      cases h
      exact ⟨f, hf, hn _ rfl⟩
  · have he (k : Nat) : e ≠ .receive k := fun h => he ⟨k, h⟩
    have h1 := setReads_step_eq (env := env) (key := key) (endErr := endErr) (auto := auto) s e (readsOf s) he
    rw [setReads_self, h] at h1
    simp only [Res.ok_bind, Res.ok.injEq, Prod.mk.injEq, and_true] at h1
    have h2 : readsOf t = readsOf s := by rw [h1]; rfl
    refine ⟨f, by rw [← h2]; exact hf, ?_⟩
    rw [setReads_step_eq s e f he, h]
    rfl

theorem setReads_hangUp (s : System.State) (k : Nat) (f : Nat → List Bytes) : setReads (hangUp s k) f = setReads s f := by
  unfold setReads hangUp System.State.put
  congr 1
  funext j
  by_cases hj : j = k <;> simp [hj]

theorem step_loops {s s' : State} {e : Event} {x : List Obs} (f : Nat → List Bytes) (hf : ∀ k, f k <+: readsOf s'.sys k)
    (h : s.step env key endErr auto e = .ok (s', x)) :
    ∃ g evs, (∀ k, g k <+: readsOf s.sys k) ∧ (setReads s.sys g).run env key endErr auto evs = .ok (setReads s'.sys f, x.filterMap loopView) := by
  rcases (step_parts h).2 with ⟨h1, h2⟩ | ⟨t, ev, hb, h1⟩
  · exact ⟨f, [], by rw [← h1]; exact hf, by rw [h2, ← h1]; rfl⟩
  · obtain ⟨g, h2, h3⟩ := step_fewer f hf h1
    refine ⟨g, [ev], ?_, ?_⟩
    · rcases hb with rfl | ⟨k, rfl⟩
      · exact h2
      · intro j
        have := h2 j
        by_cases hj : j = k
        · subst hj
          have h0 : g j <+: [] := by simpa [readsOf, hangUp, System.State.put] using this
          rw [List.prefix_nil.1 h0]
          exact List.nil_prefix
        · simpa [readsOf, hangUp, System.State.put, hj] using this
    · have : setReads t g = setReads s.sys g := by
        rcases hb with rfl | ⟨k, rfl⟩
        · rfl
        · exact setReads_hangUp ..
      rw [← this]
      simp [System.State.run, h3]

theorem sys_append {s t u : System.State} {es es' : List System.Event} {x y : List (Nat × Act)} (h : s.run env key endErr auto es = .ok (t, x))
    (h' : t.run env key endErr auto es' = .ok (u, y)) : s.run env key endErr auto (es ++ es') = .ok (u, x ++ y) := by
  induction es generalizing s x with
  | nil => cases h; exact h'
  | cons e es ih =>
    rw [System.State.run] at h
    obtain ⟨⟨a, p⟩, h1, h2⟩ := Res.bind_ok h
    obtain ⟨⟨b, q⟩, h3, h4⟩ := Res.bind_ok h2
    cases h4
    rw [List.cons_append, System.State.run, h1, Res.ok_bind]
    simp only [ih h3, Res.ok_bind, List.append_assoc]

/-- The loops of the whole server run as those of `Model/System.lean`, on connections that deliver a part of the bytes. -/
theorem loops_run {s s' : State} {es : List Event} {x : List Obs} (f : Nat → List Bytes) (hf : ∀ k, f k <+: readsOf s'.sys k)
    (h : s.run env key endErr auto es = .ok (s', x)) :
    ∃ g evs, (∀ k, g k <+: readsOf s.sys k) ∧ (setReads s.sys g).run env key endErr auto evs = .ok (setReads s'.sys f, x.filterMap loopView) := by
  induction es generalizing s x with
  | nil => cases h; exact ⟨f, [], hf, rfl⟩
  | cons e es ih =>
    obtain ⟨t, y, z, h1, h2, rfl⟩ := run_cons_inv h
    obtain ⟨g, evs, hg, h3⟩ := ih h2
    obtain ⟨g', evs', hg', h4⟩ := step_loops g hg h1
    refine ⟨g', evs' ++ evs, hg', ?_⟩
    rw [List.filterMap_append]
    exact sys_append h4 h3

end
end Verif.World
