import Verif.Lemmas.WorldRun
/-! # The whole server: when the loop of a session has ended, everything was received -/

namespace Verif.World
open Handler Session Spec

section
variable {env : Env} {key : Option DecKey} {endErr : Err} {auto : Bool}

/-- The messages received are those that can be received from `c`. -/
def Drained (env : Env) (key : Option DecKey) (endErr : Err) (k : Nat) (c : RecvState) (log : List Obs) : Prop :=
  AllFrom env key endErr c (log.filterMap (receivedBy k))

theorem drained_more {k : Nat} {c : RecvState} {log y : List Obs} (hy : y.filterMap (receivedBy k) = []) (h : Drained env key endErr k c log) :
    Drained env key endErr k c (log ++ y) := by
  unfold Drained AllFrom at h ⊢
  rw [List.filterMap_append, hy, List.append_nil]
  exact h

theorem drained_here {k : Nat} {c T r : RecvState} {log y : List Obs} {e : Err} (hy : y.filterMap (receivedBy k) = [])
    (h1 : receiveMany (entityCodec env) key endErr (log.filterMap (receivedBy k)).length c = ((log.filterMap (receivedBy k)).map .ok, T))
    (h2 : Codec.receive (entityCodec env) key endErr T = (.err e, r)) : Drained env key endErr k c (log ++ y) := by
  refine drained_more hy ⟨e, r, ?_⟩
  rw [System.receiveMany_snoc, h1, h2]

/-- The place of the loop does not become `ended` but by leaving. -/
theorem shape_ended {k : Nat} {s s' : State} {y : List Obs} (h : Shape env key endErr k s s' y) (he : (s'.sys.conns k).place = .ended) :
    ((s.sys.conns k).place = .ended ∧ .server (.left k) ∉ y) ∨ (placeOf s.server k = some .looping ∧ y.filterMap (receivedBy k) = [] ∧
      (y = [.act k .closed, .server (.left k)] ∨ y = [.act k .closed, .server (.closing k), .server (.left k)]) ∧
      ∃ e r, Codec.receive (entityCodec env) key endErr (if isClosed s.server k then ⟨(s.sys.conns k).recv.buffer, []⟩ else (s.sys.conns k).recv) = (.err e, r)) := by
  cases h with
  | quiet hq hm hb hr hmid hend => exact .inl ⟨hend.1 he, fun h => hq _ h rfl⟩
  | receive m a b c d e f => rw [f] at he; cases he
  | leave o a b c d e ho hx =>
    refine .inr ⟨a, ?_, ?_, hx⟩
    · rcases ho with rfl | rfl <;> simp [List.filterMap_cons, receivedBy]
    · rcases ho with rfl | rfl
      · exact .inl rfl
      · exact .inr rfl
  | first n a b c d => exact .inl ⟨by rw [← d]; exact he, by simp⟩
  | armFirst a b c d => exact .inl ⟨by rw [← d]; exact he, by simp⟩
  | arm a b c d => exact .inl ⟨by rw [← d]; exact he, by simp⟩
  | dispatch n h m a b c d e f => rw [f] at he; cases he
  | call h m a b c d e => exact .inl ⟨by rw [← e]; exact he, by simp⟩
  | finish h m u b c d e => exact .inl ⟨by rw [← e]; exact he, by simp⟩

/-- Nothing is received when the loop has ended. -/
theorem shape_silent {k : Nat} {s s' : State} {y : List Obs} (hf : Fits k s) (h : Shape env key endErr k s s' y) (he : (s.sys.conns k).place = .ended) :
    y.filterMap (receivedBy k) = [] := by
  have hp := hf.ended.1 he
  cases h with
  | quiet hq => exact (quiet_count hq).2.2.2.2
  | receive m a => rw [a] at hp; cases hp
  | leave o a => rw [a] at hp; cases hp
  | _ => simp [List.filterMap_cons, receivedBy]

/-- After a session is closed, when its loop has ended it has received all that was complete in its buffer. -/
theorem drained_run {p : Int} {k : Nat} {b : Bytes} {s s' : State} {log0 log x : List Obs} {es : List Event} (hg : Good p s log0)
    (hc : .server (.closing k) ∈ log0) (hi : ClosedInv env key endErr k b s log)
    (hd : (s.sys.conns k).place = .ended → Drained env key endErr k ⟨b, []⟩ log) (h : s.run env key endErr auto es = .ok (s', x)) :
    (s'.sys.conns k).place = .ended → Drained env key endErr k ⟨b, []⟩ (log ++ x) := by
  induction es generalizing s log0 log x with
  | nil => cases h; simpa using hd
  | cons e es ih =>
    obtain ⟨t, y, z, h1, h2, rfl⟩ := run_cons_inv h
    rw [← List.append_assoc]
    have hs := good_shape hg h1 k
    refine ih (good_step hg h1) (List.mem_append_left _ hc) (closedInv_shape (hg.fits k) (fun _ => (hg.closed k).2 hc) hi hs) (fun he => ?_) h2
    rcases shape_ended hs he with ⟨g, -⟩ | ⟨g1, g2, -, e, r, g3⟩
    · exact drained_more (shape_silent (hg.fits k) hs g) (hd g)
    · obtain ⟨b', g4, g5⟩ := hi
      have hne : (s.sys.conns k).place ≠ .ended := by
        intro h
        have := (hg.fits k).ended.1 h
        rw [g1] at this
        cases this
      rw [if_pos ((hg.closed k).2 hc), ← g5 hne] at g3
      exact drained_here g2 g4 g3

/-- As long as a session is not closed, it has received what arrived up to here; if its loop closed it, it has received everything. -/
structure OpenInv (env : Env) (key : Option DecKey) (endErr : Err) (k : Nat) (c : RecvState) (s : State) (log : List Obs) : Prop where
  sofar : .server (.closing k) ∉ log → (s.sys.conns k).place ≠ .ended →
    receiveMany (entityCodec env) key endErr (log.filterMap (receivedBy k)).length c = ((log.filterMap (receivedBy k)).map .ok, (s.sys.conns k).recv)
  ended : ∀ l1 l2, log = l1 ++ .server (.closing k) :: .server (.left k) :: l2 → Drained env key endErr k c log

theorem openInv_step {p : Int} {k : Nat} {c : RecvState} {s s' : State} {log y : List Obs} (hg : Good p s log)
    (hi : OpenInv env key endErr k c s log) (h : Shape env key endErr k s s' y) : OpenInv env key endErr k c s' (log ++ y) := by
  have keep (hy : y.filterMap (receivedBy k) = []) (hr : (s'.sys.conns k).recv = (s.sys.conns k).recv)
      (hp : (s'.sys.conns k).place ≠ .ended → (s.sys.conns k).place ≠ .ended) (hl : .server (.left k) ∉ y) :
      OpenInv env key endErr k c s' (log ++ y) := by
    refine ⟨fun hn hne => ?_, fun l1 l2 hx => ?_⟩
    · rw [List.filterMap_append, hy, List.append_nil, hr]
      exact hi.sofar (fun h => hn (List.mem_append_left _ h)) (hp hne)
    · rcases append_split hx with ⟨d, e1, e2⟩ | ⟨d, -, e2⟩
      · cases d with
        | nil => exact absurd (by rw [← List.nil_append y, ← e2]; simp) hl
        | cons a d =>
          simp only [List.cons_append, List.cons.injEq] at e2
          obtain ⟨rfl, -⟩ := e2
          exact drained_more hy (hi.ended _ _ e1)
      · exact absurd (by rw [e2]; simp) hl
  have hf := hg.fits k
  have live (a : placeOf s.server k = some .looping) : (s.sys.conns k).place ≠ .ended ∧ .server (.left k) ∉ log := by
    refine ⟨fun h => ?_, fun h => ?_⟩
    · have := hf.ended.1 h
      rw [a] at this
      cases this
    · have := (hg.logs k).leftEnded h
      rw [a] at this
      cases this
  cases h with
  | quiet hq hm hb hr hmid hend => exact keep (quiet_count hq).2.2.2.2 hr (fun h h' => h (hend.2 h')) fun h => hq _ h rfl
  | receive m a b' c' d e f =>
    refine ⟨fun hn _ => ?_, fun l1 l2 hx => ?_⟩
    · have hn' : .server (.closing k) ∉ log := fun h => hn (List.mem_append_left _ h)
      rw [if_neg fun h => hn' ((hg.closed k).1 h)] at e
      rw [List.filterMap_append]
      simp only [List.filterMap_cons, receivedBy, if_true, List.filterMap_nil, List.length_append, List.length_cons, List.length_nil]
      rw [System.receiveMany_snoc, hi.sofar hn' (live a).1]
      simp [e]
    · have : .server (.left k) ∈ log ++ [.received k m] := by rw [hx]; simp
      exact absurd (by simpa using this) (live a).2
  | leave o a b' c' d e ho hx hcl =>
    refine ⟨fun _ hne => absurd e hne, fun l1 l2 hl => ?_⟩
    rcases ho with rfl | rfl
    · exfalso
      rcases append_split hl with ⟨d, e1, e2⟩ | ⟨d, -, e2⟩
      · cases d with
        | nil => simp at e2
        | cons a' d =>
          simp only [List.cons_append, List.cons.injEq] at e2
          obtain ⟨rfl, -⟩ := e2
          exact (live a).2 (by rw [e1]; simp)
      · cases d with
        | nil => simp at e2
        | cons _ d => cases d <;> simp at e2
    · have hn := hcl.1 rfl
      have hn' : .server (.closing k) ∉ log := fun h => by rw [(hg.closed k).2 h] at hn; cases hn
      obtain ⟨e', r, hx⟩ := hx
      rw [if_neg (by rw [hn]; simp)] at hx
      exact drained_here (by simp [List.filterMap_cons, receivedBy]) (hi.sofar hn' (live a).1) hx
  | first n a b c' d => exact keep (by simp [List.filterMap_cons, receivedBy]) (by rw [d]) (by rw [d]; exact id) (by simp)
  | armFirst a b c' d => exact keep (by simp [List.filterMap_cons, receivedBy]) (by rw [d]) (by rw [d]; exact id) (by simp)
  | arm a b c' d => exact keep (by simp [List.filterMap_cons, receivedBy]) (by rw [d]) (by rw [d]; exact id) (by simp)
  | dispatch n h m a b c' d e f g => exact keep (by simp [List.filterMap_cons, receivedBy]) g (fun _ => by rw [e]; simp) (by simp)
  | call h m a b c' d e => exact keep (by simp [List.filterMap_cons, receivedBy]) (by rw [e]) (by rw [e]; exact id) (by simp)
  | finish h m u b c' d e => exact keep (by simp [List.filterMap_cons, receivedBy]) (by rw [e]) (by rw [e]; exact id) (by simp)

theorem openInv_run {p : Int} {k : Nat} {c : RecvState} {s s' : State} {log x : List Obs} {es : List Event} (hg : Good p s log)
    (hi : OpenInv env key endErr k c s log) (h : s.run env key endErr auto es = .ok (s', x)) : OpenInv env key endErr k c s' (log ++ x) := by
  induction es generalizing s log x with
  | nil => cases h; simpa using hi
  | cons e es ih =>
    obtain ⟨t, y, z, h1, h2, rfl⟩ := run_cons_inv h
    rw [← List.append_assoc]
    exact ih (good_step hg h1) (openInv_step hg hi (good_shape hg h1 k)) h2

/-- A session whose loop has ended is closed. -/
theorem left_closing {p : Int} {k : Nat} {s s' : State} {log x : List Obs} {es : List Event} (hg : Good p s log)
    (hi : .server (.left k) ∈ log → .server (.closing k) ∈ log) (h : s.run env key endErr auto es = .ok (s', x))
    (hl : .server (.left k) ∈ log ++ x) : .server (.closing k) ∈ log ++ x := by
  induction es generalizing s log x with
  | nil => cases h; simpa using hi (by simpa using hl)
  | cons e es ih =>
    obtain ⟨t, y, z, h1, h2, rfl⟩ := run_cons_inv h
    rw [← List.append_assoc] at hl ⊢
    refine ih (good_step hg h1) (fun hm => ?_) h2 hl
    rcases List.mem_append.1 hm with hm | hm
    · exact List.mem_append_left _ (hi hm)
    · have hs := good_shape hg h1 k
      cases hs with
      | quiet hq => exact absurd rfl (hq _ hm)
      | leave o a b c d e ho hx hcl =>
        cases hc : isClosed s.server k with
        | true => exact List.mem_append_left _ ((hg.closed k).1 hc)
        | false => rw [hcl.2 hc]; simp
      | _ => simp at hm

theorem server_closing {s t : Server.State} {e : Server.Event} {o : List Server.Obs} {k : Nat} (h : s.step e = .ok (t, o)) (hk : .closing k ∈ o) :
    e = .move k .close ∨ e = .move k .leave ∨ .timeout k ∈ o := by
  have own {x : Server.Sess} {j : Nat} (h : Server.Obs.closing k ∈ (x.close j).2) : j = k := by
    unfold Server.Sess.close at h
    split at h
    · cases h
    · simp only [List.mem_cons, Server.Obs.closing.injEq, List.not_mem_nil, or_false] at h
      exact h.symm
  cases e with
  | accept => simp only [Server.State.step] at h; cases h; simp at hk
  | tick now =>
    simp only [Server.State.step] at h
    split at h
    · obtain ⟨u, h1, h2⟩ := Res.bind_ok h
      cases h2
      simp at hk
    · cases h; cases hk
  | lookup =>
    simp only [Server.State.step] at h
    split at h <;> cases h <;> cases hk
  | closeFound =>
    simp only [Server.State.step] at h
    split at h
    · rename_i j _
      cases h
      right; right
      simp only [List.mem_cons, reduceCtorEq, false_or] at hk
      unfold Server.State.close at hk
      split at hk
      · cases hk
      · rw [own hk]; simp
    · cases h; cases hk
  | move j m =>
    simp only [Server.State.step] at h
    split at h
    · cases h; cases hk
    rename_i x hx
    split at h
    · cases h; cases hk
    rename_i x' o' hs
    obtain ⟨u, h1, h2⟩ := Res.bind_ok h
    cases h2
    cases m with
    | close =>
      simp only [Server.Sess.step, Option.some.injEq] at hs
      have : .closing k ∈ (x.close j).2 := by rw [hs]; exact hk
      rw [own this]; simp
    | leave =>
      simp only [Server.Sess.step] at hs
      split at hs
      · cases hs
        have : .closing k ∈ (x.close j).2 := by simpa using hk
        rw [own this]; simp
      · cases hs
    | handler u =>
      simp only [Server.Sess.step] at hs
      split at hs
      · split at hs <;> cases hs
        simp at hk
      · cases hs
    | _ =>
      simp only [Server.Sess.step] at hs
      repeat' split at hs
      all_goals first | (cases hs; done) | (cases hs; simp at hk)

/-- A session is closed by a call of `Close`, by the keepalive or by its own loop. -/
theorem closing_by {s s' : State} {e : Event} {y : List Obs} {k : Nat} (h : s.step env key endErr auto e = .ok (s', y))
    (hk : .server (.closing k) ∈ y) : e = .move k .close ∨ .server (.timeout k) ∈ y ∨ y = [.act k .closed, .server (.closing k), .server (.left k)] := by
  have srv {e' : Server.Event} (h : s.onServer e' = .ok (s', y)) : e' = .move k .close ∨ e' = .move k .leave ∨ .server (.timeout k) ∈ y := by
    obtain ⟨t, o, h1, -, rfl⟩ := onServer_inv h
    have hk' : .closing k ∈ o := by simpa using hk
    rcases server_closing h1 hk' with h | h | h
    · exact .inl h
    · exact .inr (.inl h)
    · exact .inr (.inr (by simpa using h))
  have sys {e' : System.Event} (h : s.onSystem env key endErr auto e' = .ok (s', y)) : False := by
    obtain ⟨t, o, -, -, rfl⟩ := onSystem_inv h
    simp at hk
  cases e with
  | accept => rcases srv h with h | h | h <;> first | exact .inr (.inl h) | cases h
  | tick => rcases srv h with h | h | h <;> first | exact .inr (.inl h) | cases h
  | lookup => rcases srv h with h | h | h <;> first | exact .inr (.inl h) | cases h
  | closeFound => rcases srv h with h | h | h <;> first | exact .inr (.inl h) | cases h
  | move j m =>
    cases m with
    | leave => cases h; cases hk
    | restart now =>
      simp only [State.step] at h
      split at h
      · cases h; cases hk
      · rcases srv h with h | h | h
        · cases h
        · cases h
        · exact .inr (.inl h)
    | close =>
      rcases srv h with h | h | h
      · cases h; exact .inl rfl
      · cases h
      · exact .inr (.inl h)
    | _ =>
      rcases srv h with h | h | h
      · cases h
      · cases h
      · exact .inr (.inl h)
  | receive j =>
    simp only [State.step] at h
    split at h
    · rename_i hc
      obtain ⟨t, u, o, ht, h1, h2⟩ := receive_inv h
      rcases h2 with ⟨m, -, -, rfl⟩ | ⟨h3, v, p, h4, -, rfl⟩ | ⟨-, -, -, rfl⟩
      · simp at hk
      · have hk' : .closing k ∈ p := by simpa using hk
        rcases server_closing h4 hk' with h | h | h
        · cases h
        · cases h
          have hp : (t.conns k).place = .waiting := by
            rw [ht]
            split
            · simp [hangUp, System.State.put, hc.2.2]
            · exact hc.2.2
          rcases receive_acts hp h1 with ⟨m, -, g, rfl⟩ | ⟨-, rfl, -⟩
          · rw [g] at h3; cases h3
          · rcases (leave_step h4 ((inLoop_iff _ _).1 hc.1)).2.1 with rfl | rfl
            · simp at hk'
            · exact .inr (.inr rfl)
        · exact .inr (.inl (by simpa using h))
      · simp at hk
    · cases h; cases hk
  | dispatch j now =>
    simp only [State.step] at h
    split at h
    · unfold State.dispatch at h
      obtain ⟨⟨s1, x1⟩, h1, h2⟩ := Res.bind_ok h
      obtain ⟨t, o, -, -, rfl⟩ := onSystem_inv h1
      simp only at h2
      split at h2
      · cases h2; simp at hk
      · obtain ⟨⟨s2, x2⟩, h3, h4⟩ := Res.bind_ok h2
        obtain ⟨t', o', h5, -, rfl⟩ := onServer_inv h3
        cases h4
        have hk' : .closing k ∈ o' := by simpa using hk
        rcases server_closing h5 hk' with h | h | h
        · cases h
        · cases h
        · exact .inr (.inl (by simp [h]))
    · cases h; cases hk
  | call j =>
    simp only [State.step] at h
    repeat' split at h
    all_goals cases h
    all_goals simp at hk
  | finish j u =>
    simp only [State.step] at h
    split at h
    · obtain ⟨_, -, h2⟩ := Res.bind_ok h
      cases h2; simp at hk
    · cases h; cases hk
  | process j o u => exact (sys h).elim
  | check j => exact (sys h).elim
  | merge j o => exact (sys h).elim
  | note j u => exact (sys h).elim
  | addHandler id i => exact (sys h).elim
  | addRequest j r => exact (sys h).elim

theorem server_timeout {s t : Server.State} {e : Server.Event} {o : List Server.Obs} {k : Nat} (h : s.step e = .ok (t, o)) (hk : .timeout k ∈ o) :
    e = .closeFound := by
  have no {x : Server.Sess} {j : Nat} (h : Server.Obs.timeout k ∈ (x.close j).2) : False := by
    unfold Server.Sess.close at h
    split at h
    · cases h
    · simp only [List.mem_cons, reduceCtorEq, List.not_mem_nil, or_false] at h
  cases e with
  | closeFound => rfl
  | accept => simp only [Server.State.step] at h; cases h; simp at hk
  | tick now =>
    simp only [Server.State.step] at h
    split at h
    · obtain ⟨u, h1, h2⟩ := Res.bind_ok h
      cases h2
      simp at hk
    · cases h; cases hk
  | lookup =>
    simp only [Server.State.step] at h
    split at h <;> cases h <;> cases hk
  | move j m =>
    simp only [Server.State.step] at h
    split at h
    · cases h; cases hk
    rename_i x hx
    split at h
    · cases h; cases hk
    rename_i x' o' hs
    obtain ⟨u, h1, h2⟩ := Res.bind_ok h
    cases h2
    exfalso
    cases m with
    | close =>
      simp only [Server.Sess.step, Option.some.injEq] at hs
      exact no (x := x) (j := j) (by rw [hs]; exact hk)
    | leave =>
      simp only [Server.Sess.step] at hs
      split at hs
      · cases hs
        exact no (x := x) (j := j) (by simpa using hk)
      · cases hs
    | handler u =>
      simp only [Server.Sess.step] at hs
      split at hs
      · split at hs <;> cases hs
        simp at hk
      · cases hs
    | _ =>
      simp only [Server.Sess.step] at hs
      repeat' split at hs
      all_goals first | (cases hs; done) | (cases hs; simp at hk)

/-- A session expires only when the keepalive closes it. -/
theorem timeout_by {s s' : State} {e : Event} {y : List Obs} {k : Nat} (h : s.step env key endErr auto e = .ok (s', y))
    (hk : .server (.timeout k) ∈ y) : e = .closeFound := by
  have srv {e' : Server.Event} (h : s.onServer e' = .ok (s', y)) : e' = .closeFound := by
    obtain ⟨t, o, h1, -, rfl⟩ := onServer_inv h
    exact server_timeout h1 (by simpa using hk)
  have sys {e' : System.Event} (h : s.onSystem env key endErr auto e' = .ok (s', y)) : False := by
    obtain ⟨t, o, -, -, rfl⟩ := onSystem_inv h
    simp at hk
  cases e with
  | closeFound => rfl
  | accept => cases srv h
  | tick => cases srv h
  | lookup => cases srv h
  | move j m =>
    cases m with
    | leave => cases h; cases hk
    | restart now =>
      simp only [State.step] at h
      split at h
      · cases h; cases hk
      · cases srv h
    | _ => cases srv h
  | receive j =>
    simp only [State.step] at h
    split at h
    · obtain ⟨t, u, o, ht, h1, h2⟩ := receive_inv h
      rcases h2 with ⟨m, -, -, rfl⟩ | ⟨h3, v, p, h4, -, rfl⟩ | ⟨-, -, -, rfl⟩
      · simp at hk
      · cases server_timeout h4 (k := k) (by simpa using hk)
      · simp at hk
    · cases h; cases hk
  | dispatch j now =>
    simp only [State.step] at h
    split at h
    · unfold State.dispatch at h
      obtain ⟨⟨s1, x1⟩, h1, h2⟩ := Res.bind_ok h
      obtain ⟨t, o, -, -, rfl⟩ := onSystem_inv h1
      simp only at h2
      split at h2
      · cases h2; simp at hk
      · obtain ⟨⟨s2, x2⟩, h3, h4⟩ := Res.bind_ok h2
        obtain ⟨t', o', h5, -, rfl⟩ := onServer_inv h3
        cases h4
        cases server_timeout h5 (k := k) (by simpa using hk)
    · cases h; cases hk
  | call j =>
    simp only [State.step] at h
    repeat' split at h
    all_goals cases h
    all_goals simp at hk
  | finish j u =>
    simp only [State.step] at h
    split at h
    · obtain ⟨_, -, h2⟩ := Res.bind_ok h
      cases h2; simp at hk
    · cases h; cases hk
  | process j o u => exact (sys h).elim
  | check j => exact (sys h).elim
  | merge j o => exact (sys h).elim
  | note j u => exact (sys h).elim
  | addHandler id i => exact (sys h).elim
  | addRequest j r => exact (sys h).elim

theorem receiveMany_prefix {C : BodyCodec Entity} {n m : Nat} (c : RecvState) (hm : n ≤ m) :
    (receiveMany C key endErr n c).1 <+: (receiveMany C key endErr m c).1 := by
  induction hm with
  | refl => exact List.prefix_refl _
  | @step m hm ih =>
    rw [System.receiveMany_snoc]
    exact ih.trans (List.prefix_append ..)

theorem allFrom_prefix {xs ys : List (Message Entity)} {e : Err} (h : xs.map Res.ok ++ [.err e] <+: ys.map Res.ok ++ [Res.err e']) : xs = ys := by
  induction xs generalizing ys with
  | nil =>
    cases ys with
    | nil => rfl
    | cons y ys => obtain ⟨_, h⟩ := h; simp at h
  | cons x xs ih =>
    cases ys with
    | nil => obtain ⟨_, h⟩ := h; simp at h
    | cons y ys =>
      simp only [List.map_cons, List.cons_append, List.cons_prefix_cons, Res.ok.injEq] at h
      rw [h.1, ih h.2]

/-- There is only one such list. -/
theorem allFrom_unique {c : RecvState} {xs ys : List (Message Entity)} (h1 : AllFrom env key endErr c xs) (h2 : AllFrom env key endErr c ys) : xs = ys := by
  obtain ⟨e, T, h1⟩ := h1
  obtain ⟨e', T', h2⟩ := h2
  rcases Nat.le_total xs.length ys.length with h | h
  · have := receiveMany_prefix (C := entityCodec env) (key := key) (endErr := endErr) c (Nat.add_le_add_right h 1)
    rw [h1, h2] at this
    exact allFrom_prefix this
  · have := receiveMany_prefix (C := entityCodec env) (key := key) (endErr := endErr) c (Nat.add_le_add_right h 1)
    rw [h1, h2] at this
    exact (allFrom_prefix this).symm

end
end Verif.World
