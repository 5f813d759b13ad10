import Verif.Lemmas.WorldAll
/-! # The whole server: every message that is received is passed to `dispatchMessage` -/

namespace Verif.World
open Handler Session Spec

/-- The message the loop is at. -/
def pending (auto : Bool) : System.Place → List (Message Entity)
  | .received m | .noted m => [m].filter (ordinary auto)
  | _ => []

/-- Only parts of uploads are stored and merged. -/
def PartAt (auto : Bool) : System.Place → Prop
  | .stored m _ _ | .full m _ _ | .merged m => isPart auto m = true
  | _ => True

section
variable {env : Env} {key : Option DecKey} {endErr : Err} {auto : Bool}

theorem message_acts {l l' : Loop} {a : Around} {m : Message Entity} {x : List Act} (h : l.message a m = .ok (l', x)) : offered x = [] := by
  unfold Loop.message at h
  obtain ⟨serial, -, h⟩ := Res.bind_ok h
  split at h
  · cases h; rfl
  · split at h
    · cases h; rfl
    · obtain ⟨-, -, h⟩ := Res.bind_ok h
      cases h; rfl

theorem actsOf_acts (k : Nat) (xs : List Act) : actsOf k (System.State.acts k xs) = xs := by
  induction xs with
  | nil => rfl
  | cons a xs ih => simpa [System.State.acts, actsOf] using ih

theorem actsOf_append (k : Nat) (x y : List (Nat × Act)) : actsOf k (x ++ y) = actsOf k x ++ actsOf k y := by
  simp [actsOf]

theorem actsOf_other {k j : Nat} (hj : j ≠ k) {x : List (Nat × Act)} (h : ∀ a ∈ x, a.1 = j) : actsOf k x = [] := by
  unfold actsOf
  rw [List.map_eq_nil_iff, List.filter_eq_nil_iff]
  intro a ha
  rw [h a ha]
  simpa using hj

/-- A step of the loops other than receiving for connection `k`. -/
theorem offer_step {s s' : System.State} {e : System.Event} {x : List (Nat × Act)} {k : Nat} (hp : PartAt auto (s.conns k).place) (he : e ≠ .receive k)
    (h : s.step env key endErr auto e = .ok (s', x)) :
    PartAt auto (s'.conns k).place ∧ (offered (actsOf k x)).filter (ordinary auto) ++ pending auto (s'.conns k).place = pending auto (s.conns k).place := by
  by_cases hk : System.at? e = some k
  · have msg {u : UserCode} {m : Message Entity} (h : s.message k u m = .ok (s', x)) :
        (s'.conns k).place = .noted m ∧ offered (actsOf k x) = [] := by
      unfold System.State.message at h
      obtain ⟨⟨l, z⟩, h1, h2⟩ := Res.bind_ok h
      cases h2
      exact ⟨by simp [System.State.put], by rw [actsOf_acts]; exact message_acts h1⟩
    have stay : PartAt auto (s.conns k).place ∧ (offered (actsOf k [])).filter (ordinary auto) ++ pending auto (s.conns k).place = pending auto (s.conns k).place :=
      ⟨hp, rfl⟩
    cases e with
    | receive j => simp only [System.at?, Option.some.injEq] at hk; rw [hk] at he; exact absurd rfl he
    | addHandler id i => cases hk
    | addRequest j r => cases hk
    | process j o u =>
      simp only [System.at?, Option.some.injEq] at hk
      subst hk
      simp only [System.State.step] at h
      split at h
      · rename_i m hm
        rw [hm]
        split at h
        · rename_i e hb
          split at h
          · obtain ⟨g1, g2⟩ := msg h
            rw [g1, g2]
            exact ⟨trivial, rfl⟩
          · rename_i hpk
            split at h
            · rename_i b
              have hpart : isPart auto m = true := by
                unfold isPart
                rw [hb, ← Property.isEnablePacket_spec]
                simpa using hpk
              split at h
              · simp only [Res.ok.injEq] at h
                have hpend : pending auto (.received m) = [] := by simp [pending, ordinary, hpart]
                rw [hpend]
                unfold System.State.store at h
                simp only at h
                split at h
                · cases h
                  refine ⟨?_, ?_⟩
                  · simp [System.State.goto, System.State.put, PartAt, hpart]
                  · rw [actsOf_acts]
                    simp [offered, System.State.goto, System.State.put, pending]
                · cases h
                  refine ⟨?_, ?_⟩
                  · simp [System.State.goto, System.State.put, PartAt]
                  · rw [actsOf_acts]
                    simp [offered, System.State.goto, System.State.put, pending]
              · cases h
            · obtain ⟨g1, g2⟩ := msg h
              rw [g1, g2]
              exact ⟨trivial, rfl⟩
        · rename_i hb
          cases h
          have hpend : pending auto (.received m) = [] := by
            have : hasBody m = false := by
              unfold hasBody
              cases hb' : m.body with
              | val e => exact absurd hb' (hb e)
              | _ => rfl
            simp [pending, ordinary, this]
          rw [hpend]
          refine ⟨by simp [System.State.goto, System.State.put, PartAt], ?_⟩
          simp [actsOf, offered, System.State.goto, System.State.put, pending]
      · cases h; exact stay
    | check j =>
      simp only [System.at?, Option.some.injEq] at hk
      subst hk
      simp only [System.State.step] at h
      split at h
      · rename_i m b p hm
        rw [hm] at hp ⊢
        split at h
        · cases h
          simp [System.State.goto, System.State.put, PartAt, pending, actsOf, offered]
        · obtain ⟨full, h1, h2⟩ := Res.bind_ok h
          split at h2
          · cases h2
            simp only [System.State.goto, System.State.put, if_true, PartAt] at hp ⊢
            exact ⟨hp, rfl⟩
          · cases h2
            simp [System.State.goto, System.State.put, PartAt, pending, actsOf, offered]
      · cases h; exact stay
    | merge j o =>
      simp only [System.at?, Option.some.injEq] at hk
      subst hk
      simp only [System.State.step] at h
      split at h
      · rename_i m b p hm
        rw [hm] at hp ⊢
        obtain ⟨r, h1, h2⟩ := Res.bind_ok h
        split at h2
        · cases h2
          simp [System.State.goto, System.State.put, PartAt, pending, actsOf, offered]
        · cases h2
          refine ⟨?_, by simp [System.State.goto, System.State.put, pending, actsOf, offered]⟩
          simp only [System.State.goto, System.State.put, if_true, PartAt] at hp ⊢
          unfold isPart at hp ⊢
          simp only [Bool.and_eq_true] at hp ⊢
          exact ⟨hp.1, trivial⟩
      · cases h; exact stay
    | note j u =>
      simp only [System.at?, Option.some.injEq] at hk
      subst hk
      simp only [System.State.step] at h
      split at h
      · rename_i m hm
        rw [hm] at hp ⊢
        obtain ⟨g1, g2⟩ := msg h
        rw [g1, g2]
        simp only [PartAt] at hp
        exact ⟨trivial, by simp [pending, ordinary, hp]⟩
      · cases h; exact stay
    | dispatch j u =>
      simp only [System.at?, Option.some.injEq] at hk
      subst hk
      simp only [System.State.step] at h
      split at h
      · rename_i m hm
        rw [hm]
        obtain ⟨⟨l, z⟩, h1, h2⟩ := Res.bind_ok h
        cases h2
        obtain ⟨z', h3, -, h4, -⟩ := dispatch_spec (s.view j) { handler := u } m
        rw [h3] at h1
        cases h1
        rw [actsOf_acts, h4]
        simp [System.State.goto, System.State.put, PartAt, pending]
      · cases h; exact stay
  · obtain ⟨xs, h1, -, h3, -⟩ := System.elsewhere hk h
    rw [h1]
    refine ⟨hp, ?_⟩
    rw [← System.offered_seen, h3, outsides_offered]
    rfl

/-- What was passed on and what the loop is at is what was received. -/
structure OfferInv (auto : Bool) (k : Nat) (s : State) (log : List Obs) : Prop where
  parts : PartAt auto (s.sys.conns k).place
  all : (offered (actsOf k (log.filterMap loopView))).filter (ordinary auto) ++ pending auto (s.sys.conns k).place =
    (log.filterMap (receivedBy k)).filter (ordinary auto)

theorem offerInv_step {s s' : State} {e : Event} {y log : List Obs} {k : Nat} (hi : OfferInv auto k s log) (h : s.step env key endErr auto e = .ok (s', y)) :
    OfferInv auto k s' (log ++ y) := by
  have none_received {x : List (Nat × Act)} {o : List Server.Obs} :
      ((x.map fun a => Obs.act a.1 a.2) ++ o.map Obs.server : List Obs).filterMap (receivedBy k) = [] := by
    rw [List.filterMap_eq_nil_iff]
    intro a ha
    rcases List.mem_append.1 ha with ha | ha <;> obtain ⟨b, -, rfl⟩ := List.mem_map.1 ha <;> rfl
  have quiet (hs : s'.sys = s.sys) (h1 : y.filterMap loopView = []) (h2 : y.filterMap (receivedBy k) = []) : OfferInv auto k s' (log ++ y) := by
    refine ⟨by rw [hs]; exact hi.parts, ?_⟩
    rw [List.filterMap_append, List.filterMap_append, h1, h2, List.append_nil, List.append_nil, hs]
    exact hi.all
  have moved {t u : System.State} {e : System.Event} {x : List (Nat × Act)} (ht : (t.conns k).place = (s.sys.conns k).place) (hne : e ≠ .receive k)
      (h1 : t.step env key endErr auto e = .ok (u, x)) (hs : s'.sys = u) (h2 : y.filterMap loopView = x) (h3 : y.filterMap (receivedBy k) = []) :
      OfferInv auto k s' (log ++ y) := by
    obtain ⟨g1, g2⟩ := offer_step (by rw [ht]; exact hi.parts) hne h1
    refine ⟨by rw [hs]; exact g1, ?_⟩
    rw [List.filterMap_append, List.filterMap_append, h2, h3, List.append_nil, hs, actsOf_append, offered_append, List.filter_append, List.append_assoc, g2, ht]
    exact hi.all
  have srv {e : Server.Event} (h : s.onServer e = .ok (s', y)) : OfferInv auto k s' (log ++ y) := by
    obtain ⟨t, o, -, rfl, rfl⟩ := onServer_inv h
    exact quiet rfl (loopView_server _) (by simpa using none_received (x := []) (o := o))
  have sys {e : System.Event} (hne : e ≠ .receive k) (h : s.onSystem env key endErr auto e = .ok (s', y)) : OfferInv auto k s' (log ++ y) := by
    obtain ⟨t, o, h1, rfl, rfl⟩ := onSystem_inv h
    exact moved rfl hne h1 rfl (loopView_acts _) (by simpa using none_received (x := o) (o := []))
  unfold State.step at h
  split at h
  · exact srv h
  · cases h; exact quiet rfl rfl rfl
  · split at h
    · cases h; exact quiet rfl rfl rfl
    · exact srv h
  · exact srv h
  · exact srv h
  · exact srv h
  · exact srv h
  · rename_i j
    split at h
    · rename_i hc
      obtain ⟨t, u, o, ht, h1, h2⟩ := receive_inv h
      have hp : ∀ i, (t.conns i).place = (s.sys.conns i).place := by
        intro i
        rw [ht]
        split
        · by_cases hij : i = j
          · subst hij; simp [hangUp, System.State.put]
          · simp [hangUp, System.State.put, hij]
        · rfl
      by_cases hj : j = k
      · subst hj
        have hw : pending auto (s.sys.conns j).place = [] := by rw [hc.2.2]; rfl
        have hall := hi.all
        rw [hw, List.append_nil] at hall
        rcases receive_acts ((hp j).trans hc.2.2) h1 with ⟨m, -, g1, rfl⟩ | ⟨g1, rfl, -⟩
        · rcases h2 with ⟨m', g2, rfl, rfl⟩ | ⟨g2, -⟩ | ⟨g2, -⟩
          · rw [g1] at g2
            cases g2
            refine ⟨by simp only [g1]; trivial, ?_⟩
            simp only [g1, List.filterMap_append]
            have e1 : [Obs.received j m].filterMap loopView = [] := rfl
            simp [e1, receivedBy, pending, hall]
          · rw [g1] at g2; cases g2
          · exact absurd g1 (g2 m)
        · rcases h2 with ⟨m', g2, -⟩ | ⟨-, v, p, g2, rfl, rfl⟩ | ⟨-, g2, -⟩
          · rw [g1] at g2; cases g2
          · refine ⟨by simp only [g1]; trivial, ?_⟩
            rw [List.filterMap_append, List.filterMap_append (f := receivedBy j), none_received, List.append_nil, List.filterMap_append, loopView_acts,
              loopView_server, List.append_nil, actsOf_append, offered_append, List.filter_append, hall, g1]
            simp [actsOf, offered, pending]
          · exact absurd g1 g2
      · have hne : System.Event.receive j ≠ .receive k := by simpa using hj
        rcases h2 with ⟨m, -, rfl, rfl⟩ | ⟨-, v, p, -, rfl, rfl⟩ | ⟨-, -, rfl, rfl⟩
        · refine moved (hp k) hne h1 rfl (by rw [List.filterMap_append, loopView_acts]; simp [loopView]) ?_
          rw [List.filterMap_append]
          simp [receivedBy, hj]
        · exact moved (hp k) hne h1 rfl (by rw [List.filterMap_append, loopView_acts, loopView_server, List.append_nil]) none_received
        · exact moved (hp k) hne h1 rfl (loopView_acts _) (by simpa using none_received (x := o) (o := []))
    · cases h; exact quiet rfl rfl rfl
  · exact sys (by simp) h
  · exact sys (by simp) h
  · exact sys (by simp) h
  · exact sys (by simp) h
  · split at h
    · obtain ⟨u, o, h1, h2⟩ := dispatch_inv h
      rcases h2 with ⟨-, rfl, rfl⟩ | ⟨hd, v, p, -, -, rfl, rfl⟩
      · exact moved rfl (by simp) h1 rfl (loopView_acts _) (by simpa using none_received (x := o) (o := []))
      · refine moved rfl (by simp) h1 rfl (by rw [List.filterMap_append, loopView_acts, loopView_server, List.nil_append]) ?_
        rw [List.filterMap_append]
        have e1 := none_received (x := o) (o := [])
        have e2 := none_received (x := []) (o := p)
        simp only [List.map_nil, List.append_nil, List.nil_append] at e1 e2
        rw [e1, e2]
        rfl
    · cases h; exact quiet rfl rfl rfl
  · split at h
    · split at h
      · cases h; exact quiet rfl rfl rfl
      · cases h; exact quiet rfl rfl rfl
    · cases h; exact quiet rfl rfl rfl
  · split at h
    · obtain ⟨-, -, h⟩ := Res.bind_ok h
      cases h
      exact quiet rfl rfl rfl
    · cases h; exact quiet rfl rfl rfl
  · exact sys (by simp) h
  · exact sys (by simp) h

theorem passedBy_eq (k : Nat) (log : List Obs) : offered (actsOf k (log.filterMap loopView)) = log.filterMap (passedBy k) := by
  induction log with
  | nil => rfl
  | cons o log ih =>
    rw [List.filterMap_cons, List.filterMap_cons]
    cases o with
    | act j a =>
      simp only [loopView]
      rw [show (j, a) :: log.filterMap loopView = [(j, a)] ++ log.filterMap loopView from rfl, actsOf_append, offered_append, ih]
      by_cases hj : j = k
      · subst hj
        cases a <;> simp [actsOf, offered, passedBy]
      · cases a <;> simp [actsOf, offered, passedBy, hj]
    | _ => simpa [loopView, passedBy] using ih

/-- What a step does to the handlers, and which one it finds. -/
theorem hand_step {s s' : System.State} {e : System.Event} {x : List (Nat × Act)} (h : s.step env key endErr auto e = .ok (s', x)) :
    (∃ id i, x = [(0, .registered id i)] ∧ s'.handlers = fun j => if j = id then some i else s.handlers j) ∨
    (s'.handlers = s.handlers ∧ ∀ a ∈ x, (∀ id i, a.2 ≠ .registered id i) ∧ (∀ i m, a.2 = .handle i m → s.handlers m.header.msgID = some i) ∧
      ∀ m, a.2 = .unhandled m → s.handlers m.header.msgID = none) := by
  have msg {k : Nat} {u : UserCode} {m : Message Entity} (h : s.message k u m = .ok (s', x)) :
      s'.handlers = s.handlers ∧ ∀ a ∈ x, (∀ id i, a.2 ≠ .registered id i) ∧ (∀ i m, a.2 = .handle i m → s.handlers m.header.msgID = some i) ∧
      ∀ m, a.2 = .unhandled m → s.handlers m.header.msgID = none := by
    unfold System.State.message at h
    obtain ⟨⟨l, z⟩, h1, h2⟩ := Res.bind_ok h
    cases h2
    refine ⟨rfl, ?_⟩
    unfold Loop.message at h1
    obtain ⟨serial, -, h1⟩ := Res.bind_ok h1
    split at h1
    · cases h1; simp [System.State.acts]
    · split at h1
      · cases h1; simp [System.State.acts]
      · obtain ⟨-, -, h1⟩ := Res.bind_ok h1
        cases h1; simp [System.State.acts]
  cases e with
  | receive k =>
    right
    simp only [System.State.step] at h
    split at h
    · split at h <;> cases h <;> simp [System.State.put]
    · cases h; simp
  | addHandler id i =>
    cases i with
    | none => cases h; right; simp
    | some i => cases h; left; exact ⟨_, _, rfl, rfl⟩
  | addRequest k r => cases h; right; simp [System.State.put]
  | process k o u =>
    right
    simp only [System.State.step] at h
    split at h
    · split at h
      · split at h
        · exact msg h
        · split at h
          · split at h
            · simp only [Res.ok.injEq] at h
              unfold System.State.store at h
              simp only at h
              split at h <;> cases h <;> simp [System.State.goto, System.State.put, System.State.acts]
            · cases h
          · exact msg h
      · cases h; simp [System.State.goto, System.State.put]
    · cases h; simp
  | check k =>
    right
    simp only [System.State.step] at h
    split at h
    · split at h
      · cases h; simp [System.State.goto, System.State.put]
      · obtain ⟨full, h1, h2⟩ := Res.bind_ok h
        split at h2 <;> cases h2 <;> simp [System.State.goto, System.State.put]
    · cases h; simp
  | merge k o =>
    right
    simp only [System.State.step] at h
    split at h
    · obtain ⟨r, h1, h2⟩ := Res.bind_ok h
      split at h2 <;> cases h2 <;> simp [System.State.goto, System.State.put]
    · cases h; simp
  | note k u =>
    right
    simp only [System.State.step] at h
    split at h
    · exact msg h
    · cases h; simp
  | dispatch k u =>
    right
    have hh : s'.handlers = s.handlers := by
      simp only [System.State.step] at h
      split at h
      · obtain ⟨⟨l, z⟩, h1, h2⟩ := Res.bind_ok h
        cases h2
        rfl
      · cases h; rfl
    refine ⟨hh, ?_⟩
    by_cases hm : ∃ m, (s.conns k).place = .noted m
    · obtain ⟨m, hm⟩ := hm
      simp only [System.State.step, hm] at h
      obtain ⟨⟨l, z⟩, h1, h2⟩ := Res.bind_ok h
      cases h2
      unfold Loop.dispatch at h1
      rw [show (s.view k).handlers = s.handlers from rfl] at h1
      split at h1
      · rename_i hn
        cases h1
        simp [System.State.acts, hn]
      · rename_i hd hn
        obtain ⟨-, -, h2⟩ := Res.bind_ok h1
        cases h2
        simp [System.State.acts, hn]
    · simp only [System.State.step] at h
      split at h
      · rename_i m hm'
        exact absurd ⟨m, hm'⟩ hm
      · cases h; simp

/-- The handlers are those registered last, and those are found. -/
structure HandInv (s : State) (log : List Obs) : Prop where
  now : ∀ id, s.sys.handlers id = lastRegistered id ((log.filterMap loopView).map (·.2))
  found : ∀ l1 k i m l2, log = l1 ++ .act k (.handle i m) :: l2 → lastRegistered m.header.msgID ((l1.filterMap loopView).map (·.2)) = some i
  missed : ∀ l1 k m l2, log = l1 ++ .act k (.unhandled m) :: l2 → lastRegistered m.header.msgID ((l1.filterMap loopView).map (·.2)) = none

theorem lastRegistered_skip (id : UInt16) (l x : List Act) (hx : ∀ a ∈ x, ∀ id i, a ≠ .registered id i) : lastRegistered id (l ++ x) = lastRegistered id l := by
  unfold lastRegistered
  rw [List.foldl_append]
  generalize List.foldl _ none l = h
  induction x generalizing h with
  | nil => rfl
  | cons a x ih =>
    rw [List.foldl_cons]
    have ha := hx a (List.mem_cons_self ..)
    cases a with
    | registered id' i => exact absurd rfl (ha id' i)
    | _ => exact ih (fun b hb => hx b (List.mem_cons_of_mem _ hb)) h

theorem handInv_step {s s' : State} {e : Event} {y log : List Obs} (hi : HandInv s log) (h : s.step env key endErr auto e = .ok (s', y)) :
    HandInv s' (log ++ y) := by
  have quiet (hh : s'.sys.handlers = s.sys.handlers) (hx : ∀ a ∈ y.filterMap loopView, (∀ id i, a.2 ≠ .registered id i) ∧
      (∀ i m, a.2 = .handle i m → s.sys.handlers m.header.msgID = some i) ∧ ∀ m, a.2 = .unhandled m → s.sys.handlers m.header.msgID = none) :
      HandInv s' (log ++ y) := by
    have skip (id : UInt16) (c : List Obs) (hc : ∀ a ∈ c.filterMap loopView, a ∈ y.filterMap loopView) :
        lastRegistered id (((log ++ c).filterMap loopView).map (·.2)) = s.sys.handlers id := by
      rw [List.filterMap_append, List.map_append, lastRegistered_skip, hi.now]
      intro a ha id i
      obtain ⟨b, hb, rfl⟩ := List.mem_map.1 ha
      exact (hx b (hc b hb)).1 id i
    refine ⟨fun id => by rw [hh, skip id y fun _ h => h], fun l1 k i m l2 hl => ?_, fun l1 k m l2 hl => ?_⟩
    · rcases append_split hl with ⟨c, rfl, -⟩ | ⟨c, rfl, rfl⟩
      · exact hi.found _ _ _ _ _ rfl
      · rw [skip _ c fun a ha => by rw [List.filterMap_append]; exact List.mem_append_left _ ha]
        exact (hx (k, .handle i m) (by simp [loopView])).2.1 i m rfl
    · rcases append_split hl with ⟨c, rfl, -⟩ | ⟨c, rfl, rfl⟩
      · exact hi.missed _ _ _ _ rfl
      · rw [skip _ c fun a ha => by rw [List.filterMap_append]; exact List.mem_append_left _ ha]
        exact (hx (k, .unhandled m) (by simp [loopView])).2.2 m rfl
  rcases (step_parts h).2 with ⟨h1, h2⟩ | ⟨t, e', ht, hl⟩
  · exact quiet (by rw [h1]) (by rw [h2]; simp)
  have ht : t.handlers = s.sys.handlers := by
    rcases ht with rfl | ⟨j, rfl⟩ <;> rfl
  rcases hand_step hl with ⟨id, i, hx, hh⟩ | ⟨hh, hx⟩
  · have only {k : Nat} {a : Act} (hm : Obs.act k a ∈ y) : a = .registered id i := by
      have : (k, a) ∈ y.filterMap loopView := List.mem_filterMap.2 ⟨_, hm, rfl⟩
      rw [hx] at this
      simp only [List.mem_singleton, Prod.mk.injEq] at this
      exact this.2
    refine ⟨fun j => ?_, fun l1 k i m l2 hl => ?_, fun l1 k m l2 hl => ?_⟩
    · rw [hh, ht]
      simp only
      rw [hi.now, List.filterMap_append, hx]
      simp only [lastRegistered, List.map_append, List.foldl_append, List.map_cons, List.map_nil, List.foldl_cons, List.foldl_nil, eq_comm]
    · rcases append_split hl with ⟨c, rfl, -⟩ | ⟨c, rfl, rfl⟩
      · exact hi.found _ _ _ _ _ rfl
      · cases only (k := k) (a := .handle i m) (by simp)
    · rcases append_split hl with ⟨c, rfl, -⟩ | ⟨c, rfl, rfl⟩
      · exact hi.missed _ _ _ _ rfl
      · cases only (k := k) (a := .unhandled m) (by simp)
  · rw [ht] at hh hx
    exact quiet hh hx

theorem handInv_run {s s' : State} {es : List Event} {x log : List Obs} (hi : HandInv s log) (h : s.run env key endErr auto es = .ok (s', x)) :
    HandInv s' (log ++ x) := by
  induction es generalizing s log x with
  | nil => cases h; simpa using hi
  | cons e es ih =>
    obtain ⟨t, y, z, h1, h2, rfl⟩ := run_cons_inv h
    rw [← List.append_assoc]
    exact ih (handInv_step hi h1) h2

theorem offerInv_run {s s' : State} {es : List Event} {x log : List Obs} {k : Nat} (hi : OfferInv auto k s log) (h : s.run env key endErr auto es = .ok (s', x)) :
    OfferInv auto k s' (log ++ x) := by
  induction es generalizing s log x with
  | nil => cases h; simpa using hi
  | cons e es ih =>
    obtain ⟨t, y, z, h1, h2, rfl⟩ := run_cons_inv h
    rw [← List.append_assoc]
    exact ih (offerInv_step hi h1) h2

end
end Verif.World
