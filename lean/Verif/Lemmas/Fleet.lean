import Verif.Spec.Fleet
import Verif.Lemmas.Outbox
/-! Lemmas for several connections: what one of them sees of the others. -/

namespace Verif.Fleet
open Spec (seenOn CalmFleet Waiting Calm acceptedItems)

variable {E : Type}

/-- What connection `k` sees of a step. -/
def seenBy (k : Nat) (s : State E) : Event E → List (Outbox.Event E)
  | .write r e => [.write r e]
  | .on _ (.write _ _) => []
  | .on _ (.encodeElsewhere _) => []
  | .on j ev =>
    if j = k then [ev]
    else match ev with
      | .take _ =>
        match (s.conns j).loop, (s.conns j).queue with
        | .running, x :: _ => match x.arg with | .obj r => [.encodeElsewhere r] | .nilPtr _ => []
        | _, _ => []
      | _ => []

/-- What it sees of a schedule; after a crash nothing happens. -/
def allSeenBy (C : BodyCodec E) (keys : Nat → Option EncKey) (k : Nat) (s : State E) : List (Event E) → List (Outbox.Event E)
  | [] => []
  | ev :: evs => if s.crashed then [] else seenBy k s ev ++ allSeenBy C keys k (s.step C keys ev).1 evs

theorem seenOn_append (k : Nat) (a b : List (Nat × Outbox.Obs E)) : seenOn k (a ++ b) = seenOn k a ++ seenOn k b := by
  simp [seenOn, List.filterMap_append]

theorem seenOn_self (k : Nat) (l : List (Outbox.Obs E)) : seenOn k (l.map fun o => (k, o)) = l := by
  induction l with
  | nil => rfl
  | cons x l ih => simp only [List.map_cons, seenOn, List.filterMap_cons, if_true]; exact congrArg _ ih

theorem seenOn_other {j k : Nat} (h : j ≠ k) (l : List (Outbox.Obs E)) : seenOn k (l.map fun o => (j, o)) = [] := by
  simp [seenOn, h]

theorem stepOn_self (C : BodyCodec E) (keys : Nat → Option EncKey) (s : State E) (k : Nat) (ev : Outbox.Event E) :
    (s.stepOn C keys k ev).1.conn k = ((s.conn k).step C (keys k) ev).1 := by
  unfold State.stepOn
  generalize (s.conn k).step C (keys k) ev = t
  simp [State.conn, Outbox.update]

theorem stepOn_other (C : BodyCodec E) (keys : Nat → Option EncKey) (s : State E) {j k : Nat} (h : k ≠ j) (ev : Outbox.Event E) :
    (s.stepOn C keys j ev).1.conn k =
      { s.conn k with heap := ((s.conn j).step C (keys j) ev).1.heap, crashed := ((s.conn j).step C (keys j) ev).1.crashed } := by
  unfold State.stepOn
  generalize (s.conn j).step C (keys j) ev = t
  simp [State.conn, Outbox.update, h]

theorem stepOn_obs (C : BodyCodec E) (keys : Nat → Option EncKey) (s : State E) (k : Nat) (ev : Outbox.Event E) :
    (s.stepOn C keys k ev).2 = ((s.conn k).step C (keys k) ev).2.map fun o => (k, o) := rfl

theorem crashed_step (C : BodyCodec E) (keys : Nat → Option EncKey) {s : State E} (h : s.crashed = true) (ev : Event E) :
    (∀ k, (s.step C keys ev).1.conn k = s.conn k) ∧ (s.step C keys ev).2 = [] ∧ (s.step C keys ev).1.crashed = true := by
  have hon : ∀ j e, (∀ k, (s.stepOn C keys j e).1.conn k = s.conn k) ∧ (s.stepOn C keys j e).2 = [] ∧ (s.stepOn C keys j e).1.crashed = true := by
    intro j e
    have hst : (s.conn j).step C (keys j) e = (s.conn j, []) := by unfold Outbox.State.step; rw [if_pos (by simpa [State.conn] using h)]
    have hc : (s.stepOn C keys j e).1.conn j = s.conn j := by rw [stepOn_self, hst]
    refine ⟨fun k => ?_, by rw [stepOn_obs, hst]; rfl, ?_⟩
    · by_cases hk : k = j
      · subst hk; exact hc
      · rw [stepOn_other C keys s hk, hst]; rfl
    · have := congrArg Outbox.State.crashed hc
      exact this.trans h
  cases ev with
  | write r e => simp [State.step, h]
  | on j e =>
    cases e with
    | write _ _ => simp [State.step, h]
    | encodeElsewhere _ => simp [State.step, h]
    | _ => exact hon j _

theorem crashed_run (C : BodyCodec E) (keys : Nat → Option EncKey) (evs : List (Event E)) : ∀ {s : State E}, s.crashed = true →
    (∀ k, (s.run C keys evs).1.conn k = s.conn k) ∧ (s.run C keys evs).2 = [] := by
  induction evs with
  | nil => intro s _; exact ⟨fun _ => rfl, rfl⟩
  | cons ev evs ih =>
    intro s h
    obtain ⟨h1, h2, h3⟩ := crashed_step C keys h ev
    obtain ⟨g1, g2⟩ := ih h3
    exact ⟨fun k => (g1 k).trans (h1 k), by simp [State.run, h2, g2]⟩

/-- What a step on another connection changes for this one. -/
theorem effect_elsewhere (C : BodyCodec E) (key : Option EncKey) (t : Outbox.State E) (hup : t.crashed = false) (ev : Outbox.Event E)
    (h1 : ∀ r e, ev ≠ .write r e) (h2 : ∀ r, ev ≠ .encodeElsewhere r) :
    (t.step C key ev).1.heap = (match ev with
      | .take _ =>
        match t.loop, t.queue with
        | .running, x :: _ => match x.arg with | .obj r => t.encodeObject C r | .nilPtr _ => t.heap
        | _, _ => t.heap
      | _ => t.heap) := by
  unfold Outbox.State.step
  rw [if_neg (by simp [hup])]
  cases ev with
  | write r e => exact absurd rfl (h1 r e)
  | encodeElsewhere r => exact absurd rfl (h2 r)
  | enter i hd arg => simp only []; split <;> (try split) <;> rfl
  | enqueue i => simp only []; split <;> (try split) <;> rfl
  | giveUp i => simp only []; split <;> rfl
  | take w =>
    simp only []
    cases hl : t.loop with
    | running =>
      cases hq : t.queue with
      | nil => simp only []; split <;> rfl
      | cons x rest =>
        have : t.heapAfter C x.arg = (match x.arg with | .obj r => t.encodeObject C r | .nilPtr _ => t.heap) := by
          cases x.arg <;> rfl
        simp only []
        rw [← this]
        split
        · split <;> rfl
        · rfl
        · rfl
    | returning => rfl
    | done => rfl
  | stop => simp only []; split <;> (try split) <;> rfl
  | finish => simp only []; split <;> rfl
  | close => rfl

/-- A step, as connection `k` sees it: its own state afterwards is that of `Model/Outbox.lean` after the steps seen, up to a crash elsewhere. -/
theorem seen_step (C : BodyCodec E) (keys : Nat → Option EncKey) (k : Nat) {s : State E} (hup : s.crashed = false) (ev : Event E) :
    (s.step C keys ev).1.conn k = { ((s.conn k).run C (keys k) (seenBy k s ev)).1 with crashed := (s.step C keys ev).1.crashed } ∧
      seenOn k (s.step C keys ev).2 = ((s.conn k).run C (keys k) (seenBy k s ev)).2 ∧
      (((s.conn k).run C (keys k) (seenBy k s ev)).1.crashed = true → (s.step C keys ev).1.crashed = true) := by
  have hck : (s.conn k).crashed = false := hup
  cases ev with
  | write r e =>
    simp [State.step, hup, seenBy, Outbox.State.run, Outbox.State.step, State.conn, seenOn]
  | on j e =>
    have nothing : ∀ (x : State E × List (Nat × Outbox.Obs E)), x = (s, []) →
        x.1.conn k = { ((s.conn k).run C (keys k) []).1 with crashed := x.1.crashed } ∧
          seenOn k x.2 = ((s.conn k).run C (keys k) []).2 ∧ (((s.conn k).run C (keys k) []).1.crashed = true → x.1.crashed = true) := by
      rintro x rfl
      exact ⟨rfl, rfl, id⟩
    have main : (∀ r x, e ≠ .write r x) → (∀ r, e ≠ .encodeElsewhere r) →
        (s.stepOn C keys j e).1.conn k = { ((s.conn k).run C (keys k) (seenBy k s (.on j e))).1 with crashed := (s.stepOn C keys j e).1.crashed } ∧
          seenOn k (s.stepOn C keys j e).2 = ((s.conn k).run C (keys k) (seenBy k s (.on j e))).2 ∧
          (((s.conn k).run C (keys k) (seenBy k s (.on j e))).1.crashed = true → (s.stepOn C keys j e).1.crashed = true) := by
      intro h1 h2
      by_cases hj : j = k
      · subst hj
        have hs : seenBy j s (.on j e) = [e] := by
          cases e <;> first | exact absurd rfl (h1 _ _) | exact absurd rfl (h2 _) | simp [seenBy]
        rw [hs]
        have hr : (s.conn j).run C (keys j) [e] = (((s.conn j).step C (keys j) e).1, ((s.conn j).step C (keys j) e).2) := by
          simp [Outbox.State.run]
        rw [hr]
        refine ⟨?_, ?_, fun h => h⟩
        · rw [stepOn_self]; rfl
        · rw [stepOn_obs, seenOn_self]
      · have hk : k ≠ j := fun h => hj h.symm
        have hh := effect_elsewhere C (keys j) (s.conn j) hup e h1 h2
        have hsee : (seenBy k s (.on j e) = [] ∧ ((s.conn j).step C (keys j) e).1.heap = s.heap) ∨
            ∃ r, seenBy k s (.on j e) = [.encodeElsewhere r] ∧ ((s.conn j).step C (keys j) e).1.heap = (s.conn k).encodeObject C r := by
          rw [hh]
          cases e with
          | write r x => exact absurd rfl (h1 r x)
          | encodeElsewhere r => exact absurd rfl (h2 r)
          | take w =>
            simp only [seenBy, if_neg hj]
            have e1 : (s.conn j).loop = (s.conns j).loop := rfl
            have e2 : (s.conn j).queue = (s.conns j).queue := rfl
            rw [e1, e2]
            cases (s.conns j).loop with
            | running =>
              cases (s.conns j).queue with
              | nil => exact .inl ⟨rfl, rfl⟩
              | cons x rest =>
                simp only []
                cases x.arg with
                | nilPtr id => exact .inl ⟨rfl, rfl⟩
                | obj r => exact .inr ⟨r, rfl, rfl⟩
            | returning => exact .inl ⟨rfl, rfl⟩
            | done => exact .inl ⟨rfl, rfl⟩
          | _ => exact .inl ⟨by simp [seenBy, hj], rfl⟩
        have hobs : seenOn k (s.stepOn C keys j e).2 = [] := by rw [stepOn_obs, seenOn_other hj]
        have hcr : (s.stepOn C keys j e).1.crashed = ((s.conn j).step C (keys j) e).1.crashed := rfl
        rw [stepOn_other C keys s hk, hobs, hcr]
        rcases hsee with ⟨hs, h⟩ | ⟨r, hs, h⟩
        · rw [hs, h]
          refine ⟨rfl, rfl, fun hc => ?_⟩
          rw [Outbox.State.run, hck] at hc
          cases hc
        · rw [hs, h]
          have : (s.conn k).run C (keys k) [.encodeElsewhere r] = ({ s.conn k with heap := (s.conn k).encodeObject C r }, []) := by
            simp [Outbox.State.run, Outbox.State.step, hck]
          rw [this]
          refine ⟨rfl, rfl, fun hc => ?_⟩
          simp only [hck] at hc
          cases hc
    cases e with
    | write r x => exact nothing _ rfl
    | encodeElsewhere r => exact nothing _ rfl
    | _ => exact main (by intros; simp) (by intros; simp)

theorem seen_run (C : BodyCodec E) (keys : Nat → Option EncKey) (k : Nat) (evs : List (Event E)) : ∀ (s : State E),
    (s.run C keys evs).1.conn k = { ((s.conn k).run C (keys k) (allSeenBy C keys k s evs)).1 with crashed := (s.run C keys evs).1.crashed } ∧
      seenOn k (s.run C keys evs).2 = ((s.conn k).run C (keys k) (allSeenBy C keys k s evs)).2 := by
  induction evs with
  | nil => intro s; exact ⟨rfl, rfl⟩
  | cons ev evs ih =>
    intro s
    cases hc : s.crashed with
    | true =>
      obtain ⟨h1, h2⟩ := crashed_run C keys (ev :: evs) hc
      rw [h1 k, h2]
      have : allSeenBy C keys k s (ev :: evs) = [] := by simp [allSeenBy, hc]
      rw [this]
      have h3 : (s.run C keys (ev :: evs)).1.crashed = s.crashed := congrArg Outbox.State.crashed (h1 k)
      rw [h3]
      exact ⟨rfl, rfl⟩
    | false =>
      obtain ⟨h1, h2, h3⟩ := seen_step C keys k hc ev
      have hall : allSeenBy C keys k s (ev :: evs) = seenBy k s ev ++ allSeenBy C keys k (s.step C keys ev).1 evs := by
        simp [allSeenBy, hc]
      rw [hall, Outbox.run_append]
      obtain ⟨g1, g2⟩ := ih (s.step C keys ev).1
      cases hc' : (s.step C keys ev).1.crashed with
      | true =>
        obtain ⟨f1, f2⟩ := crashed_run C keys evs hc'
        have hn : allSeenBy C keys k (s.step C keys ev).1 evs = [] := by cases evs <;> simp [allSeenBy, hc']
        rw [hn]
        have h4 : (s.run C keys (ev :: evs)).1.crashed = (s.step C keys ev).1.crashed := congrArg Outbox.State.crashed (f1 k)
        refine ⟨?_, ?_⟩
        · rw [h4]
          refine (f1 k).trans ?_
          rw [h1]
          rfl
        · show seenOn k ((s.step C keys ev).2 ++ ((s.step C keys ev).1.run C keys evs).2) = _
          rw [f2, List.append_nil, h2]
          simp [Outbox.State.run]
      | false =>
        have he : ((s.conn k).run C (keys k) (seenBy k s ev)).1 = (s.step C keys ev).1.conn k := by
          have h5 : ((s.conn k).run C (keys k) (seenBy k s ev)).1.crashed = false := by
            cases h6 : ((s.conn k).run C (keys k) (seenBy k s ev)).1.crashed with
            | false => rfl
            | true => rw [h3 h6] at hc'; cases hc'
          rw [h1, hc']
          cases hx : ((s.conn k).run C (keys k) (seenBy k s ev)).1
          rw [hx] at h5
          simp only at h5
          rw [h5]
        rw [he]
        refine ⟨g1, ?_⟩
        show seenOn k ((s.step C keys ev).2 ++ ((s.step C keys ev).1.run C keys evs).2) = _
        rw [seenOn_append, h2, g2]

theorem wire_seen (C : BodyCodec E) (keys : Nat → Option EncKey) (k : Nat) (evs : List (Event E)) (s : State E) :
    ((s.run C keys evs).1.conns k).wire = ((s.conn k).run C (keys k) (allSeenBy C keys k s evs)).1.wire := by
  have h := congrArg Outbox.State.wire (seen_run C keys k evs s).1
  exact h

theorem calm_seen (C : BodyCodec E) (keys : Nat → Option EncKey) (k : Nat) (evs : List (Event E)) : ∀ (s : State E), CalmFleet C keys s evs →
    Calm C (keys k) (s.conn k) (allSeenBy C keys k s evs) := by
  induction evs with
  | nil => intro s _; trivial
  | cons ev evs ih =>
    intro s hcalm
    obtain ⟨hc1, hc2⟩ := hcalm
    cases hc : s.crashed with
    | true => simp [allSeenBy, hc, Calm]
    | false =>
      have hall : allSeenBy C keys k s (ev :: evs) = seenBy k s ev ++ allSeenBy C keys k (s.step C keys ev).1 evs := by
        simp [allSeenBy, hc]
      rw [hall]
      obtain ⟨h1, _, h3⟩ := seen_step C keys k hc ev
      -- the rest
      have hrest : Calm C (keys k) ((s.conn k).run C (keys k) (seenBy k s ev)).1 (allSeenBy C keys k (s.step C keys ev).1 evs) := by
        cases hc' : (s.step C keys ev).1.crashed with
        | true =>
          have hn : allSeenBy C keys k (s.step C keys ev).1 evs = [] := by cases evs <;> simp [allSeenBy, hc']
          rw [hn]; trivial
        | false =>
          have he : ((s.conn k).run C (keys k) (seenBy k s ev)).1 = (s.step C keys ev).1.conn k := by
            have h5 : ((s.conn k).run C (keys k) (seenBy k s ev)).1.crashed = false := by
              cases h6 : ((s.conn k).run C (keys k) (seenBy k s ev)).1.crashed with
              | false => rfl
              | true => rw [h3 h6] at hc'; cases hc'
            rw [h1, hc']
            cases hx : ((s.conn k).run C (keys k) (seenBy k s ev)).1
            rw [hx] at h5
            simp only at h5
            rw [h5]
          rw [he]
          exact ih _ hc2
      have hsee : seenBy k s ev = [] ∨ ∃ x, seenBy k s ev = [x] ∧ (match x with
          | .write r _ => ¬ Waiting (s.conn k) r
          | .enter _ _ (.obj r) => C.msgID ((s.conn k).heap r) ≠ 0x0801
          | _ => True) := by
        cases ev with
        | write r e => exact .inr ⟨_, rfl, hc1 k⟩
        | on j e =>
          cases e with
          | write _ _ => exact .inl rfl
          | encodeElsewhere _ => exact .inl rfl
          | take w =>
            by_cases hj : j = k
            · exact .inr ⟨.take w, by simp [seenBy, hj], trivial⟩
            · simp only [seenBy, if_neg hj]
              split
              · split
                · exact .inr ⟨_, rfl, trivial⟩
                · exact .inl rfl
              · exact .inl rfl
          | enter i hd arg =>
            by_cases hj : j = k
            · refine .inr ⟨.enter i hd arg, by simp [seenBy, hj], ?_⟩
              cases arg with
              | nilPtr _ => trivial
              | obj r => exact hc1
            · exact .inl (by simp [seenBy, hj])
          | enqueue i =>
            by_cases hj : j = k
            · exact .inr ⟨.enqueue i, by simp [seenBy, hj], trivial⟩
            · exact .inl (by simp [seenBy, hj])
          | giveUp i =>
            by_cases hj : j = k
            · exact .inr ⟨.giveUp i, by simp [seenBy, hj], trivial⟩
            · exact .inl (by simp [seenBy, hj])
          | stop =>
            by_cases hj : j = k
            · exact .inr ⟨.stop, by simp [seenBy, hj], trivial⟩
            · exact .inl (by simp [seenBy, hj])
          | finish =>
            by_cases hj : j = k
            · exact .inr ⟨.finish, by simp [seenBy, hj], trivial⟩
            · exact .inl (by simp [seenBy, hj])
          | close =>
            by_cases hj : j = k
            · exact .inr ⟨.close, by simp [seenBy, hj], trivial⟩
            · exact .inl (by simp [seenBy, hj])
      rcases hsee with hs | ⟨x, hs, hx⟩
      · rw [hs] at hrest ⊢; exact hrest
      · rw [hs] at hrest ⊢; exact ⟨hx, hrest⟩

theorem run_append (C : BodyCodec E) (keys : Nat → Option EncKey) (a b : List (Event E)) : ∀ s : State E,
    s.run C keys (a ++ b) = (((s.run C keys a).1.run C keys b).1, (s.run C keys a).2 ++ ((s.run C keys a).1.run C keys b).2) := by
  induction a with
  | nil => intro s; simp [State.run]
  | cons ev a ih => intro s; simp [State.run, ih, List.append_assoc]

theorem calm_append {C : BodyCodec E} {keys : Nat → Option EncKey} (a b : List (Event E)) : ∀ {s : State E},
    CalmFleet C keys s (a ++ b) ↔ CalmFleet C keys s a ∧ CalmFleet C keys (s.run C keys a).1 b := by
  induction a with
  | nil => intro s; simp [CalmFleet, State.run]
  | cons ev a ih =>
    intro s
    simp only [List.cons_append, CalmFleet, ih, State.run]
    exact ⟨fun ⟨h1, h2, h3⟩ => ⟨⟨h1, h2⟩, h3⟩, fun ⟨⟨h1, h2⟩, h3⟩ => ⟨h1, h2, h3⟩⟩

/-- What waits on a connection goes out with the contents given. -/
theorem fresh_conn {C : BodyCodec E} (hC : Outbox.Stable C) (keys : Nat → Option EncKey) (heap : Nat → E) (evs : List (Event E))
    (hcalm : CalmFleet C keys (.init heap) evs) (k : Nat) :
    (∀ x ∈ (((State.init heap).run C keys evs).1.conn k).queue, Outbox.Fresh C ((State.init heap).run C keys evs).1.heap x) ∧
      ∀ i x, (((State.init heap).run C keys evs).1.conn k).place i = some (.checked x) →
        Outbox.Fresh C ((State.init heap).run C keys evs).1.heap x := by
  have h := (Outbox.Inv.init C (keys k) heap).run hC _ (calm_seen C keys k evs (.init heap) hcalm)
  have hs := (seen_run C keys k evs (State.init heap)).1
  have hh : ((State.init heap).run C keys evs).1.heap =
      (((State.init heap).conn k).run C (keys k) (allSeenBy C keys k (State.init heap) evs)).1.heap := congrArg Outbox.State.heap hs
  rw [hs, hh]
  exact ⟨h.queue, h.place⟩

/-- An object that the program does not assign to keeps its contents. -/
theorem alike_step {C : BodyCodec E} (hC : Outbox.Stable C) (keys : Nat → Option EncKey) {s : State E} {r : Nat} {v : E}
    (h : Outbox.Alike C (s.heap r) v) (hv : C.msgID v ≠ 0x0801) (ev : Event E) (hw : ∀ e, ev ≠ .write r e) :
    Outbox.Alike C ((s.step C keys ev).1.heap r) v := by
  cases hc : s.crashed with
  | true =>
    have h1 := congrArg Outbox.State.heap ((crashed_step C keys hc ev).1 0)
    have h2 : (s.step C keys ev).1.heap = s.heap := h1
    rw [h2]; exact h
  | false =>
    have henc : ∀ (t : Outbox.State E) q, t.heap = s.heap → Outbox.Alike C (t.encodeObject C q r) v := by
      intro t q ht
      unfold Outbox.State.encodeObject
      rw [ht]
      cases he : C.encode (s.heap q) with
      | err _ => exact h
      | panic => exact h
      | ok p =>
        obtain ⟨b, e'⟩ := p
        by_cases hq : r = q
        · subst hq
          simp only [Outbox.update, if_true]
          have hid : C.msgID (s.heap r) ≠ 0x0801 := by rw [h.id]; exact hv
          obtain ⟨e1, e2⟩ := hC _ _ _ he hid
          refine Outbox.Alike.trans ⟨e2, ?_⟩ h
          rw [e1, he]
        · simp only [Outbox.update, if_neg hq]; exact h
    have hon : ∀ j e, (∀ q x, e ≠ .write q x) → (∀ q, e ≠ .encodeElsewhere q) → Outbox.Alike C ((s.stepOn C keys j e).1.heap r) v := by
      intro j e h1 h2
      show Outbox.Alike C (((s.conn j).step C (keys j) e).1.heap r) v
      rw [effect_elsewhere C (keys j) (s.conn j) hc e h1 h2]
      cases e with
      | take w =>
        simp only []
        cases (s.conn j).loop with
        | running =>
          cases (s.conn j).queue with
          | nil => exact h
          | cons x rest =>
            simp only []
            cases x.arg with
            | nilPtr _ => exact h
            | obj q => exact henc _ _ rfl
        | returning => exact h
        | done => exact h
      | _ => exact h
    cases ev with
    | write q e =>
      have hq : r ≠ q := fun hq => hw e (by rw [hq])
      simp only [State.step, hc, Bool.false_eq_true, if_false, Outbox.update, if_neg hq]
      exact h
    | on j e =>
      cases e with
      | write _ _ => exact h
      | encodeElsewhere _ => exact h
      | _ => exact hon j _ (by intros; simp) (by intros; simp)

/-- What is accepted in a step was waiting. -/
theorem accepted_step {C : BodyCodec E} {keys : Nat → Option EncKey} {s : State E} {ev : Event E} {k i : Nat} {x : Outbox.Item E}
    (h : (k, .accepted i x) ∈ (s.step C keys ev).2) : (s.conn k).place i = some (.checked x) := by
  have hon : ∀ j e, (k, .accepted i x) ∈ (s.stepOn C keys j e).2 → (s.conn k).place i = some (.checked x) := by
    intro j e h
    rw [stepOn_obs] at h
    obtain ⟨o, ho, he⟩ := List.mem_map.mp h
    cases he
    unfold Outbox.State.step at ho
    split at ho
    · cases ho
    · cases e with
      | write _ _ => cases ho
      | encodeElsewhere _ => cases ho
      | enter a b c =>
        simp only [] at ho
        split at ho
        · split at ho <;> simp at ho
        · cases ho
      | enqueue a =>
        simp only [] at ho
        split at ho
        · next hp =>
          split at ho
          · simp only [List.mem_singleton, Outbox.Obs.accepted.injEq] at ho
            rw [ho.1, ho.2]; exact hp
          · cases ho
        · cases ho
      | giveUp a => simp only [] at ho; split at ho <;> simp at ho
      | take w =>
        simp only [] at ho
        split at ho
        · split at ho
          · cases ho
          · split at ho
            · split at ho <;> simp at ho
            · simp at ho
            · simp at ho
        · cases ho
      | stop => simp only [] at ho; split at ho <;> cases ho
      | finish => simp only [] at ho; split at ho <;> cases ho
      | close => cases ho
  cases ev with
  | write q e => cases h
  | on j e =>
    cases e with
    | write _ _ => cases h
    | encodeElsewhere _ => cases h
    | _ => exact hon j _ h

/-- Messages with an object that the program does not assign to have all the same contents. -/
theorem same_given {C : BodyCodec E} (hC : Outbox.Stable C) (keys : Nat → Option EncKey) (heap : Nat → E) (r : Nat) (v : E)
    (hv : C.msgID v ≠ 0x0801) (post : List (Event E)) : ∀ (pre : List (Event E)), CalmFleet C keys (.init heap) (pre ++ post) →
    Outbox.Alike C (((State.init heap).run C keys pre).1.heap r) v → (∀ e, Event.write r e ∉ post) →
    ∀ k i x, (k, .accepted i x) ∈ (((State.init heap).run C keys pre).1.run C keys post).2 → x.arg = .obj r →
      ∃ g, x.given = .val g ∧ Outbox.Alike C g v := by
  induction post with
  | nil => intro pre _ _ _ k i x h; cases h
  | cons ev post ih =>
    intro pre hcalm hal hno k i x h hx
    simp only [State.run] at h
    rcases List.mem_append.mp h with h | h
    · have hp := accepted_step h
      have hf := (fresh_conn hC keys heap pre (calm_append pre _ |>.mp hcalm).1 k).2 i x hp
      unfold Outbox.Fresh at hf
      rw [hx] at hf
      obtain ⟨g, hg, h1, _⟩ := hf
      exact ⟨g, hg, (Outbox.Alike.trans ⟨h1.id.symm, h1.bytes.symm⟩ hal)⟩
    · have hrun : ((State.init heap).run C keys (pre ++ [ev])).1 = (((State.init heap).run C keys pre).1.step C keys ev).1 := by
        rw [run_append]; rfl
      refine ih (pre ++ [ev]) (by simpa using hcalm) ?_ (fun e he => hno e (List.mem_cons_of_mem _ he)) k i x (by rw [hrun]; exact h) hx
      rw [hrun]
      exact alike_step hC keys hal hv ev fun e he => hno e (by rw [he]; simp)

end Verif.Fleet
