import Verif.Lemmas.Fleet
import Verif.Spec.FleetMedia
/-! # What the send loops do to one object -/

namespace Verif.Fleet
open Spec

variable {E : Type}

theorem handledFor_append (r : Nat) (a b : List (Nat × Outbox.Obs E)) : handledFor r (a ++ b) = handledFor r a ++ handledFor r b := by
  simp [handledFor, List.filterMap_append]

/-- A step on a connection either leaves the object alone, or its send loop has worked on a message with the object. -/
theorem object_stepOn (C : BodyCodec E) (keys : Nat → Option EncKey) (s : State E) (r j : Nat) (ev : Outbox.Event E)
    (h1 : ∀ q e, ev ≠ .write q e) (h2 : ∀ q, ev ≠ .encodeElsewhere q) :
    ((s.stepOn C keys j ev).1.heap r = s.heap r ∧ handledFor r (s.stepOn C keys j ev).2 = []) ∨
    ∃ x w ok, handledFor r (s.stepOn C keys j ev).2 = [(j, x, w, ok)] ∧
      (s.stepOn C keys j ev).1.heap r = (s.conn j).encodeObject C r r ∧
      (ok = true → Codec.sendBytes C (keys j) { header := x.header, body := .val (s.heap r) } = .ok w) := by
  show (((s.conn j).step C (keys j) ev).1.heap r = s.heap r ∧ _) ∨ ∃ x w ok, _ ∧ ((s.conn j).step C (keys j) ev).1.heap r = _ ∧ _
  rw [stepOn_obs]
  cases hc : (s.conn j).crashed with
  | true =>
    refine .inl ⟨?_, ?_⟩ <;> (unfold Outbox.State.step; rw [if_pos hc]; rfl)
  | false =>
    rw [effect_elsewhere C (keys j) (s.conn j) hc ev h1 h2]
    unfold Outbox.State.step
    rw [if_neg (by simp [hc])]
    cases ev with
    | write q e => exact absurd rfl (h1 q e)
    | encodeElsewhere q => exact absurd rfl (h2 q)
    | enter i hd arg => refine .inl ⟨rfl, ?_⟩; simp only []; split <;> (try split) <;> rfl
    | enqueue i => refine .inl ⟨rfl, ?_⟩; simp only []; split <;> (try split) <;> rfl
    | giveUp i => refine .inl ⟨rfl, ?_⟩; simp only []; split <;> rfl
    | stop => refine .inl ⟨rfl, ?_⟩; simp only []; split <;> (try split) <;> rfl
    | finish => refine .inl ⟨rfl, ?_⟩; simp only []; split <;> rfl
    | close => exact .inl ⟨rfl, rfl⟩
    | take v =>
      simp only []
      cases hl : (s.conn j).loop with
      | returning => exact .inl ⟨rfl, rfl⟩
      | done => exact .inl ⟨rfl, rfl⟩
      | running =>
        cases hq : (s.conn j).queue with
        | nil => exact .inl ⟨rfl, rfl⟩
        | cons x rest =>
          simp only []
          by_cases hx : x.arg = .obj r
          · rw [hx]
            right
            cases hf : Codec.sendBytes C (keys j) { header := x.header, body := (s.conn j).body (.obj r) } with
            | ok f =>
              cases v with
              | none => exact ⟨x, f, true, by simp [handledFor, hx], rfl, fun _ => hf⟩
              | some n => exact ⟨x, f.take n, false, by simp [handledFor, hx], rfl, fun h => by cases h⟩
            | err e => exact ⟨x, [], false, by simp [handledFor, hx], rfl, fun h => by cases h⟩
            | panic => exact ⟨x, [], false, by simp [handledFor, hx], rfl, fun h => by cases h⟩
          · left
            refine ⟨?_, ?_⟩
            · cases ha : x.arg with
              | nilPtr _ => rfl
              | obj q =>
                have hne : r ≠ q := by rintro rfl; exact hx ha
                show (s.conn j).encodeObject C q r = s.heap r
                unfold Outbox.State.encodeObject
                cases C.encode ((s.conn j).heap q) with
                | ok p => simp only [Outbox.update, if_neg hne]; rfl
                | err _ => rfl
                | panic => rfl
            · cases Codec.sendBytes C (keys j) { header := x.header, body := (s.conn j).body x.arg } with
              | ok f => cases v <;> simp [handledFor, hx]
              | err e => simp [handledFor, hx]
              | panic => simp [handledFor, hx]

theorem object_step (C : BodyCodec E) (keys : Nat → Option EncKey) (s : State E) (r : Nat) (ev : Event E) (hw : ∀ e, ev ≠ .write r e) :
    ((s.step C keys ev).1.heap r = s.heap r ∧ handledFor r (s.step C keys ev).2 = []) ∨
    ∃ j x w ok, handledFor r (s.step C keys ev).2 = [(j, x, w, ok)] ∧ (s.step C keys ev).1.heap r = (s.conn j).encodeObject C r r ∧
      (ok = true → Codec.sendBytes C (keys j) { header := x.header, body := .val (s.heap r) } = .ok w) := by
  cases ev with
  | write q e =>
    have hq : r ≠ q := fun hq => hw e (by rw [hq])
    refine .inl ⟨?_, rfl⟩
    simp only [State.step]
    split
    · rfl
    · simp only [Outbox.update, if_neg hq]
  | on j e =>
    cases e with
    | write _ _ => exact .inl ⟨rfl, rfl⟩
    | encodeElsewhere _ => exact .inl ⟨rfl, rfl⟩
    | _ => exact (object_stepOn C keys s r j _ (by intros; simp) (by intros; simp)).imp id fun h => ⟨j, h⟩

/-- An object that encoding does not change goes out with the same contents every time. -/
theorem fixed_run (C : BodyCodec E) (keys : Nat → Option EncKey) (r : Nat) (e : E) (b : Bytes) (he : C.encode e = .ok (b, e)) (evs : List (Event E)) :
    ∀ {s : State E}, s.heap r = e → (∀ e, Event.write r e ∉ evs) → ∀ y ∈ handledFor r (s.run C keys evs).2, y.2.2.2 = true →
      Codec.sendBytes C (keys y.1) { header := y.2.1.header, body := .val e } = .ok y.2.2.1 := by
  induction evs with
  | nil => intro s _ _ y hy; cases hy
  | cons ev evs ih =>
    intro s hs hw y hy hok
    simp only [State.run, handledFor_append] at hy
    have hw' : ∀ e, Event.write r e ∉ evs := fun e h => hw e (List.mem_cons_of_mem _ h)
    rcases object_step C keys s r ev (fun e h => hw e (h ▸ List.mem_cons_self)) with ⟨g1, g2⟩ | ⟨j, x, w, ok, g1, g2, g3⟩
    · rw [g2, List.nil_append] at hy
      exact ih (g1.trans hs) hw' y hy hok
    · have hs' : (s.step C keys ev).1.heap r = e := by
        rw [g2]
        simp only [Outbox.State.encodeObject, State.conn, hs, he, Outbox.update, if_pos]
      rw [g1] at hy
      rcases List.mem_cons.1 hy with rfl | hy
      · rw [← hs]; exact g3 hok
      · exact ih hs' hw' y hy hok

/-- An object that encoding changes once goes out with its contents the first time, and then with the changed ones. -/
theorem once_run (C : BodyCodec E) (keys : Nat → Option EncKey) (r : Nat) (e e' : E) (b b' : Bytes) (he : C.encode e = .ok (b, e'))
    (he' : C.encode e' = .ok (b', e')) (evs : List (Event E)) :
    ∀ {s : State E}, s.heap r = e → (∀ e, Event.write r e ∉ evs) → ∀ n y, (handledFor r (s.run C keys evs).2)[n]? = some y → y.2.2.2 = true →
      Codec.sendBytes C (keys y.1) { header := y.2.1.header, body := .val (if n = 0 then e else e') } = .ok y.2.2.1 := by
  induction evs with
  | nil => intro s _ _ n y hy; simp [State.run, handledFor] at hy
  | cons ev evs ih =>
    intro s hs hw n y hy hok
    simp only [State.run, handledFor_append] at hy
    have hw' : ∀ e, Event.write r e ∉ evs := fun e h => hw e (List.mem_cons_of_mem _ h)
    rcases object_step C keys s r ev (fun e h => hw e (h ▸ List.mem_cons_self)) with ⟨g1, g2⟩ | ⟨j, x, w, ok, g1, g2, g3⟩
    · rw [g2, List.nil_append] at hy
      exact ih (g1.trans hs) hw' n y hy hok
    · have hs' : (s.step C keys ev).1.heap r = e' := by
        rw [g2]
        simp only [Outbox.State.encodeObject, State.conn, hs, he, Outbox.update, if_pos]
      rw [g1, List.singleton_append] at hy
      cases n with
      | zero =>
        simp only [List.getElem?_cons_zero, Option.some.injEq] at hy
        subst hy
        rw [if_pos rfl, ← hs]; exact g3 hok
      | succ n =>
        rw [List.getElem?_cons_succ] at hy
        rw [if_neg (by omega)]
        exact fixed_run C keys r e' b' he' evs hs' hw' y (List.mem_of_getElem? hy) hok

end Verif.Fleet

namespace Verif

/-- A media message can always be encoded; afterwards it encodes like one without content. -/
theorem T0801.encode_emptied (env : Env) (m : T0801) : ∃ b b' m' m'', T0801.encode env m = .ok (b, m') ∧ T0801.encode env m' = .ok (b', m') ∧
    T0801.encode env { m with packet := none } = .ok (b', m'') ∧ b = b' ++ m.packet.getD [] := by
  have hl : ∃ r, T0200.encode env { m.location with extras := [] } = .ok r := by
    unfold T0200.encode
    have e2 := fun st v => markNegative_ok st v 2 (by omega)
    have e3 := fun st v => markNegative_ok st v 3 (by omega)
    simp only [Int.cast_ofNat_Int] at e2 e3
    simp only [e2, e3, Res.ok_bind, encList]
    exact ⟨_, rfl⟩
  obtain ⟨⟨d, r⟩, hr⟩ := hl
  have h1 : ∃ b m', T0801.encode env m = .ok (b, m') := by
    unfold T0801.encode
    rw [hr]
    exact ⟨_, _, rfl⟩
  obtain ⟨b, m', h1⟩ := h1
  obtain ⟨base, e1, e2⟩ := T0801.encode_again h1
  refine ⟨b, base, m', { m with location := r, packet := none }, h1, e2, ?_, e1⟩
  have h1' := h1
  unfold T0801.encode at h1' ⊢
  rw [hr] at h1'
  simp only [Res.ok_bind, Res.ok.injEq, Prod.mk.injEq] at h1'
  simp only [hr, Res.ok_bind, Option.map_none, List.append_nil]
  have : put32 m.mediaID ++ [m.type, m.coding, m.event, m.channelID] ++ d = base := by
    have := h1'.1.trans e1
    cases hp : m.packet with
    | none => rw [hp] at this; simpa using this
    | some p =>
      rw [hp] at this
      simp only [Option.getD_some] at this
      exact List.append_cancel_right this
  rw [this]

end Verif
