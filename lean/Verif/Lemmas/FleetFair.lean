import Verif.Lemmas.Fleet
import Verif.Lemmas.OutboxFair
/-! # The send loops of all connections in runs without end -/

namespace Verif.Fleet
open Spec
open Outbox (handledItems)

variable {E : Type} {C : BodyCodec E} {keys : Nat → Option EncKey}

/-- A step is one of connection `k`, or leaves what is its own alone. -/
theorem own_step (s : State E) (k : Nat) (ev : Event E) :
    ((s.step C keys ev).1.conns k = s.conns k ∧ seenOn k (s.step C keys ev).2 = []) ∨
    ∃ e, ev = .on k e ∧ (s.step C keys ev).1.conns k = ((s.conn k).step C (keys k) e).1 ∧ seenOn k (s.step C keys ev).2 = ((s.conn k).step C (keys k) e).2 := by
  cases ev with
  | write r e =>
    left
    simp only [State.step]
    split <;> exact ⟨rfl, rfl⟩
  | on j e =>
    have hon : ((s.stepOn C keys j e).1.conns k = s.conns k ∧ seenOn k (s.stepOn C keys j e).2 = []) ∨
        ∃ e', Event.on j e = .on k e' ∧ (s.stepOn C keys j e).1.conns k = ((s.conn k).step C (keys k) e').1 ∧
          seenOn k (s.stepOn C keys j e).2 = ((s.conn k).step C (keys k) e').2 := by
      by_cases hj : j = k
      · subst hj
        right
        refine ⟨e, rfl, ?_, ?_⟩
        · simp [State.stepOn, Outbox.update]
        · rw [stepOn_obs, seenOn_self]
      · left
        refine ⟨?_, ?_⟩
        · simp [State.stepOn, Outbox.update, Ne.symm hj]
        · rw [stepOn_obs, seenOn_other hj]
    cases e with
    | write _ _ => exact .inl ⟨rfl, rfl⟩
    | encodeElsewhere _ => exact .inl ⟨rfl, rfl⟩
    | _ => exact hon

/-- If the process lives, no step that a connection has seen crashed it. -/
theorem alive_seen (k : Nat) (evs : List (Event E)) : ∀ {s : State E}, (s.run C keys evs).1.crashed = false →
    ((s.conn k).run C (keys k) (allSeenBy C keys k s evs)).1.crashed = false := by
  induction evs with
  | nil => intro s h; exact h
  | cons ev evs ih =>
    intro s h
    have up : ∀ {t : State E} {l : List (Event E)}, (t.run C keys l).1.crashed = false → t.crashed = false := by
      intro t l hl
      cases hc : t.crashed with
      | false => rfl
      | true =>
        have : (t.run C keys l).1.crashed = t.crashed := congrArg Outbox.State.crashed ((crashed_run C keys l hc).1 0)
        rw [this, hc] at hl
        cases hl
    have hc : s.crashed = false := up h
    have h' : ((s.step C keys ev).1.run C keys evs).1.crashed = false := h
    have hc' : (s.step C keys ev).1.crashed = false := up h'
    obtain ⟨h1, -, h3⟩ := seen_step C keys k hc ev
    have hall : allSeenBy C keys k s (ev :: evs) = seenBy k s ev ++ allSeenBy C keys k (s.step C keys ev).1 evs := by simp [allSeenBy, hc]
    have he : ((s.conn k).run C (keys k) (seenBy k s ev)).1 = (s.step C keys ev).1.conn k := by
      have h5 : ((s.conn k).run C (keys k) (seenBy k s ev)).1.crashed = false := by
        cases h6 : ((s.conn k).run C (keys k) (seenBy k s ev)).1.crashed with
        | false => rfl
        | true => rw [h3 h6] at hc'; cases hc'
      rw [h1, hc']
      cases hx : ((s.conn k).run C (keys k) (seenBy k s ev)).1
      rw [hx] at h5
      simp only at h5
      rw [h5]
    rw [hall, Outbox.run_append, he]
    exact ih h'

variable {heap : Nat → E} {ev : Nat → Event E}

theorem run_next (n : Nat) : (State.init heap).run C keys (firsts ev (n + 1)) =
    ((((State.init heap).run C keys (firsts ev n)).1.step C keys (ev n)).1,
      ((State.init heap).run C keys (firsts ev n)).2 ++ (((State.init heap).run C keys (firsts ev n)).1.step C keys (ev n)).2) := by
  rw [firsts_succ, run_append]
  simp [State.run]

theorem seen_onward (k : Nat) {n m : Nat} (h : n ≤ m) :
    seenOn k ((State.init heap).run C keys (firsts ev n)).2 <+: seenOn k ((State.init heap).run C keys (firsts ev m)).2 := by
  induction h with
  | refl => exact List.prefix_refl _
  | @step m h ih =>
    show _ <+: seenOn k ((State.init heap).run C keys (firsts ev (m + 1))).2
    rw [run_next, seenOn_append]
    exact ih.trans (List.prefix_append _ _)

theorem running_always {k : Nat} (hc : ∀ n, (((State.init heap).run C keys (firsts ev n)).1.conns k).closed = false)
    (hu : ∀ n, ((State.init heap).run C keys (firsts ev n)).1.crashed = false)
    (hf : ∀ n x b w, .handled x b w false ∉ seenOn k ((State.init heap).run C keys (firsts ev n)).2) (n : Nat) :
    (((State.init heap).run C keys (firsts ev n)).1.conns k).loop = .running := by
  induction n with
  | zero => rfl
  | succ n ih =>
    have h := hf (n + 1)
    rw [run_next] at h ⊢
    rw [seenOn_append] at h
    rcases own_step (C := C) (keys := keys) ((State.init heap).run C keys (firsts ev n)).1 k (ev n) with ⟨e1, -⟩ | ⟨e, -, e1, e2⟩
    · show (State.conns _ k).loop = _
      rw [e1]; exact ih
    · show (State.conns _ k).loop = _
      rw [e1]
      rw [e2] at h
      rcases Outbox.running_step (C := C) (key := keys k) (s := ((State.init heap).run C keys (firsts ev n)).1.conn k) ih (hu n) (hc n) e with ⟨x, b, w, hx⟩ | hx
      · exact absurd (List.mem_append_right _ hx) (h x b w)
      · exact hx.1

theorem order_seen (k : Nat) (evs : List (Event E)) : acceptedItems (seenOn k ((State.init heap).run C keys evs).2) =
    handledItems (seenOn k ((State.init heap).run C keys evs).2) ++ (((State.init heap).run C keys evs).1.conns k).queue := by
  obtain ⟨h1, h2⟩ := seen_run C keys k evs (State.init heap)
  have h3 : (((State.init heap).run C keys evs).1.conns k).queue =
    (((State.init heap).conn k).run C (keys k) (allSeenBy C keys k (State.init heap) evs)).1.queue := by
    have := congrArg Outbox.State.queue h1
    exact this
  rw [h2, h3]
  exact (Outbox.order_run C (keys k) heap _).order

/-- Every message accepted on a connection is taken at some time. -/
theorem taken {k : Nat} (hc : ∀ n, (((State.init heap).run C keys (firsts ev n)).1.conns k).closed = false)
    (hu : ∀ n, ((State.init heap).run C keys (firsts ev n)).1.crashed = false)
    (hf : ∀ n x b w, .handled x b w false ∉ seenOn k ((State.init heap).run C keys (firsts ev n)).2) (ht : Again ev fun e => ∃ w, e = .on k (.take w)) (n : Nat) :
    ∃ m, n ≤ m ∧ (acceptedItems (seenOn k ((State.init heap).run C keys (firsts ev n)).2)).length ≤
      (handledItems (seenOn k ((State.init heap).run C keys (firsts ev m)).2)).length := by
  generalize ha : (acceptedItems (seenOn k ((State.init heap).run C keys (firsts ev n)).2)).length = a
  have mono : ∀ {i j}, i ≤ j → (handledItems (seenOn k ((State.init heap).run C keys (firsts ev i)).2)).length ≤
      (handledItems (seenOn k ((State.init heap).run C keys (firsts ev j)).2)).length :=
    fun h => (Outbox.filterMap_prefix (seen_onward k h)).length_le
  have go : ∀ d i, n ≤ i → a - (handledItems (seenOn k ((State.init heap).run C keys (firsts ev i)).2)).length = d →
      ∃ m, n ≤ m ∧ a ≤ (handledItems (seenOn k ((State.init heap).run C keys (firsts ev m)).2)).length := by
    intro d
    induction d using Nat.strongRecOn with
    | ind d ih =>
      intro i hi hd
      by_cases hle : a ≤ (handledItems (seenOn k ((State.init heap).run C keys (firsts ev i)).2)).length
      · exact ⟨i, hi, hle⟩
      · obtain ⟨m, hm, w, hw⟩ := ht i
        by_cases hx : a ≤ (handledItems (seenOn k ((State.init heap).run C keys (firsts ev m)).2)).length
        · exact ⟨m, by omega, hx⟩
        · have hr := running_always hc hu hf m
          have ho := order_seen (C := C) (keys := keys) (heap := heap) k (firsts ev m)
          have hacc : a ≤ (acceptedItems (seenOn k ((State.init heap).run C keys (firsts ev m)).2)).length := by
            rw [← ha]
            exact (Outbox.filterMap_prefix (seen_onward k (by omega))).length_le
          have hq : (((State.init heap).run C keys (firsts ev m)).1.conns k).queue ≠ [] := by
            intro hq
            rw [ho, hq, List.append_nil] at hacc
            exact hx hacc
          have h1 := Outbox.take_takes (C := C) (key := keys k) (s := ((State.init heap).run C keys (firsts ev m)).1.conn k) hr (hu m) hq w
          have h2 : (handledItems (seenOn k ((State.init heap).run C keys (firsts ev (m + 1))).2)).length =
              (handledItems (seenOn k ((State.init heap).run C keys (firsts ev m)).2)).length + 1 := by
            have hs : seenOn k (((State.init heap).run C keys (firsts ev m)).1.step C keys (ev m)).2 =
                ((((State.init heap).run C keys (firsts ev m)).1.conn k).step C (keys k) (.take w)).2 := by
              rw [hw]
              show seenOn k (State.stepOn C keys _ k (.take w)).2 = _
              rw [stepOn_obs, seenOn_self]
            rw [run_next, seenOn_append, Outbox.handledItems_append, List.length_append, hs, h1]
          have := mono (i := i) (j := m) hm
          exact ih _ (by omega) (m + 1) (by omega) rfl
  exact go _ n (Nat.le_refl _) rfl

end Verif.Fleet
