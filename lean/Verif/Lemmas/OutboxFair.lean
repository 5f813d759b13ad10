import Verif.Lemmas.Outbox
import Verif.Lemmas.Endless
/-! # The send loop in runs without end -/

namespace Verif.Outbox
open Spec

variable {E : Type} {C : BodyCodec E} {key : Option EncKey}

/-- The send loop of an open session goes on unless something fails. -/
theorem running_step {s : State E} (h1 : s.loop = .running) (h2 : s.crashed = false) (h3 : s.closed = false) (ev : Event E) :
    (∃ x b w, .handled x b w false ∈ (s.step C key ev).2) ∨ (s.step C key ev).1.loop = .running ∧ (s.step C key ev).1.crashed = false := by
  obtain ⟨heap, place, queue, closed, loop, wire, crashed⟩ := s
  cases h1
  cases h2
  cases h3
  unfold State.step
  rw [if_neg (by simp)]
  cases ev <;> simp only <;> repeat' split
  all_goals first
    | exact .inr ⟨rfl, rfl⟩
    | exact .inr ⟨trivial, trivial⟩
    | exact .inl ⟨_, _, _, List.mem_singleton.2 rfl⟩
    | (rename_i h; cases h)

/-- It takes a message if there is one. -/
theorem take_takes {s : State E} (h1 : s.loop = .running) (h2 : s.crashed = false) (hq : s.queue ≠ []) (w : Option Nat) :
    (handledItems (s.step C key (.take w)).2).length = 1 := by
  unfold State.step
  rw [if_neg (by simp [h2])]
  simp only [h1]
  split
  · rename_i h; exact absurd h hq
  · repeat' split
    all_goals rfl

variable {heap : Nat → E} {ev : Nat → Event E}

theorem run_next (n : Nat) : (State.init heap).run C key (firsts ev (n + 1)) =
    ((((State.init heap).run C key (firsts ev n)).1.step C key (ev n)).1,
      ((State.init heap).run C key (firsts ev n)).2 ++ (((State.init heap).run C key (firsts ev n)).1.step C key (ev n)).2) := by
  rw [firsts_succ, run_append]
  simp [State.run]

theorem run_onward {n m : Nat} (h : n ≤ m) : ((State.init heap).run C key (firsts ev n)).2 <+: ((State.init heap).run C key (firsts ev m)).2 := by
  induction h with
  | refl => exact List.prefix_refl _
  | @step m h ih =>
    show _ <+: ((State.init heap).run C key (firsts ev (m + 1))).2
    rw [run_next]
    exact ih.trans (List.prefix_append _ _)

theorem filterMap_prefix {α β : Type} {f : α → Option β} {a b : List α} (h : a <+: b) : a.filterMap f <+: b.filterMap f := by
  obtain ⟨t, rfl⟩ := h
  rw [List.filterMap_append]
  exact List.prefix_append _ _

/-- As long as the session is open and nothing fails the send loop goes on. -/
theorem running_always (hc : ∀ n, ((State.init heap).run C key (firsts ev n)).1.closed = false)
    (hf : ∀ n x b w, .handled x b w false ∉ ((State.init heap).run C key (firsts ev n)).2) (n : Nat) :
    ((State.init heap).run C key (firsts ev n)).1.loop = .running ∧ ((State.init heap).run C key (firsts ev n)).1.crashed = false := by
  induction n with
  | zero => exact ⟨rfl, rfl⟩
  | succ n ih =>
    have h := hf (n + 1)
    rw [run_next] at h ⊢
    rcases running_step (C := C) (key := key) ih.1 ih.2 (hc n) (ev n) with ⟨x, b, w, hx⟩ | hx
    · exact absurd (List.mem_append_right _ hx) (h x b w)
    · exact hx

/-- Then every accepted message is taken at some time. -/
theorem taken (hc : ∀ n, ((State.init heap).run C key (firsts ev n)).1.closed = false)
    (hf : ∀ n x b w, .handled x b w false ∉ ((State.init heap).run C key (firsts ev n)).2) (ht : Again ev fun e => ∃ w, e = .take w) (n : Nat) :
    ∃ m, n ≤ m ∧ (acceptedItems ((State.init heap).run C key (firsts ev n)).2).length ≤ (handledItems ((State.init heap).run C key (firsts ev m)).2).length := by
  generalize ha : (acceptedItems ((State.init heap).run C key (firsts ev n)).2).length = a
  have mono : ∀ {i j}, i ≤ j → (handledItems ((State.init heap).run C key (firsts ev i)).2).length ≤ (handledItems ((State.init heap).run C key (firsts ev j)).2).length :=
    fun h => (filterMap_prefix (run_onward h)).length_le
  have go : ∀ d i, n ≤ i → a - (handledItems ((State.init heap).run C key (firsts ev i)).2).length = d →
      ∃ m, n ≤ m ∧ a ≤ (handledItems ((State.init heap).run C key (firsts ev m)).2).length := by
    intro d
    induction d using Nat.strongRecOn with
    | ind d ih =>
      intro i hi hd
      by_cases hle : a ≤ (handledItems ((State.init heap).run C key (firsts ev i)).2).length
      · exact ⟨i, hi, hle⟩
      · obtain ⟨m, hm, w, hw⟩ := ht i
        by_cases hx : a ≤ (handledItems ((State.init heap).run C key (firsts ev m)).2).length
        · exact ⟨m, by omega, hx⟩
        · have hr := running_always hc hf m
          have ho := (order_run C key heap (firsts ev m)).order
          have hacc : a ≤ (acceptedItems ((State.init heap).run C key (firsts ev m)).2).length := by
            rw [← ha]
            exact (filterMap_prefix (run_onward (by omega))).length_le
          have hq : ((State.init heap).run C key (firsts ev m)).1.queue ≠ [] := by
            intro hq
            rw [ho, hq, List.append_nil] at hacc
            exact hx hacc
          have h1 := take_takes (C := C) (key := key) hr.1 hr.2 hq w
          have h2 : (handledItems ((State.init heap).run C key (firsts ev (m + 1))).2).length =
              (handledItems ((State.init heap).run C key (firsts ev m)).2).length + 1 := by
            rw [run_next, handledItems_append, List.length_append, hw, h1]
          have := mono (i := i) (j := m) hm
          exact ih _ (by omega) (m + 1) (by omega) rfl
  exact go _ n (Nat.le_refl _) rfl

end Verif.Outbox
