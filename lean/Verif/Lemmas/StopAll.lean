import Verif.Lemmas.WorldAll
import Verif.Lemmas.StopLoops
/-! # Who closes a session while `Stop` is not called -/

namespace Verif.Shutdown
open Spec Spec.Stop Handler Session

section
variable {env : Env} {key : Option DecKey} {endErr : Err} {auto : Bool}

theorem serving_step {s s' : State} {e : Event} {y : List Obs} (hp : s.phase = .serving) (he : e ≠ .stop) (h : s.step env key endErr auto e = .ok (s', y)) :
    s'.phase = .serving := by
  cases e with
  | stop => exact absurd rfl he
  | connect => simp only [State.step, hp] at h; cases h; first | exact hp | rfl
  | enter =>
    simp only [State.step] at h
    split at h
    · cases h; first | exact hp | rfl
    · unfold State.enter at h
      obtain ⟨⟨t, x⟩, h1, h2⟩ := Res.bind_ok h
      obtain ⟨w, o, -, rfl, -⟩ := onWorld_inv h1
      simp only [hp, Phase.marked] at h2
      cases h2
      first | exact hp | rfl
  | release k =>
    simp only [State.step] at h
    split at h <;> cases h <;> exact hp
  | lock => simp only [State.step, hp] at h; cases h; first | exact hp | rfl
  | closeNext k => simp only [State.step, hp] at h; cases h; first | exact hp | rfl
  | unlock => simp only [State.step, hp] at h; cases h; first | exact hp | rfl
  | finish => simp only [State.step, hp] at h; cases h; first | exact hp | rfl
  | world e =>
    cases e with
    | accept => cases h; first | exact hp | rfl
    | _ =>
      obtain ⟨w, o, -, rfl, -⟩ := onWorld_inv h
      first | exact hp | rfl

theorem serving_closed {s s' : State} {e : Event} {y : List Obs} {k : Nat} (hp : s.phase = .serving) (h : s.step env key endErr auto e = .ok (s', y))
    (hk : closed k ∈ y) : e = .world (.move k .close) ∨ .world (.server (.timeout k)) ∈ y ∨ y = [.world (.act k .closed), closed k, loopEnded k] := by
  cases e with
  | stop => simp only [State.step, hp] at h; cases h; simp at hk
  | connect => simp only [State.step, hp] at h; cases h; simp at hk
  | enter =>
    simp only [State.step] at h
    split at h
    · cases h; cases hk
    · unfold State.enter at h
      obtain ⟨⟨t, x⟩, h1, h2⟩ := Res.bind_ok h
      obtain ⟨w, o, h3, rfl, rfl⟩ := onWorld_inv h1
      simp only [hp, Phase.marked] at h2
      cases h2
      rcases World.closing_by (k := k) h3 (by simpa using hk) with h | h | h
      · cases h
      · exact .inr (.inl (by simpa using h))
      · exact .inr (.inr (by rw [h]; rfl))
  | release k =>
    simp only [State.step] at h
    split at h <;> cases h <;> cases hk
  | lock => simp only [State.step, hp] at h; cases h; cases hk
  | closeNext k => simp only [State.step, hp] at h; cases h; cases hk
  | unlock => simp only [State.step, hp] at h; cases h; cases hk
  | finish => simp only [State.step, hp] at h; cases h; cases hk
  | world e =>
    cases e with
    | accept => cases h; cases hk
    | _ =>
      obtain ⟨w, o, h3, rfl, rfl⟩ := onWorld_inv h
      rcases World.closing_by (k := k) h3 (by simpa using hk) with h | h | h
      · exact .inl (by rw [h])
      · exact .inr (.inl (by simpa using h))
      · exact .inr (.inr (by rw [h]; rfl))

theorem timeout_from {s s' : State} {e : Event} {y : List Obs} {k : Nat} (hp : s.phase = .serving) (h : s.step env key endErr auto e = .ok (s', y))
    (hk : .world (.server (.timeout k)) ∈ y) : e = .world .closeFound := by
  cases e with
  | stop => simp only [State.step, hp] at h; cases h; simp at hk
  | connect => simp only [State.step, hp] at h; cases h; simp at hk
  | enter =>
    simp only [State.step] at h
    split at h
    · cases h; cases hk
    · unfold State.enter at h
      obtain ⟨⟨t, x⟩, h1, h2⟩ := Res.bind_ok h
      obtain ⟨w, o, h3, rfl, rfl⟩ := onWorld_inv h1
      simp only [hp, Phase.marked] at h2
      cases h2
      cases World.timeout_by (k := k) h3 (by simpa using hk)
  | release k =>
    simp only [State.step] at h
    split at h <;> cases h <;> cases hk
  | lock => simp only [State.step, hp] at h; cases h; cases hk
  | closeNext k => simp only [State.step, hp] at h; cases h; cases hk
  | unlock => simp only [State.step, hp] at h; cases h; cases hk
  | finish => simp only [State.step, hp] at h; cases h; cases hk
  | world e =>
    cases e with
    | accept => cases h; cases hk
    | _ =>
      obtain ⟨w, o, h3, rfl, rfl⟩ := onWorld_inv h
      rw [World.timeout_by (k := k) h3 (by simpa using hk)]

variable {p : Int} {ev : Nat → Event} {st : Nat → State} {log : Nat → List Obs}

theorem Endless.serving (h : Endless env key endErr auto p ev st log) (h0 : (st 0).phase = .serving) (hs : ∀ n, ev n ≠ .stop) (n : Nat) :
    (st n).phase = .serving := by
  induction n with
  | zero => exact h0
  | succ n ih =>
    obtain ⟨x, h1, -⟩ := h.step n
    exact serving_step ih (hs n) h1

theorem Endless.untimed (h : Endless env key endErr auto p ev st log) (h0 : (st 0).phase = .serving) (hl : log 0 = []) (hs : ∀ n, ev n ≠ .stop)
    (hf : ∀ n, ev n ≠ .world .closeFound) (k n : Nat) : .world (.server (.timeout k)) ∉ log n := by
  induction n with
  | zero => rw [hl]; simp
  | succ n ih =>
    obtain ⟨x, h1, h2⟩ := h.step n
    rw [h2]
    intro hm
    rcases List.mem_append.1 hm with hm | hm
    · exact ih hm
    · exact hf n (timeout_from (h.serving h0 hs n) h1 hm)

/-- A session that nobody closes from outside is closed by its loop, when that ends. -/
theorem Endless.itself (h : Endless env key endErr auto p ev st log) (h0 : (st 0).phase = .serving) (hl : log 0 = []) (hs : ∀ n, ev n ≠ .stop) {k : Nat}
    (hc : ∀ n, ev n ≠ .world (.move k .close)) (ht : ∀ n, .world (.server (.timeout k)) ∉ log n) (n : Nat) (a b : List Obs)
    (hx : log n = a ++ closed k :: b) : ∃ c, b = loopEnded k :: c := by
  induction n generalizing a b with
  | zero => rw [hl] at hx; simp at hx
  | succ n ih =>
    obtain ⟨x, h1, h2⟩ := h.step n
    have ht' := ht (n + 1)
    rw [h2] at hx ht'
    rcases World.append_split hx with ⟨c, e1, rfl⟩ | ⟨c, -, e2⟩
    · obtain ⟨d, rfl⟩ := ih _ _ e1
      exact ⟨d ++ x, rfl⟩
    · rcases serving_closed (h.serving h0 hs n) h1 (k := k) (by rw [e2]; simp) with g | g | g
      · exact absurd g (hc n)
      · exact absurd (List.mem_append_right _ g) ht'
      · rw [g] at e2
        cases c with
        | nil => simp at e2
        | cons o c =>
          simp only [List.cons_append, List.cons.injEq] at e2
          obtain ⟨-, e2⟩ := e2
          cases c with
          | nil => simp at e2; exact ⟨[], e2.symm⟩
          | cons o c =>
            simp only [List.cons_append, List.cons.injEq] at e2
            obtain ⟨-, e2⟩ := e2
            cases c <;> simp at e2

end
end Verif.Shutdown
