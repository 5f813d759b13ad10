import Verif.Lemmas.Promised
import Verif.Spec.Stream
/-! # Lemmas on the messages a server has received -/

namespace Verif.Converse
open Session Handler Spec

variable {σ : Type} {P : Program σ}

/-- The messages received are the results of `Receive`, in order. -/
theorem serve_calls {env : Env} {key : Option DecKey} {endErr : Err} {auto : Bool} {s s' : State σ} {os : List (Outcome × Outcome)} {c : RecvState} {log : List Ev}
    (h : s.serve env key endErr auto P os c = .ok (s', log)) :
    ∃ (ms : List (Message Entity)) (log' : List Ev), (log = log' ∨ log = log' ++ [.closed]) ∧ ms.length ≤ os.length ∧ (∀ m ∈ ms, Decoded m) ∧
      s.run auto P (ms.zip os) = .ok (s', log') ∧ (receiveMany (entityCodec env) key endErr ms.length c).1 = ms.map .ok := by
  induction os generalizing s c log with
  | nil =>
    cases h
    exact ⟨[], [], .inl rfl, Nat.le_refl _, by simp, rfl, rfl⟩
  | cons o os ih =>
    unfold State.serve at h
    cases hr : Codec.receive (entityCodec env) key endErr c with
    | mk r c' =>
      rw [hr] at h
      cases r with
      | err e =>
        cases h
        exact ⟨[], [], .inr rfl, Nat.zero_le _, by simp, rfl, rfl⟩
      | panic => cases h
      | ok m =>
        simp only at h
        obtain ⟨⟨s1, x⟩, h1, h⟩ := Res.bind_ok h
        obtain ⟨⟨s2, y⟩, h2, h⟩ := Res.bind_ok h
        cases h
        obtain ⟨ms, log', g1, g2, g3, g4, g5⟩ := ih h2
        refine ⟨m :: ms, .received m :: (x ++ log'), ?_, by simpa using g2, ?_, ?_, ?_⟩
        · rcases g1 with rfl | rfl
          · exact .inl rfl
          · exact .inr (by simp)
        · intro d hd
          rcases List.mem_cons.1 hd with rfl | hd
          · exact received_decoded hr
          · exact g3 d hd
        · simp only [List.zip_cons_cons, State.run, h1, Res.ok_bind, g4]
        · simp only [List.length_cons, receiveMany, hr, g5, List.map_cons]

theorem serve_receives {env : Env} {key : Option DecKey} {endErr : Err} {auto : Bool} {u : σ} {accepts : List Bool}
    {os : List (Outcome × Outcome)} {c : RecvState} {s : State σ} {log : List Ev}
    (h : ({ user := u, accepts := accepts } : State σ).serve env key endErr auto P os c = .ok (s, log)) :
    (receiveMany (entityCodec env) key endErr (receivedOf log).length c).1 = (receivedOf log).map .ok := by
  obtain ⟨ms, log', h1, h2, h3, h4, h5⟩ := serve_calls h
  have hz : ∀ x ∈ ms.zip os, Decoded x.1 := fun x hx => h3 _ (List.of_mem_zip (a := x.1) (b := x.2) hx).1
  obtain ⟨s', log'', k, r1, r2, r3⟩ := run_spec auto P (ms.zip os) (shows_fresh u accepts) fun x hx => (hz x hx).1
  obtain ⟨rfl, rfl⟩ : s = s' ∧ log' = log'' := by simpa [h4] using r1
  have hr := talk_receives r2
  rw [List.map_fst_zip h2] at hr
  have e1 : receivedOf log = ms := by
    rcases h1 with rfl | rfl
    · exact hr
    · simpa [receivedOf] using hr
  rw [e1]
  exact h5

end Verif.Converse
