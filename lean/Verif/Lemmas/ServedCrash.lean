import Verif.Lemmas.Served
/-! # Lemmas on servers that a client crashes -/

namespace Verif.Converse
open Session Handler Spec

variable {σ : Type} {P : Program σ}

/-- A server crashes exactly when `Receive` panics while it has turns: handlers and callbacks cannot make it crash. -/
theorem serve_panic_iff {env : Env} {key : Option DecKey} {endErr : Err} {auto : Bool} {os : List (Outcome × Outcome)} {c : RecvState} {k : Knows σ}
    {s : State σ} (hk : Shows k s) :
    s.serve env key endErr auto P os c = .panic ↔
      ∃ ds : List (Message Entity), ds.length < os.length ∧
        (receiveMany (entityCodec env) key endErr (ds.length + 1) c).1 = ds.map .ok ++ [.panic] := by
  induction os generalizing s c k with
  | nil => simp [State.serve]
  | cons o os ih =>
    unfold State.serve
    cases hr : Codec.receive (entityCodec env) key endErr c with
    | mk r c' =>
      cases r with
      | err e =>
        simp only [reduceCtorEq, false_iff]
        rintro ⟨ds, -, h⟩
        cases ds <;> simp [receiveMany, hr] at h
      | panic =>
        simp only [true_iff]
        exact ⟨[], by simp, by simp [receiveMany, hr]⟩
      | ok m =>
        obtain ⟨s1, x, k1, p1, p2, p3⟩ := process_spec auto P hk o m (received_decoded hr).1
        simp only [p1, Res.ok_bind]
        have : ((s1.serve env key endErr auto P os c') >>= fun r => (.ok (r.1, .received m :: (x ++ r.2)) : Res (State σ × List Ev))) = .panic ↔
            s1.serve env key endErr auto P os c' = .panic := by
          cases s1.serve env key endErr auto P os c' <;> simp [bind, Res.bind]
        refine Iff.trans this ?_
        rw [ih p3]
        constructor
        · rintro ⟨ds, h1, h2⟩
          refine ⟨m :: ds, by simpa using h1, ?_⟩
          rw [List.length_cons, receiveMany]
          simp only [hr, h2, List.map_cons, List.cons_append]
        · rintro ⟨ds, h1, h2⟩
          cases ds with
          | nil => simp [receiveMany, hr] at h2
          | cons d ds =>
            rw [List.length_cons, receiveMany] at h2
            simp only [hr, List.map_cons, List.cons_append, List.cons.injEq] at h2
            exact ⟨ds, by simpa using h1, h2.2⟩

end Verif.Converse
