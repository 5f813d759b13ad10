import Verif.Lemmas.CrowdExample
/-! # A loop that is given turns gets done with what has arrived -/

namespace Verif.Crowd
open Converse Session Handler Spec

variable {σ : Type} {env : Env} {key : Option DecKey} {endErr : Err} {auto : Bool} {P : Program σ}

/-- Turns of one connection, one after the other, with all work on files succeeding. -/
inductive Leads (env : Env) (key : Option DecKey) (endErr : Err) (auto : Bool) (P : Program σ) : FS → Conn σ → FS → Conn σ → List Ev → Prop where
  | refl (fs : FS) (c : Conn σ) : Leads env key endErr auto P fs c fs c []
  | step {fs : FS} {c : Conn σ} {r : FS × Conn σ × List Ev} {fs' : FS} {c' : Conn σ} {x : List Ev} : c.turn env key endErr auto P .ok fs = .ok r →
      Leads env key endErr auto P r.1 r.2.1 fs' c' x → Leads env key endErr auto P fs c fs' c' (r.2.2 ++ x)

theorem Leads.trans {fs fs' fs'' : FS} {c c' c'' : Conn σ} {x y : List Ev} (h : Leads env key endErr auto P fs c fs' c' x)
    (h' : Leads env key endErr auto P fs' c' fs'' c'' y) : Leads env key endErr auto P fs c fs'' c'' (x ++ y) := by
  induction h with
  | refl => exact h'
  | step h1 _ ih =>
    rw [List.append_assoc]
    exact .step h1 (ih h')

theorem Leads.run {fs fs' : FS} {c c' : Conn σ} {x : List Ev} (h : Leads env key endErr auto P fs c fs' c' x) (k : Nat) : ∀ conns : Nat → Conn σ, conns k = c →
    ∃ n, State.run env key endErr auto P { fs := fs, conns := conns } (List.replicate n (.turn k .ok)) =
      .ok ({ fs := fs', conns := fun j => if j = k then c' else conns j }, x.map fun e => (k, e)) := by
  induction h with
  | refl fs c =>
    intro conns hc
    refine ⟨0, ?_⟩
    have : (fun j => if j = k then c else conns j) = conns := by
      funext j
      by_cases hj : j = k
      · rw [if_pos hj, hj, hc]
      · rw [if_neg hj]
    rw [this]
    rfl
  | @step fs c r fs' c' x h1 _ ih =>
    intro conns hc
    obtain ⟨n, hn⟩ := ih (fun j => if j = k then r.2.1 else conns j) (by simp)
    refine ⟨n + 1, ?_⟩
    rw [List.replicate_succ, State.run]
    have hst : Conn.step env key endErr auto P (.turn k .ok) fs (conns k) = .ok r := by rw [hc]; exact h1
    show (Conn.step env key endErr auto P (.turn k .ok) fs (conns k) >>= fun r => State.run env key endErr auto P
      { fs := r.1, conns := fun j => if j = k then r.2.1 else conns j } (List.replicate n (.turn k .ok)) >>= fun q => .ok (q.1, r.2.2.map (fun e => (k, e)) ++ q.2)) = _
    rw [hst, Res.ok_bind, hn]
    simp only [Res.ok_bind, List.map_append, Res.ok.injEq, Prod.mk.injEq, and_true]
    congr 1
    funext j
    by_cases hj : j = k <;> simp [hj]

/-- The loop gets done with the message. -/
def Finishes (env : Env) (key : Option DecKey) (endErr : Err) (auto : Bool) (P : Program σ) (fs : FS) (c : Conn σ) : Prop :=
  ∃ fs' c' x, Leads env key endErr auto P fs c fs' c' x ∧ c'.place = .waiting ∧ c'.recv = c.recv ∧ c'.gone = c.gone

theorem Finishes.of_turn {fs : FS} {c : Conn σ} {r : FS × Conn σ × List Ev} (h : c.turn env key endErr auto P .ok fs = .ok r)
    (h1 : c.place ≠ .waiting) (h2 : c.place ≠ .ended) (hf : Finishes env key endErr auto P r.1 r.2.1) : Finishes env key endErr auto P fs c := by
  obtain ⟨fs', c', x, g1, g2, g3, g4⟩ := hf
  obtain ⟨t1, -⟩ := c.turn_rest env key endErr auto P .ok h h1 h2
  exact ⟨fs', c', _, .step h g1, g2, g3.trans t1, g4.trans (turn_gone h)⟩

theorem Finishes.waiting {fs : FS} {c : Conn σ} (h : c.place = .waiting) : Finishes env key endErr auto P fs c := ⟨fs, c, [], .refl fs c, h, rfl, rfl⟩

theorem finishes_handler {fs : FS} (code : Code σ) : ∀ c : Conn σ, c.place = .running code none → Finishes env key endErr auto P fs c := by
  induction code with
  | returns u =>
    intro c hc
    refine .of_turn (r := (fs, { c with place := .waiting, sess := { c.sess with user := u } }, [])) (by unfold Conn.turn; rw [hc]) (by simp [hc]) (by simp [hc]) (.waiting rfl)
  | panics u =>
    intro c hc
    refine .of_turn (r := (fs, { c with place := .waiting, sess := { c.sess with user := u } }, [])) (by unfold Conn.turn; rw [hc]) (by simp [hc]) (by simp [hc]) (.waiting rfl)
  | send e next ih =>
    intro c hc
    exact .of_turn (r := (fs, { c with place := .running (next (c.sess.send e).2.2) none, sess := (c.sess.send e).1 }, (c.sess.send e).2.1))
      (by unfold Conn.turn; rw [hc]) (by simp [hc]) (by simp [hc]) (ih _ _ rfl)
  | request e cb next ih =>
    intro c hc
    exact .of_turn (r := (fs, { c with place := .running (next (c.sess.request e cb).2.2) none, sess := (c.sess.request e cb).1 }, (c.sess.request e cb).2.1))
      (by unfold Conn.turn; rw [hc]) (by simp [hc]) (by simp [hc]) (ih _ _ rfl)

theorem finishes_noted {fs : FS} (m : Message Entity) (c : Conn σ) (hc : c.place = .noted m) : Finishes env key endErr auto P fs c := by
  cases hh : P.handlers m.header.msgID with
  | none =>
    exact .of_turn (r := (fs, { c with place := .waiting }, [.unhandled m])) (by unfold Conn.turn; rw [hc]; simp only [hh]) (by simp [hc]) (by simp [hc]) (.waiting rfl)
  | some h =>
    exact .of_turn (r := (fs, { c with place := .running (P.handler h c.sess.user m) none }, [.handled h m])) (by unfold Conn.turn; rw [hc]; simp only [hh]) (by simp [hc])
      (by simp [hc]) (finishes_handler _ _ rfl)

theorem finishes_callback {fs : FS} (m : Message Entity) (code : Code σ) : ∀ c : Conn σ, c.place = .running code (some m) → Finishes env key endErr auto P fs c := by
  induction code with
  | returns u =>
    intro c hc
    exact .of_turn (r := (fs, { c with place := .noted m, sess := { c.sess with user := u } }, [])) (by unfold Conn.turn; rw [hc]) (by simp [hc]) (by simp [hc])
      (finishes_noted m _ rfl)
  | panics u =>
    intro c hc
    exact .of_turn (r := (fs, { c with place := .noted m, sess := { c.sess with user := u } }, [])) (by unfold Conn.turn; rw [hc]) (by simp [hc]) (by simp [hc])
      (finishes_noted m _ rfl)
  | send e next ih =>
    intro c hc
    exact .of_turn (r := (fs, { c with place := .running (next (c.sess.send e).2.2) (some m), sess := (c.sess.send e).1 }, (c.sess.send e).2.1))
      (by unfold Conn.turn; rw [hc]) (by simp [hc]) (by simp [hc]) (ih _ _ rfl)
  | request e cb next ih =>
    intro c hc
    exact .of_turn (r := (fs, { c with place := .running (next (c.sess.request e cb).2.2) (some m), sess := (c.sess.request e cb).1 }, (c.sess.request e cb).2.1))
      (by unfold Conn.turn; rw [hc]) (by simp [hc]) (by simp [hc]) (ih _ _ rfl)

/-- Where the loop can be one step later; it comes closer to the end of the message. -/
theorem finishes {N : RecvState → Prop} (hno : NoPanic env key endErr N) {fs : FS} {c : Conn σ} (hs : Safe N fs c)
    (he : c.place ≠ .ended) : Finishes env key endErr auto P fs c := by
  by_cases hw : c.place = .waiting
  · exact .waiting hw
  have passing : ∀ {fs} {c : Conn σ} (_ : Safe N fs c) m, c.place = .passing m → Finishes env key endErr auto P fs c := by
    intro fs c hs m hc
    obtain ⟨r, h1, h2, h3⟩ := hs.turn (endErr := endErr) (auto := auto) (P := P) (fun hw => hno _ (hs.unread (by rw [hw]; simp))) .ok
    refine .of_turn h1 (by simp [hc]) (by simp [hc]) ?_
    unfold Conn.turn at h1
    rw [hc] at h1
    simp only at h1
    cases hq : replySerial m with
    | err e => rw [hq] at h1; cases h1
    | panic => rw [hq] at h1; cases h1
    | ok serial =>
      rw [hq, Res.ok_bind] at h1
      split at h1
      · cases h1; exact finishes_noted m _ rfl
      · split at h1
        · cases h1; exact finishes_noted m _ rfl
        · cases h1; exact finishes_callback m _ _ rfl
  have full : ∀ {fs} {c : Conn σ} (_ : Safe N fs c) m b p, c.place = .full m b p → Finishes env key endErr auto P fs c := by
    intro fs c hs m b p hc
    obtain ⟨r, h1, h2, h3⟩ := hs.turn (endErr := endErr) (auto := auto) (P := P) (fun hw => hno _ (hs.unread (by rw [hw]; simp))) .ok
    refine .of_turn h1 (by simp [hc]) (by simp [hc]) ?_
    unfold Conn.turn at h1
    rw [hc] at h1
    simp only at h1
    cases hq : (Loop.partFile m b p).merge .ok fs with
    | err e => rw [hq] at h1; cases h1
    | panic => rw [hq] at h1; cases h1
    | ok q =>
      rw [hq, Res.ok_bind] at h1
      split at h1
      · cases h1; exact .waiting rfl
      · cases h1; exact passing h3 _ rfl
  have stored : ∀ {fs} {c : Conn σ} (_ : Safe N fs c) m b p, c.place = .stored m b p → Finishes env key endErr auto P fs c := by
    intro fs c hs m b p hc
    obtain ⟨r, h1, h2, h3⟩ := hs.turn (endErr := endErr) (auto := auto) (P := P) (fun hw => hno _ (hs.unread (by rw [hw]; simp))) .ok
    refine .of_turn h1 (by simp [hc]) (by simp [hc]) ?_
    unfold Conn.turn at h1
    rw [hc] at h1
    simp only at h1
    split at h1
    · cases h1; exact .waiting rfl
    · cases hq : (Loop.partFile m b p).isFull fs with
      | err e => rw [hq] at h1; cases h1
      | panic => rw [hq] at h1; cases h1
      | ok q =>
        rw [hq] at h1
        cases h1
        cases q with
        | true => exact full h3 m b p rfl
        | false => exact .waiting rfl
  have written : ∀ {fs} {c : Conn σ} (_ : Safe N fs c) m b p done, c.place = .written m b p done → Finishes env key endErr auto P fs c := by
    intro fs c hs m b p done hc
    obtain ⟨r, h1, h2, h3⟩ := hs.turn (endErr := endErr) (auto := auto) (P := P) (fun hw => hno _ (hs.unread (by rw [hw]; simp))) .ok
    refine .of_turn h1 (by simp [hc]) (by simp [hc]) ?_
    unfold Conn.turn at h1
    rw [hc] at h1
    cases h1
    cases done with
    | true => exact stored h3 m b p rfl
    | false => exact .waiting rfl
  cases hc : c.place with
  | waiting => exact absurd hc hw
  | ended => exact absurd hc he
  | passing m => exact passing hs m hc
  | full m b p => exact full hs m b p hc
  | stored m b p => exact stored hs m b p hc
  | written m b p done => exact written hs m b p done hc
  | noted m => exact finishes_noted m c hc
  | running code after =>
    cases after with
    | none => exact finishes_handler code c hc
    | some m => exact finishes_callback m code c hc
  | received m =>
    obtain ⟨r, h1, h2, h3⟩ := hs.turn (endErr := endErr) (auto := auto) (P := P) (fun hw => hno _ (hs.unread (by rw [hw]; simp))) .ok
    refine .of_turn h1 hw he ?_
    unfold Conn.turn at h1
    rw [hc] at h1
    simp only at h1
    split at h1
    · split at h1
      · cases h1; exact passing h3 m rfl
      · split at h1
        · split at h1
          · cases h1; exact written h3 _ _ _ _ rfl
          · cases h1
        · cases h1; exact passing h3 m rfl
    · cases h1; exact .waiting rfl

theorem Leads.safe {N : RecvState → Prop} (hno : NoPanic env key endErr N) {fs fs' : FS} {c c' : Conn σ} {x : List Ev}
    (h : Leads env key endErr auto P fs c fs' c' x) (hs : Safe N fs c) : Safe N fs' c' := by
  induction h with
  | refl => exact hs
  | step h1 _ ih =>
    obtain ⟨r, g1, -, g3⟩ := hs.turn (endErr := endErr) (auto := auto) (P := P) (fun hw => hno _ (hs.unread (by rw [hw]; simp))) .ok
    rw [h1] at g1
    cases g1
    exact ih g3

theorem comes_to_rest {N : RecvState → Prop} (hno : NoPanic env key endErr N) (n : Nat) : ∀ {fs : FS} {c : Conn σ},
    Safe N fs c → (c.recv.buffer ++ c.recv.reads.flatten).length ≤ n →
    ∃ fs' c' x, Leads env key endErr auto P fs c fs' c' x ∧ NothingToDo env key c' := by
  induction n using Nat.strongRecOn with
  | _ n ih =>
    intro fs c hs hn
    by_cases he : c.place = .ended
    · exact ⟨fs, c, [], .refl fs c, .inl he⟩
    obtain ⟨fs1, c1, x, g1, g2, g3, g4⟩ := finishes (endErr := endErr) (auto := auto) (P := P) hno hs he
    have hs1 := g1.safe hno hs
    by_cases hst : (!c1.gone && starved env key c1.recv) = true
    · simp only [Bool.and_eq_true, Bool.not_eq_true'] at hst
      exact ⟨fs1, c1, x, g1, .inr ⟨g2, hst.1, fun e => receive_starved e hst.2⟩⟩
    · obtain ⟨r, h1, -, h3⟩ := hs1.turn (endErr := endErr) (auto := auto) (P := P) (fun hw => hno _ (hs1.unread (by rw [hw]; simp))) .ok
      have h1' := h1
      unfold Conn.turn at h1
      rw [g2] at h1
      simp only at h1
      rw [if_neg hst] at h1
      split at h1
      · rename_i m q hq
        cases h1
        obtain ⟨used, f, hu, hf, -, -, hlen⟩ := HangUp.receive_ok hq
        have hlt : (q.buffer ++ q.reads.flatten).length < n := by
          have hn' : (c1.recv.buffer ++ c1.recv.reads.flatten).length ≤ n := by rw [g3]; exact hn
          rw [hu] at hn'
          simp only [List.length_append, List.flatten_append] at hn' ⊢
          rcases hlen with ⟨rfl, hb⟩ | ⟨-, piece, hp, -, hlt⟩
          · have := congrArg List.length hb
            have hfl : 0 < f.length := by
              obtain ⟨w, rfl, -⟩ := hf
              simp
            simp only [List.length_append, List.flatten_nil, List.length_nil] at this hn'
            omega
          · have : piece.length ≤ used.flatten.length := by
              obtain ⟨a, b, rfl⟩ := List.append_of_mem hp
              simp only [List.flatten_append, List.flatten_cons, List.length_append]
              omega
            omega
        obtain ⟨fs2, c2, y, k1, k2⟩ := ih _ hlt h3 (Nat.le_refl _)
        exact ⟨fs2, c2, _, g1.trans (.step h1' k1), k2⟩
      · cases h1
        exact ⟨_, _, _, g1.trans (.step h1' (.refl _ _)), .inl rfl⟩
      · cases h1

end Verif.Crowd
