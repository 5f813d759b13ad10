import Verif.Spec.Crowd
import Verif.Lemmas.Isolation
import Verif.Lemmas.Encode
/-! # Other connections do not matter -/

namespace Verif.Crowd
open Converse Session Handler Spec

variable {σ : Type}

/-- What holds of the storage of a loop at its place, when it is alone. -/
def Ready (own : Upload → Bool) (fs : FS) : Place σ → Prop
  | .written m b p done =>
    own ⟨(Loop.partFile m b p).icc, (Loop.partFile m b p).msgID, (Loop.partFile m b p).tag⟩ = true ∧ (done = true → fs (Loop.partFile m b p).icc ≠ none)
  | .stored m b p | .full m b p =>
    own ⟨(Loop.partFile m b p).icc, (Loop.partFile m b p).msgID, (Loop.partFile m b p).tag⟩ = true ∧ fs (Loop.partFile m b p).icc ≠ none
  | _ => True

theorem write_dir (f : Multipart) (o : Outcome) (seq : UInt16) (data : Bytes) (fs : FS) (h : (f.write o seq data fs).2 = true) :
    (f.write o seq data fs).1 f.icc ≠ none := by
  cases o with
  | ok => simp [Multipart.write, FS.set]
  | torn n => cases h
  | noDir => cases h
  | noFile => cases h

/-- The same turn with the files of others left out. -/
theorem Conn.turn_same (env : Env) (key : Option DecKey) (endErr : Err) (auto : Bool) (P : Program σ) (o : Outcome) {own : Upload → Bool} {fs fs' : FS}
    {c : Conn σ} (h : SameFiles own fs fs') (hp : Ready own fs' c.place) {r : FS × Conn σ × List Ev} (hr : c.turn env key endErr auto P o fs = .ok r)
    (hx : ∀ x ∈ r.2.2, ∀ u, evUpload x = some u → own u = true) :
    ∃ fs1, c.turn env key endErr auto P o fs' = .ok (fs1, r.2) ∧ SameFiles own r.1 fs1 ∧ Ready own fs1 r.2.1.place := by
  obtain ⟨place, recv, gone, sess⟩ := c
  unfold Conn.turn at hr ⊢
  cases place with
  | waiting =>
    simp only at hr ⊢
    split at hr
    · rename_i hs
      cases hr
      rw [if_pos hs]
      exact ⟨_, rfl, h, trivial⟩
    · rename_i hs
      rw [if_neg hs]
      split at hr
      · cases hr; exact ⟨_, rfl, h, trivial⟩
      · cases hr; exact ⟨_, rfl, h, trivial⟩
      · cases hr
  | received m =>
    simp only at hr ⊢
    split at hr
    · rename_i e he
      split at hr
      · rename_i ha
        cases hr
        rw [if_pos ha]
        exact ⟨_, rfl, h, trivial⟩
      · rename_i ha
        rw [if_neg ha]
        split at hr
        · rename_i b
          split at hr
          · rename_i p data hp' hd'
            cases hr
            have ho := hx _ (List.mem_singleton.2 rfl) _ rfl
            obtain ⟨w1, w2⟩ := h.write (Loop.partFile m b p) ho o p.seq data
            refine ⟨_, ?_, w1, ho, ?_⟩
            · rw [w2]
            · intro hd
              exact write_dir _ _ _ _ _ (by rw [← w2]; exact hd)
          · cases hr
        · cases hr; exact ⟨_, rfl, h, trivial⟩
    · cases hr; exact ⟨_, rfl, h, trivial⟩
  | written m b p done =>
    cases hr
    refine ⟨_, rfl, h, ?_⟩
    cases done with
    | true => exact ⟨hp.1, hp.2 rfl⟩
    | false => trivial
  | stored m b p =>
    simp only at hr ⊢
    split at hr
    · rename_i hs
      cases hr
      rw [if_pos hs]
      exact ⟨_, rfl, h, trivial⟩
    · rename_i hs
      rw [if_neg hs]
      obtain ⟨full, f1, f2⟩ := isFull_same h (Loop.partFile m b p) hp.1 hp.2
      rw [f1] at hr
      rw [f2]
      cases hr
      refine ⟨_, rfl, h, ?_⟩
      cases full with
      | true => exact hp
      | false => trivial
  | full m b p =>
    simp only at hr ⊢
    obtain ⟨q, q', m1, m2, m3, m4⟩ := h.merge (Loop.partFile m b p) hp.1 hp.2 o
    rw [m1, Res.ok_bind] at hr
    rw [m2, Res.ok_bind, ← m3]
    cases hq : q.2 with
    | none =>
      rw [hq] at hr
      cases hr
      exact ⟨_, rfl, m4, trivial⟩
    | some content =>
      rw [hq] at hr
      cases hr
      exact ⟨_, rfl, m4, trivial⟩
  | passing m =>
    simp only at hr ⊢
    cases hs : replySerial m with
    | err e => rw [hs] at hr; cases hr
    | panic => rw [hs] at hr; cases hr
    | ok serial =>
      rw [hs, Res.ok_bind] at hr
      rw [Res.ok_bind]
      split at hr
      · rename_i hz
        cases hr
        rw [if_pos hz]
        exact ⟨_, rfl, h, trivial⟩
      · rename_i hz
        rw [if_neg hz]
        split at hr <;> (cases hr; exact ⟨_, rfl, h, trivial⟩)
  | running code after =>
    cases code <;> (cases hr; refine ⟨_, rfl, h, ?_⟩; cases after <;> trivial)
  | noted m =>
    simp only at hr ⊢
    split at hr <;> (cases hr; exact ⟨_, rfl, h, trivial⟩)
  | ended => cases hr; exact ⟨_, rfl, h, trivial⟩

/-- A turn of another connection. -/
theorem Conn.turn_foreign (env : Env) (key : Option DecKey) (endErr : Err) (auto : Bool) (P : Program σ) (o : Outcome) {own : Upload → Bool} {fs fs' : FS}
    {c : Conn σ} (h : SameFiles own fs fs') {r : FS × Conn σ × List Ev} (hr : c.turn env key endErr auto P o fs = .ok r)
    (hx : ∀ x ∈ r.2.2, ∀ u, evUpload x = some u → own u = false) : SameFiles own r.1 fs' := by
  obtain ⟨place, recv, gone, sess⟩ := c
  unfold Conn.turn at hr
  cases place with
  | waiting =>
    simp only at hr
    split at hr
    · cases hr; exact h
    · split at hr
      · cases hr; exact h
      · cases hr; exact h
      · cases hr
  | received m =>
    simp only at hr
    split at hr
    · rename_i e he
      split at hr
      · cases hr; exact h
      · split at hr
        · rename_i b
          split at hr
          · rename_i p data hp' hd'
            cases hr
            exact h.write_foreign (Loop.partFile m b p) (hx _ (List.mem_singleton.2 rfl) _ rfl) o p.seq data
          · cases hr
        · cases hr; exact h
    · cases hr; exact h
  | written m b p done => cases hr; exact h
  | stored m b p =>
    simp only at hr
    split at hr
    · cases hr; exact h
    · cases hf : (Loop.partFile m b p).isFull fs with
      | err e => rw [hf] at hr; cases hr
      | panic => rw [hf] at hr; cases hr
      | ok full => rw [hf] at hr; cases hr; exact h
  | full m b p =>
    simp only at hr
    cases hm : (Loop.partFile m b p).merge o fs with
    | err e => rw [hm] at hr; cases hr
    | panic => rw [hm] at hr; cases hr
    | ok q =>
      rw [hm, Res.ok_bind] at hr
      cases hq : q.2 with
      | none =>
        rw [hq] at hr
        cases hr
        exact h.merge_left _ (.inl (hx _ (List.mem_singleton.2 rfl) _ rfl)) o q hm
      | some content =>
        rw [hq] at hr
        cases hr
        exact h.merge_left _ (.inl (hx _ (List.mem_singleton.2 rfl) _ rfl)) o q hm
  | passing m =>
    simp only at hr
    cases hs : replySerial m with
    | err e => rw [hs] at hr; cases hr
    | panic => rw [hs] at hr; cases hr
    | ok serial =>
      rw [hs, Res.ok_bind] at hr
      split at hr
      · cases hr; exact h
      · split at hr <;> (cases hr; exact h)
  | running code after => cases code <;> (cases hr; exact h)
  | noted m =>
    simp only at hr
    split at hr <;> (cases hr; exact h)
  | ended => cases hr; exact h

theorem Conn.step_same (env : Env) (key : Option DecKey) (endErr : Err) (auto : Bool) (P : Program σ) (e : Event) {own : Upload → Bool} {fs fs' : FS}
    {c : Conn σ} (h : SameFiles own fs fs') (hp : Ready own fs' c.place) {r : FS × Conn σ × List Ev} (hr : c.step env key endErr auto P e fs = .ok r)
    (hx : ∀ x ∈ r.2.2, ∀ u, evUpload x = some u → own u = true) :
    ∃ fs1, c.step env key endErr auto P e fs' = .ok (fs1, r.2) ∧ SameFiles own r.1 fs1 ∧ Ready own fs1 r.2.1.place := by
  cases e with
  | turn k o => exact c.turn_same env key endErr auto P o h hp hr hx
  | arrive k piece => cases hr; exact ⟨_, rfl, h, hp⟩
  | hangUp k => cases hr; exact ⟨_, rfl, h, hp⟩
  | send k e => cases hr; exact ⟨_, rfl, h, hp⟩
  | request k e cb => cases hr; exact ⟨_, rfl, h, hp⟩

theorem Conn.step_foreign (env : Env) (key : Option DecKey) (endErr : Err) (auto : Bool) (P : Program σ) (e : Event) {own : Upload → Bool} {fs fs' : FS}
    {c : Conn σ} (h : SameFiles own fs fs') {r : FS × Conn σ × List Ev} (hr : c.step env key endErr auto P e fs = .ok r)
    (hx : ∀ x ∈ r.2.2, ∀ u, evUpload x = some u → own u = false) : SameFiles own r.1 fs' := by
  cases e with
  | turn k o => exact c.turn_foreign env key endErr auto P o h hr hx
  | arrive k piece => cases hr; exact h
  | hangUp k => cases hr; exact h
  | send k e => cases hr; exact h
  | request k e cb => cases hr; exact h

/-- A run, event by event. -/
theorem State.run_cons {env : Env} {key : Option DecKey} {endErr : Err} {auto : Bool} {P : Program σ} {s t : State σ} {e : Event} {es : List Event}
    {log : List (Nat × Ev)} (h : s.run env key endErr auto P (e :: es) = .ok (t, log)) :
    ∃ r y, (s.conns e.conn).step env key endErr auto P e s.fs = .ok r ∧
      State.run env key endErr auto P { fs := r.1, conns := fun j => if j = e.conn then r.2.1 else s.conns j } es = .ok (t, y) ∧
      log = r.2.2.map (fun x => (e.conn, x)) ++ y := by
  unfold State.run at h
  cases hr : (s.conns e.conn).step env key endErr auto P e s.fs with
  | err e => rw [hr] at h; cases h
  | panic => rw [hr] at h; cases h
  | ok r =>
    rw [hr, Res.ok_bind] at h
    cases hs : State.run env key endErr auto P { fs := r.1, conns := fun j => if j = e.conn then r.2.1 else s.conns j } es with
    | err e => rw [hs] at h; cases h
    | panic => rw [hs] at h; cases h
    | ok q =>
      rw [hs, Res.ok_bind] at h
      cases h
      exact ⟨r, q.2, rfl, hs, rfl⟩

theorem logOf_append (k : Nat) (x y : List (Nat × Ev)) : logOf k (x ++ y) = logOf k x ++ logOf k y := List.filterMap_append

theorem logOf_own (k : Nat) (x : List Ev) : logOf k (x.map fun e => (k, e)) = x := by
  induction x with
  | nil => rfl
  | cons e x ih => unfold logOf at ih ⊢; simp [ih]

theorem logOf_other {j k : Nat} (h : j ≠ k) (x : List Ev) : logOf k (x.map fun e => (j, e)) = [] := by
  induction x with
  | nil => rfl
  | cons e x ih => unfold logOf at ih ⊢; simp [h, ih]

/-- A connection among others, and alone. -/
theorem run_alone (env : Env) (key : Option DecKey) (endErr : Err) (auto : Bool) (P : Program σ) (own : Upload → Bool) (k : Nat) (es : List Event) :
    ∀ {s s' t : State σ} {log : List (Nat × Ev)}, s.conns k = s'.conns k → SameFiles own s.fs s'.fs → Ready own s'.fs (s'.conns k).place →
      s.run env key endErr auto P es = .ok (t, log) → (∀ x ∈ log, ∀ u, evUpload x.2 = some u → own u = decide (x.1 = k)) →
      ∃ t', s'.run env key endErr auto P (eventsOf k es) = .ok (t', (logOf k log).map fun x => (k, x)) ∧ t'.conns k = t.conns k ∧
        SameFiles own t.fs t'.fs ∧ Ready own t'.fs (t'.conns k).place := by
  induction es with
  | nil =>
    intro s s' t log h1 h2 h3 h4 h5
    cases h4
    exact ⟨s', rfl, h1.symm, h2, h3⟩
  | cons e es ih =>
    intro s s' t log h1 h2 h3 h4 h5
    obtain ⟨r, y, g1, g2, rfl⟩ := State.run_cons h4
    have hy : ∀ x ∈ y, ∀ u, evUpload x.2 = some u → own u = decide (x.1 = k) := fun x hx => h5 x (List.mem_append_right _ hx)
    by_cases hk : e.conn = k
    · subst hk
      rw [h1] at g1
      obtain ⟨fs1, f1, f2, f3⟩ := Conn.step_same env key endErr auto P e h2 h3 g1 (by
        intro x hx u hu
        rw [h5 (e.conn, x) (List.mem_append_left _ (List.mem_map.2 ⟨x, hx, rfl⟩)) u hu]
        simp)
      obtain ⟨t', q1, q2, q3, q4⟩ := ih (s' := { fs := fs1, conns := fun j => if j = e.conn then r.2.1 else s'.conns j }) (by simp) f2 (by simpa using f3) g2 hy
      refine ⟨t', ?_, q2, q3, q4⟩
      unfold eventsOf at q1 ⊢
      rw [List.filter_cons_of_pos (by simp), State.run, f1]
      simp only [Res.ok_bind]
      rw [q1]
      simp only [Res.ok_bind, logOf_append, logOf_own, List.map_append]
    · have hf := Conn.step_foreign env key endErr auto P e h2 g1 (by
        intro x hx u hu
        rw [h5 (e.conn, x) (List.mem_append_left _ (List.mem_map.2 ⟨x, hx, rfl⟩)) u hu]
        simpa using hk)
      obtain ⟨t', q1, q2, q3, q4⟩ := ih (s' := s') (by simp [Ne.symm hk, h1]) hf h3 g2 hy
      refine ⟨t', ?_, q2, q3, q4⟩
      unfold eventsOf at q1 ⊢
      rw [List.filter_cons_of_neg (by simpa using hk), q1, logOf_append, logOf_other hk, List.nil_append]

theorem sameFiles_refl (own : Upload → Bool) (fs : FS) : SameFiles own fs fs := ⟨fun _ => rfl, fun _ _ => rfl, fun _ h => h⟩

end Verif.Crowd
