import Verif.Lemmas.CrowdExample
/-! # The numbers and the requests of a session that any goroutine uses -/

namespace Verif.Crowd
open Converse Session Handler Spec

variable {σ : Type}

/-- What happens, `x`, leads from one count of messages and table of requests to another, as the states have them. -/
def Moves (s : Converse.State σ) (x : List Ev) (s' : Converse.State σ) : Prop :=
  ∀ n t, s.next = counter n → Agree t s.requests →
    ∃ n' t', s'.next = counter n' ∧ Agree t' s'.requests ∧ Converse.Within n n' x ∧ AnswerSteps t (acts x) t' ∧ s'.accepts = s.accepts.drop (n' - n)

theorem Moves.quiet {s s' : Converse.State σ} {x : List Ev} (h1 : s'.next = s.next) (h2 : s'.requests = s.requests) (h0 : s'.accepts = s.accepts) (h3 : attempted x = [])
    (h4 : acts x = []) (h5 : ∀ r, .requested r ∉ x) : Moves s x s' := by
  intro n t hn ht
  refine ⟨n, t, h1.trans hn, by rw [h2]; exact ht, ⟨Nat.le_refl _, by simp [h3], fun r hr => absurd hr (h5 r), ?_⟩, by rw [h4]; exact .nil t, by simp [h0]⟩
  refine List.pairwise_of_forall_mem_list fun a ha b _ r _ he => ?_
  subst he
  exact absurd ha (h5 r)

theorem Moves.refl (s : Converse.State σ) : Moves s [] s := .quiet rfl rfl rfl rfl rfl (by simp)

theorem moves_send (s : Converse.State σ) (e : Entity) : Moves s (s.send e).2.1 (s.send e).1 := by
  intro n t hn ht
  rw [send_eq s n hn e]
  split
  · exact ⟨n + 1, t, rfl, ht, within_sent _ _ _, .nil t, by simp⟩
  · exact ⟨n + 1, t, rfl, ht, within_refused _ _ _, .nil t, by simp⟩

theorem moves_request (s : Converse.State σ) (e : Entity) (cb : Nat) : Moves s (s.request e cb).2.1 (s.request e cb).1 := by
  intro n t hn ht
  rw [request_eq s n hn e cb]
  split
  · exact ⟨n + 1, _, rfl, ht.add _, within_request _ _ _ _, AnswerSteps.one (a := .requested ⟨_, _, _⟩) rfl, by simp⟩
  · exact ⟨n + 1, t, rfl, ht, within_refused _ _ _, .nil t, by simp⟩

theorem moves_reply (s : Converse.State σ) (m : Message Entity) (result : UInt8) : Moves s (s.reply m result).2 (s.reply m result).1 := by
  intro n t hn ht
  obtain ⟨n', t', h1, h2, h3, h4, h5⟩ := moves_send s (.m8001 { replySerial := m.header.serial, replyID := m.header.msgID, result := result }) n t hn ht
  exact ⟨n', t', h1, h2, h3.cons rfl (by simp), h4, h5⟩

theorem send_icc (s : Converse.State σ) (e : Entity) : (s.send e).1.icc = s.icc := by
  unfold State.send
  simp only
  split <;> rfl

theorem request_icc (s : Converse.State σ) (e : Entity) (cb : Nat) : (s.request e cb).1.icc = s.icc := by
  have := send_icc s e
  unfold State.request
  generalize s.send e = r at this ⊢
  obtain ⟨s', x, n⟩ := r
  cases n <;> exact this

theorem reply_icc (s : Converse.State σ) (m : Message Entity) (result : UInt8) : (s.reply m result).1.icc = s.icc := send_icc s _

/-- The terminal numbers that can be found in the session or in the message in work. -/
def nextIcc : Place σ → Option UInt64
  | .received m | .written m _ _ _ | .stored m _ _ | .full m _ _ | .passing m => some m.header.iccID
  | _ => none

/-- Every terminal number is that of a message received. -/
structure From (c : Conn σ) (log : List Ev) : Prop where
  icc : c.sess.icc = 0 ∨ ∃ m, .received m ∈ log ∧ m.header.iccID = c.sess.icc
  place : ∀ i, nextIcc c.place = some i → ∃ m, .received m ∈ log ∧ m.header.iccID = i

theorem From.step {c c' : Conn σ} {log : List Ev} (h : From c log) (x : List Ev) (h1 : c'.sess.icc = c.sess.icc ∨ nextIcc c.place = some c'.sess.icc)
    (h2 : ∀ i, nextIcc c'.place = some i → nextIcc c.place = some i ∨ ∃ m, .received m ∈ x ∧ m.header.iccID = i) : From c' (log ++ x) := by
  have sub : ∀ i, (∃ m, .received m ∈ log ∧ m.header.iccID = i) → ∃ m, .received m ∈ log ++ x ∧ m.header.iccID = i :=
    fun i ⟨m, a, b⟩ => ⟨m, List.mem_append_left _ a, b⟩
  refine ⟨?_, fun i hi => ?_⟩
  · rcases h1 with h1 | h1
    · rcases h.icc with h | h
      · exact .inl (h1.trans h)
      · exact .inr (by rw [h1]; exact sub _ h)
    · exact .inr (sub _ (h.place _ h1))
  · rcases h2 i hi with h' | ⟨m, a, b⟩
    · exact sub _ (h.place _ h')
    · exact ⟨m, List.mem_append_right _ a, b⟩

theorem turn_moves {env : Env} {key : Option DecKey} {endErr : Err} {auto : Bool} {P : Program σ} {o : Outcome} {fs : FS} {c : Conn σ}
    {r : FS × Conn σ × List Ev} (hr : c.turn env key endErr auto P o fs = .ok r) :
    Moves c.sess r.2.2 r.2.1.sess ∧ ∀ log, From c log → From r.2.1 (log ++ r.2.2) := by
  obtain ⟨place, recv, gone, sess⟩ := c
  unfold Conn.turn at hr
  cases place with
  | waiting =>
    simp only at hr
    split at hr
    · cases hr; exact ⟨.refl _, fun log h => h.step _ (.inl rfl) (by simp [nextIcc])⟩
    · split at hr
      · rename_i m _ _
        cases hr
        exact ⟨.quiet rfl rfl rfl rfl rfl (by simp), fun log h => h.step _ (.inl rfl) (by rintro i hi; cases hi; exact .inr ⟨m, by simp, rfl⟩)⟩
      · cases hr; exact ⟨.quiet rfl rfl rfl rfl rfl (by simp), fun log h => h.step _ (.inl rfl) (by simp [nextIcc])⟩
      · cases hr
  | received m =>
    simp only at hr
    split at hr
    · split at hr
      · cases hr; exact ⟨.refl _, fun log h => h.step _ (.inl rfl) fun i hi => .inl hi⟩
      · split at hr
        · split at hr
          · cases hr
            exact ⟨.quiet rfl rfl rfl rfl rfl (by simp), fun log h => h.step _ (.inl rfl) fun i hi => .inl hi⟩
          · cases hr
        · cases hr; exact ⟨.refl _, fun log h => h.step _ (.inl rfl) fun i hi => .inl hi⟩
    · cases hr
      exact ⟨moves_reply _ _ _, fun log h => h.step _ (.inl (reply_icc _ _ _)) (by simp [nextIcc])⟩
  | written m b p done =>
    cases hr
    refine ⟨moves_reply _ _ _, fun log h => h.step _ (.inl (reply_icc _ _ _)) ?_⟩
    cases done
    · simp [nextIcc]
    · exact fun i hi => .inl hi
  | stored m b p =>
    simp only at hr
    split at hr
    · cases hr; exact ⟨.refl _, fun log h => h.step _ (.inl rfl) (by simp [nextIcc])⟩
    · cases hf : (Loop.partFile m b p).isFull fs with
      | err e => rw [hf] at hr; cases hr
      | panic => rw [hf] at hr; cases hr
      | ok full =>
        rw [hf] at hr
        cases hr
        refine ⟨.refl _, fun log h => h.step _ (.inl rfl) ?_⟩
        cases full
        · simp [nextIcc]
        · exact fun i hi => .inl hi
  | full m b p =>
    simp only at hr
    cases hm : (Loop.partFile m b p).merge o fs with
    | err e => rw [hm] at hr; cases hr
    | panic => rw [hm] at hr; cases hr
    | ok w =>
      rw [hm, Res.ok_bind] at hr
      cases hw : w.2 with
      | none =>
        rw [hw] at hr
        cases hr
        exact ⟨.quiet rfl rfl rfl rfl rfl (by simp), fun log h => h.step _ (.inl rfl) (by simp [nextIcc])⟩
      | some content =>
        rw [hw] at hr
        cases hr
        exact ⟨.quiet rfl rfl rfl rfl rfl (by simp), fun log h => h.step _ (.inl rfl) fun i hi => .inl hi⟩
  | passing m =>
    simp only at hr
    cases hs : replySerial m with
    | err e => rw [hs] at hr; cases hr
    | panic => rw [hs] at hr; cases hr
    | ok serial =>
      rw [hs, Res.ok_bind] at hr
      generalize hsess : (if m.header.iccID > 0 then { sess with icc := m.header.iccID } else sess) = s at hr
      have hn : s.next = sess.next := by rw [← hsess]; split <;> rfl
      have hq : s.requests = sess.requests := by rw [← hsess]; split <;> rfl
      have hacc : s.accepts = sess.accepts := by rw [← hsess]; split <;> rfl
      have hi : s.icc = sess.icc ∨ some m.header.iccID = some s.icc := by
        rw [← hsess]
        split
        · exact .inr rfl
        · exact .inl rfl
      split at hr
      · cases hr; exact ⟨.quiet hn hq hacc rfl rfl (by simp), fun log h => h.step _ hi (by simp [nextIcc])⟩
      · rename_i h0
        split at hr
        · cases hr; exact ⟨.quiet hn hq hacc rfl rfl (by simp), fun log h => h.step _ hi (by simp [nextIcc])⟩
        · rename_i r' rs ht
          cases hr
          refine ⟨fun n t h1 h2 => ?_, fun log h => h.step _ hi (by simp [nextIcc])⟩
          obtain ⟨g1, g2⟩ := takeRequest_some serial _ _ _ ht
          rw [← hq] at h2
          obtain ⟨g3, g4⟩ := h2.take g2
          obtain ⟨e, b1, b2⟩ := answered_of_replySerial hs h0
          exact ⟨n, _, hn.trans h1, g4, .other rfl (by simp), AnswerSteps.one (a := .callback _ _) ⟨e, serial, r'.msgID, b1, b2, h0, by rw [g3, g1], rfl⟩, by simp [hacc]⟩
  | running code after =>
    cases code with
    | returns u => cases hr; exact ⟨.quiet rfl rfl rfl rfl rfl (by simp), fun log h => h.step _ (.inl rfl) (by cases after <;> simp [nextIcc])⟩
    | panics u => cases hr; exact ⟨.quiet rfl rfl rfl rfl rfl (by simp), fun log h => h.step _ (.inl rfl) (by cases after <;> simp [nextIcc])⟩
    | send e next => cases hr; exact ⟨moves_send _ _, fun log h => h.step _ (.inl (send_icc _ _)) (by simp [nextIcc])⟩
    | request e cb next => cases hr; exact ⟨moves_request _ _ _, fun log h => h.step _ (.inl (request_icc _ _ _)) (by simp [nextIcc])⟩
  | noted m =>
    simp only at hr
    split at hr
    · cases hr; exact ⟨.quiet rfl rfl rfl rfl rfl (by simp), fun log h => h.step _ (.inl rfl) (by simp [nextIcc])⟩
    · cases hr; exact ⟨.quiet rfl rfl rfl rfl rfl (by simp), fun log h => h.step _ (.inl rfl) (by simp [nextIcc])⟩
  | ended => cases hr; exact ⟨.refl _, fun log h => h.step _ (.inl rfl) (by simp [nextIcc])⟩

theorem step_moves {env : Env} {key : Option DecKey} {endErr : Err} {auto : Bool} {P : Program σ} {e : Event} {fs : FS} {c : Conn σ}
    {r : FS × Conn σ × List Ev} (hr : c.step env key endErr auto P e fs = .ok r) :
    Moves c.sess r.2.2 r.2.1.sess ∧ ∀ log, From c log → From r.2.1 (log ++ r.2.2) := by
  cases e with
  | arrive k p => cases hr; exact ⟨.refl _, fun log h => h.step _ (.inl rfl) fun i hi => .inl hi⟩
  | hangUp k => cases hr; exact ⟨.refl _, fun log h => h.step _ (.inl rfl) fun i hi => .inl hi⟩
  | turn k o => exact turn_moves hr
  | send k e => cases hr; exact ⟨moves_send _ _, fun log h => h.step _ (.inl (send_icc _ _)) fun i hi => .inl hi⟩
  | request k e cb => cases hr; exact ⟨moves_request _ _ _, fun log h => h.step _ (.inl (request_icc _ _ _)) fun i hi => .inl hi⟩

/-- The session has `n` messages and the table `t`, as what has happened says. -/
structure Counted (accepts : List Bool) (c : Conn σ) (log : List Ev) (n : Nat) (t : Table) : Prop where
  next : c.sess.next = counter n
  agree : Agree t c.sess.requests
  within : Converse.Within 0 n log
  steps : AnswerSteps (fun _ => none) (acts log) t
  origin : From c log
  accepts : c.sess.accepts = accepts.drop n

theorem Counted.count {accepts : List Bool} {c : Conn σ} {log : List Ev} {n : Nat} {t : Table} (h : Counted accepts c log n t) : n = (attempted log).length := by
  have := congrArg List.length h.within.serials
  simpa using this.symm

theorem run_counted {env : Env} {key : Option DecKey} {endErr : Err} {auto : Bool} {P : Program σ} (k : Nat) : ∀ (es : List Event) {s s' : State σ}
    {log0 : List Ev} {log : List (Nat × Ev)} {accepts : List Bool} {n : Nat} {t : Table}, Counted accepts (s.conns k) log0 n t → s.run env key endErr auto P es = .ok (s', log) →
    ∃ n' t', Counted accepts (s'.conns k) (log0 ++ logOf k log) n' t'
  | [], s, s', log0, log, accepts, n, t, h, hr => by
    cases hr
    exact ⟨n, t, by simpa [logOf] using h⟩
  | e :: es, s, s', log0, log, accepts, n, t, h, hr => by
    rw [State.run] at hr
    cases hst : (s.conns e.conn).step env key endErr auto P e s.fs with
    | err x => rw [hst] at hr; cases hr
    | panic => rw [hst] at hr; cases hr
    | ok r =>
      rw [hst, Res.ok_bind] at hr
      cases hrest : State.run env key endErr auto P { fs := r.1, conns := fun j => if j = e.conn then r.2.1 else s.conns j } es with
      | err x => rw [hrest] at hr; cases hr
      | panic => rw [hrest] at hr; cases hr
      | ok q =>
        obtain ⟨s1, log1⟩ := q
        rw [hrest] at hr
        cases hr
        by_cases hk : k = e.conn
        · subst hk
          obtain ⟨m1, m2⟩ := step_moves hst
          obtain ⟨n1, t1, a1, a2, a3, a4, a5⟩ := m1 n t h.next h.agree
          have hc : Counted accepts (({ fs := r.1, conns := fun j => if j = e.conn then r.2.1 else s.conns j } : State σ).conns e.conn) (log0 ++ r.2.2) n1 t1 := by
            simp only [if_pos]
            exact ⟨a1, a2, h.within.append a3, by rw [acts_append]; exact AnswerSteps.append h.steps a4, m2 _ h.origin, by
              rw [a5, h.accepts, List.drop_drop, Nat.add_sub_cancel' a3.le]⟩
          obtain ⟨n2, t2, h2⟩ := run_counted e.conn es hc hrest
          refine ⟨n2, t2, ?_⟩
          rw [logOf_append, logOf_own, ← List.append_assoc]
          exact h2
        · obtain ⟨n2, t2, h2⟩ := run_counted k es (s := { fs := r.1, conns := fun j => if j = e.conn then r.2.1 else s.conns j }) (log0 := log0) (n := n) (t := t)
            (by simp only [if_neg hk]; exact h) hrest
          refine ⟨n2, t2, ?_⟩
          rw [logOf_append, logOf_other (Ne.symm hk), List.nil_append]
          exact h2

theorem counted_start (user : Nat → σ) (accepts : Nat → List Bool) (k : Nat) : Counted (accepts k) ((State.start user accepts).conns k) [] 0 (fun _ => none) :=
  ⟨rfl, ⟨by simp [State.start], by simp [State.start]⟩, .nil 0, .nil _, ⟨.inl rfl, by simp [State.start, nextIcc]⟩, rfl⟩

/-- With at most 255 messages, a request that waits is the one in the table with its number. -/
theorem awaits_table {log : List Ev} {n : Nat} {t : Table} (hwi : Converse.Within 0 n log) (hsteps : AnswerSteps (fun _ => none) (acts log) t) (hn : n ≤ 255)
    {r : Pending} (h0 : r.serial ≠ 0) (hw : Awaits r log) :
    t r.msgID = some (r.serial, r.callback) ∧ ∀ id cb, t id = some (r.serial, cb) → id = r.msgID ∧ cb = r.callback := by
  refine waiting_table hsteps ?_
  obtain ⟨l1, l2, rfl, w1, w2⟩ := hw
  refine ⟨acts l1, acts l2, by rw [acts_append]; rfl, fun r' hr => w1 r' (mem_acts_requested hr), ?_, ?_⟩
  · have hp := List.pairwise_append.1 hwi.pairs
    intro r' hr'
    have hne : ∀ i j, i < j → j < n → serialOf i ≠ serialOf j := by
      intro i j h1 h2 heq
      have := congrArg UInt16.toNat heq
      unfold serialOf at this
      simp only [UInt16.toNat_ofNat', Nat.reducePow] at this
      omega
    rcases List.mem_append.1 hr' with hr' | hr'
    · obtain ⟨i, j, -, g2, g3, g4, g5⟩ := hp.2.2 _ (mem_acts_requested hr') _ (by simp) r' r rfl rfl
      rw [g4, g5]
      exact hne i j g2 g3
    · obtain ⟨i, j, -, g2, g3, g4, g5⟩ := (List.pairwise_cons.1 hp.2.1).1 _ (mem_acts_requested hr') r r' rfl rfl
      rw [g4, g5]
      exact (hne i j g2 g3).symm
  · intro cb m' e hc hb he
    exact w2 cb m' (mem_acts_ran hc) ⟨e, hb, he, h0⟩

end Verif.Crowd
