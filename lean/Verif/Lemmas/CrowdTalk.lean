import Verif.Lemmas.Crowd
import Verif.Lemmas.HangUp
import Verif.Props.Converse
/-! # One loop, step by step and from message to message -/

namespace Verif.Crowd
open Converse Session Handler Spec

variable {σ : Type}

/-- What happened before, put first. -/
def prepend (x : List Ev) (r : Res (Converse.State σ × List Ev)) : Res (Converse.State σ × List Ev) := r.bind fun q => .ok (q.1, x ++ q.2)

theorem prepend_nil (r : Res (Converse.State σ × List Ev)) : prepend [] r = r := by cases r <;> rfl

theorem prepend_append (x y : List Ev) (r : Res (Converse.State σ × List Ev)) : prepend x (prepend y r) = prepend (x ++ y) r := by
  cases r <;> simp [prepend, Res.bind]

/-- What is left to do of the message. -/
def rest (auto : Bool) (P : Program σ) (s : Converse.State σ) (o : Outcome × Outcome) : Place σ → Res (Converse.State σ × List Ev)
  | .waiting => .ok (s, [])
  | .received m => s.process auto P o m
  | .written m b p done =>
    let r := s.reply m (if done then 0 else 1)
    if !done then .ok r else prepend r.2 (r.1.check P o.2 m b p)
  | .stored m b p => s.check P o.2 m b p
  | .full m b p => do
    let r ← (Loop.partFile m b p).merge o.2 s.fs
    match r.2 with
    | none => .ok ({ s with fs := r.1 }, [.merged (Loop.partFile m b p) o.2])
    | some content =>
      prepend [.merged (Loop.partFile m b p) o.2] (State.deliver P { s with fs := r.1 } { m with body := .val (.m0801 { b with packet := some content }) })
  | .passing m => s.deliver P m
  | .running code (some m) => prepend (s.exec code).2.1 ((s.exec code).1.dispatch P m)
  | .running code none => .ok ((s.exec code).1, (s.exec code).2.1)
  | .noted m => s.dispatch P m
  | .ended => .ok (s, [])

theorem send_fs (s : Converse.State σ) (fs : FS) (e : Entity) : State.send { s with fs := fs } e = ({ (s.send e).1 with fs := fs }, (s.send e).2) := by
  unfold State.send
  simp only
  split <;> rfl

theorem request_fs (s : Converse.State σ) (fs : FS) (e : Entity) (cb : Nat) :
    State.request { s with fs := fs } e cb = ({ (s.request e cb).1 with fs := fs }, (s.request e cb).2) := by
  unfold State.request
  rw [send_fs]
  rcases s.send e with ⟨s', x, n⟩
  cases n <;> rfl

theorem reply_fs (s : Converse.State σ) (fs : FS) (m : Message Entity) (n : UInt8) :
    State.reply { s with fs := fs } m n = ({ (s.reply m n).1 with fs := fs }, (s.reply m n).2) := by
  unfold State.reply
  rw [send_fs]

theorem dispatch_code (P : Program σ) (s : Converse.State σ) (m : Message Entity) (h : Nat) (hh : P.handlers m.header.msgID = some h) :
    s.dispatch P m = prepend [.handled h m] (.ok ((s.exec (P.handler h s.user m)).1, (s.exec (P.handler h s.user m)).2.1)) := by
  unfold State.dispatch
  rw [hh]
  simp only
  cases (s.exec (P.handler h s.user m)).2.2 <;> rfl

theorem deliver_prepend (P : Program σ) {s s' : Converse.State σ} {m : Message Entity} {x : List Ev} (h : s.note P m = .ok (s', x)) :
    s.deliver P m = prepend x (s'.dispatch P m) := by
  unfold State.deliver
  rw [h]
  simp only [Res.ok_bind]
  cases s'.dispatch P m <;> rfl

/-- Every turn of a loop in the middle of a message does a little of what is left. -/
theorem Conn.turn_rest (env : Env) (key : Option DecKey) (endErr : Err) (auto : Bool) (P : Program σ) (o : Outcome) {fs : FS} {c : Conn σ}
    {r : FS × Conn σ × List Ev} (hr : c.turn env key endErr auto P o fs = .ok r) (h1 : c.place ≠ .waiting) (h2 : c.place ≠ .ended) :
    r.2.1.recv = c.recv ∧ r.2.1.place ≠ .ended ∧
    ∃ g : Outcome × Outcome → Outcome × Outcome, (∀ Q : Outcome → Prop, Q o → ∀ q, Q q.1 → Q q.2 → Q (g q).1 ∧ Q (g q).2) ∧
      ∀ q, rest auto P { c.sess with fs := fs } (g q) c.place = prepend r.2.2 (rest auto P { r.2.1.sess with fs := r.1 } q r.2.1.place) := by
  obtain ⟨place, recv, gone, sess⟩ := c
  unfold Conn.turn at hr
  cases place with
  | waiting => exact absurd rfl h1
  | ended => exact absurd rfl h2
  | received m =>
    simp only at hr
    split at hr
    · rename_i e he
      split at hr
      · rename_i ha
        cases hr
        refine ⟨rfl, by simp, id, fun Q _ q a b => ⟨a, b⟩, fun q => ?_⟩
        rw [prepend_nil]
        simp only [rest, State.process, he, id]
        rw [if_pos ha]
      · rename_i ha
        split at hr
        · rename_i b
          split at hr
          · rename_i p data hp hd
            cases hr
            refine ⟨rfl, by simp, fun q => (o, q.2), fun Q ho q a b => ⟨ho, b⟩, fun q => ?_⟩
            simp only [rest, State.process, he]
            rw [if_neg ha, hp, hd]
            simp only [State.part]
            cases hw : ((Loop.partFile m b p).write o p.seq data fs).2 with
            | false => rfl
            | true =>
              simp only [Bool.not_true, Bool.false_eq_true, if_false, if_true]
              generalize State.check P _ _ _ _ _ = t
              cases t <;> rfl
          · cases hr
        · rename_i hne
          cases hr
          refine ⟨rfl, by simp, id, fun Q _ q a b => ⟨a, b⟩, fun q => ?_⟩
          rw [prepend_nil]
          simp only [rest, State.process, he, id]
          rw [if_neg ha]
    · rename_i hne
      cases hr
      refine ⟨rfl, by simp, id, fun Q _ q a b => ⟨a, b⟩, fun q => ?_⟩
      simp only [rest, State.process, id, prepend, Res.bind, List.append_nil]
      cases hb : m.body with
      | val e => exact absurd hb (hne e)
      | _ => simp [reply_fs]
  | written m b p done =>
    cases hr
    cases done with
    | false =>
      refine ⟨rfl, by simp, id, fun Q _ q a b => ⟨a, b⟩, fun q => ?_⟩
      simp [rest, prepend, Res.bind, reply_fs]
    | true =>
      refine ⟨rfl, by simp, id, fun Q _ q a b => ⟨a, b⟩, fun q => ?_⟩
      simp [rest, reply_fs]
  | stored m b p =>
    simp only at hr
    split at hr
    · rename_i hs
      cases hr
      refine ⟨rfl, by simp, id, fun Q _ q a b => ⟨a, b⟩, fun q => ?_⟩
      simp only [rest, State.check, prepend_nil]
      rw [if_pos hs]
    · rename_i hs
      cases hf : (Loop.partFile m b p).isFull fs with
      | err e => rw [hf] at hr; cases hr
      | panic => rw [hf] at hr; cases hr
      | ok full =>
        rw [hf] at hr
        cases hr
        refine ⟨rfl, by cases full <;> simp, id, fun Q _ q a b => ⟨a, b⟩, fun q => ?_⟩
        simp only [rest, State.check, prepend_nil]
        rw [if_neg hs, hf]
        cases full with
        | false => rfl
        | true =>
          simp only [Res.ok_bind, id, Bool.not_true, Bool.false_eq_true, if_false, if_true, rest]
          cases (Loop.partFile m b p).merge q.2 fs with
          | err e => rfl
          | panic => rfl
          | ok r =>
            simp only [Res.ok_bind]
            cases r.2 with
            | none => rfl
            | some content =>
              simp only
              generalize State.deliver P _ _ = t
              cases t <;> rfl
  | full m b p =>
    simp only at hr
    cases hm : (Loop.partFile m b p).merge o fs with
    | err e => rw [hm] at hr; cases hr
    | panic => rw [hm] at hr; cases hr
    | ok w =>
      rw [hm, Res.ok_bind] at hr
      cases hw : w.2 with
      | none =>
        rw [hw] at hr
        cases hr
        refine ⟨rfl, by simp, fun q => (q.1, o), fun Q ho q a b => ⟨a, ho⟩, fun q => ?_⟩
        simp only [rest]
        rw [hm, Res.ok_bind, hw]
        rfl
      | some content =>
        rw [hw] at hr
        cases hr
        refine ⟨rfl, by simp, fun q => (q.1, o), fun Q ho q a b => ⟨a, ho⟩, fun q => ?_⟩
        simp only [rest]
        rw [hm, Res.ok_bind, hw]
  | passing m =>
    simp only at hr
    cases hs : replySerial m with
    | err e => rw [hs] at hr; cases hr
    | panic => rw [hs] at hr; cases hr
    | ok serial =>
      rw [hs, Res.ok_bind] at hr
      have hi : (if m.header.iccID > 0 then { ({ sess with fs := fs } : Converse.State σ) with icc := m.header.iccID } else { sess with fs := fs }) =
          { (if m.header.iccID > 0 then { sess with icc := m.header.iccID } else sess) with fs := fs } := by split <;> rfl
      generalize hsess : (if m.header.iccID > 0 then { sess with icc := m.header.iccID } else sess) = s at hr hi
      split at hr
      · rename_i hz
        cases hr
        refine ⟨rfl, by simp, id, fun Q _ q a b => ⟨a, b⟩, fun q => ?_⟩
        refine deliver_prepend P ?_
        unfold State.note
        rw [hi, hs]
        simp only [Res.ok_bind]
        rw [if_pos hz]
      · rename_i hz
        split at hr
        · rename_i ht
          cases hr
          refine ⟨rfl, by simp, id, fun Q _ q a b => ⟨a, b⟩, fun q => ?_⟩
          refine deliver_prepend P ?_
          unfold State.note
          rw [hi, hs]
          simp only [Res.ok_bind]
          rw [if_neg hz, ht]
        · rename_i r' rs ht
          cases hr
          refine ⟨rfl, by simp, id, fun Q _ q a b => ⟨a, b⟩, fun q => ?_⟩
          simp only [rest, prepend_append]
          refine deliver_prepend P ?_
          unfold State.note
          rw [hi, hs]
          simp only [Res.ok_bind]
          rw [if_neg hz, ht]
          simp only
          generalize State.exec _ _ = t
          obtain ⟨a, b, c⟩ := t
          cases c <;> rfl
  | running code after =>
    cases code with
    | returns u =>
      cases hr
      refine ⟨rfl, by cases after <;> simp, id, fun Q _ q a b => ⟨a, b⟩, fun q => ?_⟩
      cases after <;> simp [rest, State.exec, prepend_nil]
    | panics u =>
      cases hr
      refine ⟨rfl, by cases after <;> simp, id, fun Q _ q a b => ⟨a, b⟩, fun q => ?_⟩
      cases after <;> simp [rest, State.exec, prepend_nil]
    | send e next =>
      cases hr
      refine ⟨rfl, by simp, id, fun Q _ q a b => ⟨a, b⟩, fun q => ?_⟩
      cases after with
      | none => simp [rest, State.exec, send_fs, prepend, Res.bind]
      | some m => simp [rest, State.exec, send_fs, prepend_append]
    | request e cb next =>
      cases hr
      refine ⟨rfl, by simp, id, fun Q _ q a b => ⟨a, b⟩, fun q => ?_⟩
      cases after with
      | none => simp [rest, State.exec, request_fs, prepend, Res.bind]
      | some m => simp [rest, State.exec, request_fs, prepend_append]
  | noted m =>
    simp only at hr
    split at hr
    · rename_i hh
      cases hr
      refine ⟨rfl, by simp, id, fun Q _ q a b => ⟨a, b⟩, fun q => ?_⟩
      simp only [rest, State.dispatch]
      rw [hh]
      rfl
    · rename_i h hh
      cases hr
      refine ⟨rfl, by simp, id, fun Q _ q a b => ⟨a, b⟩, fun q => ?_⟩
      simp only [rest]
      rw [dispatch_code P _ m h hh]

/-! ## Reading -/

theorem starvedLoop_true {env : Env} {key : Option DecKey} (endErr : Err) (reads : List Bytes) : ∀ {buf : Bytes}, starvedLoop env key reads buf = true →
    (Codec.recvLoop (entityCodec env) key endErr reads buf).1 = .err endErr := by
  induction reads with
  | nil => intro buf _; rfl
  | cons x reads ih =>
    intro buf h
    rw [starvedLoop] at h
    rw [Codec.recvLoop]
    split at h
    · rename_i h0
      rw [if_pos h0]
      exact ih h
    · rename_i h0
      rw [if_neg h0]
      split at h
      · cases h
      · rename_i h1
        rw [if_neg h1]
        split at h
        · rename_i hb
          rw [hb]
          exact ih h
        · cases h

theorem starvedLoop_false {env : Env} {key : Option DecKey} (e e' : Err) (reads : List Bytes) : ∀ {buf : Bytes}, starvedLoop env key reads buf = false →
    Codec.recvLoop (entityCodec env) key e reads buf = Codec.recvLoop (entityCodec env) key e' reads buf := by
  induction reads with
  | nil => intro buf h; cases h
  | cons x reads ih =>
    intro buf h
    rw [starvedLoop] at h
    rw [Codec.recvLoop, Codec.recvLoop]
    split at h
    · rename_i h0
      rw [if_pos h0, if_pos h0]
      exact ih h
    · rename_i h0
      rw [if_neg h0, if_neg h0]
      split
      · rfl
      · rename_i h1
        rw [if_neg h1] at h
        cases hb : Codec.readFromBuffer (entityCodec env) key (buf ++ x) with
        | mk a b =>
          rw [hb] at h
          cases a with
          | err e => rfl
          | panic => rfl
          | ok m =>
            cases m with
            | some m => rfl
            | none => exact ih h

theorem receive_starved {env : Env} {key : Option DecKey} (endErr : Err) {c : RecvState} (h : starved env key c = true) :
    (Codec.receive (entityCodec env) key endErr c).1 = .err endErr := by
  unfold starved at h
  unfold Codec.receive
  split at h
  · rename_i hb
    rw [hb]
    exact starvedLoop_true endErr _ h
  · cases h

theorem receive_not_starved {env : Env} {key : Option DecKey} (e e' : Err) {c : RecvState} (h : starved env key c = false) :
    Codec.receive (entityCodec env) key e c = Codec.receive (entityCodec env) key e' c := by
  unfold starved at h
  unfold Codec.receive
  cases hb : Codec.readFromBuffer (entityCodec env) key c.buffer with
  | mk a b =>
    rw [hb] at h
    cases a with
    | err e => rfl
    | panic => rfl
    | ok m =>
      cases m with
      | some m => rfl
      | none => exact starvedLoop_false e e' _ h

/-- One more call of `Receive`. -/
theorem receiveMany_snoc (env : Env) (key : Option DecKey) (endErr : Err) (n : Nat) : ∀ c : RecvState,
    receiveMany (entityCodec env) key endErr (n + 1) c =
      ((receiveMany (entityCodec env) key endErr n c).1 ++ [(Codec.receive (entityCodec env) key endErr (receiveMany (entityCodec env) key endErr n c).2).1],
       (Codec.receive (entityCodec env) key endErr (receiveMany (entityCodec env) key endErr n c).2).2) := by
  induction n with
  | zero => intro c; rfl
  | succ n ih =>
    intro c
    rw [receiveMany]
    simp only
    rw [ih]
    rfl

/-- The messages received so far, and what is left. -/
def Got (env : Env) (key : Option DecKey) (endErr : Err) (l : List (Message Entity)) (c c' : RecvState) : Prop :=
  receiveMany (entityCodec env) key endErr l.length c = (l.map .ok, c')

theorem Got.snoc {env : Env} {key : Option DecKey} {endErr : Err} {l : List (Message Entity)} {c c' c'' : RecvState} {m : Message Entity}
    (h : Got env key endErr l c c') (hm : Codec.receive (entityCodec env) key endErr c' = (.ok m, c'')) : Got env key endErr (l ++ [m]) c c'' := by
  unfold Got at h ⊢
  rw [List.length_append, List.length_singleton, receiveMany_snoc, h, hm]
  simp

/-- Bytes that arrive later are read later. -/
theorem Got.later {env : Env} {key : Option DecKey} {endErr : Err} {l : List (Message Entity)} (rs : List Bytes) : ∀ {c c' : RecvState},
    Got env key endErr l c c' → Got env key endErr l ⟨c.buffer, c.reads ++ rs⟩ ⟨c'.buffer, c'.reads ++ rs⟩ := by
  induction l with
  | nil =>
    intro c c' h
    cases h
    rfl
  | cons m l ih =>
    intro c c' h
    unfold Got at h ih ⊢
    rw [List.length_cons, receiveMany] at h ⊢
    cases hr : Codec.receive (entityCodec env) key endErr c with
    | mk a c1 =>
      rw [hr] at h
      simp only [List.map_cons, Prod.mk.injEq, List.cons.injEq] at h
      obtain ⟨⟨rfl, h1⟩, h2⟩ := h
      obtain ⟨used, f, h3, -, -, h4, -⟩ := HangUp.receive_ok hr
      have := h4 (c1.reads ++ rs)
      rw [← List.append_assoc, ← h3] at this
      rw [this]
      simp only [List.map_cons]
      rw [ih (c := c1) (c' := c') (by rw [← h1, ← h2])]

/-- Received messages do not depend on the error at the end. -/
theorem Got.anyEnd {env : Env} {key : Option DecKey} {endErr : Err} {l : List (Message Entity)} (e' : Err) : ∀ {c c' : RecvState},
    Got env key endErr l c c' → Got env key e' l c c' := by
  induction l with
  | nil => intro c c' h; exact h
  | cons m l ih =>
    intro c c' h
    unfold Got at h ih ⊢
    rw [List.length_cons, receiveMany] at h ⊢
    cases hr : Codec.receive (entityCodec env) key endErr c with
    | mk a c1 =>
      rw [hr] at h
      simp only [List.map_cons, Prod.mk.injEq, List.cons.injEq] at h
      obtain ⟨⟨rfl, h1⟩, h2⟩ := h
      have hs : starved env key c = false := by
        cases hs : starved env key c with
        | false => rfl
        | true => have := receive_starved endErr hs; rw [hr] at this; cases this
      rw [receive_not_starved e' endErr hs, hr]
      simp only [List.map_cons]
      rw [ih (c := c1) (c' := c') (by rw [← h1, ← h2])]

/-! ## The course of one connection -/

theorem turn_gone {env : Env} {key : Option DecKey} {endErr : Err} {auto : Bool} {P : Program σ} {o : Outcome} {fs : FS} {c : Conn σ}
    {r : FS × Conn σ × List Ev} (h : c.turn env key endErr auto P o fs = .ok r) : r.2.1.gone = c.gone := by
  obtain ⟨place, recv, gone, sess⟩ := c
  unfold Conn.turn at h
  cases place with
  | running code after => cases code <;> (cases h; rfl)
  | stored m b p =>
    simp only at h
    split at h
    · cases h; rfl
    · cases hf : (Loop.partFile m b p).isFull fs with
      | ok full => rw [hf] at h; cases h; rfl
      | err e => rw [hf] at h; cases h
      | panic => rw [hf] at h; cases h
  | full m b p =>
    simp only at h
    cases hf : (Loop.partFile m b p).merge o fs with
    | err e => rw [hf] at h; cases h
    | panic => rw [hf] at h; cases h
    | ok r =>
      rw [hf, Res.ok_bind] at h
      split at h <;> (cases h; rfl)
  | passing m =>
    simp only at h
    cases hf : replySerial m with
    | err e => rw [hf] at h; cases h
    | panic => rw [hf] at h; cases h
    | ok serial =>
      rw [hf, Res.ok_bind] at h
      repeat' split at h
      all_goals (cases h; rfl)
  | _ =>
    simp only at h
    repeat' split at h
    all_goals (cases h; try rfl)

/-- What the loop of a connection has done: the messages it is done with, as a loop on messages does them, and a part of the next one. `H`: the terminal can have hung
up when this has arrived. -/
structure Inv (env : Env) (key : Option DecKey) (endErr : Err) (auto : Bool) (P : Program σ) (Q : Outcome → Prop) (H : List Bytes → Prop) (s0 : Converse.State σ)
    (pieces : List Bytes) (log : List Ev) (fs : FS) (c : Conn σ) (ms : List (Message Entity × Outcome × Outcome)) (S : Converse.State σ) (done : List Ev) : Prop where
  run : s0.run auto P ms = .ok (S, done)
  outcomes : ∀ x ∈ ms, Q x.2.1 ∧ Q x.2.2
  delivered : ∀ x ∈ ms, Delivered x.1
  waiting : c.place = .waiting → log = done ∧ S = { c.sess with fs := fs } ∧ Got env key endErr (ms.map (·.1)) ⟨[], pieces⟩ c.recv
  ended : c.place = .ended → log = done ++ [.closed] ∧ S = { c.sess with fs := fs } ∧ ∃ before r e, before <+: pieces ∧
    Got env key endErr (ms.map (·.1)) ⟨[], before⟩ r ∧ (Codec.receive (entityCodec env) key endErr r).1 = .err e ∧ (starved env key r = false ∨ H before)
  middle : c.place ≠ .waiting → c.place ≠ .ended → ∃ m x, Delivered m ∧ log = done ++ .received m :: x ∧ Got env key endErr (ms.map (·.1) ++ [m]) ⟨[], pieces⟩ c.recv ∧
    ∃ g : Outcome × Outcome → Outcome × Outcome, (∀ q, Q q.1 → Q q.2 → Q (g q).1 ∧ Q (g q).2) ∧
      ∀ q, S.process auto P (g q) m = prepend x (rest auto P { c.sess with fs := fs } q c.place)
  hung : c.gone = true → H pieces

theorem run_snoc (auto : Bool) (P : Program σ) {s0 S S' : Converse.State σ} {ms : List (Message Entity × Outcome × Outcome)} {done x : List Ev} {m : Message Entity}
    {o : Outcome × Outcome} (h : s0.run auto P ms = .ok (S, done)) (hp : S.process auto P o m = .ok (S', x)) :
    s0.run auto P (ms ++ [(m, o)]) = .ok (S', done ++ .received m :: x) := by
  rw [Converse.run_append, h]
  have : S.run auto P [(m, o)] = .ok (S', .received m :: x) := by
    unfold Converse.State.run
    rw [hp]
    simp [Converse.State.run, Res.ok_bind]
  rw [Res.bind, this]
  rfl

theorem Inv.turn {env : Env} {key : Option DecKey} {endErr : Err} {auto : Bool} {P : Program σ} {Q : Outcome → Prop} {H : List Bytes → Prop} {s0 : Converse.State σ}
    {pieces : List Bytes} {log : List Ev} {fs : FS} {c : Conn σ} {ms : List (Message Entity × Outcome × Outcome)} {S : Converse.State σ} {done : List Ev} (hQ : Q .ok)
    (h : Inv env key endErr auto P Q H s0 pieces log fs c ms S done) (o : Outcome) (ho : Q o) {r : FS × Conn σ × List Ev}
    (hr : c.turn env key endErr auto P o fs = .ok r) : ∃ ms' S' done', Inv env key endErr auto P Q H s0 pieces (log ++ r.2.2) r.1 r.2.1 ms' S' done' := by
  have hgone := turn_gone hr
  have hung : r.2.1.gone = true → H pieces := fun hg => h.hung (by rw [← hgone, hg])
  by_cases hw : c.place = .waiting
  · obtain ⟨w1, w2, w3⟩ := h.waiting hw
    unfold Conn.turn at hr
    rw [hw] at hr
    simp only at hr
    split at hr
    · cases hr
      rw [List.append_nil]
      exact ⟨ms, S, done, h⟩
    · rename_i hs
      split at hr
      · rename_i m r' hm
        cases hr
        obtain ⟨used, f, -, -, hd, -⟩ := HangUp.receive_ok hm
        refine ⟨ms, S, done, h.run, h.outcomes, h.delivered, fun hp => (by cases hp), fun hp => (by cases hp), fun _ _ => ?_, h.hung⟩
        refine ⟨m, [], C49_decoded_messages_are_delivered env key f m hd, by rw [w1], w3.snoc hm, id, fun q a b => ⟨a, b⟩, fun q => ?_⟩
        rw [prepend_nil, w2]
        rfl
      · rename_i e r' hm
        cases hr
        refine ⟨ms, S, done, h.run, h.outcomes, h.delivered, fun hp => (by cases hp), fun _ => ?_, fun _ hp => absurd rfl hp, h.hung⟩
        refine ⟨by rw [w1], w2, pieces, c.recv, e, List.prefix_refl _, w3, by rw [hm], ?_⟩
        cases hg : c.gone with
        | true => exact .inr (h.hung hg)
        | false =>
          rw [hg] at hs
          exact .inl (by simpa using hs)
      · cases hr
  by_cases he : c.place = .ended
  · unfold Conn.turn at hr
    rw [he] at hr
    cases hr
    rw [List.append_nil]
    exact ⟨ms, S, done, h⟩
  obtain ⟨m, x, m1, m2, m3, g, m4, m5⟩ := h.middle hw he
  obtain ⟨t1, t2, g', t3, t4⟩ := c.turn_rest env key endErr auto P o hr hw he
  have hproc : ∀ q, S.process auto P (g (g' q)) m = prepend (x ++ r.2.2) (rest auto P { r.2.1.sess with fs := r.1 } q r.2.1.place) := by
    intro q
    rw [m5, t4, prepend_append]
  by_cases hw' : r.2.1.place = .waiting
  · have hp := hproc (.ok, .ok)
    rw [hw'] at hp
    simp only [rest, prepend, Res.bind, List.append_nil] at hp
    obtain ⟨q1, q2⟩ := t3 Q ho (.ok, .ok) hQ hQ
    refine ⟨ms ++ [(m, g (g' (.ok, .ok)))], _, _, run_snoc auto P h.run hp, ?_, ?_, fun _ => ⟨?_, rfl, ?_⟩, fun hp => absurd hp t2, fun hp => absurd hw' hp, hung⟩
    · intro y hy
      rcases List.mem_append.1 hy with hy | hy
      · exact h.outcomes y hy
      · rw [List.mem_singleton.1 hy]
        exact m4 _ q1 q2
    · intro y hy
      rcases List.mem_append.1 hy with hy | hy
      · exact h.delivered y hy
      · rw [List.mem_singleton.1 hy]
        exact m1
    · rw [m2]; simp
    · rw [List.map_append, t1]; exact m3
  · refine ⟨ms, S, done, h.run, h.outcomes, h.delivered, fun hp => absurd hp hw', fun hp => absurd hp t2, fun _ _ => ?_, hung⟩
    refine ⟨m, x ++ r.2.2, m1, by rw [m2]; simp, by rw [t1]; exact m3, g ∘ g', fun q a b => ?_, hproc⟩
    obtain ⟨q1, q2⟩ := t3 Q ho q a b
    exact m4 _ q1 q2

theorem Inv.arrive {env : Env} {key : Option DecKey} {endErr : Err} {auto : Bool} {P : Program σ} {Q : Outcome → Prop} {H : List Bytes → Prop} {s0 : Converse.State σ}
    {pieces : List Bytes} {log : List Ev} {fs : FS} {c : Conn σ} {ms : List (Message Entity × Outcome × Outcome)} {S : Converse.State σ} {done : List Ev}
    (hH : ∀ a b, H a → H (a ++ b)) (h : Inv env key endErr auto P Q H s0 pieces log fs c ms S done) (piece : Bytes) :
    Inv env key endErr auto P Q H s0 (pieces ++ [piece]) log fs { c with recv := { c.recv with reads := c.recv.reads ++ [piece] } } ms S done where
  run := h.run
  outcomes := h.outcomes
  delivered := h.delivered
  waiting hp := by
    obtain ⟨w1, w2, w3⟩ := h.waiting hp
    exact ⟨w1, w2, w3.later [piece]⟩
  ended hp := by
    obtain ⟨w1, w2, before, r, e, w3, w4⟩ := h.ended hp
    exact ⟨w1, w2, before, r, e, w3.trans (List.prefix_append _ _), w4⟩
  middle hp hp' := by
    obtain ⟨m, x, m1, m2, m3, m4⟩ := h.middle hp hp'
    exact ⟨m, x, m1, m2, m3.later [piece], m4⟩
  hung hg := hH _ _ (h.hung hg)

theorem Inv.hangUp {env : Env} {key : Option DecKey} {endErr : Err} {auto : Bool} {P : Program σ} {Q : Outcome → Prop} {H : List Bytes → Prop} {s0 : Converse.State σ}
    {pieces : List Bytes} {log : List Ev} {fs : FS} {c : Conn σ} {ms : List (Message Entity × Outcome × Outcome)} {S : Converse.State σ} {done : List Ev}
    (hh : H pieces) (h : Inv env key endErr auto P Q H s0 pieces log fs c ms S done) : Inv env key endErr auto P Q H s0 pieces log fs { c with gone := true } ms S done where
  run := h.run
  outcomes := h.outcomes
  delivered := h.delivered
  waiting hp := h.waiting hp
  ended hp := h.ended hp
  middle hp hp' := h.middle hp hp'
  hung _ := hh

theorem arrivedOn_cons (k : Nat) (e : Event) (es : List Event) : arrivedOn k (e :: es) = arrivedOn k [e] ++ arrivedOn k es := by
  unfold arrivedOn
  rw [← List.filterMap_append]
  rfl

/-- The invariant on the events of one connection. -/
theorem run_inv {env : Env} {key : Option DecKey} {endErr : Err} {auto : Bool} {P : Program σ} {Q : Outcome → Prop} {H : List Bytes → Prop} (hQ : Q .ok)
    (hH : ∀ a b, H a → H (a ++ b)) {s0 : Converse.State σ} (k : Nat)
    (es : List Event) : ∀ {s t : State σ} {x : List (Nat × Ev)} {pieces : List Bytes} {log : List Ev} {ms : List (Message Entity × Outcome × Outcome)}
      {S : Converse.State σ} {done : List Ev}, (∀ e ∈ es, e.conn = k) → OwnCalls k es → (∀ o, Event.turn k o ∈ es → Q o) →
      (∀ es1 es2, es = es1 ++ .hangUp k :: es2 → H (pieces ++ arrivedOn k es1)) → Inv env key endErr auto P Q H s0 pieces log s.fs (s.conns k) ms S done → s.run env key endErr auto P es = .ok (t, x) →
      ∃ ms' S' done', Inv env key endErr auto P Q H s0 (pieces ++ arrivedOn k es) (log ++ logOf k x) t.fs (t.conns k) ms' S' done' := by
  induction es with
  | nil =>
    intro s t x pieces log ms S done _ _ _ _ hi hr
    cases hr
    simp only [arrivedOn, logOf, List.filterMap_nil, List.append_nil]
    exact ⟨ms, S, done, hi⟩
  | cons e es ih =>
    intro s t x pieces log ms S done h1 h2 h3 h4 hi hr
    obtain ⟨r, y, g1, g2, rfl⟩ := State.run_cons hr
    have hk : e.conn = k := h1 e (by simp)
    rw [hk] at g1 g2 ⊢
    have h1' : ∀ e ∈ es, e.conn = k := fun e he => h1 e (by simp [he])
    have h2' : OwnCalls k es := ⟨fun e he => h2.1 e (by simp [he]), fun e cb he => h2.2 e cb (by simp [he])⟩
    have h3' : ∀ o, Event.turn k o ∈ es → Q o := fun o ho => h3 o (by simp [ho])
    rw [logOf_append, logOf_own, ← List.append_assoc]
    have next : ∀ {pieces' ms S done}, Inv env key endErr auto P Q H s0 pieces' (log ++ r.2.2) r.1 r.2.1 ms S done → pieces' = pieces ++ arrivedOn k [e] →
        ∃ ms' S' done', Inv env key endErr auto P Q H s0 (pieces ++ arrivedOn k (e :: es)) (log ++ r.2.2 ++ logOf k y) t.fs (t.conns k) ms' S' done' := by
      intro pieces' ms S done hj hp
      have hp' : pieces ++ arrivedOn k (e :: es) = pieces' ++ arrivedOn k es := by rw [hp, List.append_assoc, ← arrivedOn_cons]
      rw [hp']
      refine ih (s := { fs := r.1, conns := fun j => if j = k then r.2.1 else s.conns j }) h1' h2' h3' ?_ (by simpa using hj) g2
      intro es1 es2 hes
      have := h4 (e :: es1) es2 (by rw [hes]; rfl)
      rwa [arrivedOn_cons, ← List.append_assoc, ← hp] at this
    cases e with
    | arrive j piece =>
      obtain rfl : j = k := hk
      cases g1
      rw [List.append_nil] at next ⊢
      exact next (hi.arrive hH piece) (by simp [arrivedOn])
    | hangUp j =>
      obtain rfl : j = k := hk
      cases g1
      rw [List.append_nil] at next ⊢
      exact next (hi.hangUp (by have := h4 [] es rfl; simpa [arrivedOn] using this)) (by simp [arrivedOn])
    | turn j o =>
      obtain rfl : j = k := hk
      obtain ⟨ms', S', done', hj⟩ := hi.turn hQ o (h3 o (by simp)) g1
      exact next hj (by simp [arrivedOn])
    | send j e =>
      obtain rfl : j = k := hk
      exact absurd (by simp) (h2.1 e)
    | request j e cb =>
      obtain rfl : j = k := hk
      exact absurd (by simp) (h2.2 e cb)

theorem inv_start (env : Env) (key : Option DecKey) (endErr : Err) (auto : Bool) (P : Program σ) (Q : Outcome → Prop) (H : List Bytes → Prop) (user : Nat → σ)
    (accepts : Nat → List Bool) (k : Nat) : Inv env key endErr auto P Q H { user := user k, accepts := accepts k } [] [] (State.start user accepts).fs ((State.start user accepts).conns k) []
      { user := user k, accepts := accepts k } [] where
  run := rfl
  outcomes := by simp
  delivered := by simp
  waiting _ := ⟨rfl, rfl, rfl⟩
  ended h := by cases h
  middle h := absurd rfl h
  hung h := by cases h

end Verif.Crowd
