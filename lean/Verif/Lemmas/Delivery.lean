import Verif.Spec.Delivery
import Verif.Lemmas.Encode
import Verif.Lemmas.HandlerRun
import Verif.Lemmas.System
/-! # Lemmas: the loop of a session whose handlers use it -/

namespace Verif.Delivery
open Session Handler Spec Converse

variable {σ τ : Type}

theorem recovered_call (u : UserCode) : recovered u.call = .ok () := by cases u <;> rfl

/-! ## What handlers and callbacks leave as it is -/

theorem handed_append (x y : List Ev) : handed (x ++ y) = handed x ++ handed y := List.filter_append ..

theorem send_still (s : Converse.State σ) (e : Entity) : (s.send e).1.fs = s.fs ∧ (s.send e).1.icc = s.icc ∧ (s.send e).1.requests = s.requests ∧
    handed (s.send e).2.1 = [] ∧ asked (s.send e).2.1 = [] ∧ (s.send e).2.1.flatMap asActs = [] := by
  unfold Converse.State.send
  dsimp only
  split <;> exact ⟨rfl, rfl, rfl, rfl, rfl, rfl⟩

theorem asked_append (x y : List Ev) : asked (x ++ y) = asked x ++ asked y := List.filterMap_append ..

theorem request_still (s : Converse.State σ) (e : Entity) (cb : Nat) : (s.request e cb).1.fs = s.fs ∧ (s.request e cb).1.icc = s.icc ∧
    (s.request e cb).1.requests = (asked (s.request e cb).2.1).foldl (fun t r => addRequest r t) s.requests ∧
    handed (s.request e cb).2.1 = [] ∧ (s.request e cb).2.1.flatMap asActs = (asked (s.request e cb).2.1).map Act.requested := by
  obtain ⟨h1, h2, h3, h4, h5, h6⟩ := send_still s e
  unfold Converse.State.request
  generalize s.send e = r at h1 h2 h3 h4 h5 h6
  obtain ⟨s', x, n⟩ := r
  cases n with
  | none => exact ⟨h1, h2, by dsimp only at h3 h5 ⊢; rw [h3, h5]; rfl, h4, by dsimp only at h5 h6 ⊢; rw [h5, h6]; rfl⟩
  | some n =>
    dsimp only at h1 h2 h3 h4 h5 h6 ⊢
    refine ⟨h1, h2, ?_, ?_, ?_⟩
    · rw [asked_append, h5, h3]; rfl
    · rw [handed_append, h4]; rfl
    · rw [asked_append, h5, List.flatMap_append, h6]; rfl

theorem exec_still (c : Code σ) (s : Converse.State σ) : (s.exec c).1.fs = s.fs ∧ (s.exec c).1.icc = s.icc ∧
    (s.exec c).1.requests = (asked (s.exec c).2.1).foldl (fun t r => addRequest r t) s.requests ∧
    handed (s.exec c).2.1 = [] ∧ (s.exec c).2.1.flatMap asActs = (asked (s.exec c).2.1).map Act.requested := by
  induction c generalizing s with
  | returns u => exact ⟨rfl, rfl, rfl, rfl, rfl⟩
  | panics u => exact ⟨rfl, rfl, rfl, rfl, rfl⟩
  | send e next ih =>
    obtain ⟨h1, h2, h3, h4, h5, h6⟩ := send_still s e
    obtain ⟨g1, g2, g3, g4, g5⟩ := ih (s.send e).2.2 (s.send e).1
    simp only [Converse.State.exec]
    exact ⟨g1.trans h1, g2.trans h2, by rw [g3, asked_append, h5, h3]; rfl, by rw [handed_append, h4, g4]; rfl,
      by rw [List.flatMap_append, h6, g5, asked_append, h5]; rfl⟩
  | request e cb next ih =>
    obtain ⟨h1, h2, h3, h4, h5⟩ := request_still s e cb
    obtain ⟨g1, g2, g3, g4, g5⟩ := ih (s.request e cb).2.2 (s.request e cb).1
    simp only [Converse.State.exec]
    exact ⟨g1.trans h1, g2.trans h2, by rw [g3, asked_append, List.foldl_append, h3], by rw [handed_append, h4, g4]; rfl,
      by rw [List.flatMap_append, h5, g5, asked_append, List.map_append]⟩

/-! ## Two programs -/

theorem _root_.Verif.Spec.SameWork.bind {x : Res (Converse.State σ × List Ev)} {y : Res (Converse.State τ × List Ev)} {f : Converse.State σ × List Ev → Res (Converse.State σ × List Ev)}
    {g : Converse.State τ × List Ev → Res (Converse.State τ × List Ev)} (h : SameWork x y)
    (hf : ∀ a b, a.1.fs = b.1.fs → handed a.2 = handed b.2 → SameWork (f a) (g b)) : SameWork (x >>= f) (y >>= g) := by
  cases x <;> cases y <;> first | exact h.elim | exact h | exact hf _ _ h.1 h.2

variable {P : Program σ} {Q : Program τ} {s : Converse.State σ} {t : Converse.State τ}

theorem note_alike (h : s.fs = t.fs) (m : Message Entity) : SameWork (s.note P m) (t.note Q m) := by
  have one : ∀ {ρ : Type} (R : Program ρ) (r : Converse.State ρ), (∃ e, replySerial m = .err e ∧ r.note R m = .err e) ∨ (replySerial m = .panic ∧ r.note R m = .panic) ∨
      ∃ n r' x, replySerial m = .ok n ∧ r.note R m = .ok (r', x) ∧ r'.fs = r.fs ∧ handed x = [] := by
    intro ρ R r
    unfold Converse.State.note
    have hfs : (if m.header.iccID > 0 then { r with icc := m.header.iccID } else r : Converse.State ρ).fs = r.fs := by split <;> rfl
    generalize (if m.header.iccID > 0 then { r with icc := m.header.iccID } else r : Converse.State ρ) = r' at hfs
    cases replySerial m with
    | err e => exact .inl ⟨e, rfl, rfl⟩
    | panic => exact .inr (.inl ⟨rfl, rfl⟩)
    | ok n =>
      refine .inr (.inr ?_)
      show ∃ n1 r2 x, _ ∧ (if n = 0 then _ else _) = _ ∧ _
      split
      · exact ⟨n, r', [], rfl, rfl, hfs, rfl⟩
      · split
        · exact ⟨n, r', [], rfl, rfl, hfs, rfl⟩
        · rename_i q rest hq
          obtain ⟨g1, -, -, g4, -⟩ := exec_still (R.callback q.callback r'.user m) { r' with requests := rest }
          exact ⟨n, _, .ran q.callback m :: (Converse.State.exec { r' with requests := rest } (R.callback q.callback r'.user m)).2.1, rfl,
            by dsimp only; rw [recovered_call]; rfl, g1.trans hfs, g4⟩
  rcases one P s with ⟨e, h1, h2⟩ | ⟨h1, h2⟩ | ⟨n, s', x, h1, h2, h3, h4⟩ <;>
    rcases one Q t with ⟨e', g1, g2⟩ | ⟨g1, g2⟩ | ⟨n', t', y, g1, g2, g3, g4⟩ <;> rw [h2, g2] <;>
    first | (rw [h1] at g1; cases g1; done) | skip
  · rw [h1] at g1; cases g1; rfl
  · trivial
  · exact ⟨by rw [h3, g3, h], by rw [h4, g4]⟩

theorem dispatch_alike (hh : P.handlers = Q.handlers) (h : s.fs = t.fs) (m : Message Entity) : SameWork (s.dispatch P m) (t.dispatch Q m) := by
  unfold Converse.State.dispatch
  rw [hh]
  cases Q.handlers m.header.msgID with
  | none => exact ⟨h, rfl⟩
  | some g =>
    obtain ⟨g1, -, -, g4, -⟩ := exec_still (P.handler g s.user m) s
    obtain ⟨k1, -, -, k4, -⟩ := exec_still (Q.handler g t.user m) t
    simp only [recovered_call]
    show (s.exec (P.handler g s.user m)).1.fs = (t.exec (Q.handler g t.user m)).1.fs ∧ Ev.handled g m :: handed _ = Ev.handled g m :: handed _
    rw [g1, k1, g4, k4]
    exact ⟨h, rfl⟩

theorem deliver_alike (hh : P.handlers = Q.handlers) (h : s.fs = t.fs) (m : Message Entity) : SameWork (s.deliver P m) (t.deliver Q m) := by
  unfold Converse.State.deliver
  refine (note_alike h m).bind ?_
  rintro ⟨s1, x⟩ ⟨t1, y⟩ h1 h2
  refine (dispatch_alike hh h1 m).bind ?_
  rintro ⟨s2, x'⟩ ⟨t2, y'⟩ h3 h4
  exact ⟨h3, by show handed (x ++ x') = handed (y ++ y'); rw [handed_append, handed_append]; exact congr (congrArg _ h2) h4⟩

theorem reply_alike (h : s.fs = t.fs) (m : Message Entity) (r : UInt8) : (s.reply m r).1.fs = (t.reply m r).1.fs ∧ handed (s.reply m r).2 = handed (t.reply m r).2 := by
  unfold Converse.State.reply
  obtain ⟨g1, -, -, g4, -, -⟩ := send_still s (.m8001 { replySerial := m.header.serial, replyID := m.header.msgID, result := r })
  obtain ⟨k1, -, -, k4, -, -⟩ := send_still t (.m8001 { replySerial := m.header.serial, replyID := m.header.msgID, result := r })
  refine ⟨by rw [g1, k1, h], ?_⟩
  show Ev.replies _ _ _ :: handed _ = Ev.replies _ _ _ :: handed _
  rw [g4, k4]

theorem check_alike (hh : P.handlers = Q.handlers) (h : s.fs = t.fs) (o : Outcome) (m : Message Entity) (b : T0801) (p : Packet) :
    SameWork (s.check P o m b p) (t.check Q o m b p) := by
  unfold Converse.State.check
  split
  · exact ⟨h, rfl⟩
  · rw [h]
    cases (Loop.partFile m b p).isFull t.fs with
    | err e => exact rfl
    | panic => trivial
    | ok full =>
      cases full with
      | false => exact ⟨h, rfl⟩
      | true =>
        cases hm : (Loop.partFile m b p).merge o t.fs with
        | err e => simp only [Bind.bind, Res.bind, hm]; exact rfl
        | panic => simp only [Bind.bind, Res.bind, hm]; trivial
        | ok r =>
          obtain ⟨fs, content⟩ := r
          cases content with
          | none => simp only [Bind.bind, Res.bind, hm]; exact ⟨rfl, rfl⟩
          | some c =>
            have := (deliver_alike (P := P) (Q := Q) (s := { s with fs := fs }) (t := { t with fs := fs }) hh rfl
              { m with body := .val (.m0801 { b with packet := some c }) }).bind
              (f := fun r => .ok (r.1, .merged (Loop.partFile m b p) o :: r.2)) (g := fun r => .ok (r.1, .merged (Loop.partFile m b p) o :: r.2))
              (fun a b' h1 h2 => ⟨h1, by show Ev.merged _ _ :: handed _ = Ev.merged _ _ :: handed _; rw [h2]⟩)
            simpa only [Bind.bind, Res.bind, hm, Bool.not_true, Bool.false_eq_true, if_false] using this

theorem process_alike (auto : Bool) (hh : P.handlers = Q.handlers) (h : s.fs = t.fs) (o : Outcome × Outcome) (m : Message Entity) :
    SameWork (s.process auto P o m) (t.process auto Q o m) := by
  unfold Converse.State.process
  split
  · split
    · exact deliver_alike hh h m
    · split
      · rename_i b _
        split
        · rename_i p data _ _
          unfold Converse.State.part
          rw [h]
          generalize (Loop.partFile m b p).write o.1 p.seq data t.fs = w
          dsimp only
          have hr := reply_alike (s := { s with fs := w.1 }) (t := { t with fs := w.1 }) rfl m (if w.2 then 0 else 1)
          generalize ({ s with fs := w.1 } : Converse.State σ).reply m (if w.2 then 0 else 1) = r at hr
          generalize ({ t with fs := w.1 } : Converse.State τ).reply m (if w.2 then 0 else 1) = r' at hr
          split
          · exact ⟨hr.1, by show Ev.stored _ _ _ _ :: handed _ = Ev.stored _ _ _ _ :: handed _; rw [hr.2]⟩
          · refine (check_alike hh hr.1 o.2 m b p).bind ?_
            rintro ⟨s1, x⟩ ⟨t1, y⟩ h1 h2
            refine ⟨h1, ?_⟩
            show Ev.stored _ _ _ _ :: handed (r.2 ++ x) = Ev.stored _ _ _ _ :: handed (r'.2 ++ y)
            rw [handed_append, handed_append, hr.2]
            exact congrArg (fun z => Ev.stored _ _ _ _ :: (_ ++ z)) h2
        · trivial
      · exact deliver_alike hh h m
  · exact reply_alike h m 3

theorem run_alike (auto : Bool) (hh : P.handlers = Q.handlers) (h : s.fs = t.fs) (ms : List (Message Entity × Outcome × Outcome)) :
    SameWork (s.run auto P ms) (t.run auto Q ms) := by
  induction ms generalizing s t with
  | nil => exact ⟨h, rfl⟩
  | cons x ms ih =>
    obtain ⟨m, o⟩ := x
    unfold Converse.State.run
    refine (process_alike auto hh h o m).bind ?_
    rintro ⟨s1, x⟩ ⟨t1, y⟩ h1 h2
    refine (ih h1).bind ?_
    rintro ⟨s2, x'⟩ ⟨t2, y'⟩ h3 h4
    refine ⟨h3, ?_⟩
    show Ev.received m :: handed (x ++ x') = Ev.received m :: handed (y ++ y')
    rw [handed_append, handed_append]
    exact congrArg (Ev.received m :: ·) (congr (congrArg _ h2) h4)

theorem serve_alike (env : Env) (key : Option DecKey) (endErr : Err) (auto : Bool) (hh : P.handlers = Q.handlers) (h : s.fs = t.fs)
    (os : List (Outcome × Outcome)) (c : RecvState) : SameWork (s.serve env key endErr auto P os c) (t.serve env key endErr auto Q os c) := by
  induction os generalizing s t c with
  | nil => exact ⟨h, rfl⟩
  | cons o os ih =>
    unfold Converse.State.serve
    split
    · rename_i m c' _
      refine (process_alike auto hh h o m).bind ?_
      rintro ⟨s1, x⟩ ⟨t1, y⟩ h1 h2
      refine (ih h1 c').bind ?_
      rintro ⟨s2, x'⟩ ⟨t2, y'⟩ h3 h4
      refine ⟨h3, ?_⟩
      show Ev.received m :: handed (x ++ x') = Ev.received m :: handed (y ++ y')
      rw [handed_append, handed_append]
      exact congrArg (Ev.received m :: ·) (congr (congrArg _ h2) h4)
    · exact ⟨h, rfl⟩
    · trivial

/-! ## The loop in which handlers and callbacks have no code -/

/-- What the loop works on. -/
def asLoop (P : Program σ) (s : Converse.State σ) : Loop := { fs := s.fs, handlers := P.handlers, requests := s.requests, icc := s.icc }

theorem outsides_asked (L : Loop) (rs : List Pending) :
    L.outsides (rs.map .addRequest) = ({ L with requests := rs.foldl (fun t r => addRequest r t) L.requests }, rs.map .requested) := by
  induction rs generalizing L with
  | nil => rfl
  | cons r rs ih =>
    rw [List.map_cons, Loop.outsides]
    simp only [Loop.outside, ih]
    rfl

/-- A part of the log whose requests come last. -/
theorem exec_loop (P : Program σ) (c : Code σ) (s : Converse.State σ) :
    (asLoop P s).outsides ((asked (s.exec c).2.1).map .addRequest) = (asLoop P (s.exec c).1, (s.exec c).2.1.flatMap asActs) := by
  obtain ⟨h1, h2, h3, -, h5⟩ := exec_still c s
  rw [outsides_asked, h5]
  simp only [asLoop, h1, h2, h3]

theorem note_loop {m : Message Entity} {s' : Converse.State σ} {x : List Ev} (h : s.note P m = .ok (s', x)) (a : Around) :
    ∃ L y z, (asLoop P s).message a m = .ok (L, y) ∧ L.outsides ((asked x).map .addRequest) = (asLoop P s', z) ∧ x.flatMap asActs = y ++ z := by
  unfold Converse.State.note at h
  unfold Loop.message
  have hl : (if m.header.iccID > 0 then { asLoop P s with icc := m.header.iccID } else asLoop P s) =
      asLoop P (if m.header.iccID > 0 then { s with icc := m.header.iccID } else s) := by split <;> rfl
  rw [hl]
  generalize (if m.header.iccID > 0 then { s with icc := m.header.iccID } else s : Converse.State σ) = r at h
  obtain ⟨n, hn, h⟩ := Res.bind_ok h
  rw [hn]
  simp only [Res.ok_bind]
  split at h
  · rename_i h0
    cases h
    exact ⟨_, _, _, by rw [if_pos h0], rfl, rfl⟩
  · rename_i h0
    rw [if_neg h0]
    have hreq : (asLoop P r).requests = r.requests := rfl
    rw [hreq]
    split at h
    · rename_i hq
      cases h
      exact ⟨_, _, _, by rw [hq], rfl, rfl⟩
    · rename_i q rest hq
      simp only [recovered_call, Res.ok_bind, Res.ok.injEq, Prod.mk.injEq] at h
      obtain ⟨rfl, rfl⟩ := h
      refine ⟨{ asLoop P r with requests := rest }, [.callback q.callback m], _, by rw [hq]; simp only [recovered_call, Res.ok_bind],
        exec_loop P (P.callback q.callback r.user m) { r with requests := rest }, rfl⟩

theorem dispatch_loop {m : Message Entity} {s' : Converse.State σ} {x : List Ev} (h : s.dispatch P m = .ok (s', x)) (a : Around) :
    ∃ y z, (asLoop P s).dispatch a m = .ok (asLoop P s, y) ∧ (asLoop P s).outsides ((asked x).map .addRequest) = (asLoop P s', z) ∧
      x.flatMap asActs = y ++ z := by
  unfold Converse.State.dispatch at h
  unfold Loop.dispatch
  have hh : (asLoop P s).handlers = P.handlers := rfl
  rw [hh]
  split at h
  · rename_i h0
    cases h
    exact ⟨[.unhandled m], [], by rw [h0], rfl, rfl⟩
  · rename_i g h0
    simp only [recovered_call, Res.ok_bind, Res.ok.injEq, Prod.mk.injEq] at h
    obtain ⟨rfl, rfl⟩ := h
    exact ⟨[.touch, .handle g m], _, by rw [h0]; simp only [recovered_call, Res.ok_bind], exec_loop P (P.handler g s.user m) s, rfl⟩

/-- What happens around a message when the callback makes the requests `rs`. -/
def around (o : Outcome × Outcome) (rs : List Pending) : Around := { write := o.1, merge := o.2, beforeDispatch := rs.map .addRequest }

/-- A step of the session is a step of the loop, in which the callback makes some of the requests, followed by those that the handler makes. -/
def Follows (P : Program σ) (s s' : Converse.State σ) (x : List Ev) (o : Outcome × Outcome) (f : Around → Loop → Res (Loop × List Act)) : Prop :=
  ∃ rs0 rs L y z, f (around o rs0) (asLoop P s) = .ok (L, y) ∧ L.outsides (rs.map .addRequest) = (asLoop P s', z) ∧ x.flatMap asActs = y ++ z ∧
    asked x = rs0 ++ rs

theorem deliver_loop {m : Message Entity} {s' : Converse.State σ} {x : List Ev} (o : Outcome × Outcome) (h : s.deliver P m = .ok (s', x)) :
    Follows P s s' x o (fun a L => L.deliver a m) := by
  unfold Converse.State.deliver at h
  obtain ⟨⟨s1, x1⟩, h1, h⟩ := Res.bind_ok h
  obtain ⟨⟨s2, x2⟩, h2, h⟩ := Res.bind_ok h
  cases h
  obtain ⟨L, y, z, g1, g2, g3⟩ := note_loop h1 (around o (asked x1))
  obtain ⟨y', z', k1, k2, k3⟩ := dispatch_loop h2 (around o (asked x1))
  refine ⟨asked x1, asked x2, asLoop P s1, y ++ z ++ y', z', ?_, k2, ?_, asked_append ..⟩
  · dsimp only
    unfold Loop.deliver
    rw [g1]
    simp only [Res.ok_bind]
    have : (around o (asked x1)).beforeDispatch = (asked x1).map .addRequest := rfl
    rw [this, g2]
    dsimp only
    rw [k1]
    rfl
  · rw [List.flatMap_append, g3, k3]; simp

theorem reply_loop (P : Program σ) (s : Converse.State σ) (m : Message Entity) (r : UInt8) :
    asLoop P (s.reply m r).1 = asLoop P s ∧ (s.reply m r).2.flatMap asActs = [.reply m.header.serial m.header.msgID r] ∧ asked (s.reply m r).2 = [] := by
  obtain ⟨h1, h2, h3, -, h5, h6⟩ := send_still s (.m8001 { replySerial := m.header.serial, replyID := m.header.msgID, result := r })
  unfold Converse.State.reply
  refine ⟨by simp only [asLoop, h1, h2, h3], ?_, h5⟩
  show Act.reply _ _ _ :: List.flatMap asActs _ = _
  rw [h6]

theorem check_loop {m : Message Entity} {b : T0801} {p : Packet} {s' : Converse.State σ} {x : List Ev} (o : Outcome × Outcome)
    (h : s.check P o.2 m b p = .ok (s', x)) : Follows P s s' x o (fun a L => L.check a m b p) := by
  unfold Converse.State.check at h
  split at h
  · rename_i hp
    cases h
    exact ⟨[], [], asLoop P s, [], [], by dsimp only; unfold Loop.check; rw [if_pos hp], rfl, rfl, rfl⟩
  · rename_i hp
    obtain ⟨full, hf, h⟩ := Res.bind_ok h
    have hf' : (Loop.partFile m b p).isFull (asLoop P s).fs = .ok full := hf
    split at h
    · rename_i hfull
      cases h
      exact ⟨[], [], asLoop P s, [], [], by dsimp only; unfold Loop.check; rw [if_neg hp, hf']; simp only [Res.ok_bind]; rw [if_pos hfull], rfl, rfl, rfl⟩
    · rename_i hfull
      obtain ⟨⟨fs, content⟩, hm, h⟩ := Res.bind_ok h
      have hm' : (Loop.partFile m b p).merge o.2 (asLoop P s).fs = .ok (fs, content) := hm
      have hcheck : ∀ rs, (asLoop P s).check (around o rs) m b p = (asLoop P s).complete (around o rs) m b p := by
        intro rs
        unfold Loop.check
        rw [if_neg hp, hf']
        simp only [Res.ok_bind]
        rw [if_neg hfull]
        show ((asLoop P s).complete (around o rs) m b p >>= fun r => Res.ok (r.1, [] ++ r.2)) = _
        cases (asLoop P s).complete (around o rs) m b p <;> rfl
      cases content with
      | none =>
        cases h
        refine ⟨[], [], asLoop P { s with fs := fs }, [.merged (Loop.partFile m b p) o.2], [], ?_, rfl, rfl, rfl⟩
        dsimp only
        rw [hcheck]
        unfold Loop.complete
        have : (around o []).merge = o.2 := rfl
        rw [this, hm']
        rfl
      | some c =>
        obtain ⟨⟨s2, x2⟩, h2, h⟩ := Res.bind_ok h
        cases h
        obtain ⟨rs0, rs, L, y, z, g1, g2, g3, g4⟩ := deliver_loop o h2
        refine ⟨rs0, rs, L, .merged (Loop.partFile m b p) o.2 :: y, z, ?_, g2, ?_, g4⟩
        · dsimp only at g1 ⊢
          rw [hcheck]
          unfold Loop.complete
          have : (around o rs0).merge = o.2 := rfl
          rw [this, hm']
          simp only [Res.ok_bind]
          have g1' : Loop.deliver ({ asLoop P s with fs := fs } : Loop) (around o rs0) { m with body := .val (.m0801 { b with packet := some c }) } =
            .ok (L, y) := g1
          show (Loop.deliver ({ asLoop P s with fs := fs } : Loop) (around o rs0) _ >>= _) = _
          rw [g1']
          rfl
        · show Act.merged _ _ :: List.flatMap asActs _ = _
          rw [g3]; rfl

theorem part_loop {m : Message Entity} {b : T0801} {p : Packet} {data : Bytes} {s' : Converse.State σ} {x : List Ev} (o : Outcome × Outcome)
    (h : s.part P o m b p data = .ok (s', x)) : Follows P s s' x o (fun a L => L.part a m b p data) := by
  unfold Converse.State.part at h
  have hw : (Loop.partFile m b p).write o.1 p.seq data s.fs = (Loop.partFile m b p).write o.1 p.seq data (asLoop P s).fs := rfl
  rw [hw] at h
  have ha : ∀ rs, (around o rs).write = o.1 := fun _ => rfl
  generalize hg : (Loop.partFile m b p).write o.1 p.seq data (asLoop P s).fs = w at h
  obtain ⟨fs, ok⟩ := w
  dsimp only at h
  obtain ⟨l1, l2, l3⟩ := reply_loop P { s with fs := fs } m (if ok then 0 else 1)
  generalize Converse.State.reply ({ s with fs := fs } : Converse.State σ) m (if ok then 0 else 1) = r at h l1 l2 l3
  cases ok with
  | false =>
    cases h
    refine ⟨[], [], asLoop P r.1, _, [], ?_, rfl, (List.append_nil _).symm, ?_⟩
    · dsimp only
      unfold Loop.part
      rw [ha, hg, l1]
      show _ = Res.ok (_, Act.wrote _ _ _ _ :: List.flatMap asActs r.2)
      rw [l2]
      rfl
    · exact l3
  | true =>
    obtain ⟨⟨s2, x2⟩, h2, h⟩ := Res.bind_ok h
    cases h
    obtain ⟨rs0, rs, L, y, z, g1, g2, g3, g4⟩ := check_loop o h2
    refine ⟨rs0, rs, L, Act.wrote (Loop.partFile m b p) p.seq data o.1 :: .reply m.header.serial m.header.msgID 0 :: y, z, ?_, g2, ?_, ?_⟩
    · dsimp only at g1 ⊢
      unfold Loop.part
      rw [ha, hg]
      rw [l1] at g1
      show (Loop.check (asLoop P { s with fs := fs }) (around o rs0) m b p >>= _) = _
      rw [g1]
      rfl
    · show Act.wrote _ _ _ _ :: List.flatMap asActs (r.2 ++ x2) = _
      rw [List.flatMap_append, l2, g3]
      rfl
    · show asked (r.2 ++ x2) = _
      rw [asked_append, l3, g4]
      rfl

theorem process_val (auto : Bool) (L : Loop) (a : Around) {m : Message Entity} {e : Entity} (he : m.body = .val e) :
    L.process auto a m = (if !auto || !Property.isEnablePacket m.header.property then L.deliver a m
      else
        match (generalizing := false) e with
        | .m0801 b =>
          match m.header.packet, b.packet with
          | some p, some data => L.part a m b p data
          | _, _ => .panic
        | _ => L.deliver a m) := by
  unfold Loop.process
  rw [he]
  rfl

theorem process_loop {auto : Bool} {m : Message Entity} {s' : Converse.State σ} {x : List Ev} (o : Outcome × Outcome)
    (h : s.process auto P o m = .ok (s', x)) : Follows P s s' x o (fun a L => L.process auto a m) := by
  unfold Converse.State.process at h
  split at h
  · rename_i e he
    have hp : ∀ (a : Around) (L : Loop), _ := fun a L => process_val auto L a he
    split at h
    · rename_i hc
      obtain ⟨rs0, rs, L, y, z, g1, g⟩ := deliver_loop o h
      exact ⟨rs0, rs, L, y, z, by dsimp only at g1 ⊢; rw [hp, if_pos hc]; exact g1, g⟩
    · rename_i hc
      split at h
      · rename_i b _
        split at h
        · rename_i p data h1 h2
          obtain ⟨rs0, rs, L, y, z, g1, g⟩ := part_loop o h
          refine ⟨rs0, rs, L, y, z, ?_, g⟩
          dsimp only at g1 ⊢
          rw [hp, if_neg hc]
          dsimp only
          rw [h1, h2]
          exact g1
        · cases h
      · rename_i hne
        obtain ⟨rs0, rs, L, y, z, g1, g⟩ := deliver_loop o h
        refine ⟨rs0, rs, L, y, z, ?_, g⟩
        dsimp only at g1 ⊢
        rw [hp, if_neg hc]
        split
        · exact absurd rfl (hne _)
        · exact g1
  · rename_i hne
    obtain ⟨l1, l2, l3⟩ := reply_loop P s m 3
    generalize s.reply m 3 = r at h l1 l2 l3
    cases h
    refine ⟨[], [], asLoop P s, [.reply m.header.serial m.header.msgID 3], [], ?_, by rw [← l1]; rfl, by rw [← l2]; simp, l3⟩
    dsimp only
    unfold Loop.process
    split
    · rename_i he; exact absurd he (hne _)
    · rfl

theorem othersIn_append (is js : List Input) : othersIn (is ++ js) = othersIn is ++ othersIn js := List.flatMap_append ..

theorem othersIn_outside (xs : List Outside) : othersIn (xs.map .outside) = xs := by
  induction xs with
  | nil => rfl
  | cons x xs ih => exact congrArg (x :: ·) ih

theorem receivedIn_outside (xs : List Outside) (is : List Input) : receivedIn (xs.map .outside ++ is) = receivedIn is := by
  induction xs with
  | nil => rfl
  | cons x xs ih => exact ih

theorem step_loop {auto : Bool} {m : Message Entity} {s' : Converse.State σ} {x : List Ev} (o : Outcome × Outcome)
    (h : s.process auto P o m = .ok (s', x)) : ∃ (a : Around) (rs : List Pending), a.write = o.1 ∧ a.merge = o.2 ∧
      (asLoop P s).run auto (.receive (.ok m) a :: (rs.map .addRequest).map .outside) = .ok (asLoop P s', x.flatMap asActs) ∧
      othersIn (.receive (.ok m) a :: (rs.map .addRequest).map .outside) = (asked x).map .addRequest := by
  obtain ⟨rs0, rs, L, y, z, g1, g2, g3, g4⟩ := process_loop o h
  refine ⟨around o rs0, rs, rfl, rfl, ?_, ?_⟩
  · rw [Loop.run, Loop.step]
    have : (asLoop P s).running = true := rfl
    simp only [this, if_true]
    dsimp only at g1
    rw [g1]
    simp only [Res.ok_bind]
    rw [System.run_outsides, g2, g3]
    rfl
  · show [] ++ [] ++ [] ++ rs0.map Outside.addRequest ++ othersIn _ = _
    rw [othersIn_outside, g4]
    simp

theorem run_loop {auto : Bool} (P : Program σ) {ms : List (Message Entity × Outcome × Outcome)} : ∀ {s s' : Converse.State σ} {log : List Ev},
    s.run auto P ms = .ok (s', log) → (∀ x ∈ ms, Delivered x.1) → ∃ is, (asLoop P s).run auto is = .ok (asLoop P s', log.flatMap asActs) ∧ metIn is = ms ∧
      othersIn is = (asked log).map .addRequest ∧ (∀ i ∈ is, Arrived i) ∧ ∀ e a, Input.receive (.err e) a ∉ is := by
  induction ms with
  | nil => intro s s' log h _; cases h; exact ⟨[], rfl, rfl, rfl, by simp, by simp⟩
  | cons mo ms ih =>
    obtain ⟨m, o⟩ := mo
    intro s s' log h hd
    rw [Converse.State.run] at h
    obtain ⟨⟨s1, x⟩, h1, h⟩ := Res.bind_ok h
    obtain ⟨⟨s2, y⟩, h2, h⟩ := Res.bind_ok h
    cases h
    obtain ⟨a, rs, a1, a2, r1, r2⟩ := step_loop o h1
    obtain ⟨is, i1, i2, i3, i4, i5⟩ := ih h2 fun x hx => hd x (by simp [hx])
    refine ⟨(.receive (.ok m) a :: (rs.map .addRequest).map .outside) ++ is, ?_, ?_, ?_, ?_, ?_⟩
    · rw [Handler.run_append, r1]
      simp only [Res.bind]
      rw [i1]
      simp only [Res.bind]
      show _ = Res.ok (_, List.flatMap asActs (x ++ y))
      rw [List.flatMap_append]
    · unfold metIn at i2 ⊢
      rw [List.cons_append, receivedIn, receivedIn_outside, List.map_cons, i2, a1, a2]
    · rw [othersIn_append, r2, i3]
      show _ = (asked (x ++ y)).map _
      rw [asked_append, List.map_append]
    · intro i hi
      simp only [List.cons_append, List.mem_cons, List.mem_append, List.mem_map] at hi
      rcases hi with rfl | ⟨_, _, rfl⟩ | hi
      · exact hd (m, o) (by simp)
      · trivial
      · exact i4 i hi
    · intro e a' hi
      simp only [List.cons_append, List.mem_cons, List.mem_append, List.mem_map, Input.receive.injEq, reduceCtorEq, false_and, false_or, and_false, exists_false] at hi
      exact i5 e a' hi

/-! ## Registering the handlers of a program -/

theorem registering_run (auto : Bool) (regs : List (UInt16 × Nat)) : ∀ L : Loop, ∃ f, L.run auto (registering regs) =
    .ok ({ L with handlers := f }, regs.map fun r => .registered r.1 r.2) ∧ ∀ id, f id = (regs.reverse.lookup id).or (L.handlers id) := by
  induction regs with
  | nil => intro L; exact ⟨L.handlers, rfl, fun _ => rfl⟩
  | cons r regs ih =>
    intro L
    obtain ⟨id, h⟩ := r
    obtain ⟨f, h1, h2⟩ := ih { L with handlers := fun x => if x = id then some h else L.handlers x }
    refine ⟨f, ?_, ?_⟩
    · show (L.step auto (.outside (.addHandler id (some h))) >>= fun r => r.1.run auto (registering regs) >>= fun q => Res.ok (q.1, r.2 ++ q.2)) = _
      simp only [Loop.step, Loop.outside, Res.ok_bind]
      rw [h1]
      rfl
    · intro x
      rw [h2, List.reverse_cons, List.lookup_append]
      simp only [List.lookup]
      by_cases hx : x = id
      · subst hx
        cases List.lookup x regs.reverse <;> simp
      · have hne : (x == id) = false := by simpa using hx
        cases List.lookup x regs.reverse <;> simp [hx, hne]

/-- All registrations of a program. -/
def allOf (f : UInt16 → Option Nat) : List (UInt16 × Nat) := (List.range 65536).filterMap fun i => (f i.toUInt16).map (i.toUInt16, ·)

theorem lookup_allOf (f : UInt16 → Option Nat) (id : UInt16) : (allOf f).reverse.lookup id = f id := by
  have hmem : ∀ p ∈ (allOf f).reverse, f p.1 = some p.2 := by
    intro p hp
    simp only [allOf, List.mem_reverse, List.mem_filterMap, Option.map_eq_some_iff] at hp
    obtain ⟨i, -, h, hh, rfl⟩ := hp
    exact hh
  have hin : ∀ h, f id = some h → (id, h) ∈ (allOf f).reverse := by
    intro h hh
    simp only [allOf, List.mem_reverse, List.mem_filterMap, Option.map_eq_some_iff]
    exact ⟨id.toNat, List.mem_range.mpr id.toNat_lt, h, by simpa using hh, by simp⟩
  generalize (allOf f).reverse = l at hmem hin
  induction l with
  | nil =>
    cases hf : f id with
    | none => rfl
    | some h => exact absurd (hin h hf) (by simp)
  | cons p l ih =>
    obtain ⟨x, h⟩ := p
    by_cases hx : id = x
    · subst hx
      rw [hmem (id, h) (by simp)]
      simp [List.lookup]
    · have hne : (id == x) = false := by simpa using hx
      rw [List.lookup, hne]
      refine ih (fun p hp => hmem p (by simp [hp])) fun h' hh => ?_
      have := hin h' hh
      simp only [List.mem_cons, Prod.mk.injEq] at this
      rcases this with ⟨e, -⟩ | this
      · exact absurd e hx
      · exact this

theorem registering_all (auto : Bool) (f : UInt16 → Option Nat) : ({} : Loop).run auto (registering (allOf f)) =
    .ok ({ handlers := f }, (allOf f).map fun r => .registered r.1 r.2) := by
  obtain ⟨g, h1, h2⟩ := registering_run auto (allOf f) {}
  have : g = f := by
    funext id
    rw [h2, lookup_allOf]
    cases f id <;> rfl
  rw [h1, this]

theorem offered_asActs (log : List Ev) : offered (log.flatMap asActs) = offeredIn log := by
  induction log with
  | nil => rfl
  | cons e log ih =>
    rw [List.flatMap_cons]
    cases e <;> simp [asActs, offered, offeredIn] at ih ⊢ <;> exact ih

end Verif.Delivery
