import Verif.Lemmas.HangUp
/-! # Lemmas: a session that is closed by its handlers, and the session that does the same without being closed -/

namespace Verif.HangUp
open Session Handler Spec

variable {σ : Type} {s : State σ} {P : Program σ}

theorem answers_append (x y : List Ev) : answers (x ++ y) = answers x ++ answers y := List.filterMap_append ..
theorem closings_append (x y : List Ev) : closings (x ++ y) = closings x ++ closings y := List.filterMap_append ..
theorem plain_append (x y : List Ev) : plain (x ++ y) = plain x ++ plain y := List.filterMap_append ..

theorem send_sim (s : State σ) (e : Entity) (acc bs : List Bool) :
    (stays s (answers (s.send e).2.1 ++ acc) (closings (s.send e).2.1 ++ bs)).send e = (stays (s.send e).1 acc bs, plain (s.send e).2.1, (s.send e).2.2) := by
  unfold State.send
  dsimp only
  split <;> rfl

theorem request_sim (s : State σ) (e : Entity) (cb : Nat) (acc bs : List Bool) :
    (stays s (answers (s.request e cb).2.1 ++ acc) (closings (s.request e cb).2.1 ++ bs)).request e cb =
      (stays (s.request e cb).1 acc bs, plain (s.request e cb).2.1, (s.request e cb).2.2) := by
  have h := send_sim s e acc bs
  unfold State.request Converse.State.request
  generalize s.send e = r at h
  obtain ⟨s', x, n⟩ := r
  cases n with
  | none =>
    dsimp only at h ⊢
    rw [h]
  | some n =>
    dsimp only at h ⊢
    rw [answers_append, closings_append, plain_append]
    have e1 : answers [.does (.requested ⟨e.msgID, n, cb⟩)] = [] := rfl
    have e2 : closings [.does (.requested ⟨e.msgID, n, cb⟩)] = [] := rfl
    rw [e1, e2, List.append_nil, List.append_nil, h]
    rfl

theorem exec_user {τ : Type} (c : Converse.Code τ) : ∀ (s : Converse.State τ) (v : τ), { s with user := v }.exec c = s.exec c := by
  induction c with
  | returns u => intro s v; rfl
  | panics u => intro s v; rfl
  | send e next ih =>
    intro s v
    rw [Converse.State.exec, Converse.State.exec]
    have : ({ s with user := v } : Converse.State τ).send e = ({ (s.send e).1 with user := v }, (s.send e).2) := by
      unfold Converse.State.send Converse.State.message
      dsimp only
      split <;> rfl
    rw [this]
    dsimp only
    rw [ih]
  | request e cb next ih =>
    intro s v
    rw [Converse.State.exec, Converse.State.exec]
    have hs : ({ s with user := v } : Converse.State τ).send e = ({ (s.send e).1 with user := v }, (s.send e).2) := by
      unfold Converse.State.send Converse.State.message
      dsimp only
      split <;> rfl
    have : ({ s with user := v } : Converse.State τ).request e cb = ({ (s.request e cb).1 with user := v }, (s.request e cb).2) := by
      unfold Converse.State.request
      rw [hs]
      generalize s.send e = r
      obtain ⟨s', x, n⟩ := r
      cases n <;> rfl
    rw [this]
    dsimp only
    rw [ih]

theorem exec_sim (c : Code σ) : ∀ (s : State σ) (acc bs : List Bool),
    (stays s (answers (s.exec c).2.1 ++ acc) (closings (s.exec c).2.1 ++ bs)).exec (withoutClose c (closings (s.exec c).2.1 ++ bs)) =
      (stays (s.exec c).1 acc bs, plain (s.exec c).2.1, (s.exec c).2.2) := by
  induction c with
  | returns u => intro s acc bs; rfl
  | panics u => intro s acc bs; rfl
  | send e next ih =>
    intro s acc bs
    rw [withoutClose, Converse.State.exec, State.exec]
    dsimp only
    rw [answers_append, closings_append, plain_append, List.append_assoc, List.append_assoc]
    generalize hr : (s.send e).1.exec (next (s.send e).2.2) = r
    have h1 := send_sim s e (answers r.2.1 ++ acc) (closings r.2.1 ++ bs)
    have h2 := ih (s.send e).2.2 (s.send e).1 acc bs
    rw [hr] at h2
    have hc : closings (s.send e).2.1 = [] := by unfold State.send; dsimp only; split <;> rfl
    rw [h1]
    dsimp only
    rw [hc, List.nil_append, h2]
  | request e cb next ih =>
    intro s acc bs
    rw [withoutClose, Converse.State.exec, State.exec]
    dsimp only
    rw [answers_append, closings_append, plain_append, List.append_assoc, List.append_assoc]
    generalize hr : (s.request e cb).1.exec (next (s.request e cb).2.2) = r
    have h1 := request_sim s e cb (answers r.2.1 ++ acc) (closings r.2.1 ++ bs)
    have h2 := ih (s.request e cb).2.2 (s.request e cb).1 acc bs
    rw [hr] at h2
    have hc : closings (s.request e cb).2.1 = [] := by
      have hc : closings (s.send e).2.1 = [] := by unfold State.send; dsimp only; split <;> rfl
      unfold State.request
      generalize s.send e = q at hc
      obtain ⟨s', x, n⟩ := q
      cases n with
      | none => exact hc
      | some n => dsimp only at hc ⊢; rw [closings_append, hc]; rfl
    rw [h1]
    dsimp only
    rw [hc, List.nil_append, h2]
  | close next ih =>
    intro s acc bs
    have h := ih s.close.2 s.close.1 acc bs
    rw [withoutClose, State.exec]
    dsimp only
    have e1 : answers (Ev.closes s.close.2 :: (s.close.1.exec (next s.close.2)).2.1) = answers (s.close.1.exec (next s.close.2)).2.1 := rfl
    have e2 : closings (Ev.closes s.close.2 :: (s.close.1.exec (next s.close.2)).2.1) = s.close.2 :: closings (s.close.1.exec (next s.close.2)).2.1 := rfl
    have e3 : plain (Ev.closes s.close.2 :: (s.close.1.exec (next s.close.2)).2.1) = plain (s.close.1.exec (next s.close.2)).2.1 := rfl
    rw [e1, e2, e3]
    generalize s.close.1.exec (next s.close.2) = r at h ⊢
    rw [← h]
    exact exec_user (withoutClose (next s.close.2) (closings r.2.1 ++ bs)) (stays s.close.1 (answers r.2.1 ++ acc) (closings r.2.1 ++ bs))
      (s.session.user, s.close.2 :: (closings r.2.1 ++ bs))

/-- The session without `Close` does the same, with the right results of calls. -/
def Sim (r : Res (State σ × List Ev)) (f : List Bool → List Bool → Res (Converse.State (σ × List Bool) × List Converse.Ev)) : Prop :=
  match r with
  | .ok a => ∀ acc bs, f (answers a.2 ++ acc) (closings a.2 ++ bs) = .ok (stays a.1 acc bs, plain a.2)
  | .err e => ∃ acc bs, f acc bs = .err e
  | .panic => ∃ acc bs, f acc bs = .panic

theorem Sim.of_ok {s' : State σ} {x : List Ev} {f : List Bool → List Bool → Res (Converse.State (σ × List Bool) × List Converse.Ev)}
    (h : ∀ acc bs, f (answers x ++ acc) (closings x ++ bs) = .ok (stays s' acc bs, plain x)) : Sim (.ok (s', x)) f := h

/-- One part of a turn after the other. -/
theorem Sim.bind {r : Res (State σ × List Ev)} {f : List Bool → List Bool → Res (Converse.State (σ × List Bool) × List Converse.Ev)}
    {g : State σ × List Ev → Res (State σ × List Ev)} {g' : Converse.State (σ × List Bool) × List Converse.Ev → Res (Converse.State (σ × List Bool) × List Converse.Ev)}
    (pre : List Ev → List Ev → List Ev) (pre' : List Converse.Ev → List Converse.Ev → List Converse.Ev)
    (h : Sim r f)
    (ha : ∀ x y, answers (pre x y) = answers x ++ answers y) (hc : ∀ x y, closings (pre x y) = closings x ++ closings y)
    (hp : ∀ x y, plain (pre x y) = pre' (plain x) (plain y))
    (k : State σ → Res (State σ × List Ev)) (k' : Converse.State (σ × List Bool) → Res (Converse.State (σ × List Bool) × List Converse.Ev))
    (hk : ∀ s' x, r = .ok (s', x) → Sim (k s') (fun acc bs => k' (stays s' acc bs)))
    (hg : ∀ s' x, g (s', x) = k s' >>= fun q => .ok (q.1, pre x q.2)) (hg' : ∀ s' x, g' (s', x) = k' s' >>= fun q => .ok (q.1, pre' x q.2)) :
    Sim (r >>= g) (fun acc bs => f acc bs >>= g') := by
  cases r with
  | ok a =>
    obtain ⟨s', x⟩ := a
    show Sim (g (s', x)) _
    rw [hg]
    have h : ∀ acc bs, f (answers x ++ acc) (closings x ++ bs) = .ok (stays s' acc bs, plain x) := h
    have hk := hk s' x rfl
    generalize k s' = q at hk
    cases q with
    | ok b =>
      obtain ⟨s'', y⟩ := b
      have hk : ∀ acc bs, k' (stays s' (answers y ++ acc) (closings y ++ bs)) = .ok (stays s'' acc bs, plain y) := hk
      show Sim (.ok (s'', pre x y)) _
      intro acc bs
      dsimp only
      rw [ha, hc, List.append_assoc, List.append_assoc, h]
      simp only [Res.ok_bind]
      rw [hg', hk]
      simp only [Res.ok_bind, hp]
    | err e =>
      obtain ⟨acc, bs, hk⟩ : ∃ acc bs, k' (stays s' acc bs) = .err e := hk
      refine ⟨answers x ++ acc, closings x ++ bs, ?_⟩
      dsimp only
      rw [h]
      simp only [Res.ok_bind]
      rw [hg', hk]
      rfl
    | panic =>
      obtain ⟨acc, bs, hk⟩ : ∃ acc bs, k' (stays s' acc bs) = .panic := hk
      refine ⟨answers x ++ acc, closings x ++ bs, ?_⟩
      dsimp only
      rw [h]
      simp only [Res.ok_bind]
      rw [hg', hk]
      rfl
  | err e =>
    obtain ⟨acc, bs, h⟩ : ∃ acc bs, f acc bs = .err e := h
    exact ⟨acc, bs, by dsimp only; rw [h]; rfl⟩
  | panic =>
    obtain ⟨acc, bs, h⟩ : ∃ acc bs, f acc bs = .panic := h
    exact ⟨acc, bs, by dsimp only; rw [h]; rfl⟩

theorem Sim.cons {r : Res (State σ × List Ev)} {f : List Bool → List Bool → Res (Converse.State (σ × List Bool) × List Converse.Ev)} (h : Sim r f)
    (e : Converse.Ev) (he : ∀ x : List Ev, answers (.does e :: x) = answers x) :
    Sim (r >>= fun q => .ok (q.1, .does e :: q.2)) (fun acc bs => f acc bs >>= fun q => .ok (q.1, e :: q.2)) := by
  cases r with
  | ok a =>
    obtain ⟨s', x⟩ := a
    have h : ∀ acc bs, f (answers x ++ acc) (closings x ++ bs) = .ok (stays s' acc bs, plain x) := h
    intro acc bs
    dsimp only
    rw [he]
    have hc : closings (Ev.does e :: x) = closings x := rfl
    rw [hc, h]
    rfl
  | err e' =>
    obtain ⟨acc, bs, h⟩ : ∃ acc bs, f acc bs = .err e' := h
    exact ⟨acc, bs, by dsimp only; rw [h]; rfl⟩
  | panic =>
    obtain ⟨acc, bs, h⟩ : ∃ acc bs, f acc bs = .panic := h
    exact ⟨acc, bs, by dsimp only; rw [h]; rfl⟩

theorem note_sim (s : State σ) (m : Message Entity) : Sim (s.note P m) (fun acc bs => (stays s acc bs).note (staying P) m) := by
  unfold State.note Converse.State.note
  have hl : ∀ acc bs, (if m.header.iccID > 0 then { stays s acc bs with icc := m.header.iccID } else stays s acc bs) =
      stays (if m.header.iccID > 0 then { s with session := { s.session with icc := m.header.iccID } } else s) acc bs := by
    intro acc bs; split <;> rfl
  simp only [hl]
  generalize (if m.header.iccID > 0 then { s with session := { s.session with icc := m.header.iccID } } else s : State σ) = r
  have hreq : ∀ acc bs, (stays r acc bs).requests = r.session.requests := fun _ _ => rfl
  simp only [hreq]
  generalize replySerial m = n
  cases n with
  | err e => exact ⟨[], [], rfl⟩
  | panic => exact ⟨[], [], rfl⟩
  | ok n =>
    simp only [Res.ok_bind]
    split
    · intro acc bs; rfl
    · generalize takeRequest n r.session.requests = tk
      cases tk with
      | none => intro acc bs; rfl
      | some tk =>
        obtain ⟨q, rest⟩ := tk
        simp only [Delivery.recovered_call, Res.ok_bind]
        intro acc bs
        have := exec_sim (P.callback q.callback r.session.user m) { r with session := { r.session with requests := rest } } acc bs
        dsimp only
        generalize hx : State.exec ({ r with session := { r.session with requests := rest } } : State σ) (P.callback q.callback r.session.user m) = x at this ⊢
        have e1 : answers (Ev.does (.ran q.callback m) :: x.2.1) = answers x.2.1 := rfl
        have e2 : closings (Ev.does (.ran q.callback m) :: x.2.1) = closings x.2.1 := rfl
        have e3 : plain (Ev.does (.ran q.callback m) :: x.2.1) = .ran q.callback m :: plain x.2.1 := rfl
        rw [e1, e2, e3]
        have this' : Converse.State.exec { stays r (answers x.2.1 ++ acc) (closings x.2.1 ++ bs) with requests := rest }
          ((staying P).callback q.callback (stays r (answers x.2.1 ++ acc) (closings x.2.1 ++ bs)).user m) = _ := this
        rw [this']

theorem dispatch_sim (s : State σ) (m : Message Entity) : Sim (s.dispatch P m) (fun acc bs => (stays s acc bs).dispatch (staying P) m) := by
  unfold State.dispatch Converse.State.dispatch
  have hh : (staying P).handlers = P.handlers := rfl
  rw [hh]
  cases P.handlers m.header.msgID with
  | none => intro acc bs; rfl
  | some g =>
    simp only [Delivery.recovered_call, Res.ok_bind]
    intro acc bs
    have := exec_sim (P.handler g s.session.user m) s acc bs
    dsimp only
    generalize hx : s.exec (P.handler g s.session.user m) = x at this ⊢
    have e1 : answers (Ev.does (.handled g m) :: x.2.1) = answers x.2.1 := rfl
    have e2 : closings (Ev.does (.handled g m) :: x.2.1) = closings x.2.1 := rfl
    have e3 : plain (Ev.does (.handled g m) :: x.2.1) = .handled g m :: plain x.2.1 := rfl
    rw [e1, e2, e3]
    have this' : Converse.State.exec (stays s (answers x.2.1 ++ acc) (closings x.2.1 ++ bs))
      ((staying P).handler g (stays s (answers x.2.1 ++ acc) (closings x.2.1 ++ bs)).user m) = _ := this
    rw [this']

theorem deliver_sim (s : State σ) (m : Message Entity) : Sim (s.deliver P m) (fun acc bs => (stays s acc bs).deliver (staying P) m) :=
  Sim.bind (· ++ ·) (· ++ ·) (note_sim s m) answers_append closings_append plain_append (fun s' => s'.dispatch P m) (fun s' => s'.dispatch (staying P) m)
    (fun s' _ _ => dispatch_sim s' m) (fun _ _ => rfl) (fun _ _ => rfl)

theorem reply_sim (s : State σ) (m : Message Entity) (r : UInt8) : Sim (.ok (s.reply m r)) (fun acc bs => .ok ((stays s acc bs).reply m r)) := by
  intro acc bs
  have := send_sim s (.m8001 { replySerial := m.header.serial, replyID := m.header.msgID, result := r }) acc bs
  unfold State.reply Converse.State.reply
  dsimp only
  have e1 : ∀ x : List Ev, answers (Ev.does (.replies m.header.serial m.header.msgID r) :: x) = answers x := fun _ => rfl
  have e2 : ∀ x : List Ev, closings (Ev.does (.replies m.header.serial m.header.msgID r) :: x) = closings x := fun _ => rfl
  have e3 : ∀ x : List Ev, plain (Ev.does (.replies m.header.serial m.header.msgID r) :: x) = .replies m.header.serial m.header.msgID r :: plain x := fun _ => rfl
  rw [e1, e2, e3, this]

theorem check_sim (s : State σ) (o : Outcome) (m : Message Entity) (b : T0801) (p : Packet) :
    Sim (s.check P o m b p) (fun acc bs => (stays s acc bs).check (staying P) o m b p) := by
  unfold State.check Converse.State.check
  split
  · intro acc bs; rfl
  · have hfs : ∀ acc bs, (stays s acc bs).fs = s.session.fs := fun _ _ => rfl
    simp only [hfs]
    generalize (Loop.partFile m b p).isFull s.session.fs = full
    cases full with
    | err e => exact ⟨[], [], rfl⟩
    | panic => exact ⟨[], [], rfl⟩
    | ok full =>
      simp only [Res.ok_bind]
      split
      · intro acc bs; rfl
      · generalize (Loop.partFile m b p).merge o s.session.fs = mg
        cases mg with
        | err e => exact ⟨[], [], rfl⟩
        | panic => exact ⟨[], [], rfl⟩
        | ok mg =>
          obtain ⟨fs, content⟩ := mg
          simp only [Res.ok_bind]
          cases content with
          | none => intro acc bs; rfl
          | some c =>
            exact (deliver_sim { s with session := { s.session with fs := fs } } _).cons _ (fun _ => rfl)

theorem part_sim (s : State σ) (o : Outcome × Outcome) (m : Message Entity) (b : T0801) (p : Packet) (data : Bytes) :
    Sim (s.part P o m b p data) (fun acc bs => (stays s acc bs).part (staying P) o m b p data) := by
  unfold State.part Converse.State.part
  have hfs : ∀ acc bs, (stays s acc bs).fs = s.session.fs := fun _ _ => rfl
  simp only [hfs]
  generalize (Loop.partFile m b p).write o.1 p.seq data s.session.fs = w
  obtain ⟨fs, ok⟩ := w
  dsimp only
  have hr := reply_sim { s with session := { s.session with fs := fs } } m (if ok then 0 else 1)
  cases ok with
  | false => exact Sim.cons (r := .ok _) hr (.stored (Loop.partFile m b p) p.seq data o.1) (fun _ => rfl)
  | true =>
    refine Sim.bind (r := .ok _) (f := fun acc bs => .ok _) (fun x y => .does (.stored (Loop.partFile m b p) p.seq data o.1) :: (x ++ y))
      (fun x y => .stored (Loop.partFile m b p) p.seq data o.1 :: (x ++ y)) hr (fun x y => answers_append x y) (fun x y => closings_append x y) ?_
      (fun s' => s'.check P o.2 m b p) (fun s' => s'.check (staying P) o.2 m b p) (fun s' _ _ => check_sim s' o.2 m b p)
      (g := fun r => r.1.check P o.2 m b p >>= fun q => .ok (q.1, .does (.stored (Loop.partFile m b p) p.seq data o.1) :: (r.2 ++ q.2)))
      (g' := fun r => r.1.check (staying P) o.2 m b p >>= fun q => .ok (q.1, .stored (Loop.partFile m b p) p.seq data o.1 :: (r.2 ++ q.2)))
      (fun _ _ => rfl) (fun _ _ => rfl)
    intro x y
    show _ :: plain (x ++ y) = _
    rw [plain_append]

theorem process_sim (auto : Bool) (s : State σ) (o : Outcome × Outcome) (m : Message Entity) :
    Sim (s.process auto P o m) (fun acc bs => (stays s acc bs).process auto (staying P) o m) := by
  unfold State.process Converse.State.process
  generalize hb : m.body = body
  cases body with
  | val e =>
    dsimp only
    split
    · exact deliver_sim s m
    · cases e <;> first | exact deliver_sim s m | skip
      rename_i b
      dsimp only
      generalize m.header.packet = p
      generalize b.packet = d
      cases p <;> cases d <;> first | exact part_sim s o m b _ _ | exact ⟨[], [], rfl⟩
  | _ => exact reply_sim s m 3

theorem serve_sim (env : Env) (key : Option DecKey) (endErr : Err) (auto : Bool) {os : List (Outcome × Outcome)} : ∀ (s : State σ) (c : RecvState),
    ∃ rs, rs <+: c.reads ∧ Sim (s.serve env key endErr auto P os c) (fun acc bs => (stays s acc bs).serve env key endErr auto (staying P) os ⟨c.buffer, rs⟩) ∧
      ∀ s' log, s.serve env key endErr auto P os c = .ok (s', log) → (∀ b, .closes b ∉ log) → (∀ m, .does (.refused m) ∉ log) → s.isOpen = true → rs = c.reads := by
  induction os with
  | nil => intro s c; exact ⟨c.reads, List.prefix_refl _, fun acc bs => rfl, fun _ _ _ _ _ _ => rfl⟩
  | cons o os ih =>
    intro s c
    have hbuf : (s.connection c).buffer = c.buffer := by unfold State.connection; split <;> rfl
    have hpre : (s.connection c).reads <+: c.reads := by
      unfold State.connection
      split
      · exact List.prefix_refl _
      · exact List.nil_prefix
    have hall : s.isOpen = true → (s.connection c).reads = c.reads := by intro h; simp [State.connection, h]
    rw [State.serve]
    simp only [Converse.State.serve]
    generalize s.connection c = c0 at hbuf hpre hall
    cases hrec : Codec.receive (entityCodec env) key endErr c0 with
    | mk r c' =>
      have hc0 : (⟨c.buffer, c0.reads⟩ : RecvState) = c0 := by rw [← hbuf]
      cases r with
      | err e =>
        refine ⟨c0.reads, hpre, ?_, fun s' log _ _ _ h => hall h⟩
        rw [hc0, hrec]
        intro acc bs; rfl
      | panic =>
        refine ⟨c0.reads, hpre, ?_, fun s' log _ _ _ h => hall h⟩
        rw [hc0, hrec]
        exact ⟨[], [], rfl⟩
      | ok m =>
        obtain ⟨used, f, g1, -, -, g2, -⟩ := receive_ok hrec
        rw [hbuf] at g2
        have hp := process_sim (P := P) auto s o m
        dsimp only
        have comp : ∀ rs', (∀ s1 x, s.process auto P o m = .ok (s1, x) →
            Sim (s1.serve env key endErr auto P os c') (fun acc bs => (stays s1 acc bs).serve env key endErr auto (staying P) os ⟨c'.buffer, rs'⟩)) →
            Sim (s.process auto P o m >>= fun r => r.1.serve env key endErr auto P os c' >>= fun q => .ok (q.1, .does (.received m) :: (r.2 ++ q.2)))
              (fun acc bs => match Codec.receive (entityCodec env) key endErr ⟨c.buffer, used ++ rs'⟩ with
                | (.ok m, c) => (stays s acc bs).process auto (staying P) o m >>= fun r => r.1.serve env key endErr auto (staying P) os c >>= fun q =>
                    .ok (q.1, .received m :: (r.2 ++ q.2))
                | (.err _, _) => .ok (stays s acc bs, [.closed])
                | (.panic, _) => .panic) := by
          intro rs' hk
          rw [g2]
          refine Sim.bind (fun x y => .does (.received m) :: (x ++ y)) (fun x y => .received m :: (x ++ y)) hp (fun x y => answers_append x y)
            (fun x y => closings_append x y) ?_ (fun s' => s'.serve env key endErr auto P os c')
            (fun s' => s'.serve env key endErr auto (staying P) os ⟨c'.buffer, rs'⟩) hk (fun _ _ => rfl) (fun _ _ => rfl)
          intro x y
          show _ :: plain (x ++ y) = _
          rw [plain_append]
        cases hproc : s.process auto P o m with
        | ok r =>
          obtain ⟨s1, x⟩ := r
          obtain ⟨rs', k1, k2, k3⟩ := ih s1 c'
          have := comp rs' (by intro s1' x' h; rw [hproc] at h; cases h; exact k2)
          rw [hproc] at this
          refine ⟨used ++ rs', ?_, this, ?_⟩
          · refine List.IsPrefix.trans ?_ hpre
            rw [g1]
            exact (List.prefix_append_right_inj used).mpr k1
          · intro s' log hs hc hr ho
            simp only [Res.ok_bind] at hs
            obtain ⟨⟨s2, y⟩, h2, hs⟩ := Res.bind_ok hs
            cases hs
            have ho1 : s1.isOpen = true := by
              have hx := process_fits hproc
              have hco := hx.course
              unfold State.here at hco
              rw [ho] at hco
              refine course_open hco fun e he => ?_
              cases e with
              | closes b => exact absurd he fun he => hc b (by simp [he])
              | does e =>
                cases e with
                | refused m' => exact absurd he fun he => hr m' (by simp [he])
                | closed => exact absurd (hx.turn _ he) (by simp [turnOnly])
                | _ => rfl
            rw [← hall ho, g1, k3 s2 y h2 (fun b hb => hc b (by simp [hb])) (fun m hm => hr m (by simp [hm])) ho1]
        | err e =>
          have := comp [] (by intro s1' x' h; rw [hproc] at h; cases h)
          rw [hproc] at this
          refine ⟨used ++ [], ?_, this, by intro s' log h; cases h⟩
          rw [List.append_nil]
          exact List.IsPrefix.trans (by rw [g1]; exact List.prefix_append _ _) hpre
        | panic =>
          have := comp [] (by intro s1' x' h; rw [hproc] at h; cases h)
          rw [hproc] at this
          refine ⟨used ++ [], ?_, this, by intro s' log h; cases h⟩
          rw [List.append_nil]
          exact List.IsPrefix.trans (by rw [g1]; exact List.prefix_append _ _) hpre

end Verif.HangUp
