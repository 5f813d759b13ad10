import Verif.Lemmas.CrowdExample
import Verif.Props.Delivery
import Verif.Props.Upload
/-! # Uploads at one of many connections -/

namespace Verif.Crowd
open Converse Session Handler Spec Programs

variable {σ : Type}

/-- The message is among those received so far, when the pieces have arrived. -/
def Seen (env : Env) (key : Option DecKey) (endErr : Err) (pieces : List Bytes) (m : Message Entity) : Prop :=
  ∃ l r, Got env key endErr l ⟨[], pieces⟩ r ∧ m ∈ l

theorem Seen.later {env : Env} {key : Option DecKey} {endErr : Err} {pieces : List Bytes} {m : Message Entity} (h : Seen env key endErr pieces m) (rs : List Bytes) :
    Seen env key endErr (pieces ++ rs) m := by
  obtain ⟨l, r, h1, h2⟩ := h
  exact ⟨l, _, h1.later rs, h2⟩

theorem Seen.arrives {env : Env} {key : Option DecKey} {endErr : Err} {pieces : List Bytes} {m : Message Entity} (h : Seen env key endErr pieces m) :
    ArrivesOn env key endErr pieces m := by
  obtain ⟨l, r, h1, h2⟩ := h
  refine ⟨l.length, ?_⟩
  rw [h1]
  exact List.mem_map_of_mem h2

/-- A message that has arrived belongs to the upload. -/
def Part (env : Env) (key : Option DecKey) (endErr : Err) (auto : Bool) (pieces : List Bytes) (u : Upload) : Prop :=
  ∃ m, Seen env key endErr pieces m ∧ belongs auto u m = true

/-- What the loop works on has arrived. -/
def Working (env : Env) (key : Option DecKey) (endErr : Err) (auto : Bool) (pieces : List Bytes) : Place σ → Prop
  | .received m => Seen env key endErr pieces m
  | .written m b p _ | .stored m b p | .full m b p => ∀ u, evUpload (.merged (Loop.partFile m b p) .ok) = some u → Part env key endErr auto pieces u
  | _ => True

/-- What a connection has received. -/
structure Came (env : Env) (key : Option DecKey) (endErr : Err) (auto : Bool) (pieces : List Bytes) (c : Conn σ) : Prop where
  recv : c.place ≠ .ended → ∃ l, Got env key endErr l ⟨[], pieces⟩ c.recv
  place : Working env key endErr auto pieces c.place

theorem Part.later {env : Env} {key : Option DecKey} {endErr : Err} {auto : Bool} {pieces : List Bytes} {u : Upload} (h : Part env key endErr auto pieces u) (rs : List Bytes) :
    Part env key endErr auto (pieces ++ rs) u := by
  obtain ⟨m, h1, h2⟩ := h
  exact ⟨m, h1.later rs, h2⟩

theorem Working.later {env : Env} {key : Option DecKey} {endErr : Err} {auto : Bool} {pieces : List Bytes} {p : Place σ} (h : Working env key endErr auto pieces p)
    (rs : List Bytes) : Working env key endErr auto (pieces ++ rs) p := by
  cases p with
  | received m => exact Seen.later h rs
  | written m b p d => exact fun u hu => (h u hu).later rs
  | stored m b p => exact fun u hu => (h u hu).later rs
  | full m b p => exact fun u hu => (h u hu).later rs
  | _ => trivial

theorem send_noUpload (s : Converse.State σ) (e : Entity) : ∀ x ∈ (s.send e).2.1, evUpload x = none := by
  unfold State.send
  simp only
  split <;> simp [evUpload]

theorem request_noUpload (s : Converse.State σ) (e : Entity) (cb : Nat) : ∀ x ∈ (s.request e cb).2.1, evUpload x = none := by
  have := send_noUpload s e
  unfold State.request
  rcases h : s.send e with ⟨s', x, n⟩
  rw [h] at this
  cases n
  · exact this
  · intro y hy
    simp only [List.mem_append, List.mem_singleton] at hy
    rcases hy with hy | rfl
    · exact this y hy
    · rfl

theorem reply_noUpload (s : Converse.State σ) (m : Message Entity) (n : UInt8) : ∀ x ∈ (s.reply m n).2, evUpload x = none := by
  intro x hx
  unfold State.reply at hx
  simp only [List.mem_cons] at hx
  rcases hx with rfl | hx
  · rfl
  · exact send_noUpload _ _ x hx

theorem Came.turn {env : Env} {key : Option DecKey} {endErr : Err} {auto : Bool} {P : Program σ} {o : Outcome} {fs : FS} {pieces : List Bytes} {c : Conn σ}
    (h : Came env key endErr auto pieces c) {r : FS × Conn σ × List Ev} (hr : c.turn env key endErr auto P o fs = .ok r) :
    Came env key endErr auto pieces r.2.1 ∧ ∀ x ∈ r.2.2, ∀ u, evUpload x = some u → Part env key endErr auto pieces u := by
  obtain ⟨place, recv, gone, sess⟩ := c
  obtain ⟨h1, h2⟩ := h
  simp only at h1 h2
  have hno : ∀ l : List Ev, (∀ x ∈ l, evUpload x = none) → ∀ x ∈ l, ∀ u, evUpload x = some u → Part env key endErr auto pieces u :=
    fun l hl x hx u hu => by rw [hl x hx] at hu; cases hu
  unfold Conn.turn at hr
  cases place with
  | waiting =>
    obtain ⟨l, hl⟩ := h1 (by simp)
    simp only at hr
    split at hr
    · cases hr; exact ⟨⟨fun _ => ⟨l, hl⟩, trivial⟩, by simp⟩
    · split at hr
      · rename_i m q hq
        cases hr
        have hg := hl.snoc hq
        exact ⟨⟨fun _ => ⟨_, hg⟩, ⟨_, _, hg, by simp⟩⟩, hno _ (by simp [evUpload])⟩
      · cases hr; exact ⟨⟨fun hh => absurd rfl hh, trivial⟩, hno _ (by simp [evUpload])⟩
      · cases hr
  | received m =>
    replace h1 := h1 (by simp)
    simp only at hr
    split at hr
    · rename_i e he
      split at hr
      · cases hr; exact ⟨⟨fun _ => h1, trivial⟩, by simp⟩
      · rename_i hf
        split at hr
        · rename_i b
          split at hr
          · rename_i p data hp' hd'
            cases hr
            have hpart : Part env key endErr auto pieces ⟨m.header.iccID, m.header.msgID, b.mediaID⟩ := by
              refine ⟨m, h2, ?_⟩
              have hfl : isPart auto m = true := by
                unfold isPart
                rw [he, ← Property.isEnablePacket_spec]
                simpa using hf
              simp [belongs, partOf, hfl, he, hp', hd']
            refine ⟨⟨fun _ => h1, fun u hu => ?_⟩, fun x hx u hu => ?_⟩
            · cases hu; exact hpart
            · rw [List.mem_singleton.1 hx] at hu
              cases hu; exact hpart
          · cases hr
        · cases hr; exact ⟨⟨fun _ => h1, trivial⟩, by simp⟩
    · cases hr; exact ⟨⟨fun _ => h1, trivial⟩, hno _ (reply_noUpload _ _ _)⟩
  | written m b p done =>
    replace h1 := h1 (by simp)
    cases hr
    refine ⟨⟨fun _ => h1, ?_⟩, hno _ (reply_noUpload _ _ _)⟩
    cases done
    · trivial
    · exact h2
  | stored m b p =>
    replace h1 := h1 (by simp)
    simp only at hr
    split at hr
    · cases hr; exact ⟨⟨fun _ => h1, trivial⟩, by simp⟩
    · cases hf : (Loop.partFile m b p).isFull fs with
      | err e => rw [hf] at hr; cases hr
      | panic => rw [hf] at hr; cases hr
      | ok full =>
        rw [hf] at hr
        cases hr
        refine ⟨⟨fun _ => h1, ?_⟩, by simp⟩
        cases full
        · trivial
        · exact h2
  | full m b p =>
    replace h1 := h1 (by simp)
    simp only at hr
    have hx : ∀ x ∈ [Ev.merged (Loop.partFile m b p) o], ∀ u, evUpload x = some u → Part env key endErr auto pieces u := by
      intro x hx u hu
      rw [List.mem_singleton.1 hx] at hu
      exact h2 u hu
    cases hm : (Loop.partFile m b p).merge o fs with
    | err e => rw [hm] at hr; cases hr
    | panic => rw [hm] at hr; cases hr
    | ok q =>
      rw [hm, Res.ok_bind] at hr
      cases hq : q.2 with
      | none =>
        rw [hq] at hr
        cases hr
        exact ⟨⟨fun _ => h1, trivial⟩, hx⟩
      | some content =>
        rw [hq] at hr
        cases hr
        exact ⟨⟨fun _ => h1, trivial⟩, hx⟩
  | passing m =>
    replace h1 := h1 (by simp)
    simp only at hr
    cases hs : replySerial m with
    | err e => rw [hs] at hr; cases hr
    | panic => rw [hs] at hr; cases hr
    | ok serial =>
      rw [hs, Res.ok_bind] at hr
      split at hr
      · cases hr; exact ⟨⟨fun _ => h1, trivial⟩, by simp⟩
      · split at hr <;> (cases hr; exact ⟨⟨fun _ => h1, trivial⟩, hno _ (by simp [evUpload])⟩)
  | running code after =>
    replace h1 := h1 (by simp)
    cases code with
    | returns u => cases hr; cases after <;> exact ⟨⟨fun _ => h1, trivial⟩, by simp⟩
    | panics u => cases hr; cases after <;> exact ⟨⟨fun _ => h1, trivial⟩, by simp⟩
    | send e next => cases hr; exact ⟨⟨fun _ => h1, trivial⟩, hno _ (send_noUpload _ _)⟩
    | request e cb next => cases hr; exact ⟨⟨fun _ => h1, trivial⟩, hno _ (request_noUpload _ _ _)⟩
  | noted m =>
    replace h1 := h1 (by simp)
    simp only at hr
    split at hr <;> (cases hr; exact ⟨⟨fun _ => h1, trivial⟩, hno _ (by simp [evUpload])⟩)
  | ended => cases hr; exact ⟨⟨fun hh => absurd rfl hh, trivial⟩, by simp⟩

theorem Came.later {env : Env} {key : Option DecKey} {endErr : Err} {auto : Bool} {pieces : List Bytes} {c : Conn σ} (h : Came env key endErr auto pieces c)
    (rs : List Bytes) : Came env key endErr auto (pieces ++ rs) { c with recv := { c.recv with reads := c.recv.reads ++ rs } } :=
  ⟨fun hp => by obtain ⟨l, hl⟩ := h.recv hp; exact ⟨l, hl.later rs⟩, h.place.later rs⟩

theorem Came.step {env : Env} {key : Option DecKey} {endErr : Err} {auto : Bool} {P : Program σ} {e : Event} {fs : FS} {pieces : List Bytes} {c : Conn σ}
    (h : Came env key endErr auto pieces c) {r : FS × Conn σ × List Ev} (hr : c.step env key endErr auto P e fs = .ok r) :
    Came env key endErr auto (pieces ++ arrivedOn e.conn [e]) r.2.1 ∧ ∀ x ∈ r.2.2, ∀ u, evUpload x = some u → Part env key endErr auto (pieces ++ arrivedOn e.conn [e]) u := by
  have hno : ∀ l : List Ev, (∀ x ∈ l, evUpload x = none) → ∀ x ∈ l, ∀ u, evUpload x = some u → Part env key endErr auto pieces u :=
    fun l hl x hx u hu => by rw [hl x hx] at hu; cases hu
  cases e with
  | arrive k piece =>
    cases hr
    have : arrivedOn (Event.arrive k piece).conn [Event.arrive k piece] = [piece] := by simp [arrivedOn, Event.conn]
    rw [this]
    exact ⟨h.later [piece], by simp⟩
  | hangUp k =>
    cases hr
    rw [show arrivedOn (Event.hangUp k).conn [Event.hangUp k] = [] from rfl, List.append_nil]
    exact ⟨⟨h.recv, h.place⟩, by simp⟩
  | turn k o =>
    rw [show arrivedOn (Event.turn k o).conn [Event.turn k o] = [] from rfl, List.append_nil]
    exact h.turn hr
  | send k e =>
    cases hr
    rw [show arrivedOn (Event.send k e).conn [Event.send k e] = [] from rfl, List.append_nil]
    exact ⟨⟨h.recv, h.place⟩, hno _ (send_noUpload _ _)⟩
  | request k e cb =>
    cases hr
    rw [show arrivedOn (Event.request k e cb).conn [Event.request k e cb] = [] from rfl, List.append_nil]
    exact ⟨⟨h.recv, h.place⟩, hno _ (request_noUpload _ _ _)⟩

/-- What is stored and merged on a connection are uploads of which parts have arrived on it. -/
theorem run_parts {env : Env} {key : Option DecKey} {endErr : Err} {auto : Bool} {P : Program σ} (es : List Event) : ∀ {s t : State σ} {log : List (Nat × Ev)}
    {pieces : Nat → List Bytes}, (∀ k, Came env key endErr auto (pieces k) (s.conns k)) → s.run env key endErr auto P es = .ok (t, log) →
    ∀ x ∈ log, ∀ u, evUpload x.2 = some u → Part env key endErr auto (pieces x.1 ++ arrivedOn x.1 es) u := by
  induction es with
  | nil =>
    intro s t log pieces hc hr
    cases hr
    simp
  | cons e es ih =>
    intro s t log pieces hc hr
    obtain ⟨r, y, h1, h2, rfl⟩ := State.run_cons hr
    obtain ⟨g1, g2⟩ := (hc e.conn).step h1
    have hc' : ∀ k, Came env key endErr auto (pieces k ++ arrivedOn k [e]) (if k = e.conn then r.2.1 else s.conns k) := by
      intro k
      by_cases hk : k = e.conn
      · rw [if_pos hk, hk]; exact g1
      · rw [if_neg hk, arrivedOn_other (fun h => hk h.symm), List.append_nil]
        exact hc k
    have := ih (pieces := fun k => pieces k ++ arrivedOn k [e]) hc' h2
    intro x hx u hu
    rw [arrivedOn_cons, ← List.append_assoc]
    rcases List.mem_append.1 hx with hx | hx
    · obtain ⟨z, hz, rfl⟩ := List.mem_map.1 hx
      exact (g2 z hz u hu).later _
    · exact this x hx u hu

theorem start_parts {env : Env} {key : Option DecKey} {endErr : Err} {auto : Bool} {P : Program σ} {user : Nat → σ} {accepts : Nat → List Bool}
    {es : List Event} {s : State σ} {log : List (Nat × Ev)} (hr : (State.start user accepts).run env key endErr auto P es = .ok (s, log)) :
    ∀ x ∈ log, ∀ u, evUpload x.2 = some u → Part env key endErr auto (arrivedOn x.1 es) u :=
  run_parts es (s := State.start user accepts) (pieces := fun _ => []) (fun k => ⟨fun _ => ⟨[], rfl⟩, trivial⟩) hr

/-! ## Who gets a message -/

/-- A message is given to the handler of its message id. -/
def Dispatches (P : Program σ) : Ev → Prop
  | .handled h m => P.handlers m.header.msgID = some h
  | .unhandled m => P.handlers m.header.msgID = none
  | _ => True

theorem send_dispatches (P : Program σ) (s : Converse.State σ) (e : Entity) : ∀ x ∈ (s.send e).2.1, Dispatches P x := by
  unfold State.send
  simp only
  split <;> simp [Dispatches]

theorem request_dispatches (P : Program σ) (s : Converse.State σ) (e : Entity) (cb : Nat) : ∀ x ∈ (s.request e cb).2.1, Dispatches P x := by
  have := send_dispatches P s e
  unfold State.request
  rcases h : s.send e with ⟨s', x, n⟩
  rw [h] at this
  cases n
  · exact this
  · intro y hy
    simp only [List.mem_append, List.mem_singleton] at hy
    rcases hy with hy | rfl
    · exact this y hy
    · trivial

theorem reply_dispatches (P : Program σ) (s : Converse.State σ) (m : Message Entity) (n : UInt8) : ∀ x ∈ (s.reply m n).2, Dispatches P x := by
  intro x hx
  unfold State.reply at hx
  simp only [List.mem_cons] at hx
  rcases hx with rfl | hx
  · trivial
  · exact send_dispatches _ _ _ x hx

theorem turn_dispatches {env : Env} {key : Option DecKey} {endErr : Err} {auto : Bool} {P : Program σ} {o : Outcome} {fs : FS} {c : Conn σ}
    {r : FS × Conn σ × List Ev} (hr : c.turn env key endErr auto P o fs = .ok r) : ∀ x ∈ r.2.2, Dispatches P x := by
  obtain ⟨place, recv, gone, sess⟩ := c
  unfold Conn.turn at hr
  cases place with
  | received m =>
    simp only at hr
    split at hr
    · repeat' split at hr
      all_goals first | (cases hr; simp [Dispatches]; done) | cases hr
    · cases hr; exact reply_dispatches P _ _ _
  | written m b p done => cases hr; exact reply_dispatches P _ _ _
  | stored m b p =>
    simp only at hr
    split at hr
    · cases hr; simp
    · cases hf : (Loop.partFile m b p).isFull fs with
      | ok full => rw [hf] at hr; cases hr; simp
      | err e => rw [hf] at hr; cases hr
      | panic => rw [hf] at hr; cases hr
  | full m b p =>
    simp only at hr
    cases hf : (Loop.partFile m b p).merge o fs with
    | err e => rw [hf] at hr; cases hr
    | panic => rw [hf] at hr; cases hr
    | ok r =>
      rw [hf, Res.ok_bind] at hr
      split at hr <;> (cases hr; simp [Dispatches])
  | passing m =>
    simp only at hr
    cases hf : replySerial m with
    | err e => rw [hf] at hr; cases hr
    | panic => rw [hf] at hr; cases hr
    | ok serial =>
      rw [hf, Res.ok_bind] at hr
      repeat' split at hr
      all_goals (cases hr; simp [Dispatches])
  | running code after =>
    cases code with
    | returns u => cases hr; simp
    | panics u => cases hr; simp
    | send e next => cases hr; exact send_dispatches P _ _
    | request e cb next => cases hr; exact request_dispatches P _ _ _
  | noted m =>
    simp only at hr
    split at hr
    · rename_i hh; cases hr; simpa [Dispatches] using hh
    · rename_i h hh; cases hr; simpa [Dispatches] using hh
  | waiting =>
    simp only at hr
    repeat' split at hr
    all_goals first | (cases hr; simp [Dispatches]; done) | cases hr
  | ended => cases hr; simp

theorem run_dispatches {env : Env} {key : Option DecKey} {endErr : Err} {auto : Bool} {P : Program σ} (es : List Event) : ∀ {s t : State σ} {log : List (Nat × Ev)},
    s.run env key endErr auto P es = .ok (t, log) → ∀ x ∈ log, Dispatches P x.2 := by
  induction es with
  | nil => intro s t log hr; cases hr; simp
  | cons e es ih =>
    intro s t log hr
    obtain ⟨r, y, h1, h2, rfl⟩ := State.run_cons hr
    intro x hx
    rcases List.mem_append.1 hx with hx | hx
    · obtain ⟨z, hz, rfl⟩ := List.mem_map.1 hx
      cases e with
      | arrive k piece => cases h1; cases hz
      | hangUp k => cases h1; cases hz
      | turn k o => exact turn_dispatches h1 z hz
      | send k e => cases h1; exact send_dispatches P _ _ z hz
      | request k e cb => cases h1; exact request_dispatches P _ _ _ z hz
    · exact ih h2 x hx

theorem run_givenTo {env : Env} {key : Option DecKey} {endErr : Err} {auto : Bool} {P : Program σ} {es : List Event} {s t : State σ} {log : List (Nat × Ev)}
    (hr : s.run env key endErr auto P es = .ok (t, log)) {k : Nat} {d : Message Entity} (hd : d ∈ offeredIn (logOf k log)) : GivenTo P (logOf k log) d := by
  obtain ⟨x, hx, hd⟩ := List.mem_filterMap.1 hd
  have hx' := hx
  obtain ⟨⟨j, y⟩, hy, hxy⟩ := List.mem_filterMap.1 hx
  simp only [Option.ite_none_right_eq_some, Option.some.injEq] at hxy
  obtain ⟨rfl, rfl⟩ := hxy
  have := run_dispatches es hr _ hy
  unfold GivenTo
  cases y <;> simp only [reduceCtorEq, Option.some.injEq] at hd
  · subst hd
    rw [show P.handlers _ = _ from this]
    exact hx'
  · subst hd
    rw [show P.handlers _ = _ from this]
    exact hx'

/-! ## The loop of C72 -/

/-- What a loop meets is what it receives from the bytes, with steps of others before, during and at last after it. -/
theorem inputs_of (env : Env) (key : Option DecKey) (endErr : Err) (is : List Input) : ∀ {c c' : RecvState}, (∀ e a, Input.receive (.err e) a ∉ is) →
    (∀ i ∈ is, Arrived i) → receiveMany (entityCodec env) key endErr (receivedIn is).length c = ((receivedIn is).map fun x => .ok x.1, c') →
    ∃ (turns : List (List Outside × Around)) (outs : List Outside), is = inputs env key endErr turns c ++ outs.map .outside ∧ turns.length = (receivedIn is).length ∧
      ∀ t ∈ turns, (∀ x ∈ t.1, x ∈ othersIn is) ∧ (∀ x ∈ t.2.afterWrite ++ t.2.afterCheck ++ t.2.afterMerge ++ t.2.beforeDispatch, x ∈ othersIn is) ∧
        ∃ m, (m, t.2) ∈ receivedIn is := by
  induction is with
  | nil => intro c c' _ _ _; exact ⟨[], [], rfl, rfl, by simp⟩
  | cons i is ih =>
    intro c c' he ha hr
    have he' : ∀ e a, Input.receive (.err e) a ∉ is := fun e a h => he e a (by simp [h])
    have ha' : ∀ i ∈ is, Arrived i := fun i hi => ha i (by simp [hi])
    cases i with
    | outside x =>
      obtain ⟨turns, outs, h1, h2, h3⟩ := ih he' ha' hr
      cases turns with
      | nil =>
        refine ⟨[], x :: outs, ?_, h2, by simp⟩
        rw [h1]
        rfl
      | cons t turns =>
        obtain ⟨o, a⟩ := t
        refine ⟨(x :: o, a) :: turns, outs, ?_, h2, ?_⟩
        · rw [h1]; rfl
        · intro t ht
          have hsub : ∀ y, y ∈ othersIn is → y ∈ othersIn (.outside x :: is) := fun y hy => List.mem_append_right [x] hy
          rcases List.mem_cons.1 ht with rfl | ht
          · obtain ⟨g1, g2, g3⟩ := h3 (o, a) (by simp)
            refine ⟨fun y hy => ?_, fun y hy => hsub y (g2 y hy), g3⟩
            rcases List.mem_cons.1 hy with rfl | hy
            · exact List.mem_append_left _ (List.mem_singleton.2 rfl)
            · exact hsub y (g1 y hy)
          · obtain ⟨g1, g2, g3⟩ := h3 t (by simp [ht])
            exact ⟨fun y hy => hsub y (g1 y hy), fun y hy => hsub y (g2 y hy), g3⟩
    | receive r a =>
      cases r with
      | err e => exact absurd (by simp) (he e a)
      | panic => exact (ha (.receive .panic a) (by simp)).elim
      | ok m =>
        rw [receivedIn, List.length_cons, receiveMany] at hr
        cases hm : Codec.receive (entityCodec env) key endErr c with
        | mk q c1 =>
          rw [hm] at hr
          simp only [List.map_cons, Prod.mk.injEq, List.cons.injEq] at hr
          obtain ⟨⟨rfl, r1⟩, r2⟩ := hr
          obtain ⟨turns, outs, h1, h2, h3⟩ := ih (c := c1) (c' := c') he' ha' (Prod.ext r1 r2)
          refine ⟨([], a) :: turns, outs, ?_, by simp [receivedIn, h2], ?_⟩
          · rw [inputs, hm]
            simp only [List.map_nil, List.nil_append, List.cons_append]
            rw [← h1]
          · intro t ht
            have hsub : ∀ y, y ∈ othersIn is → y ∈ othersIn (.receive (.ok m) a :: is) := fun y hy => List.mem_append_right _ hy
            rcases List.mem_cons.1 ht with rfl | ht
            · exact ⟨by simp, fun y hy => List.mem_append_left _ hy, m, by simp [receivedIn]⟩
            · obtain ⟨g1, g2, x, g3⟩ := h3 t ht
              exact ⟨fun y hy => hsub y (g1 y hy), fun y hy => hsub y (g2 y hy), x, by simp [receivedIn, g3]⟩

theorem replies_asActs (log : List Ev) : replies (log.flatMap asActs) = answersIn log := by
  induction log with
  | nil => rfl
  | cons e log ih =>
    rw [List.flatMap_cons]
    cases e <;> simp [asActs, replies, answersIn] at ih ⊢ <;> exact ih

/-- A session with code is a course of the loop of C72, in which storing and merging succeeds and nobody else touches the uploads. -/
theorem served {env : Env} {key : Option DecKey} {endErr : Err} {auto : Bool} {P : Program σ} {user : σ} {accepts : List Bool}
    {ms : List (Message Entity × Outcome × Outcome)} {S : Converse.State σ} {done : List Ev} {reads : List Bytes} {r : RecvState}
    (hr : ({ user := user, accepts := accepts } : Converse.State σ).run auto P ms = .ok (S, done)) (hd : ∀ x ∈ ms, Delivered x.1) (ho : ∀ x ∈ ms, x.2.1 = .ok ∧ x.2.2 = .ok)
    (hg : Got env key endErr (ms.map (·.1)) ⟨[], reads⟩ r) :
    ∃ turns L log, turns.length = ms.length ∧ (∀ u, ∀ t ∈ turns, Smooth u t) ∧ Handler.serve env key endErr auto turns reads = .ok (L, log) ∧
      offered log = offeredIn done ∧ replies log = answersIn done := by
  obtain ⟨is, h1, h2, h3, h4, h5⟩ := Delivery.run_loop P hr hd
  generalize hregs : Delivery.allOf P.handlers = regs
  have hreg : registering regs = (regs.map fun r => Outside.addHandler r.1 (some r.2)).map Input.outside := by simp [registering]
  have hrec : receivedIn (registering regs ++ is) = receivedIn is := by rw [hreg, Delivery.receivedIn_outside]
  have hoth : othersIn (registering regs ++ is) = (regs.map fun r => Outside.addHandler r.1 (some r.2)) ++ (asked done).map .addRequest := by
    rw [Delivery.othersIn_append, hreg, Delivery.othersIn_outside, h3]
  have hfst : (receivedIn is).map (·.1) = ms.map (·.1) := by
    rw [← h2, metIn, List.map_map]
    rfl
  have hlen : (receivedIn is).length = ms.length := by simpa using congrArg List.length hfst
  obtain ⟨turns, outs, t1, t2, t3⟩ := inputs_of env key endErr (registering regs ++ is) (c := ⟨[], reads⟩) (c' := r) (by
      intro e a hm
      rcases List.mem_append.1 hm with hm | hm
      · rw [hreg] at hm
        obtain ⟨x, -, hx⟩ := List.mem_map.1 hm
        cases hx
      · exact h5 e a hm) (by
      intro i hi
      rcases List.mem_append.1 hi with hi | hi
      · rw [hreg] at hi
        obtain ⟨x, -, rfl⟩ := List.mem_map.1 hi
        trivial
      · exact h4 i hi) (by
      rw [hrec, hlen]
      have hg' : receiveMany (entityCodec env) key endErr (ms.map (·.1)).length ⟨[], reads⟩ = _ := hg
      rw [List.length_map, ← hfst, List.map_map] at hg'
      exact hg')
  have hq : ∀ u, ∀ x ∈ othersIn (registering regs ++ is), concerns u x = false := by
    intro u x hx
    rw [hoth] at hx
    rcases List.mem_append.1 hx with hx | hx
    · obtain ⟨y, -, rfl⟩ := List.mem_map.1 hx
      rfl
    · obtain ⟨y, -, rfl⟩ := List.mem_map.1 hx
      rfl
  have hrun : ({} : Loop).run auto (registering regs ++ is) = .ok (Delivery.asLoop P S, regs.map (fun r => .registered r.1 r.2) ++ done.flatMap asActs) := by
    rw [Handler.run_append, ← hregs, Delivery.registering_all]
    simp only [Res.bind]
    have h1' : ({ handlers := P.handlers } : Loop).run auto is = .ok (Delivery.asLoop P S, done.flatMap asActs) := h1
    rw [h1']
  rw [t1, Handler.run_append] at hrun
  cases hs : ({} : Loop).run auto (inputs env key endErr turns ⟨[], reads⟩) with
  | err e => rw [hs] at hrun; cases hrun
  | panic => rw [hs] at hrun; cases hrun
  | ok q =>
    rw [hs] at hrun
    simp only [Res.bind, System.run_outsides, Res.ok.injEq, Prod.mk.injEq] at hrun
    refine ⟨turns, q.1, q.2, by rw [t2, hrec, hlen], ?_, hs, ?_, ?_⟩
    · intro u t ht
      obtain ⟨g1, g2, m, g3⟩ := t3 t ht
      have hmem : (m, t.2.write, t.2.merge) ∈ ms := by
        rw [← h2]
        rw [hrec] at g3
        exact List.mem_map.2 ⟨_, g3, rfl⟩
      obtain ⟨o1, o2⟩ := ho _ hmem
      exact ⟨o1, o2, fun x hx => hq u x (g1 x hx), fun x hx => hq u x (g2 x hx)⟩
    · have := congrArg offered hrun.2
      rw [offered_append, outsides_offered, List.append_nil, offered_append, Delivery.offered_asActs] at this
      rw [this]
      simp [offered]
    · have := congrArg replies hrun.2
      rw [replies_append, outsides_replies, List.append_nil, replies_append, replies_asActs] at this
      rw [this]
      simp [replies]

/-! ## All messages -/

/-- A loop that has nothing to do any more, and whose terminal did not hang up before all frames had arrived, has received all of them. -/
theorem all_received {env : Env} {key : Option DecKey} {endErr : Err} {auto : Bool} {P : Program σ} {Q : Outcome → Prop} {s0 : Converse.State σ} {k : Nat}
    {es : List Event} {log : List Ev} {fs : FS} {c : Conn σ} {ms : List (Message Entity × Outcome × Outcome)} {S : Converse.State σ} {done : List Ev}
    {xs : List (Bytes × Message Entity)} (hx : Frames env key xs) (hp : ∀ x ∈ arrivedOn k es, x.length ≤ 128) (hf : (arrivedOn k es).flatten = joinedFrames xs)
    (hh : ∀ es1 es2, es = es1 ++ .hangUp k :: es2 → arrivedOn k es1 = arrivedOn k es)
    (hi : Inv env key endErr auto P Q (HungUp k es) s0 (arrivedOn k es) log fs c ms S done) (hn : NothingToDo env key c) :
    ms.map (·.1) = xs.map (·.2) ∧ (∃ r, Got env key endErr (ms.map (·.1)) ⟨[], arrivedOn k es⟩ r) ∧ (log = done ∨ log = done ++ [.closed]) := by
  have full : ∀ {l : List (Message Entity)} {r : RecvState} {e}, Got env key endErr l ⟨[], arrivedOn k es⟩ r → (Codec.receive (entityCodec env) key endErr r).1 = .err e →
      l = xs.map (·.2) := by
    intro l r e hg he
    obtain ⟨n, n1, n2, n3, -, n5⟩ := frames_got hx hp (by rw [hf]; exact List.prefix_rfl) hg
    have hln : l.length = n := by
      rcases Nat.lt_or_eq_of_le n2 with hlt | heq
      · obtain ⟨m, hm⟩ := n5 hlt
        rw [he] at hm
        cases hm
      · exact heq
    have hxn : n = xs.length := by
      rcases Nat.lt_or_eq_of_le n1.le with hlt | heq
      · have h1 := n1.next hlt
        have h2 := (joinedFrames_take xs (n + 1)).length_le
        rw [hf] at h1
        omega
      · exact heq
    rw [n3, hln, hxn, List.take_length]
  rcases hn with he | ⟨hw, -, hs⟩
  · obtain ⟨w1, -, before, r, e, w3, w4, w5, w6⟩ := hi.ended he
    have hb : before = arrivedOn k es := by
      rcases w6 with h | ⟨es1, es2, h1, h2⟩
      · exfalso
        have any : ∀ e', e = e' := by
          intro e'
          obtain ⟨t, ht⟩ := w3
          have hb : ∀ x ∈ before, x.length ≤ 128 := fun x hx => hp x (by rw [← ht]; simp [hx])
          have hfl : before.flatten <+: joinedFrames xs := by
            rw [← hf, ← ht, List.flatten_append]
            exact List.prefix_append _ _
          obtain ⟨n0, n1, n2, n3, n4, n5⟩ := frames_got hx hb hfl (w4.anyEnd e')
          rw [receive_not_starved endErr e' h] at w5
          rcases Nat.lt_or_eq_of_le n2 with hlt | heq
          · obtain ⟨m, hm⟩ := n5 hlt
            rw [w5] at hm
            cases hm
          · have := n4 heq
            rw [w5] at this
            exact Res.err.inj this
        have h1 := any .other
        have h2 := any .notFoundPrefixID
        rw [h1] at h2
        cases h2
      · rw [hh es1 es2 h1] at h2
        exact w3.eq_of_length (Nat.le_antisymm w3.length_le h2.length_le)
    subst hb
    exact ⟨full w4 w5, ⟨r, w4⟩, .inr w1⟩
  · obtain ⟨w1, -, w3⟩ := hi.waiting hw
    exact ⟨full w3 (hs endErr), ⟨_, w3⟩, .inl w1⟩

/-- Of the first bytes of frames, only messages of these frames arrive. -/
theorem frames_arrives {env : Env} {key : Option DecKey} {e : Err} {xs : List (Bytes × Message Entity)} (hx : Frames env key xs) {reads : List Bytes}
    (hr : ∀ c ∈ reads, c.length ≤ 128) (hp : reads.flatten <+: joinedFrames xs) {m : Message Entity} (h : ArrivesOn env key e reads m) : m ∈ xs.map (·.2) := by
  obtain ⟨n', h⟩ := h
  obtain ⟨n, -, -, -, n4⟩ := C12_cut_anywhere (entityCodec env) key e xs hx reads hr hp n'
  have : Res.ok m ∈ (receiveMany (entityCodec env) key e (n + n') ⟨[], reads⟩).1 := by
    rw [Nat.add_comm, Codec.receiveMany_append]
    exact List.mem_append_left _ h
  rw [n4] at this
  rcases List.mem_append.1 this with h | h
  · obtain ⟨x, hx, hxm⟩ := List.mem_map.1 h
    obtain rfl := Res.ok.inj hxm
    exact List.mem_map_of_mem (List.mem_of_mem_take hx)
  · cases (List.mem_replicate.1 h).2

/-- A server to which terminals send nothing but frames that can be decoded goes on. -/
theorem run_frames {env : Env} {key : Option DecKey} {endErr : Err} {auto : Bool} {P : Program σ} {xs : Nat → List (Bytes × Message Entity)}
    (hx : ∀ k, Frames env key (xs k)) (es : List Event) : ∀ {s : State σ} {pieces : Nat → List Bytes}, (∀ k, Safe (fun _ => True) s.fs (s.conns k)) →
    (∀ k, Came env key endErr auto (pieces k) (s.conns k)) →
    (∀ k, (∀ c ∈ pieces k ++ arrivedOn k es, c.length ≤ 128) ∧ (pieces k ++ arrivedOn k es).flatten <+: joinedFrames (xs k)) →
    ∃ t log, s.run env key endErr auto P es = .ok (t, log) := by
  induction es with
  | nil => intro s pieces _ _ _; exact ⟨s, [], rfl⟩
  | cons e es ih =>
    intro s pieces hs hc hp
    have hp' : ∀ k, pieces k ++ arrivedOn k (e :: es) = (pieces k ++ arrivedOn k [e]) ++ arrivedOn k es := fun k => by rw [arrivedOn_cons, List.append_assoc]
    have hstep : ∃ r, (s.conns e.conn).step env key endErr auto P e s.fs = .ok r ∧ Keeps s.fs r.1 ∧ Safe (fun _ => True) r.1 r.2.1 := by
      have refl : Keeps s.fs s.fs := fun _ h => h
      cases e with
      | arrive k piece => exact ⟨_, rfl, refl, fun _ => trivial, (hs k).place⟩
      | hangUp k => exact ⟨_, rfl, refl, fun _ => trivial, (hs k).place⟩
      | send k e => exact ⟨_, rfl, refl, fun _ => trivial, (hs k).place⟩
      | request k e cb => exact ⟨_, rfl, refl, fun _ => trivial, (hs k).place⟩
      | turn k o =>
        refine (hs k).turn (fun hw => ⟨fun hpan => ?_, fun _ _ => trivial⟩) o
        obtain ⟨l, hl⟩ := (hc k).recv (by rw [hw]; simp)
        obtain ⟨h1, h2⟩ := hp k
        obtain ⟨n, -, n2, -, n4, n5⟩ := frames_got (hx k) (reads := pieces k) (fun c hc => h1 c (List.mem_append_left _ hc))
          (List.IsPrefix.trans (by rw [List.flatten_append]; exact List.prefix_append _ _) h2) hl
        rcases Nat.lt_or_eq_of_le n2 with hlt | heq
        · obtain ⟨m, hm⟩ := n5 hlt
          rw [hpan] at hm
          cases hm
        · have := n4 heq
          rw [hpan] at this
          cases this
    obtain ⟨r, h1, h2, h3⟩ := hstep
    have g1 := ((hc e.conn).step h1).1
    obtain ⟨t, log, h4⟩ := ih (s := { fs := r.1, conns := fun j => if j = e.conn then r.2.1 else s.conns j }) (pieces := fun k => pieces k ++ arrivedOn k [e]) (by
        intro k
        by_cases hk : k = e.conn
        · simpa [hk] using h3
        · simpa [hk] using (hs k).keeps h2) (by
        intro k
        by_cases hk : k = e.conn
        · subst hk; simpa using g1
        · simpa [hk, arrivedOn_other (fun h => hk h.symm)] using hc k) (fun k => by simpa only [hp' k] using hp k)
    refine ⟨t, r.2.2.map (fun x => (e.conn, x)) ++ log, ?_⟩
    rw [State.run, h1, Res.ok_bind, h4]
    rfl

/-- The frames of a file. -/
structure FileFrames (env : Env) (key : Option DecKey) (f : FileUpload) (xs : List (Bytes × Message Entity)) : Prop where
  frames : Frames env key xs
  length : xs.length = f.parts.length
  sent : f.messages.map (fun x => Codec.sendBytes (entityCodec env) none x.1) = (xs.map (·.1)).map .ok
  own : ∀ m ∈ xs.map (·.2), ∀ u, belongs true u m = true → u = f.upload

theorem fileFrames {env : Env} (key : Option DecKey) {f : FileUpload} (hf : f.OK env) : ∃ xs, FileFrames env key f xs := by
  obtain ⟨xs, x1, x2, x3, x4⟩ := sendable_frames env key _ (sendable_upload (parts := f.parts) hf.icc0 hf.icc1 hf.location hf.extras hf.sizes)
  refine ⟨xs, x3, by rw [x1]; simp [uploadMessages], by rw [List.map_map]; exact x2, ?_⟩
  intro m hm u hb
  have hmem : partOf true m ∈ (uploadMessages f.icc f.media f.parts).map sentPart := by
    rw [← partOf_map (by simp [x1]) x4]
    exact List.mem_map_of_mem hm
  obtain ⟨y, hy, hyx⟩ := List.mem_map.1 hmem
  unfold uploadMessages at hy
  obtain ⟨z, -, rfl⟩ := List.mem_map.1 hy
  unfold belongs at hb
  rw [← hyx] at hb
  simp only [sentPart, partMessage, Option.map_some, beq_iff_eq, Option.some.injEq] at hb
  exact hb.symm

end Verif.Crowd
