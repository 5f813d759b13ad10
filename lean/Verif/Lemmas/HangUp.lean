import Verif.Spec.HangUp
import Verif.Lemmas.Receive
import Verif.Lemmas.Encode
import Verif.Lemmas.Delivery
import Verif.Lemmas.Stream
/-! # Lemmas: sessions that are closed by their handlers -/

namespace Verif.HangUp
open Session Handler Spec

variable {σ : Type} {s : State σ} {P : Program σ}

/-! ## Nothing is sent by a closed session -/

/-- Whether the session is open and what the connection will accept. -/
def State.here (s : State σ) : Bool × List Bool := (s.isOpen, s.session.accepts)

/-- The same after an event; none if that cannot happen. -/
def after (st : Bool × List Bool) : Ev → Option (Bool × List Bool)
  | .does (.sent _) => if st.1 && st.2.headD true then some (st.1, st.2.tail) else none
  | .does (.refused _) => if st.1 && st.2.headD true then none else some (false, st.2.tail)
  | .closes f => if f = (st.1 && st.2.headD true) then some (false, st.2.tail) else none
  | .does .closed => some (false, st.2)
  | _ => some st

/-- The same after many events. -/
def course : Bool × List Bool → List Ev → Option (Bool × List Bool)
  | st, [] => some st
  | st, e :: x => (after st e).bind (course · x)

theorem course_append (x y : List Ev) : ∀ st, course st (x ++ y) = (course st x).bind (course · y) := by
  induction x with
  | nil => intro b; rfl
  | cons e x ih =>
    intro st
    show (after st e).bind (course · (x ++ y)) = ((after st e).bind (course · x)).bind _
    cases after st e with
    | none => rfl
    | some st' => exact ih st'

/-- An event that neither sends nor closes. -/
def silent : Ev → Bool
  | .does (.sent _) | .does (.refused _) | .does .closed | .closes _ => false
  | _ => true

theorem after_silent {st : Bool × List Bool} {e : Ev} (h : silent e = true) : after st e = some st := by
  unfold silent at h
  split at h <;> first | cases h | skip
  unfold after
  split <;> simp_all

/-- In a turn nothing is received. -/
def turnOnly : Ev → Bool
  | .does (.received _) | .does .closed => false
  | _ => true

structure Fits (s : State σ) (x : List Ev) (s' : State σ) : Prop where
  course : course s.here x = some s'.here
  turn : ∀ e ∈ x, turnOnly e = true

theorem Fits.append {s s' s'' : State σ} {x y : List Ev} (h : Fits s x s') (h' : Fits s' y s'') : Fits s (x ++ y) s'' :=
  ⟨by rw [course_append, h.course]; exact h'.course, by
    intro e he
    rcases List.mem_append.mp he with he | he
    · exact h.turn e he
    · exact h'.turn e he⟩

theorem Fits.nil {s s' : State σ} (h : s'.here = s.here) : Fits s [] s' := ⟨by rw [h]; rfl, by simp⟩

theorem Fits.cons {s s' : State σ} {x : List Ev} {e : Ev} (he : silent e = true) (ht : turnOnly e = true) (h : Fits s x s') : Fits s (e :: x) s' := by
  refine ⟨?_, ?_⟩
  · show (after s.here e).bind _ = _
    rw [after_silent he]
    exact h.course
  · intro e' he'
    rcases List.mem_cons.mp he' with rfl | he'
    · exact ht
    · exact h.turn e' he'

theorem Fits.of {s t s' : State σ} {x : List Ev} (h : Fits t x s') (ht : t.here = s.here) : Fits s x s' := ⟨ht ▸ h.course, h.turn⟩

theorem Fits.to {s s' t : State σ} {x : List Ev} (h : Fits s x s') (ht : t.here = s'.here) : Fits s x t := ⟨ht ▸ h.course, h.turn⟩

theorem send_fits (s : State σ) (e : Entity) : Fits s (s.send e).2.1 (s.send e).1 := by
  unfold State.send
  dsimp only
  split
  · rename_i h
    refine ⟨?_, ?_⟩
    · show Option.bind (if s.isOpen && s.session.accepts.headD true then some (s.isOpen, s.session.accepts.tail) else none) _ = _
      rw [if_pos h]
      rfl
    · intro e he
      simp only [List.mem_cons, List.not_mem_nil, or_false] at he
      subst he; rfl
  · rename_i h
    refine ⟨?_, ?_⟩
    · show Option.bind (if s.isOpen && s.session.accepts.headD true then none else some (false, s.session.accepts.tail)) _ = _
      rw [if_neg h]
      rfl
    · intro e he
      simp only [List.mem_cons, List.not_mem_nil, or_false] at he
      subst he; rfl

theorem request_fits (s : State σ) (e : Entity) (cb : Nat) : Fits s (s.request e cb).2.1 (s.request e cb).1 := by
  have h := send_fits s e
  unfold State.request
  generalize s.send e = r at h
  obtain ⟨s', x, n⟩ := r
  cases n with
  | none => exact h
  | some n => exact h.append (.cons rfl rfl (.nil rfl))

theorem exec_fits (c : Code σ) : ∀ s : State σ, Fits s (s.exec c).2.1 (s.exec c).1 := by
  induction c with
  | returns u => intro s; exact .nil rfl
  | panics u => intro s; exact .nil rfl
  | send e next ih => intro s; exact (send_fits s e).append (ih _ _)
  | request e cb next ih => intro s; exact (request_fits s e cb).append (ih _ _)
  | close next ih =>
    intro s
    have h := ih s.close.2 s.close.1
    refine ⟨?_, ?_⟩
    · show Option.bind (if s.close.2 = s.close.2 then some s.close.1.here else none) _ = _
      rw [if_pos rfl]
      exact h.course
    · intro e he
      have he : e ∈ Ev.closes s.close.2 :: (s.close.1.exec (next s.close.2)).2.1 := he
      rcases List.mem_cons.mp he with rfl | he
      · rfl
      · exact h.turn e he

theorem note_fits {m : Message Entity} {s' : State σ} {x : List Ev} (h : s.note P m = .ok (s', x)) : Fits s x s' := by
  unfold State.note at h
  have ho : (if m.header.iccID > 0 then { s with session := { s.session with icc := m.header.iccID } } else s).here = s.here := by split <;> rfl
  generalize (if m.header.iccID > 0 then { s with session := { s.session with icc := m.header.iccID } } else s : State σ) = r at h ho
  obtain ⟨n, hn, h⟩ := Res.bind_ok h
  split at h
  · cases h; exact .nil ho
  · split at h
    · cases h; exact .nil ho
    · simp only [Delivery.recovered_call, Res.ok_bind, Res.ok.injEq, Prod.mk.injEq] at h
      obtain ⟨rfl, rfl⟩ := h
      refine .cons rfl rfl ?_
      exact (exec_fits _ _).of ho

theorem dispatch_fits {m : Message Entity} {s' : State σ} {x : List Ev} (h : s.dispatch P m = .ok (s', x)) : Fits s x s' := by
  unfold State.dispatch at h
  split at h
  · cases h; exact .cons rfl rfl (.nil rfl)
  · simp only [Delivery.recovered_call, Res.ok_bind, Res.ok.injEq, Prod.mk.injEq] at h
    obtain ⟨rfl, rfl⟩ := h
    exact .cons rfl rfl (exec_fits _ _)

theorem deliver_fits {m : Message Entity} {s' : State σ} {x : List Ev} (h : s.deliver P m = .ok (s', x)) : Fits s x s' := by
  unfold State.deliver at h
  obtain ⟨⟨s1, x1⟩, h1, h⟩ := Res.bind_ok h
  obtain ⟨⟨s2, x2⟩, h2, h⟩ := Res.bind_ok h
  cases h
  exact (note_fits h1).append (dispatch_fits h2)

theorem reply_fits (s : State σ) (m : Message Entity) (r : UInt8) : Fits s (s.reply m r).2 (s.reply m r).1 :=
  .cons rfl rfl (send_fits s _)

theorem check_fits {o : Outcome} {m : Message Entity} {b : T0801} {p : Packet} {s' : State σ} {x : List Ev} (h : s.check P o m b p = .ok (s', x)) :
    Fits s x s' := by
  unfold State.check at h
  split at h
  · cases h; exact .nil rfl
  · obtain ⟨full, hf, h⟩ := Res.bind_ok h
    split at h
    · cases h; exact .nil rfl
    · obtain ⟨⟨fs, content⟩, hm, h⟩ := Res.bind_ok h
      cases content with
      | none => cases h; exact .cons rfl rfl (.nil rfl)
      | some c =>
        obtain ⟨⟨s2, x2⟩, h2, h⟩ := Res.bind_ok h
        cases h
        exact .cons rfl rfl ((deliver_fits h2).of rfl)

theorem part_fits {o : Outcome × Outcome} {m : Message Entity} {b : T0801} {p : Packet} {data : Bytes} {s' : State σ} {x : List Ev}
    (h : s.part P o m b p data = .ok (s', x)) : Fits s x s' := by
  unfold State.part at h
  generalize (Loop.partFile m b p).write o.1 p.seq data s.session.fs = w at h
  dsimp only at h
  have hr := (reply_fits { s with session := { s.session with fs := w.1 } } m (if w.2 then 0 else 1)).of (s := s) rfl
  generalize State.reply ({ s with session := { s.session with fs := w.1 } } : State σ) m (if w.2 then 0 else 1) = r at h hr
  split at h
  · cases h; exact .cons rfl rfl hr
  · obtain ⟨⟨s2, x2⟩, h2, h⟩ := Res.bind_ok h
    cases h
    exact .cons rfl rfl (hr.append (check_fits h2))

theorem process_fits {auto : Bool} {o : Outcome × Outcome} {m : Message Entity} {s' : State σ} {x : List Ev} (h : s.process auto P o m = .ok (s', x)) :
    Fits s x s' := by
  unfold State.process at h
  split at h
  · split at h
    · exact deliver_fits h
    · split at h
      · split at h
        · exact part_fits h
        · cases h
      · exact deliver_fits h
  · have := reply_fits s m 3
    generalize s.reply m 3 = r at h this
    cases h
    exact this

/-! ## At most one message is given to a handler in a turn -/

theorem handledIn_append (x y : List Ev) : workedOn (x ++ y) = workedOn x ++ workedOn y := List.filterMap_append ..

theorem send_handled (s : State σ) (e : Entity) : workedOn (s.send e).2.1 = [] := by
  unfold State.send
  dsimp only
  split <;> rfl

theorem exec_handled (c : Code σ) : ∀ s : State σ, workedOn (s.exec c).2.1 = [] := by
  induction c with
  | returns u => intro s; rfl
  | panics u => intro s; rfl
  | send e next ih =>
    intro s
    rw [State.exec]
    dsimp only
    rw [handledIn_append, send_handled, ih]
    rfl
  | request e cb next ih =>
    intro s
    rw [State.exec]
    dsimp only
    have : workedOn (s.request e cb).2.1 = [] := by
      have h := send_handled s e
      unfold State.request
      generalize s.send e = r at h
      obtain ⟨s', x, n⟩ := r
      cases n with
      | none => exact h
      | some n => dsimp only at h ⊢; rw [handledIn_append, h]; rfl
    rw [handledIn_append, this, ih]
    rfl
  | close next ih => intro s; exact ih _ _

theorem deliver_handled {m : Message Entity} {s' : State σ} {x : List Ev} (h : s.deliver P m = .ok (s', x)) : (workedOn x).length ≤ 1 := by
  unfold State.deliver at h
  obtain ⟨⟨s1, x1⟩, h1, h⟩ := Res.bind_ok h
  obtain ⟨⟨s2, x2⟩, h2, h⟩ := Res.bind_ok h
  cases h
  have g1 : workedOn x1 = [] := by
    unfold State.note at h1
    obtain ⟨n, hn, h1⟩ := Res.bind_ok h1
    split at h1
    · cases h1; rfl
    · split at h1
      · cases h1; rfl
      · simp only [Delivery.recovered_call, Res.ok_bind, Res.ok.injEq, Prod.mk.injEq] at h1
        obtain ⟨-, rfl⟩ := h1
        exact exec_handled _ _
  have g2 : (workedOn x2).length ≤ 1 := by
    unfold State.dispatch at h2
    split at h2
    · cases h2; simp [workedOn]
    · rename_i g _
      simp only [Delivery.recovered_call, Res.ok_bind, Res.ok.injEq, Prod.mk.injEq] at h2
      obtain ⟨-, rfl⟩ := h2
      show (m :: workedOn _).length ≤ 1
      rw [exec_handled]
      simp
  rw [handledIn_append, g1]
  exact g2

theorem check_handled {o : Outcome} {m : Message Entity} {b : T0801} {p : Packet} {s' : State σ} {x : List Ev} (h : s.check P o m b p = .ok (s', x)) :
    (workedOn x).length ≤ 1 := by
  unfold State.check at h
  split at h
  · cases h; simp [workedOn]
  · obtain ⟨full, hf, h⟩ := Res.bind_ok h
    split at h
    · cases h; simp [workedOn]
    · obtain ⟨⟨fs, content⟩, hm, h⟩ := Res.bind_ok h
      cases content with
      | none => cases h; simp [workedOn]
      | some c =>
        obtain ⟨⟨s2, x2⟩, h2, h⟩ := Res.bind_ok h
        cases h
        exact (deliver_handled h2 : (workedOn x2).length ≤ 1)

theorem part_handled {o : Outcome × Outcome} {m : Message Entity} {b : T0801} {p : Packet} {data : Bytes} {s' : State σ} {x : List Ev}
    (h : s.part P o m b p data = .ok (s', x)) : (workedOn x).length ≤ 1 := by
  unfold State.part State.reply at h
  generalize (Loop.partFile m b p).write o.1 p.seq data s.session.fs = w at h
  dsimp only at h
  generalize hr : State.send _ _ = r at h
  have hs := hr ▸ send_handled _ _
  obtain ⟨s1, x1, n⟩ := r
  dsimp only at h hs
  split at h
  · cases h
    show (workedOn x1).length ≤ 1
    rw [hs]
    simp
  · obtain ⟨⟨s2, x2⟩, h2, h⟩ := Res.bind_ok h
    cases h
    show (workedOn (x1 ++ x2)).length ≤ 1
    rw [handledIn_append, hs]
    exact check_handled h2

theorem process_handled {auto : Bool} {o : Outcome × Outcome} {m : Message Entity} {s' : State σ} {x : List Ev} (h : s.process auto P o m = .ok (s', x)) :
    (workedOn x).length ≤ 1 := by
  unfold State.process at h
  split at h
  · split at h
    · exact deliver_handled h
    · split at h
      · split at h
        · exact part_handled h
        · cases h
      · exact deliver_handled h
  · have := send_handled s (.m8001 { replySerial := m.header.serial, replyID := m.header.msgID, result := 3 })
    cases h
    show (workedOn (State.send _ _).2.1).length ≤ 1
    rw [this]
    simp

/-! ## What a closed session still reads -/

theorem unstuffed_length {w c : Bytes} (h : Unstuffed w c) : c.length ≤ w.length := by
  induction h with
  | nil => simp
  | flag _ ih => simp only [List.length_cons]; omega
  | esc _ ih => simp only [List.length_cons]; omega
  | plain _ _ ih => simp only [List.length_cons]; omega

/-- A frame has at least 15 bytes. -/
theorem decode_length {E : Type} {C : BodyCodec E} {key : Option DecKey} {f : Bytes} {m : Message E} (h : Message.decode C key {} f = .ok m) :
    15 ≤ f.length := by
  unfold Message.decode at h
  obtain ⟨⟨hd, c⟩, h1, -⟩ := Res.bind_ok h
  obtain ⟨w, u, s, rfl, h2, h3, -, h4, -⟩ := decodeEnvelope_ok h1
  have := unstuffed_length h2
  have hu : 1 ≤ u.length := by
    rcases h3 with rfl | ⟨rfl, -⟩ | ⟨rfl, -⟩ <;> simp
  simp only [List.length_append, List.length_cons, List.length_nil]
  omega

section
variable {C : BodyCodec Entity} {key : Option DecKey} {endErr : Err}

theorem notin_takeWhile (t : Bytes) : (0x7e : UInt8) ∉ t.takeWhile (fun x => decide (x ≠ 0x7e)) := by
  induction t with
  | nil => simp
  | cons a t ih =>
    rw [List.takeWhile_cons]
    split
    · rename_i ha
      simp only [List.mem_cons, not_or]
      exact ⟨fun h => by simp [← h] at ha, ih⟩
    · simp

theorem read_none {data buf : Bytes} (h : Codec.readFromBuffer C key data = (.ok none, buf)) : buf = data ∧ Unfinished data := by
  unfold Codec.readFromBuffer at h
  split at h
  · cases h; exact ⟨rfl, .inl rfl⟩
  · rename_i b t
    split at h
    · cases h
    · rename_i hb
      dsimp only at h
      split at h
      · rename_i hl
        cases h
        simp only [ne_eq, Decidable.not_not] at hb
        refine ⟨rfl, .inr ⟨t, by rw [hb], ?_⟩⟩
        intro hm
        have hall : t.takeWhile (fun x => decide (x ≠ 0x7e)) = t := (List.takeWhile_prefix _).eq_of_length hl
        exact notin_takeWhile t (by rw [hall]; exact hm)
      · split at h <;> cases h

theorem read_some {data buf : Bytes} {m : Message Entity} (h : Codec.readFromBuffer C key data = (.ok (some m), buf)) :
    ∃ f, Delimited f ∧ data = f ++ buf ∧ Message.decode C key {} f = .ok m := by
  unfold Codec.readFromBuffer at h
  split at h
  · cases h
  · rename_i b t
    split at h
    · cases h
    · rename_i hb
      dsimp only at h
      split at h
      · cases h
      · rename_i hl
        simp only [ne_eq, Decidable.not_not] at hb
        subst hb
        split at h
        · rename_i m' hd
          cases h
          refine ⟨_, ?_, (List.take_append_drop _ _).symm, hd⟩
          have hsplit := List.takeWhile_append_dropWhile (p := fun x => decide (x ≠ (0x7e : UInt8))) (l := t)
          generalize hw : t.takeWhile (fun x => decide (x ≠ (0x7e : UInt8))) = w at hl hsplit
          have hnot : (0x7e : UInt8) ∉ w := hw ▸ notin_takeWhile t
          cases hd' : t.dropWhile (fun x => decide (x ≠ (0x7e : UInt8))) with
          | nil => rw [hd'] at hsplit; simp at hsplit; rw [hsplit] at hl; exact absurd rfl hl
          | cons a r =>
            have ha : a = 0x7e := by
              have := List.head?_dropWhile_not (fun x => decide (x ≠ (0x7e : UInt8))) t
              rw [hd'] at this
              simpa using this
            rw [hd', ha] at hsplit
            refine ⟨w, ?_, hnot⟩
            rw [← hsplit]
            have : (0x7e :: (w ++ 0x7e :: r) : Bytes) = ([0x7e] ++ w ++ [0x7e]) ++ r := by simp
            rw [this, List.take_left' (by simp)]
        · cases h
        · cases h

theorem delimited_unfinished {f buf a : Bytes} (hf : Delimited f) (hu : Unfinished buf) (h : buf = f ++ a) : False := by
  obtain ⟨w, rfl, -⟩ := hf
  rcases hu with rfl | ⟨v, rfl, hv⟩
  · simp at h
  · simp only [List.cons_append, List.nil_append, List.append_assoc, List.cons.injEq, true_and] at h
    exact hv (by rw [h]; simp)

theorem recvLoop_ok : ∀ {reads : List Bytes} {buf : Bytes} {m : Message Entity} {c : RecvState}, Unfinished buf →
    Codec.recvLoop C key endErr reads buf = (.ok m, c) → ∃ used piece f, reads = used ++ piece :: c.reads ∧ Delimited f ∧ Message.decode C key {} f = .ok m ∧
      c.buffer <:+ piece ∧ c.buffer.length < piece.length ∧ ∀ rs, Codec.recvLoop C key endErr (used ++ piece :: rs) buf = (.ok m, ⟨c.buffer, rs⟩) := by
  intro reads
  induction reads with
  | nil => intro buf m c _ h; simp [Codec.recvLoop] at h
  | cons piece reads ih =>
    intro buf m c hu h
    rw [Codec.recvLoop] at h
    split at h
    · rename_i hl
      have hu' : Unfinished (buf ++ piece) := .inl (List.length_eq_zero_iff.mp hl)
      obtain ⟨used, p, f, h1, h2, h3, h4, h5, h6⟩ := ih hu' h
      refine ⟨piece :: used, p, f, by rw [h1]; rfl, h2, h3, h4, h5, fun rs => ?_⟩
      rw [List.cons_append, Codec.recvLoop, if_pos hl]
      exact h6 rs
    · rename_i hl
      split at h
      · cases h
      · rename_i hl2
        split at h
        · rename_i m' buf' hr
          cases h
          obtain ⟨f, hf, he, hd⟩ := read_some hr
          have : ∃ a, a ≠ [] ∧ piece = a ++ buf' := by
            rcases List.append_eq_append_iff.mp he with ⟨a, h1, h2⟩ | ⟨a, h1, h2⟩
            · refine ⟨a, ?_, h2⟩
              rintro rfl
              rw [List.append_nil] at h1
              exact delimited_unfinished hf hu (a := []) (by rw [h1]; simp)
            · exact absurd (delimited_unfinished hf hu h1) (by simp)
          obtain ⟨a, ha, rfl⟩ := this
          refine ⟨[], _, f, rfl, hf, hd, List.suffix_append _ _, ?_, fun rs => ?_⟩
          · have := List.length_pos_iff.mpr ha
            simp only [List.length_append]
            omega
          · rw [List.nil_append, Codec.recvLoop]
            rw [if_neg hl, if_neg hl2, hr]
        · rename_i buf' hr
          obtain ⟨rfl, hu'⟩ := read_none hr
          obtain ⟨used, p, f, h1, h2, h3, h4, h5, h6⟩ := ih hu' h
          refine ⟨piece :: used, p, f, by rw [h1]; rfl, h2, h3, h4, h5, fun rs => ?_⟩
          rw [List.cons_append, Codec.recvLoop]
          rw [if_neg hl, if_neg hl2, hr]
          exact h6 rs
        · cases h
        · cases h

theorem receive_ok {c c' : RecvState} {m : Message Entity} (h : Codec.receive C key endErr c = (.ok m, c')) :
    ∃ used f, c.reads = used ++ c'.reads ∧ Delimited f ∧ Message.decode C key {} f = .ok m ∧
      (∀ rs, Codec.receive C key endErr ⟨c.buffer, used ++ rs⟩ = (.ok m, ⟨c'.buffer, rs⟩)) ∧
      (used = [] ∧ c.buffer = f ++ c'.buffer ∨ used ≠ [] ∧ ∃ piece ∈ used, c'.buffer <:+ piece ∧ c'.buffer.length < piece.length) := by
  unfold Codec.receive at h
  split at h
  · rename_i m' buf hr
    cases h
    obtain ⟨f, hf, he, hd⟩ := read_some hr
    refine ⟨[], f, rfl, hf, hd, fun rs => ?_, .inl ⟨rfl, he⟩⟩
    unfold Codec.receive
    rw [hr]
    rfl
  · rename_i buf hr
    obtain ⟨rfl, hu⟩ := read_none hr
    obtain ⟨used, p, f, h1, h2, h3, h4, h5, h6⟩ := recvLoop_ok hu h
    refine ⟨used ++ [p], f, by rw [h1]; simp, h2, h3, fun rs => ?_, .inr ⟨by simp, p, by simp, h4, h5⟩⟩
    unfold Codec.receive
    rw [hr]
    dsimp only
    rw [List.append_assoc]
    exact h6 rs
  · cases h
  · cases h

end

/-! ## The course of a session -/

section
variable {env : Env} {key : Option DecKey} {endErr : Err} {auto : Bool}

theorem taken_append (x y : List Ev) : takenIn (x ++ y) = takenIn x ++ takenIn y := List.filterMap_append ..

theorem taken_turn {x : List Ev} (h : ∀ e ∈ x, turnOnly e = true) : takenIn x = [] := by
  rw [takenIn, List.filterMap_eq_nil_iff]
  intro e he
  have := h e he
  cases e with
  | closes b => rfl
  | does e => cases e <;> first | rfl | simp [turnOnly] at this

theorem serve_course {os : List (Outcome × Outcome)} : ∀ {s s' : State σ} {c : RecvState} {log : List Ev},
    s.serve env key endErr auto P os c = .ok (s', log) → course s.here log = some s'.here := by
  induction os with
  | nil => intro s s' c log h; cases h; rfl
  | cons o os ih =>
    intro s s' c log h
    rw [State.serve] at h
    split at h
    · obtain ⟨⟨s1, x⟩, h1, h⟩ := Res.bind_ok h
      obtain ⟨⟨s2, y⟩, h2, h⟩ := Res.bind_ok h
      cases h
      show course s.here (x ++ y) = _
      rw [course_append, (process_fits h1).course]
      exact ih h2
    · cases h
      rfl
    · cases h

theorem course_false {x : List Ev} : ∀ {acc : List Bool} {st : Bool × List Bool}, course (false, acc) x = some st →
    st.1 = false ∧ (∀ m, .does (.sent m) ∉ x) ∧ .closes true ∉ x := by
  induction x with
  | nil => intro acc st h; cases h; exact ⟨rfl, by simp, by simp⟩
  | cons e x ih =>
    intro acc st h
    have h : (after (false, acc) e).bind (course · x) = some st := h
    have key : (∀ m, e ≠ .does (.sent m)) ∧ e ≠ .closes true ∧ ∃ acc', course (false, acc') x = some st := by
      unfold after at h
      split at h
      · cases h
      · exact ⟨by simp, by simp, _, h⟩
      · split at h
        · rename_i hf
          exact ⟨by simp, by simp [hf], _, h⟩
        · cases h
      · exact ⟨by simp, by simp, _, h⟩
      · rename_i h1 h2 h3 h4
        exact ⟨h1, h3 true, _, h⟩
    obtain ⟨k1, k2, acc', k3⟩ := key
    obtain ⟨i1, i2, i3⟩ := ih k3
    refine ⟨i1, fun m hm => ?_, fun hm => ?_⟩
    · rcases List.mem_cons.mp hm with h | h
      · exact k1 m h.symm
      · exact i2 m h
    · rcases List.mem_cons.mp hm with h | h
      · exact k2 h.symm
      · exact i3 h

theorem course_ends {e : Ev} {x : List Ev} {st st' : Bool × List Bool} (h : course st (e :: x) = some st') (he : ends e = true) :
    ∃ acc, course (false, acc) x = some st' := by
  have h : (after st e).bind (course · x) = some st' := h
  unfold after at h
  split at h
  · cases he
  · split at h
    · cases h
    · exact ⟨_, h⟩
  · split at h
    · exact ⟨_, h⟩
    · cases h
  · exact ⟨_, h⟩
  · rename_i h1 h2 h3 h4
    unfold ends at he
    split at he
    · exact absurd rfl (h3 _)
    · exact absurd rfl (h2 _)
    · exact absurd rfl h4
    · cases he

theorem course_split {x y : List Ev} {e : Ev} {st st' : Bool × List Bool} (h : course st (x ++ e :: y) = some st') :
    ∃ st1, course st x = some st1 ∧ course st1 (e :: y) = some st' := by
  rw [course_append] at h
  cases hc : course st x with
  | none => rw [hc] at h; cases h
  | some st1 => rw [hc] at h; exact ⟨st1, rfl, h⟩

theorem course_closed {x : List Ev} {st st' : Bool × List Bool} (h : course st x = some st') {e : Ev} (he : e ∈ x) (hend : ends e = true) : st'.1 = false := by
  obtain ⟨l1, l2, rfl⟩ := List.append_of_mem he
  obtain ⟨st1, -, h⟩ := course_split h
  obtain ⟨acc, h⟩ := course_ends h hend
  exact (course_false h).1

theorem course_open {x : List Ev} : ∀ {acc : List Bool} {st : Bool × List Bool}, course (true, acc) x = some st → (∀ e ∈ x, ends e = false) → st.1 = true := by
  induction x with
  | nil => intro acc st h _; cases h; rfl
  | cons e x ih =>
    intro acc st h he
    have he0 := he e (by simp)
    have h : (after (true, acc) e).bind (course · x) = some st := h
    have : ∃ acc', course (true, acc') x = some st := by
      unfold after at h
      split at h
      · split at h
        · exact ⟨_, h⟩
        · cases h
      · cases he0
      · cases he0
      · cases he0
      · exact ⟨_, h⟩
    obtain ⟨acc', h⟩ := this
    exact ih h fun e' he' => he e' (by simp [he'])

/-- If the connection accepts everything. -/
theorem course_accepting {x : List Ev} : ∀ {b : Bool} {st : Bool × List Bool}, course (b, []) x = some st → st.2 = [] := by
  induction x with
  | nil => intro b st h; cases h; rfl
  | cons e x ih =>
    intro b st h
    have h : (after (b, []) e).bind (course · x) = some st := h
    have : ∃ b', course (b', []) x = some st := by
      unfold after at h
      split at h
      · split at h
        · exact ⟨_, h⟩
        · cases h
      · split at h
        · cases h
        · exact ⟨_, h⟩
      · split at h
        · exact ⟨_, h⟩
        · cases h
      · exact ⟨_, h⟩
      · exact ⟨_, h⟩
    obtain ⟨b', h⟩ := this
    exact ih h

theorem course_closes {x : List Ev} : ∀ {st : Bool × List Bool}, course (true, []) x = some st → st.1 = false → .closes true ∈ x ∨ .does .closed ∈ x := by
  induction x with
  | nil => intro st h h0; cases h; cases h0
  | cons e x ih =>
    intro st h h0
    have h : (after (true, []) e).bind (course · x) = some st := h
    unfold after at h
    split at h
    · rcases ih h h0 with h | h
      · exact .inl (List.mem_cons_of_mem _ h)
      · exact .inr (List.mem_cons_of_mem _ h)
    · cases h
    · split at h
      · rename_i hf
        exact .inl (by rw [hf]; simp)
      · cases h
    · exact .inr (by simp)
    · rcases ih h h0 with h | h
      · exact .inl (List.mem_cons_of_mem _ h)
      · exact .inr (List.mem_cons_of_mem _ h)

/-- The loop is over when receiving failed. -/
theorem serve_closed_last {os : List (Outcome × Outcome)} : ∀ {s s' : State σ} {c : RecvState} {log : List Ev},
    s.serve env key endErr auto P os c = .ok (s', log) → .does .closed ∉ log.dropLast := by
  induction os with
  | nil => intro s s' c log h; cases h; simp
  | cons o os ih =>
    intro s s' c log h
    rw [State.serve] at h
    split at h
    · rename_i m c' _
      obtain ⟨⟨s1, x⟩, h1, h⟩ := Res.bind_ok h
      obtain ⟨⟨s2, y⟩, h2, h⟩ := Res.bind_ok h
      cases h
      intro hm
      have hx : Ev.does .closed ∉ Ev.does (.received m) :: x := by
        intro hx
        rcases List.mem_cons.mp hx with hx | hx
        · cases hx
        · cases (process_fits h1).turn _ hx
      by_cases hy : y = []
      · rw [hy, List.append_nil] at hm
        exact hx (List.dropLast_subset _ hm)
      · rw [← List.cons_append, List.dropLast_append_of_ne_nil hy] at hm
        rcases List.mem_append.mp hm with hm | hm
        · exact hx hm
        · exact ih h2 hm
    · cases h; simp
    · cases h

theorem serve_after {os : List (Outcome × Outcome)} : ∀ {s s' : State σ} {c : RecvState} {log : List Ev}, s.isOpen = false →
    s.serve env key endErr auto P os c = .ok (s', log) → FramesOf (entityCodec env) key c.buffer (takenIn log) := by
  induction os with
  | nil => intro s s' c log _ h; cases h; exact .nil _
  | cons o os ih =>
    intro s s' c log ho h
    rw [State.serve] at h
    split at h
    · rename_i m c' hr
      obtain ⟨⟨s1, x⟩, h1, h⟩ := Res.bind_ok h
      obtain ⟨⟨s2, y⟩, h2, h⟩ := Res.bind_ok h
      cases h
      have hc : s.connection c = { c with reads := [] } := by simp [State.connection, ho]
      rw [hc] at hr
      obtain ⟨used, f, g1, g2, g3, -, g4⟩ := receive_ok hr
      have hu : used = [] := (List.nil_eq_append_iff.mp g1).1
      rcases g4 with ⟨-, g4⟩ | ⟨g4, -⟩
      · have hx := process_fits h1
        have ho1 : s1.isOpen = false := (course_false (acc := s.session.accepts) (st := s1.here) (by have := hx.course; unfold State.here at this; rw [ho] at this; exact this)).1
        have ht : takenIn (.does (.received m) :: (x ++ y)) = m :: takenIn y := by
          show m :: takenIn (x ++ y) = _
          rw [taken_append, taken_turn hx.turn]
          rfl
        rw [ht]
        have g4 : c.buffer = f ++ c'.buffer := g4
        rw [g4]
        exact .cons g2 g3 (ih ho1 h2)
      · exact absurd hu g4
    · cases h; exact .nil _
    · cases h

theorem leftOf_receive {reads : List Bytes} {c c' : RecvState} {m : Message Entity} (h : Codec.receive (entityCodec env) key endErr c = (.ok m, c'))
    (hb : LeftOf reads c.buffer) (hr : ∀ p ∈ c.reads, p ∈ reads) : LeftOf reads c'.buffer ∧ ∀ p ∈ c'.reads, p ∈ reads := by
  obtain ⟨used, f, g1, g2, g3, -, g4⟩ := receive_ok h
  refine ⟨?_, fun p hp => hr p (by rw [g1]; simp [hp])⟩
  rcases g4 with ⟨-, g4⟩ | ⟨-, p, hp, g5, g6⟩
  · rcases hb with hb | ⟨p, hp, hs, hl⟩
    · rw [hb] at g4
      exact .inl (List.nil_eq_append_iff.mp g4).2
    · refine .inr ⟨p, hp, ?_, ?_⟩
      · exact (List.suffix_append f c'.buffer).trans (g4 ▸ hs)
      · rw [g4, List.length_append] at hl; omega
  · exact .inr ⟨p, hr p (by rw [g1]; simp [hp]), g5, g6⟩

theorem serve_left (reads : List Bytes) {os : List (Outcome × Outcome)} : ∀ {s s' : State σ} {c : RecvState} {log : List Ev},
    LeftOf reads c.buffer → (∀ p ∈ c.reads, p ∈ reads) → s.serve env key endErr auto P os c = .ok (s', log) →
    ∀ {l1 l2 : List Ev} {e : Ev}, log = l1 ++ e :: l2 → ends e = true → ∃ rest, LeftOf reads rest ∧ FramesOf (entityCodec env) key rest (takenIn l2) := by
  induction os with
  | nil => intro s s' c log _ _ h l1 l2 e hl he; cases h; simp at hl
  | cons o os ih =>
    intro s s' c log hb hr h l1 l2 e hl he
    rw [State.serve] at h
    split at h
    · rename_i m c' hrec
      obtain ⟨⟨s1, x⟩, h1, h⟩ := Res.bind_ok h
      obtain ⟨⟨s2, y⟩, h2, h⟩ := Res.bind_ok h
      cases h
      have hsub : LeftOf reads (s.connection c).buffer ∧ ∀ p ∈ (s.connection c).reads, p ∈ reads := by
        unfold State.connection
        split
        · exact ⟨hb, hr⟩
        · exact ⟨hb, by simp⟩
      obtain ⟨hb', hr'⟩ := leftOf_receive hrec hsub.1 hsub.2
      have hx := process_fits h1
      cases l1 with
      | nil => simp only [List.nil_append, List.cons.injEq] at hl; rw [← hl.1] at he; simp [ends] at he
      | cons a l1 =>
        simp only [List.cons_append, List.cons.injEq] at hl
        obtain ⟨-, hl⟩ := hl
        rcases List.append_eq_append_iff.mp hl with ⟨a', hl1, hl2⟩ | ⟨a', hl1, hl2⟩
        · exact ih hb' hr' h2 hl2 he
        · cases a' with
          | nil => exact ih hb' hr' h2 (l1 := []) (by simpa using hl2.symm) he
          | cons e' a' =>
            simp only [List.cons_append, List.cons.injEq] at hl2
            obtain ⟨rfl, rfl⟩ := hl2
            have hcl : s1.isOpen = false := course_closed hx.course (e := e) (by rw [hl1]; simp) he
            refine ⟨c'.buffer, hb', ?_⟩
            have ht : takenIn (a' ++ y) = takenIn y := by
              rw [taken_append, taken_turn fun e he => hx.turn e (by rw [hl1]; simp [he])]
              rfl
            rw [ht]
            exact serve_after hcl h2
    · cases h
      cases l1 with
      | nil =>
        simp only [List.nil_append, List.cons.injEq] at hl
        rw [← hl.2]
        exact ⟨[], .inl rfl, .nil _⟩
      | cons a l1 => simp at hl
    · cases h

theorem framesOf_length {bytes : Bytes} {ms : List (Message Entity)} (h : FramesOf (entityCodec env) key bytes ms) : ms.length * 15 ≤ bytes.length := by
  induction h with
  | nil bytes => simp
  | cons hf hd _ ih =>
    have := decode_length hd
    simp only [List.length_cons, List.length_append]
    omega

theorem serve_handled {os : List (Outcome × Outcome)} : ∀ {s s' : State σ} {c : RecvState} {log : List Ev},
    s.serve env key endErr auto P os c = .ok (s', log) → (workedOn log).length ≤ (takenIn log).length ∧
      ∀ {l1 l2 : List Ev}, log = l1 ++ l2 → (workedOn l2).length ≤ (takenIn l2).length + 1 := by
  induction os with
  | nil =>
    intro s s' c log h
    cases h
    refine ⟨Nat.le_refl _, ?_⟩
    intro l1 l2 hl
    rw [(List.nil_eq_append_iff.mp hl).2]
    exact Nat.zero_le _
  | cons o os ih =>
    intro s s' c log h
    rw [State.serve] at h
    split at h
    · rename_i m c' hrec
      obtain ⟨⟨s1, x⟩, h1, h⟩ := Res.bind_ok h
      obtain ⟨⟨s2, y⟩, h2, h⟩ := Res.bind_ok h
      cases h
      obtain ⟨i1, i2⟩ := ih h2
      have hx := process_handled h1
      have ht : takenIn (x ++ y) = takenIn y := by rw [taken_append, taken_turn (process_fits h1).turn]; rfl
      have hall : (workedOn (.does (.received m) :: (x ++ y))).length ≤ (takenIn (.does (.received m) :: (x ++ y))).length := by
        show (workedOn (x ++ y)).length ≤ (m :: takenIn (x ++ y)).length
        rw [ht, handledIn_append, List.length_append, List.length_cons]
        omega
      refine ⟨hall, ?_⟩
      intro l1 l2 hl
      cases l1 with
      | nil => rw [List.nil_append] at hl; rw [← hl]; omega
      | cons a l1 =>
        simp only [List.cons_append, List.cons.injEq] at hl
        obtain ⟨-, hl⟩ := hl
        rcases List.append_eq_append_iff.mp hl with ⟨a', hl1, hl2⟩ | ⟨a', hl1, hl2⟩
        · exact i2 hl2
        · rw [hl2, handledIn_append, taken_append, taken_turn fun e he => (process_fits h1).turn e (by rw [hl1]; simp [he])]
          have : (workedOn x).length = (workedOn l1).length + (workedOn a').length := by rw [hl1, handledIn_append, List.length_append]
          simp only [List.length_append, List.nil_append]
          omega
    · cases h
      refine ⟨Nat.le_refl _, ?_⟩
      intro l1 l2 hl
      have : workedOn l2 = [] := by
        have h := congrArg workedOn hl
        rw [handledIn_append] at h
        exact (List.nil_eq_append_iff.mp h).2
      rw [this]
      exact Nat.zero_le _
    · cases h

theorem serve_turns {os : List (Outcome × Outcome)} : ∀ {s s' : State σ} {c : RecvState} {log : List Ev},
    s.serve env key endErr auto P os c = .ok (s', log) → (takenIn log).length = os.length ∨ ∃ l, log = l ++ [.does .closed] := by
  induction os with
  | nil => intro s s' c log h; cases h; exact .inl rfl
  | cons o os ih =>
    intro s s' c log h
    rw [State.serve] at h
    split at h
    · rename_i m c' hrec
      obtain ⟨⟨s1, x⟩, h1, h⟩ := Res.bind_ok h
      obtain ⟨⟨s2, y⟩, h2, h⟩ := Res.bind_ok h
      cases h
      rcases ih h2 with hi | ⟨l, rfl⟩
      · left
        show (m :: takenIn (x ++ y)).length = _
        rw [taken_append, taken_turn (process_fits h1).turn]
        simp [hi]
      · right
        exact ⟨.does (.received m) :: (x ++ l), by simp⟩
    · cases h; exact .inr ⟨[], rfl⟩
    · cases h

end

theorem separate_of_frame {p a f b : Bytes} (hp : Delimited p) (h : p = a ++ f ++ b) (hf : Delimited f) : a = [] := by
  obtain ⟨w, rfl, hw⟩ := hp
  obtain ⟨v, rfl, -⟩ := hf
  cases a with
  | nil => rfl
  | cons x a =>
    exfalso
    apply hw
    have h' : w ++ [0x7e] = (a ++ 0x7e :: v) ++ ([0x7e] ++ b) := by simpa using (List.cons.inj h).2
    have := congrArg List.dropLast h'
    rw [List.dropLast_concat, List.dropLast_append_of_ne_nil (by simp)] at this
    rw [this]
    simp

end Verif.HangUp
