import Verif.Lemmas.Encode
import Verif.Spec.System
import Verif.Spec.Stream
import Verif.Lemmas.HandlerRun
/-! # Lemmas on the server with many connections -/

namespace Verif
open Handler Session Spec _root_.Verif.System Codec

namespace System

variable {env : Env} {key : Option DecKey} {endErr : Err} {auto : Bool} {fs0 : FS} {k : Nat}

/-! ## The log only grows -/

theorem _root_.Verif.Spec.FromOthers.mono {log x : List (Nat × Act)} {o : Outside} (h : FromOthers k log o) : FromOthers k (log ++ x) o := by
  cases o with
  | addHandler id h' =>
    cases h' with
    | none => exact h
    | some g => exact List.mem_append_left _ h
  | addRequest r => exact List.mem_append_left _ h
  | write f seq d o => obtain ⟨j, h1, h2⟩ := h; exact ⟨j, h1, List.mem_append_left _ h2⟩
  | merge f o => obtain ⟨j, h1, h2⟩ := h; exact ⟨j, h1, List.mem_append_left _ h2⟩

theorem _root_.Verif.Spec.ResultsIn.mono {log x : List (Nat × Act)} {a : Around} (h : ResultsIn k log a) : ResultsIn k (log ++ x) a := by
  obtain ⟨h1, h2⟩ := h
  refine ⟨h1.imp_right ?_, h2.imp_right ?_⟩
  · rintro ⟨f, s, d, h⟩; exact ⟨f, s, d, List.mem_append_left _ h⟩
  · rintro ⟨f, h⟩; exact ⟨f, List.mem_append_left _ h⟩

/-! ## Receiving one more -/

theorem receiveMany_snoc {C : BodyCodec Entity} (n : Nat) (s : RecvState) :
    receiveMany C key endErr (n + 1) s =
      ((receiveMany C key endErr n s).1 ++ [(Codec.receive C key endErr (receiveMany C key endErr n s).2).1],
       (Codec.receive C key endErr (receiveMany C key endErr n s).2).2) := by
  induction n generalizing s with
  | zero => rfl
  | succ n ih =>
    have e : ∀ n s, receiveMany C key endErr (n + 1) s = ((Codec.receive C key endErr s).1 :: (receiveMany C key endErr n (Codec.receive C key endErr s).2).1,
        (receiveMany C key endErr n (Codec.receive C key endErr s).2).2) := fun _ _ => rfl
    rw [e (n + 1), ih, e n]
    rfl

theorem inputs_one_more (turns : List (List Outside × Around)) (o : List Outside) (a : Around) (s : RecvState) (ds : List (Message Entity))
    (T : RecvState) (h : receiveMany (entityCodec env) key endErr turns.length s = (ds.map .ok, T)) :
    inputs env key endErr (turns ++ [(o, a)]) s =
      inputs env key endErr turns s ++ o.map .outside ++ [.receive (Codec.receive (entityCodec env) key endErr T).1 a] := by
  induction turns generalizing s ds with
  | nil =>
    simp only [List.length_nil, receiveMany, Prod.mk.injEq] at h
    obtain ⟨-, rfl⟩ := h
    cases hr : Codec.receive (entityCodec env) key endErr s with
    | mk r s' => cases r <;> simp [inputs, hr]
  | cons t turns ih =>
    obtain ⟨o', a'⟩ := t
    simp only [List.length_cons, receiveMany, Prod.mk.injEq] at h
    obtain ⟨h1, h2⟩ := h
    cases ds with
    | nil => cases h1
    | cons d ds =>
      simp only [List.map_cons, List.cons.injEq] at h1
      have := ih (Codec.receive (entityCodec env) key endErr s).2 ds (Prod.ext h1.2 h2)
      simp only [List.cons_append, inputs, h1.1, this, List.append_assoc]

/-! ## The invariant for one connection -/

/-- The course of connection `k` so far, up to its last complete turn and what others did since then. -/
structure Course (env : Env) (key : Option DecKey) (endErr : Err) (auto : Bool) (fs0 : FS) (k : Nat) (reads : List Bytes) (log : List (Nat × Act))
    (turns : List (List Outside × Around)) (outs : List Outside) (L : Loop) (l : List Act) : Prop where
  run : ({ fs := fs0 } : Loop).run auto (inputs env key endErr turns ⟨[], reads⟩ ++ outs.map .outside) = .ok (L, l)
  others : ∀ x ∈ outs, FromOthers k log x
  turns : ∀ t ∈ turns, (∀ x ∈ t.1 ++ during t.2, FromOthers k log x) ∧ ResultsIn k log t.2

/-- The messages received so far, all of them without error. -/
def Taken (env : Env) (key : Option DecKey) (endErr : Err) (reads : List Bytes) (n : Nat) (T : RecvState) : Prop :=
  ∃ ds : List (Message Entity), receiveMany (entityCodec env) key endErr n ⟨[], reads⟩ = (ds.map .ok, T)

theorem Course.mono {reads : List Bytes} {log x : List (Nat × Act)} {turns : List (List Outside × Around)} {outs : List Outside} {L : Loop} {l : List Act}
    (h : Course env key endErr auto fs0 k reads log turns outs L l) : Course env key endErr auto fs0 k reads (log ++ x) turns outs L l :=
  ⟨h.run, fun y hy => (h.others y hy).mono, fun t ht => ⟨fun y hy => ((h.turns t ht).1 y hy).mono, (h.turns t ht).2.mono⟩⟩

theorem outsides_append (s : Loop) (xs ys : List Outside) :
    s.outsides (xs ++ ys) = (((s.outsides xs).1.outsides ys).1, (s.outsides xs).2 ++ ((s.outsides xs).1.outsides ys).2) := by
  induction xs generalizing s with
  | nil => simp [Loop.outsides]
  | cons x xs ih => simp [Loop.outsides, ih]

theorem run_outsides (s : Loop) (xs : List Outside) : s.run auto (xs.map .outside) = .ok (s.outsides xs) := by
  induction xs generalizing s with
  | nil => rfl
  | cons x xs ih =>
    show (s.step auto (.outside x) >>= fun r => r.1.run auto (xs.map .outside) >>= fun q => .ok (q.1, r.2 ++ q.2)) = _
    simp only [Loop.step, Res.ok_bind, ih]
    rfl

/-- Others go on. -/
theorem Course.outside {reads : List Bytes} {log : List (Nat × Act)} {turns : List (List Outside × Around)} {outs : List Outside} {L : Loop} {l : List Act}
    (h : Course env key endErr auto fs0 k reads log turns outs L l) (xs : List Outside) (hx : ∀ x ∈ xs, FromOthers k log x) :
    Course env key endErr auto fs0 k reads log turns (outs ++ xs) (L.outsides xs).1 (l ++ (L.outsides xs).2) where
  run := by
    rw [List.map_append, ← List.append_assoc, Handler.run_append, h.run]
    simp only [Res.bind, run_outsides]
  others := by
    intro x hx'
    rcases List.mem_append.1 hx' with h' | h'
    · exact h.others x h'
    · exact hx x h'
  turns := h.turns

/-- A turn is complete. -/
theorem Course.turn {reads : List Bytes} {log : List (Nat × Act)} {turns : List (List Outside × Around)} {outs : List Outside} {L L' : Loop} {l x : List Act}
    {T : RecvState} (h : Course env key endErr auto fs0 k reads log turns outs L l) (ht : Taken env key endErr reads turns.length T) (a : Around)
    (hstep : L.step auto (.receive (Codec.receive (entityCodec env) key endErr T).1 a) = .ok (L', x))
    (ha : ∀ y ∈ during a, FromOthers k log y) (hr : ResultsIn k log a) :
    Course env key endErr auto fs0 k reads log (turns ++ [(outs, a)]) [] L' (l ++ x) where
  run := by
    obtain ⟨ds, hd⟩ := ht
    rw [inputs_one_more turns outs a ⟨[], reads⟩ ds T hd, List.map_nil, List.append_nil, Handler.run_append, h.run]
    simp only [Res.bind, Loop.run, hstep, bind, List.append_nil]
  others := by simp
  turns := by
    intro t ht'
    rcases List.mem_append.1 ht' with h' | h'
    · exact h.turns t h'
    · obtain rfl : t = (outs, a) := by simpa using h'
      refine ⟨?_, hr⟩
      intro y hy
      rcases List.mem_append.1 hy with h' | h'
      · exact h.others y h'
      · exact ha y h'

theorem Taken.next {reads : List Bytes} {n : Nat} {T T' : RecvState} {m : Message Entity} (h : Taken env key endErr reads n T)
    (hr : Codec.receive (entityCodec env) key endErr T = (.ok m, T')) : Taken env key endErr reads (n + 1) T' := by
  obtain ⟨ds, hd⟩ := h
  refine ⟨ds ++ [m], ?_⟩
  rw [receiveMany_snoc, hd, hr]
  simp

/-! ## In the middle of a turn -/

/-- What is left of a turn from a place on. -/
def rest (auto : Bool) : Place → Loop → Around → Res (Loop × List Act)
  | .received m, s, a => s.process auto a m
  | .stored m b p, s, a => s.check a m b p
  | .full m b p, s, a => s.complete a m b p
  | .merged m, s, a => s.deliver a m
  | .noted m, s, a => s.dispatch a m
  | _, s, _ => .ok (s, [])

/-- `a` continues `a0`, which is known up to the place, with the steps `more` of others at this place. -/
def Continues (a0 : Around) (more : List Outside) (a : Around) : Place → Prop
  | .stored _ _ _ => a.write = a0.write ∧ a.afterWrite = a0.afterWrite ++ more
  | .full _ _ _ => a.write = a0.write ∧ a.afterWrite = a0.afterWrite ∧ a.afterCheck = a0.afterCheck ++ more
  | .merged _ => a.write = a0.write ∧ a.afterWrite = a0.afterWrite ∧ a.afterCheck = a0.afterCheck ∧ a.merge = a0.merge ∧
      a.afterMerge = a0.afterMerge ++ more
  | .noted _ => a.write = a0.write ∧ a.afterWrite = a0.afterWrite ∧ a.afterCheck = a0.afterCheck ∧ a.merge = a0.merge ∧
      a.afterMerge = a0.afterMerge ∧ a.callback = a0.callback ∧ a.beforeDispatch = a0.beforeDispatch ++ more
  | _ => False

/-- The turn for the message `m`, begun at `L`, has come to the place; `V` is the state there and `pre` what was done. -/
def Midway (auto : Bool) (L : Loop) (m : Message Entity) (p : Place) (V : Loop) (pre : List Act) (a0 : Around) : Prop :=
  ∀ more a, Continues a0 more a p →
    L.process auto a m = (rest auto p (V.outsides more).1 a).bind fun q => .ok (q.1, pre ++ (V.outsides more).2 ++ q.2)

/-- The steps at the place. -/
def addSteps (a0 : Around) (xs : List Outside) : Place → Around
  | .stored _ _ _ => { a0 with afterWrite := a0.afterWrite ++ xs }
  | .full _ _ _ => { a0 with afterCheck := a0.afterCheck ++ xs }
  | .merged _ => { a0 with afterMerge := a0.afterMerge ++ xs }
  | .noted _ => { a0 with beforeDispatch := a0.beforeDispatch ++ xs }
  | _ => a0

theorem Midway.outside {L V : Loop} {m : Message Entity} {p : Place} {pre : List Act} {a0 : Around} (h : Midway auto L m p V pre a0) (xs : List Outside) :
    Midway auto L m p (V.outsides xs).1 (pre ++ (V.outsides xs).2) (addSteps a0 xs p) := by
  intro more a ha
  have : Continues a0 (xs ++ more) a p := by
    cases p <;> simp only [Continues, addSteps, List.append_assoc] at ha ⊢ <;> exact ha
  rw [h (xs ++ more) a this]
  simp only [outsides_append, List.append_assoc]

theorem during_addSteps {a0 : Around} {xs : List Outside} {p : Place} {y : Outside} (h : y ∈ during (addSteps a0 xs p)) : y ∈ during a0 ∨ y ∈ xs := by
  cases p <;> simp only [addSteps, during, List.mem_append] at h ⊢ <;> grind

/-- The data of the unfinished turn. -/
def Mid (env : Env) (key : Option DecKey) (endErr : Err) (auto : Bool) (fs0 : FS) (k : Nat) (reads : List Bytes) (recv : RecvState) (V : Loop)
    (log : List (Nat × Act)) (p : Place) (a0 : Around) : Prop :=
  ∃ turns outs T L l m pre, Course env key endErr auto fs0 k reads log turns outs L l ∧ Taken env key endErr reads turns.length T ∧
    Codec.receive (entityCodec env) key endErr T = (.ok m, recv) ∧ L.running = true ∧ log.filterMap (seenBy k) = l ++ pre ∧
    Midway auto L m p V pre a0 ∧ (∀ y ∈ during a0, FromOthers k log y) ∧ ResultsIn k log a0

theorem Mid.outside {reads : List Bytes} {recv : RecvState} {V : Loop} {log x : List (Nat × Act)} {p : Place} {a0 : Around}
    (h : Mid env key endErr auto fs0 k reads recv V log p a0) (xs : List Outside) (hx : x.filterMap (seenBy k) = (V.outsides xs).2)
    (hf : ∀ y ∈ xs, FromOthers k (log ++ x) y) : Mid env key endErr auto fs0 k reads recv (V.outsides xs).1 (log ++ x) p (addSteps a0 xs p) := by
  obtain ⟨turns, outs, T, L, l, m, pre, c, t, r, hl, hlog, hm, hd, hres⟩ := h
  refine ⟨turns, outs, T, L, l, m, pre ++ (V.outsides xs).2, c.mono, t, r, hl, ?_, hm.outside xs, ?_, ?_⟩
  · rw [List.filterMap_append, hlog, hx, List.append_assoc]
  · intro y hy
    rcases during_addSteps hy with h' | h'
    · exact (hd y h').mono
    · exact hf y h'
  · have := hres.mono (x := x)
    cases p <;> exact this

/-- The invariant: what holds of connection `k`. -/
def Inv (env : Env) (key : Option DecKey) (endErr : Err) (auto : Bool) (fs0 : FS) (k : Nat) (reads : List Bytes) (s : State) (log : List (Nat × Act)) : Prop :=
  match (s.conns k).place with
  | .waiting => ∃ turns outs, Course env key endErr auto fs0 k reads log turns outs (s.view k) (log.filterMap (seenBy k)) ∧
      Taken env key endErr reads turns.length (s.conns k).recv
  | .ended => ∃ turns outs, Course env key endErr auto fs0 k reads log turns outs (s.view k) (log.filterMap (seenBy k))
  | .received m => ∃ turns outs T, Course env key endErr auto fs0 k reads log turns outs (s.view k) (log.filterMap (seenBy k)) ∧
      Taken env key endErr reads turns.length T ∧ Codec.receive (entityCodec env) key endErr T = (.ok m, (s.conns k).recv)
  | p => ∃ a0, Mid env key endErr auto fs0 k reads (s.conns k).recv (s.view k) log p a0

/-- Others go on. -/
theorem Inv.outside {reads : List Bytes} {s s' : State} {log x : List (Nat × Act)} (h : Inv env key endErr auto fs0 k reads s log) (xs : List Outside)
    (hp : (s'.conns k).place = (s.conns k).place) (hrecv : (s'.conns k).recv = (s.conns k).recv) (hv : s'.view k = ((s.view k).outsides xs).1)
    (hx : x.filterMap (seenBy k) = ((s.view k).outsides xs).2) (hf : ∀ y ∈ xs, FromOthers k (log ++ x) y) :
    Inv env key endErr auto fs0 k reads s' (log ++ x) := by
  have mid : ∀ p : Place, (∃ a0, Mid env key endErr auto fs0 k reads (s.conns k).recv (s.view k) log p a0) →
      ∃ a0, Mid env key endErr auto fs0 k reads (s'.conns k).recv (s'.view k) (log ++ x) p a0 := by
    rintro p ⟨a0, h⟩
    rw [hv, hrecv]
    exact ⟨_, h.outside xs hx hf⟩
  unfold Inv at h ⊢
  rw [hp]
  cases hpl : (s.conns k).place with
  | waiting =>
    simp only [hpl] at h ⊢
    obtain ⟨turns, outs, c, t⟩ := h
    refine ⟨turns, outs ++ xs, ?_, by rw [hrecv]; exact t⟩
    rw [hv, List.filterMap_append, hx]
    exact c.mono.outside xs hf
  | ended =>
    simp only [hpl] at h ⊢
    obtain ⟨turns, outs, c⟩ := h
    refine ⟨turns, outs ++ xs, ?_⟩
    rw [hv, List.filterMap_append, hx]
    exact c.mono.outside xs hf
  | received m =>
    simp only [hpl] at h ⊢
    obtain ⟨turns, outs, T, c, t, r⟩ := h
    refine ⟨turns, outs ++ xs, T, ?_, t, by rw [hrecv]; exact r⟩
    rw [hv, List.filterMap_append, hx]
    exact c.mono.outside xs hf
  | stored m b p => simp only [hpl] at h ⊢; exact mid _ h
  | full m b p => simp only [hpl] at h ⊢; exact mid _ h
  | merged m => simp only [hpl] at h ⊢; exact mid _ h
  | noted m => simp only [hpl] at h ⊢; exact mid _ h

/-! ## Steps of the connection itself -/

/-- The turn goes on to the place `p'`. -/
theorem Mid.go {reads : List Bytes} {recv : RecvState} {V V' : Loop} {log x : List (Nat × Act)} {p p' : Place} {a0 a1 : Around} {y : List Act}
    (h : Mid env key endErr auto fs0 k reads recv V log p a0) (hx : x.filterMap (seenBy k) = y)
    (hc : ∀ more a, Continues a1 more a p' → Continues a0 [] a p ∧
      rest auto p V a = (rest auto p' (V'.outsides more).1 a).bind fun q => .ok (q.1, y ++ (V'.outsides more).2 ++ q.2))
    (hd : ∀ y ∈ during a1, y ∈ during a0) (hr : ResultsIn k (log ++ x) a1) : Mid env key endErr auto fs0 k reads recv V' (log ++ x) p' a1 := by
  obtain ⟨turns, outs, T, L, l, m, pre, c, t, r, hl, hlog, hm, hd0, -⟩ := h
  refine ⟨turns, outs, T, L, l, m, pre ++ y, c.mono, t, r, hl, ?_, ?_, fun z hz => (hd0 z (hd z hz)).mono, hr⟩
  · rw [List.filterMap_append, hlog, hx, List.append_assoc]
  · intro more a ha
    obtain ⟨h1, h2⟩ := hc more a ha
    rw [hm [] a h1]
    simp only [Loop.outsides, h2, List.append_nil]
    cases rest auto p' (V'.outsides more).1 a with
    | ok q => simp [Res.bind]
    | err e => rfl
    | panic => rfl

/-- The turn ends. -/
theorem Mid.finish {reads : List Bytes} {recv : RecvState} {V V' : Loop} {log x : List (Nat × Act)} {p : Place} {a0 a : Around} {y : List Act}
    (h : Mid env key endErr auto fs0 k reads recv V log p a0) (hx : x.filterMap (seenBy k) = y) (hc : Continues a0 [] a p)
    (hrest : rest auto p V a = .ok (V', y)) (hd : ∀ y ∈ during a, y ∈ during a0) (hr : ResultsIn k (log ++ x) a) :
    ∃ turns outs, Course env key endErr auto fs0 k reads (log ++ x) turns outs V' ((log ++ x).filterMap (seenBy k)) ∧
      Taken env key endErr reads turns.length recv := by
  obtain ⟨turns, outs, T, L, l, m, pre, c, t, r, hl, hlog, hm, hd0, -⟩ := h
  refine ⟨turns ++ [(outs, a)], [], ?_, ?_⟩
  · rw [List.filterMap_append, hlog, hx, List.append_assoc]
    refine (c.mono (x := x)).turn t a ?_ (fun z hz => (hd0 z (hd z hz)).mono) hr
    rw [r]
    simp only [Loop.step, hl, if_true]
    rw [hm [] a hc]
    simp [Loop.outsides, hrest, Res.bind]
  · simpa using t.next r

/-- The turn begins. -/
theorem Mid.begin {reads : List Bytes} {recv T : RecvState} {V V' : Loop} {log x : List (Nat × Act)} {p' : Place} {a1 : Around} {y : List Act}
    {turns : List (List Outside × Around)} {outs : List Outside} {m : Message Entity}
    (c : Course env key endErr auto fs0 k reads log turns outs V (log.filterMap (seenBy k))) (t : Taken env key endErr reads turns.length T)
    (r : Codec.receive (entityCodec env) key endErr T = (.ok m, recv)) (hl : V.running = true) (hx : x.filterMap (seenBy k) = y)
    (hc : ∀ more a, Continues a1 more a p' →
      V.process auto a m = (rest auto p' (V'.outsides more).1 a).bind fun q => .ok (q.1, y ++ (V'.outsides more).2 ++ q.2))
    (hd : during a1 = []) (hr : ResultsIn k (log ++ x) a1) : Mid env key endErr auto fs0 k reads recv V' (log ++ x) p' a1 :=
  ⟨turns, outs, T, V, _, m, y, c.mono, t, r, hl, by rw [List.filterMap_append, hx], hc, by simp [hd], hr⟩

/-- The turn begins and ends. -/
theorem Course.whole {reads : List Bytes} {recv T : RecvState} {V V' : Loop} {log x : List (Nat × Act)} {a : Around} {y : List Act}
    {turns : List (List Outside × Around)} {outs : List Outside} {m : Message Entity}
    (c : Course env key endErr auto fs0 k reads log turns outs V (log.filterMap (seenBy k))) (t : Taken env key endErr reads turns.length T)
    (r : Codec.receive (entityCodec env) key endErr T = (.ok m, recv)) (hl : V.running = true) (hx : x.filterMap (seenBy k) = y)
    (hc : V.process auto a m = .ok (V', y)) (hd : during a = []) (hr : ResultsIn k (log ++ x) a) :
    ∃ turns outs, Course env key endErr auto fs0 k reads (log ++ x) turns outs V' ((log ++ x).filterMap (seenBy k)) ∧
      Taken env key endErr reads turns.length recv := by
  refine ⟨turns ++ [(outs, a)], [], ?_, by simpa using t.next r⟩
  rw [List.filterMap_append, hx]
  refine (c.mono (x := x)).turn t a ?_ (by simp [hd]) hr
  rw [r]
  simpa only [Loop.step, hl, if_true] using hc

theorem message_any (s : Loop) (a a' : Around) (m : Message Entity) : s.message a m = s.message a' m := by
  unfold Loop.message
  simp only [call_recovered]

theorem dispatch_any (s : Loop) (a a' : Around) (m : Message Entity) : s.dispatch a m = s.dispatch a' m := by
  unfold Loop.dispatch
  simp only [call_recovered]

theorem message_keeps {s l : Loop} {a : Around} {m : Message Entity} {x : List Act} (h : s.message a m = .ok (l, x)) :
    l = { s with requests := l.requests, icc := l.icc } := by
  unfold Loop.message at h
  obtain ⟨serial, -, h⟩ := Res.bind_ok h
  simp only [call_recovered] at h
  repeat' split at h
  all_goals first
    | (cases h; rfl)
    | (simp only [Res.ok_bind] at h; cases h; rfl)
    | (obtain ⟨_, -, h⟩ := Res.bind_ok h; cases h; rfl)

theorem seenBy_self (k : Nat) (a : Act) : seenBy k (k, a) = some a := by
  unfold seenBy
  cases a <;> simp

theorem seen_acts (k : Nat) (xs : List Act) : (State.acts k xs).filterMap (seenBy k) = xs := by
  induction xs with
  | nil => rfl
  | cons x xs ih =>
    show (((k, x) :: State.acts k xs).filterMap (seenBy k)) = _
    rw [List.filterMap_cons, seenBy_self, ih]

theorem _root_.Verif.Spec.ResultsIn.empty {log : List (Nat × Act)} {a : Around} (h1 : a.write = .ok) (h2 : a.merge = .ok) : ResultsIn k log a := ⟨.inl h1, .inl h2⟩

/-- `session.message` for an ordinary message. -/
theorem process_noted {V l : Loop} {m : Message Entity} {x : List Act} {u : UserCode} (hd : ∀ a, V.process auto a m = V.deliver a m)
    (hm : V.message { callback := u } m = .ok (l, x)) (more : List Outside) (a : Around) (ha : a.beforeDispatch = more) :
    V.process auto a m = (rest auto (.noted m) (l.outsides more).1 a).bind fun q => .ok (q.1, x ++ (l.outsides more).2 ++ q.2) := by
  rw [hd, Loop.deliver, message_any _ a { callback := u }, hm, ha]
  rfl

theorem view_put (s : State) (k : Nat) (c : Conn) : (s.put k c).view k =
    { fs := s.fs, handlers := s.handlers, requests := c.requests, icc := c.icc, running := c.place.running } := by
  simp [State.view, State.put]

theorem conns_put (s : State) (k : Nat) (c : Conn) : (s.put k c).conns k = c := by simp [State.put]

theorem view_message {s : State} {l : Loop} {u : UserCode} {m m' : Message Entity} {x : List Act} (hrun : (s.view k).running = true)
    (hm : (s.view k).message { callback := u } m = .ok (l, x)) :
    (s.put k { s.conns k with place := .noted m', requests := l.requests, icc := l.icc }).view k = l := by
  rw [view_put, message_keeps hm, hrun]
  rfl

/-- `Receive` returns. -/
theorem Inv.receive {reads : List Bytes} {s s' : State} {log x : List (Nat × Act)} (h : Inv env key endErr auto fs0 k reads s log)
    (hs : s.step env key endErr auto (.receive k) = .ok (s', x)) : Inv env key endErr auto fs0 k reads s' (log ++ x) := by
  simp only [State.step] at hs
  cases hp : (s.conns k).place with
  | waiting =>
    have hrun : (s.view k).running = true := by simp [State.view, hp, Place.running]
    simp only [hp] at hs
    simp only [Inv, hp] at h
    obtain ⟨turns, outs, c, t⟩ := h
    cases hr : Codec.receive (entityCodec env) key endErr (s.conns k).recv with
    | mk res r =>
      rw [hr] at hs
      cases res with
      | ok m =>
        cases hs
        simp only [Inv, conns_put, List.append_nil]
        refine ⟨turns, outs, (s.conns k).recv, ?_, t, hr⟩
        rw [view_put]
        have : s.view k = { fs := s.fs, handlers := s.handlers, requests := (s.conns k).requests, icc := (s.conns k).icc, running := true } := by
          rw [← hrun]; rfl
        rw [this] at c
        exact c
      | err e =>
        cases hs
        simp only [Inv, conns_put]
        refine ⟨turns ++ [(outs, ({} : Around))], [], ?_⟩
        rw [List.filterMap_append]
        refine (c.mono (x := [(k, Act.closed)])).turn t {} ?_ (by simp [during]) (.empty rfl rfl)
        rw [hr]
        simp only [Loop.step, hrun, if_true, view_put, List.filterMap_cons, seenBy_self]
        rfl
      | panic => cases hs
  | _ => simp only [hp] at hs; cases hs; simpa using h

theorem running_of_place {s : State} {p : Place} (h : (s.conns k).place = p) (hp : p ≠ .ended) : (s.view k).running = true := by
  unfold State.view
  simp only [h]
  cases p <;> first | rfl | exact absurd rfl hp

/-- The view after moving on. -/
theorem view_goto {s : State} {p : Place} (hrun : (s.view k).running = true) (hp : p ≠ .ended) (f : FS) :
    ({ s with fs := f }.goto k p).view k = { s.view k with fs := f } := by
  unfold State.goto
  rw [view_put]
  have : p.running = true := by cases p <;> first | rfl | exact absurd rfl hp
  simp only [this, ← hrun]
  rfl

theorem view_goto_self {s : State} {p : Place} (hrun : (s.view k).running = true) (hp : p ≠ .ended) : (s.goto k p).view k = s.view k :=
  view_goto hrun hp s.fs

/-- `session.message` at the beginning of a turn. -/
theorem Inv.noted_begin {reads : List Bytes} {s s' : State} {log x : List (Nat × Act)} {m : Message Entity} {u : UserCode}
    (hp : (s.conns k).place = .received m) (h : Inv env key endErr auto fs0 k reads s log) (hd : ∀ a, (s.view k).process auto a m = (s.view k).deliver a m)
    (hs : s.message k u m = .ok (s', x)) : Inv env key endErr auto fs0 k reads s' (log ++ x) := by
  have hrun := running_of_place hp (by simp)
  unfold State.message at hs
  obtain ⟨⟨l, y⟩, hm, hs⟩ := Res.bind_ok hs
  cases hs
  simp only [Inv, hp] at h
  obtain ⟨turns, outs, T, c, t, r⟩ := h
  simp only [Inv, conns_put]
  refine ⟨{ callback := u }, ?_⟩
  rw [view_message hrun hm]
  refine Mid.begin c t r hrun (seen_acts k y) ?_ rfl (.empty rfl rfl)
  intro more a ha
  exact process_noted hd hm more a ha.2.2.2.2.2.2

theorem Inv.process {reads : List Bytes} {s s' : State} {log x : List (Nat × Act)} {o : Outcome} {u : UserCode} (h : Inv env key endErr auto fs0 k reads s log)
    (hs : s.step env key endErr auto (.process k o u) = .ok (s', x)) : Inv env key endErr auto fs0 k reads s' (log ++ x) := by
  simp only [State.step] at hs
  cases hp : (s.conns k).place with
  | received m =>
    have hrun := running_of_place hp (by simp)
    simp only [hp] at hs
    have noBody : (∀ e, m.body ≠ .val e) → s' = s.goto k .waiting → x = [(k, .reply m.header.serial m.header.msgID 3)] →
        Inv env key endErr auto fs0 k reads s' (log ++ x) := by
      rintro hb rfl rfl
      simp only [Inv, hp] at h
      obtain ⟨turns, outs, T, c, t, r⟩ := h
      simp only [Inv, State.goto, conns_put]
      refine Course.whole (a := {}) (m := m) c t r hrun (y := [.reply m.header.serial m.header.msgID 3]) (seen_acts k [_]) ?_ rfl (.empty rfl rfl)
      have := view_goto_self hrun (p := .waiting) (by simp)
      unfold State.goto at this
      rw [this]
      unfold Loop.process
      split
      · rename_i e he; exact absurd he (hb e)
      · rfl
    cases hb : m.body with
    | val e =>
      simp only [hb] at hs
      split at hs
      · rename_i hc
        exact h.noted_begin hp (by intro a; simp only [Loop.process, hb, hc, if_true]) hs
      · rename_i hc
        cases e with
        | m0801 b =>
          simp only at hs
          split at hs
          · rename_i p data hpk hdat
            simp only [Res.ok.injEq] at hs
            unfold State.store at hs
            simp only at hs
            simp only [Inv, hp] at h
            obtain ⟨turns, outs, T, c, t, r⟩ := h
            have hproc : ∀ a, (s.view k).process auto a m = (s.view k).part a m b p data := by
              intro a
              simp only [Loop.process, hb, hc, hpk, hdat]
              rfl
            split at hs
            · rename_i hw
              obtain ⟨rfl, rfl⟩ := Prod.mk.inj hs
              simp only [Inv, State.goto, conns_put]
              refine ⟨{ write := o }, ?_⟩
              have hv := view_goto hrun (p := .stored m b p) (by simp) ((Loop.partFile m b p).write o p.seq data s.fs).1
              unfold State.goto at hv
              rw [hv]
              refine Mid.begin c t r hrun (seen_acts k _) ?_ rfl ⟨.inr ⟨Loop.partFile m b p, p.seq, data, by simp [State.acts]⟩, .inl rfl⟩
              intro more a ha
              simp only [Continues, List.nil_append] at ha
              rw [hproc]
              unfold Loop.part
              have hfs : (s.view k).fs = s.fs := rfl
              simp only [ha.1, ha.2, hfs, hw]
              rfl
            · rename_i hw
              obtain ⟨rfl, rfl⟩ := Prod.mk.inj hs
              simp only [Inv, State.goto, conns_put]
              have hv := view_goto hrun (p := .waiting) (by simp) ((Loop.partFile m b p).write o p.seq data s.fs).1
              unfold State.goto at hv
              rw [hv]
              refine Course.whole (a := { write := o }) c t r hrun (seen_acts k _) ?_ rfl
                ⟨.inr ⟨Loop.partFile m b p, p.seq, data, by simp [State.acts]⟩, .inl rfl⟩
              rw [hproc]
              unfold Loop.part
              have hfs : (s.view k).fs = s.fs := rfl
              simp only [hfs, hw]
              rfl
          · cases hs
        | _ => exact h.noted_begin hp (by intro a; simp only [Loop.process, hb, hc]; rfl) hs
    | _ =>
      simp only [hb] at hs
      cases hs
      exact noBody (by simp [hb]) rfl rfl
  | _ => simp only [hp] at hs; cases hs; simpa using h

/-- The invariant in the middle of a turn. -/
theorem inv_mid {reads : List Bytes} {s : State} {log : List (Nat × Act)} {p : Place} (hp : (s.conns k).place = p)
    (hm : p ≠ .waiting ∧ p ≠ .ended ∧ ∀ m, p ≠ .received m) :
    Inv env key endErr auto fs0 k reads s log ↔ ∃ a0, Mid env key endErr auto fs0 k reads (s.conns k).recv (s.view k) log p a0 := by
  subst hp
  unfold Inv
  split
  · rename_i h; exact absurd h hm.1
  · rename_i h; exact absurd h hm.2.1
  · rename_i m h; exact absurd h (hm.2.2 m)
  · rfl

theorem Inv.check {reads : List Bytes} {s s' : State} {log x : List (Nat × Act)} (h : Inv env key endErr auto fs0 k reads s log)
    (hs : s.step env key endErr auto (.check k) = .ok (s', x)) : Inv env key endErr auto fs0 k reads s' (log ++ x) := by
  simp only [State.step] at hs
  cases hp : (s.conns k).place with
  | stored m b p =>
    have hrun := running_of_place hp (by simp)
    simp only [hp] at hs
    obtain ⟨a0, hmid⟩ := (inv_mid hp (by simp)).1 h
    have hres : ResultsIn k (log ++ []) a0 := by
      obtain ⟨_, _, _, _, _, _, _, _, _, _, _, _, _, _, hres⟩ := hmid
      exact hres.mono
    have finish : (s.view k).check a0 m b p = .ok (s.view k, []) → s' = s.goto k .waiting → x = [] → Inv env key endErr auto fs0 k reads s' (log ++ x) := by
      rintro hc rfl rfl
      simp only [Inv, State.goto, conns_put]
      have hv := view_goto_self hrun (p := .waiting) (by simp)
      unfold State.goto at hv
      rw [hv]
      exact hmid.finish rfl (a := a0) ⟨rfl, by simp⟩ hc (fun _ h => h) hres
    split at hs
    · rename_i hne
      cases hs
      refine finish ?_ rfl rfl
      unfold Loop.check
      rw [if_pos hne]
    · rename_i hne
      obtain ⟨full, hfull, hs⟩ := Res.bind_ok hs
      have hfs : (s.view k).fs = s.fs := rfl
      cases full with
      | true =>
        cases hs
        rw [inv_mid (p := .full m b p) (by simp [State.goto, State.put]) (by simp)]
        refine ⟨{ a0 with afterCheck := [] }, ?_⟩
        simp only [State.goto, conns_put]
        have hv := view_goto_self hrun (p := .full m b p) (by simp)
        unfold State.goto at hv
        rw [hv]
        refine hmid.go rfl ?_ ?_ hres
        · intro more a ha
          simp only [Continues, List.nil_append] at ha
          refine ⟨⟨ha.1, by simp [ha.2.1]⟩, ?_⟩
          simp only [rest, Loop.check, hne, if_false, hfs, hfull, ha.2.2]
          rfl
        · simp only [during, List.mem_append]; grind
      | false =>
        cases hs
        refine finish ?_ rfl rfl
        simp only [Loop.check, hne, if_false, hfs, hfull]
        rfl
  | _ => simp only [hp] at hs; cases hs; simpa using h

theorem Inv.merge {reads : List Bytes} {s s' : State} {log x : List (Nat × Act)} {o : Outcome} (h : Inv env key endErr auto fs0 k reads s log)
    (hs : s.step env key endErr auto (.merge k o) = .ok (s', x)) : Inv env key endErr auto fs0 k reads s' (log ++ x) := by
  simp only [State.step] at hs
  cases hp : (s.conns k).place with
  | full m b p =>
    have hrun := running_of_place hp (by simp)
    simp only [hp] at hs
    obtain ⟨a0, hmid⟩ := (inv_mid hp (by simp)).1 h
    have hres : ResultsIn k log a0 := by
      obtain ⟨_, _, _, _, _, _, _, _, _, _, _, _, _, _, hres⟩ := hmid
      exact hres
    obtain ⟨⟨f, content⟩, hmerge, hs⟩ := Res.bind_ok hs
    have hfs : (s.view k).fs = s.fs := rfl
    have hres' : ResultsIn k (log ++ [(k, .merged (Loop.partFile m b p) o)]) { a0 with merge := o, afterMerge := [] } :=
      ⟨(hres.mono).1, .inr ⟨Loop.partFile m b p, by simp⟩⟩
    cases content with
    | none =>
      cases hs
      simp only [Inv, State.goto, conns_put]
      have hv := view_goto hrun (p := .waiting) (by simp) f
      unfold State.goto at hv
      rw [hv]
      refine hmid.finish (seen_acts k [_]) (a := { a0 with merge := o, afterMerge := [] }) ⟨rfl, rfl, by simp⟩ ?_ ?_ hres'
      · simp only [rest, Loop.complete, hfs, hmerge]
        rfl
      · simp only [during, List.mem_append]; grind
    | some content =>
      cases hs
      rw [inv_mid (p := .merged { m with body := .val (.m0801 { b with packet := some content }) }) (by simp [State.goto, State.put]) (by simp)]
      refine ⟨{ a0 with merge := o, afterMerge := [] }, ?_⟩
      simp only [State.goto, conns_put]
      have hv := view_goto hrun (p := .merged { m with body := .val (.m0801 { b with packet := some content }) }) (by simp) f
      unfold State.goto at hv
      rw [hv]
      refine hmid.go (seen_acts k [_]) ?_ ?_ hres'
      · intro more a ha
        simp only [Continues, List.nil_append] at ha
        refine ⟨⟨ha.1, ha.2.1, by simp [ha.2.2.1]⟩, ?_⟩
        simp only [rest, Loop.complete, hfs, ha.2.2.2.1, hmerge, ha.2.2.2.2]
        rfl
      · simp only [during, List.mem_append]; grind
  | _ => simp only [hp] at hs; cases hs; simpa using h

theorem Inv.note {reads : List Bytes} {s s' : State} {log x : List (Nat × Act)} {u : UserCode} (h : Inv env key endErr auto fs0 k reads s log)
    (hs : s.step env key endErr auto (.note k u) = .ok (s', x)) : Inv env key endErr auto fs0 k reads s' (log ++ x) := by
  simp only [State.step] at hs
  cases hp : (s.conns k).place with
  | merged m =>
    have hrun := running_of_place hp (by simp)
    simp only [hp] at hs
    obtain ⟨a0, hmid⟩ := (inv_mid hp (by simp)).1 h
    have hres : ResultsIn k (log ++ x) a0 := by
      obtain ⟨_, _, _, _, _, _, _, _, _, _, _, _, _, _, hres⟩ := hmid
      exact hres.mono
    unfold State.message at hs
    obtain ⟨⟨l, y⟩, hm, hs⟩ := Res.bind_ok hs
    cases hs
    rw [inv_mid (p := .noted m) (by simp [State.put]) (by simp)]
    refine ⟨{ a0 with callback := u, beforeDispatch := [] }, ?_⟩
    rw [view_message hrun hm]
    simp only [conns_put]
    refine hmid.go (seen_acts k y) ?_ ?_ hres
    · intro more a ha
      simp only [Continues, List.nil_append] at ha
      refine ⟨⟨ha.1, ha.2.1, ha.2.2.1, ha.2.2.2.1, by simp [ha.2.2.2.2.1]⟩, ?_⟩
      simp only [rest, Loop.deliver, message_any _ a { callback := u }, hm, ha.2.2.2.2.2.2]
      rfl
    · simp only [during, List.mem_append]; grind
  | _ => simp only [hp] at hs; cases hs; simpa using h

theorem dispatch_keeps {s l : Loop} {a : Around} {m : Message Entity} {x : List Act} (h : s.dispatch a m = .ok (l, x)) : l = s := by
  unfold Loop.dispatch at h
  simp only [call_recovered] at h
  split at h
  · cases h; rfl
  · simp only [Res.ok_bind] at h; cases h; rfl

theorem Inv.dispatch {reads : List Bytes} {s s' : State} {log x : List (Nat × Act)} {u : UserCode} (h : Inv env key endErr auto fs0 k reads s log)
    (hs : s.step env key endErr auto (.dispatch k u) = .ok (s', x)) : Inv env key endErr auto fs0 k reads s' (log ++ x) := by
  simp only [State.step] at hs
  cases hp : (s.conns k).place with
  | noted m =>
    have hrun := running_of_place hp (by simp)
    simp only [hp] at hs
    obtain ⟨a0, hmid⟩ := (inv_mid hp (by simp)).1 h
    have hres : ResultsIn k (log ++ x) a0 := by
      obtain ⟨_, _, _, _, _, _, _, _, _, _, _, _, _, _, hres⟩ := hmid
      exact hres.mono
    obtain ⟨⟨l, y⟩, hm, hs⟩ := Res.bind_ok hs
    cases hs
    simp only [Inv, State.goto, conns_put]
    have hv := view_goto_self hrun (p := .waiting) (by simp)
    unfold State.goto at hv
    rw [hv]
    refine hmid.finish (seen_acts k y) (a := { a0 with handler := u }) ⟨rfl, rfl, rfl, rfl, rfl, rfl, by simp⟩ ?_ (fun _ h => h) hres
    simp only [rest]
    rw [dispatch_any _ _ { handler := u }, hm, dispatch_keeps hm]
  | _ => simp only [hp] at hs; cases hs; simpa using h

/-! ## Steps elsewhere -/

/-- The step looks to connection `k` like the steps `xs` of others. -/
def LooksLike (k : Nat) (s s' : State) (x : List (Nat × Act)) (xs : List Outside) : Prop :=
  s'.conns k = { s.conns k with requests := (s'.conns k).requests } ∧ s'.view k = ((s.view k).outsides xs).1 ∧
    x.filterMap (seenBy k) = ((s.view k).outsides xs).2 ∧ ∀ y ∈ xs, FromOthers k x y

theorem _root_.Verif.Spec.FromOthers.after {log x : List (Nat × Act)} {y : Outside} (h : FromOthers k x y) : FromOthers k (log ++ x) y := by
  cases y with
  | addHandler id h' => cases h' with
    | none => exact h
    | some _ => exact List.mem_append_right _ h
  | addRequest r => exact List.mem_append_right _ h
  | write f seq d o => obtain ⟨j, hj, hm⟩ := h; exact ⟨j, hj, List.mem_append_right _ hm⟩
  | merge f o => obtain ⟨j, hj, hm⟩ := h; exact ⟨j, hj, List.mem_append_right _ hm⟩

theorem LooksLike.inv {reads : List Bytes} {s s' : State} {log x : List (Nat × Act)} {xs : List Outside} (h : LooksLike k s s' x xs)
    (hi : Inv env key endErr auto fs0 k reads s log) : Inv env key endErr auto fs0 k reads s' (log ++ x) := by
  obtain ⟨h1, h2, h3, h4⟩ := h
  exact hi.outside xs (by rw [h1]) (by rw [h1]) h2 h3 fun y hy => (h4 y hy).after

theorem looksLike_nothing {s s' : State} {x : List (Nat × Act)} (hc : s'.conns k = s.conns k) (hf : s'.fs = s.fs) (hh : s'.handlers = s.handlers)
    (hx : x.filterMap (seenBy k) = []) : LooksLike k s s' x [] :=
  ⟨by rw [hc], by simp [State.view, hc, hf, hh, Loop.outsides], hx, by simp⟩

theorem conns_put_ne {s : State} {j : Nat} (c : Conn) (hj : j ≠ k) : (s.put j c).conns k = s.conns k := by
  simp [State.put, Ne.symm hj]

/-- Acts that only concern the connection itself. -/
def Private : Act → Prop
  | .wrote .. | .merged .. | .registered .. => False
  | _ => True

theorem unseen {j : Nat} (hj : j ≠ k) {xs : List Act} (h : ∀ a ∈ xs, Private a) : (State.acts j xs).filterMap (seenBy k) = [] := by
  simp only [State.acts, List.filterMap_eq_nil_iff, List.mem_map]
  rintro _ ⟨a, ha, rfl⟩
  have := h a ha
  unfold seenBy
  cases a <;> simp_all [Private]

theorem message_private {s l : Loop} {a : Around} {m : Message Entity} {x : List Act} (h : s.message a m = .ok (l, x)) : ∀ a ∈ x, Private a := by
  unfold Loop.message at h
  obtain ⟨serial, -, h⟩ := Res.bind_ok h
  simp only [call_recovered] at h
  repeat' split at h
  all_goals first
    | (cases h; simp; done)
    | (simp only [Res.ok_bind] at h; cases h; simp [Private])

theorem dispatch_private {s l : Loop} {a : Around} {m : Message Entity} {x : List Act} (h : s.dispatch a m = .ok (l, x)) : ∀ a ∈ x, Private a := by
  unfold Loop.dispatch at h
  simp only [call_recovered] at h
  split at h
  · cases h; simp [Private]
  · simp only [Res.ok_bind] at h; cases h; simp [Private]

theorem message_elsewhere {j : Nat} (hj : j ≠ k) {s s' : State} {x : List (Nat × Act)} {u : UserCode} {m : Message Entity}
    (h : s.message j u m = .ok (s', x)) : LooksLike k s s' x [] := by
  unfold State.message at h
  obtain ⟨⟨l, y⟩, hm, h⟩ := Res.bind_ok h
  cases h
  exact looksLike_nothing (conns_put_ne _ hj) rfl rfl (unseen hj (message_private hm))

/-- The connection of a step. -/
def at? : Event → Option Nat
  | .receive k | .process k _ _ | .check k | .merge k _ | .note k _ | .dispatch k _ => some k
  | .addHandler _ _ | .addRequest _ _ => none

theorem elsewhere {s s' : State} {e : Event} {x : List (Nat × Act)} (he : at? e ≠ some k) (hs : s.step env key endErr auto e = .ok (s', x)) :
    ∃ xs, LooksLike k s s' x xs := by
  have nothing : Res.ok (s, ([] : List (Nat × Act))) = .ok (s', x) → ∃ xs, LooksLike k s s' x xs := by
    intro h; cases h; exact ⟨[], looksLike_nothing rfl rfl rfl rfl⟩
  cases e with
  | receive j =>
    have hj : j ≠ k := fun h => he (by simp [at?, h])
    simp only [State.step] at hs
    split at hs
    · split at hs
      · cases hs; exact ⟨[], looksLike_nothing (conns_put_ne _ hj) rfl rfl rfl⟩
      · cases hs; exact ⟨[], looksLike_nothing (conns_put_ne _ hj) rfl rfl (unseen hj (xs := [.closed]) (by simp [Private]))⟩
      · cases hs
    · exact nothing hs
  | process j o u =>
    have hj : j ≠ k := fun h => he (by simp [at?, h])
    simp only [State.step] at hs
    split at hs
    · rename_i m hpl
      split at hs
      · split at hs
        · exact ⟨[], message_elsewhere hj hs⟩
        · split at hs
          · split at hs
            · rename_i b _ _ _ p data _ _
              simp only [Res.ok.injEq, State.store] at hs
              refine ⟨[.write (Loop.partFile m b p) p.seq data o], ?_⟩
              split at hs
              all_goals
                obtain ⟨rfl, rfl⟩ := Prod.mk.inj hs
                refine ⟨by simp [State.goto, State.put, Ne.symm hj], ?_, ?_, ?_⟩
                · simp [State.goto, State.put, State.view, Ne.symm hj, Loop.outsides, Loop.outside]
                · simp [State.acts, seenBy, hj, Loop.outsides, Loop.outside]
                · intro y hy
                  obtain rfl := List.mem_singleton.1 hy
                  exact ⟨j, hj, by simp [State.acts]⟩
            · cases hs
          · exact ⟨[], message_elsewhere hj hs⟩
      · cases hs
        exact ⟨[], looksLike_nothing (conns_put_ne _ hj) rfl rfl (unseen hj (xs := [.reply m.header.serial m.header.msgID 3]) (by simp [Private]))⟩
    · exact nothing hs
  | check j =>
    have hj : j ≠ k := fun h => he (by simp [at?, h])
    simp only [State.step] at hs
    split at hs
    · split at hs
      · cases hs; exact ⟨[], looksLike_nothing (conns_put_ne _ hj) rfl rfl rfl⟩
      · obtain ⟨full, -, hs⟩ := Res.bind_ok hs
        split at hs
        all_goals (cases hs; exact ⟨[], looksLike_nothing (conns_put_ne _ hj) rfl rfl rfl⟩)
    · exact nothing hs
  | merge j o =>
    have hj : j ≠ k := fun h => he (by simp [at?, h])
    simp only [State.step] at hs
    split at hs
    · rename_i m b p hpl
      obtain ⟨⟨f, content⟩, hmerge, hs⟩ := Res.bind_ok hs
      refine ⟨[.merge (Loop.partFile m b p) o], ?_⟩
      have hfs : (s.view k).fs = s.fs := rfl
      cases content
      all_goals
        cases hs
        refine ⟨by simp [State.goto, State.put, Ne.symm hj], ?_, ?_, ?_⟩
        · simp only [Loop.outsides, Loop.outside, hfs, hmerge]
          simp [State.goto, State.put, State.view, Ne.symm hj]
        · simp only [Loop.outsides, Loop.outside, hfs, hmerge]
          simp [seenBy]
        · intro y hy
          obtain rfl := List.mem_singleton.1 hy
          exact ⟨j, hj, by simp⟩
    · exact nothing hs
  | note j u =>
    have hj : j ≠ k := fun h => he (by simp [at?, h])
    simp only [State.step] at hs
    split at hs
    · exact ⟨[], message_elsewhere hj hs⟩
    · exact nothing hs
  | dispatch j u =>
    have hj : j ≠ k := fun h => he (by simp [at?, h])
    simp only [State.step] at hs
    split at hs
    · obtain ⟨⟨l, y⟩, hm, hs⟩ := Res.bind_ok hs
      cases hs
      exact ⟨[], looksLike_nothing (conns_put_ne _ hj) rfl rfl (unseen hj (dispatch_private hm))⟩
    · exact nothing hs
  | addHandler id h =>
    cases h with
    | none => exact nothing hs
    | some h =>
      cases hs
      refine ⟨[.addHandler id (some h)], rfl, rfl, rfl, ?_⟩
      intro y hy
      obtain rfl := List.mem_singleton.1 hy
      exact List.mem_singleton.2 rfl
  | addRequest j r =>
    cases hs
    by_cases hj : j = k
    · subst hj
      refine ⟨[.addRequest r], by simp [State.put], by simp [State.put, State.view, Loop.outsides, Loop.outside], ?_, ?_⟩
      · simp [seenBy, Loop.outsides, Loop.outside]
      · intro y hy
        obtain rfl := List.mem_singleton.1 hy
        exact List.mem_singleton.2 rfl
    · exact ⟨[], looksLike_nothing (conns_put_ne _ hj) rfl rfl (unseen hj (xs := [.requested r]) (by simp [Private]))⟩

/-! ## All steps -/

theorem Inv.step {reads : List Bytes} {s s' : State} {e : Event} {log x : List (Nat × Act)} (h : Inv env key endErr auto fs0 k reads s log)
    (hs : s.step env key endErr auto e = .ok (s', x)) : Inv env key endErr auto fs0 k reads s' (log ++ x) := by
  by_cases he : at? e = some k
  · cases e <;> simp only [at?, Option.some.injEq, reduceCtorEq] at he <;> subst he
    · exact h.receive hs
    · exact h.process hs
    · exact h.check hs
    · exact h.merge hs
    · exact h.note hs
    · exact h.dispatch hs
  · obtain ⟨xs, hl⟩ := elsewhere he hs
    exact hl.inv h

theorem Inv.run {reads : List Bytes} {s s' : State} {es : List Event} {log x : List (Nat × Act)} (h : Inv env key endErr auto fs0 k reads s log)
    (hs : s.run env key endErr auto es = .ok (s', x)) : Inv env key endErr auto fs0 k reads s' (log ++ x) := by
  induction es generalizing s log x with
  | nil => cases hs; simpa using h
  | cons e es ih =>
    obtain ⟨⟨s1, y⟩, h1, hs⟩ := Res.bind_ok hs
    obtain ⟨⟨s2, z⟩, h2, hs⟩ := Res.bind_ok hs
    cases hs
    rw [← List.append_assoc]
    exact ih (h.step h1) h2

theorem inv_startOn (fs : FS) (reads : Nat → List Bytes) : Inv env key endErr auto fs k (reads k) (startOn fs reads) [] := by
  refine ⟨[], [], ⟨rfl, by simp, by simp⟩, [], ?_⟩
  rfl

theorem inv_start (reads : Nat → List Bytes) : Inv env key endErr auto (fun _ => none) k (reads k) (start reads) [] := inv_startOn _ reads

end System
end Verif
