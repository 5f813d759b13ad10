import Verif.Spec.Promised
import Verif.Lemmas.Talk
import Verif.Lemmas.SystemSafe
import Verif.Lemmas.Fits3
/-! # Lemmas on what servers promise -/

namespace Verif.Converse
open Session Handler Spec

variable {σ : Type}

/-- The messages with these bodies, to the same terminal, numbered from `n` on. -/
def numberedFrom (n : Nat) (xs : List (UInt64 × Entity)) : List (Message Entity) := (xs.zipIdx n).map fun x => outgoing x.1.1 x.2 x.1.2

theorem numberedFrom_append (n : Nat) (xs ys : List (UInt64 × Entity)) :
    numberedFrom n (xs ++ ys) = numberedFrom n xs ++ numberedFrom (n + xs.length) ys := by
  simp [numberedFrom, List.zipIdx_append]

theorem numberedFrom_cons (n : Nat) (x : UInt64 × Entity) (ys : List (UInt64 × Entity)) :
    numberedFrom n (x :: ys) = outgoing x.1 n x.2 :: numberedFrom (n + 1) ys := by
  simp [numberedFrom]

theorem attempts_append (x y : List Ev) : attempted (x ++ y) = attempted x ++ attempted y := by simp [attempted]

theorem attempts_cons_other (e : Ev) (x : List Ev) (h1 : ∀ m, e ≠ .sent m) (h2 : ∀ m, e ≠ .refused m) : attempted (e :: x) = attempted x := by
  cases e <;> simp_all [attempted]

/-- What plain code does. -/
theorem sends_performs {icc : UInt64} {n n' : Nat} {t t' : Table} {c : Code σ} {x : List Ev} {u v : σ} {es : List Entity}
    (hp : Performs icc n t c x n' t' u) (hs : Sends v c es) :
    attempted x = numberedFrom n (es.map (icc, ·)) ∧ n' = n + es.length ∧ u = v := by
  induction hp generalizing es with
  | returns => cases hs; exact ⟨rfl, rfl, rfl⟩
  | panics => cases hs; exact ⟨rfl, rfl, rfl⟩
  | sent hc ih =>
    cases hs with
    | send h =>
      obtain ⟨h1, h2, h3⟩ := ih (h _)
      refine ⟨?_, by simp only [List.length_cons]; omega, h3⟩
      rw [List.map_cons, numberedFrom_cons, ← h1]
      rfl
  | refused hc ih =>
    cases hs with
    | send h =>
      obtain ⟨h1, h2, h3⟩ := ih (h _)
      refine ⟨?_, by simp only [List.length_cons]; omega, h3⟩
      rw [List.map_cons, numberedFrom_cons, ← h1]
      rfl
  | requested hc ih =>
    cases hs with
    | request h =>
      obtain ⟨h1, h2, h3⟩ := ih (h _)
      refine ⟨?_, by simp only [List.length_cons]; omega, h3⟩
      rw [List.map_cons, numberedFrom_cons, ← h1]
      rfl
  | requestRefused hc ih =>
    cases hs with
    | request h =>
      obtain ⟨h1, h2, h3⟩ := ih (h _)
      refine ⟨?_, by simp only [List.length_cons]; omega, h3⟩
      rw [List.map_cons, numberedFrom_cons, ← h1]
      rfl

/-- The program's answers depend on the message alone, and its callbacks send nothing. -/
structure Fixed (P : Program σ) (answers : Message Entity → List Entity) (after : σ → Message Entity → σ) : Prop where
  handler : ∀ h u m, Decoded m → hasBody m = true → P.handlers m.header.msgID = some h → Sends (after u m) (P.handler h u m) (answers m)
  none : ∀ u m, Decoded m → hasBody m = true → P.handlers m.header.msgID = none → answers m = [] ∧ after u m = u
  callback : ∀ cb u m, ∃ v, Sends v (P.callback cb u m) []

/-- The callbacks change nothing. -/
def Leaves (P : Program σ) : Prop := ∀ cb u m, Sends u (P.callback cb u m) []

variable {P : Program σ} {answers : Message Entity → List Entity} {after : σ → Message Entity → σ}

theorem learned_icc (k : Knows σ) (m : Message Entity) : (k.learn m).icc = terminalAfter k.icc m := by
  unfold Knows.learn terminalAfter
  split <;> rfl

theorem learned_user (k : Knows σ) (m : Message Entity) : (k.learn m).user = k.user := by
  unfold Knows.learn
  split <;> rfl

theorem learned_count (k : Knows σ) (m : Message Entity) : (k.learn m).count = k.count := by
  unfold Knows.learn
  split <;> rfl

theorem learned_files (k : Knows σ) (m : Message Entity) : (k.learn m).files = k.files := by
  unfold Knows.learn
  split <;> rfl

theorem noted_sends (hP : Fixed P answers after) {k k' : Knows σ} {m : Message Entity} {x : List Ev} (h : Noted P k m x k') :
    attempted x = [] ∧ k'.count = k.count ∧ k'.icc = terminalAfter k.icc m ∧ k'.files = k.files ∧ (Leaves P → k'.user = k.user) := by
  cases h with
  | @ran n id cb n' x t' u ha hw hc =>
    obtain ⟨v, hv⟩ := hP.callback cb k.user m
    obtain ⟨h1, h2, h3⟩ := sends_performs hc hv
    refine ⟨?_, by simpa using h2, learned_icc k m, learned_files k m, fun hi => (sends_performs hc (hi cb k.user m)).2.2⟩
    rw [attempts_cons_other _ _ (by simp) (by simp), h1]
    rfl
  | none h => exact ⟨rfl, learned_count k m, learned_icc k m, learned_files k m, fun _ => learned_user k m⟩

theorem dispatched_sends (hP : Fixed P answers after) {k k' : Knows σ} {m : Message Entity} {x : List Ev} (hm : Decoded m) (hb : hasBody m = true)
    (h : Dispatched P k m x k') :
    attempted x = numberedFrom k.count ((answers m).map (k.icc, ·)) ∧ k'.count = k.count + (answers m).length ∧ k'.icc = k.icc ∧ k'.files = k.files ∧
      k'.user = after k.user m := by
  cases h with
  | @handled h n' x t' u hh hc =>
    obtain ⟨h1, h2, h3⟩ := sends_performs hc (hP.handler h k.user m hm hb hh)
    exact ⟨by rw [attempts_cons_other _ _ (by simp) (by simp), h1], h2, rfl, rfl, h3⟩
  | unhandled hh =>
    obtain ⟨h1, h2⟩ := hP.none k.user m hm hb hh
    simp [h1, h2, attempted, numberedFrom]

theorem replied_sends {k k' : Knows σ} {m : Message Entity} {r : UInt8} {x : List Ev} (h : Replied k m r x k') :
    attempted x = numberedFrom k.count [(k.icc, resultTo m r)] ∧ k'.count = k.count + 1 ∧ k'.icc = k.icc ∧ k'.files = k.files ∧ k'.user = k.user := by
  cases h <;> exact ⟨rfl, rfl, rfl, rfl, rfl⟩

theorem partOf_none {auto : Bool} {m : Message Entity} (h : isPart auto m = false) : partOf auto m = none := by simp [partOf, h]

theorem hasBody_of_partOf {auto : Bool} {m : Message Entity} {t : Upload × Packet × Bytes} (h : partOf auto m = some t) : hasBody m = true := by
  unfold partOf at h
  split at h
  · rename_i hp
    unfold isPart at hp
    unfold hasBody
    cases hb : m.body <;> simp_all
  · cases h

theorem missing_allStored (h : List FileOp) (u : Upload) (p : Packet) : Missing h u p ↔ ¬ (p.seq = p.sum ∧ allStored u p.sum.toNat h = true) := by
  unfold Missing allStored
  have key : (∃ i : UInt16, 1 ≤ i.toNat ∧ i.toNat ≤ p.sum.toNat ∧ latestIn u i h = none) ↔
      ¬ ((List.range' 1 p.sum.toNat).all fun i => (latestIn u (UInt16.ofNat i) h).isSome) = true := by
    have hb : p.sum.toNat < 65536 := p.sum.toNat_lt
    constructor
    · rintro ⟨i, h1, h2, h3⟩ hall
      have := List.all_eq_true.1 hall i.toNat (by rw [List.mem_range'_1]; omega)
      rw [UInt16.ofNat_toNat, h3] at this
      cases this
    · intro hn
      rw [List.all_eq_true] at hn
      refine Classical.byContradiction fun hc => hn fun i hi => ?_
      rw [List.mem_range'_1] at hi
      have e1 : (UInt16.ofNat i).toNat = i := by simp; omega
      cases hl : latestIn u (UInt16.ofNat i) h with
      | some _ => rfl
      | none => exact absurd ⟨UInt16.ofNat i, by omega, by omega, hl⟩ hc
  rw [key]
  by_cases h1 : p.seq = p.sum
  · simp [h1]
  · simp [h1]

theorem decoded_withContent {m : Message Entity} {b : T0801} (hm : Decoded m) (hb : m.body = .val (.m0801 b)) (content : Bytes) :
    Decoded (mergedMessage m b content) := by
  refine ⟨⟨?_, hm.1.packet, ?_⟩, ?_⟩
  · intro e he
    simp only [Body.val.injEq] at he
    subst he
    have := hm.1.type _ hb
    exact this
  · intro b' hb'
    simp only [Body.val.injEq, Entity.m0801.injEq] at hb'
    subst hb'
    rfl
  · intro b' hb'
    simp at hb'

theorem withContent_eq {m : Message Entity} {b : T0801} (hb : m.body = .val (.m0801 b)) (content : Bytes) : withContent m content = mergedMessage m b content := by
  unfold withContent
  rw [hb]

theorem promised_cons (auto : Bool) (icc : UInt64) (h : List FileOp) (m : Message Entity) (o : Outcome × Outcome) (ms : List (Message Entity × Outcome × Outcome)) :
    promised answers auto icc h ((m, o) :: ms) =
      if hasBody m = false then (icc, resultTo m 3) :: promised answers auto icc h ms
      else
        match partOf auto m with
        | none => (answers m).map (terminalAfter icc m, ·) ++ promised answers auto (terminalAfter icc m) h ms
        | some (u, p, data) =>
          (icc, resultTo m (if o.1 = .ok then 0 else 1)) ::
            match mergeDue u p o (.write u p.seq data o.1 :: h) with
            | none => promised answers auto icc (.write u p.seq data o.1 :: h) ms
            | some none => promised answers auto icc (.merge u o.2 :: .write u p.seq data o.1 :: h) ms
            | some (some content) =>
              (answers (withContent m content)).map (terminalAfter icc m, ·) ++
                promised answers auto (terminalAfter icc m) (.merge u o.2 :: .write u p.seq data o.1 :: h) ms := rfl

theorem givenTo_cons (auto : Bool) (h : List FileOp) (m : Message Entity) (o : Outcome × Outcome) (ms : List (Message Entity × Outcome × Outcome)) :
    givenTo auto h ((m, o) :: ms) =
      if hasBody m = false then givenTo auto h ms
      else
        match partOf auto m with
        | none => m :: givenTo auto h ms
        | some (u, p, data) =>
          match mergeDue u p o (.write u p.seq data o.1 :: h) with
          | none => givenTo auto (.write u p.seq data o.1 :: h) ms
          | some none => givenTo auto (.merge u o.2 :: .write u p.seq data o.1 :: h) ms
          | some (some content) => withContent m content :: givenTo auto (.merge u o.2 :: .write u p.seq data o.1 :: h) ms := rfl

theorem talk_sends (hP : Fixed P answers after) {auto : Bool} {k k' : Knows σ} {ms : List (Message Entity × Outcome × Outcome)} {log : List Ev}
    (h : Talk auto P k ms log k') (hd : ∀ x ∈ ms, Decoded x.1) :
    attempted log = numberedFrom k.count (promised answers auto k.icc k.files ms) ∧
      (Leaves P → k'.user = (givenTo auto k.files ms).foldl after k.user) := by
  induction h with
  | nil k => exact ⟨rfl, fun _ => rfl⟩
  | @cons k k1 k2 m o x y ms ht hrest ih =>
    obtain ⟨ih, ihu⟩ := ih fun z hz => hd z (by simp [hz])
    have hm : Decoded m := hd (m, o) (by simp)
    rw [attempts_cons_other _ _ (by simp) (by simp), attempts_append, ih]
    rw [promised_cons, givenTo_cons]
    cases ht with
    | unsupported hb hr =>
      obtain ⟨r1, r2, r3, r4, r5⟩ := replied_sends hr
      rw [if_pos hb, if_pos hb, numberedFrom_cons, r1, r2, r3, r4]
      refine ⟨rfl, fun hi => ?_⟩
      rw [ihu hi, r4, r5]
    | @ordinary x1 x2 k3 k4 hb hp hn hdis =>
      obtain ⟨n1, n2, n3, n4, n5⟩ := noted_sends hP hn
      obtain ⟨d1, d2, d3, d4, d5⟩ := dispatched_sends hP hm hb hdis
      have hb' : ¬ hasBody m = false := by simp [hb]
      rw [if_neg hb', if_neg hb', partOf_none hp, attempts_append, n1, d1, d2, d3, d4, n2, n3, n4, numberedFrom_append]
      refine ⟨by simp, fun hi => ?_⟩
      rw [ihu hi, d4, d5, n4, n5 hi, List.foldl_cons]
    | @lost u p data x1 k3 hp ho hr =>
      obtain ⟨r1, r2, r3, r4, r5⟩ := replied_sends hr
      have hb' : ¬ hasBody m = false := by simp [hasBody_of_partOf hp]
      have hmd : mergeDue u p o (.write u p.seq data o.1 :: k.files) = none := by simp [mergeDue, ho]
      rw [if_neg hb', if_neg hb', hp]
      simp only
      rw [hmd, if_neg ho, attempts_cons_other _ _ (by simp) (by simp), r1, r2, r3, r4, numberedFrom_cons]
      refine ⟨rfl, fun hi => ?_⟩
      rw [ihu hi, r4, r5]
    | @stored u p data x1 k3 hp ho hr hmiss =>
      obtain ⟨r1, r2, r3, r4, r5⟩ := replied_sends hr
      have hb' : ¬ hasBody m = false := by simp [hasBody_of_partOf hp]
      rw [r4, missing_allStored] at hmiss
      have hmd : mergeDue u p o (.write u p.seq data o.1 :: k.files) = none := by
        rw [ho]
        exact if_neg fun h => hmiss h.2
      rw [if_neg hb', if_neg hb', hp]
      simp only
      rw [hmd, if_pos ho, attempts_cons_other _ _ (by simp) (by simp), r1, r2, r3, r4, numberedFrom_cons, ho]
      refine ⟨rfl, fun hi => ?_⟩
      rw [ihu hi, r4, r5]
    | @unmerged u p data x1 k3 hp ho hr hmiss hf =>
      obtain ⟨r1, r2, r3, r4, r5⟩ := replied_sends hr
      have hb' : ¬ hasBody m = false := by simp [hasBody_of_partOf hp]
      rw [r4, missing_allStored, Classical.not_not] at hmiss
      have hmd : mergeDue u p o (.write u p.seq data o.1 :: k.files) = some none := by
        unfold mergeDue
        rw [if_pos ⟨ho, hmiss.1, by rw [ho]; exact hmiss.2⟩, if_neg hf]
      rw [if_neg hb', if_neg hb', hp]
      simp only
      rw [hmd, if_pos ho, attempts_cons_other _ _ (by simp) (by simp), attempts_append, r1, r2, r3, r4, numberedFrom_cons, ho]
      refine ⟨rfl, fun hi => ?_⟩
      rw [ihu hi, r4, r5]
    | @merged u p data content b x1 y1 z1 k3 k4 k5 hp hb ho hr hmiss hf hc hn hdis =>
      obtain ⟨r1, r2, r3, r4, r5⟩ := replied_sends hr
      have hb' : ¬ hasBody m = false := by simp [hasBody_of_partOf hp]
      rw [r4, missing_allStored, Classical.not_not] at hmiss
      rw [r4] at hc
      have hmd : mergeDue u p o (.write u p.seq data o.1 :: k.files) = some (some content) := by
        unfold mergeDue
        rw [if_pos ⟨ho, hmiss.1, by rw [ho]; exact hmiss.2⟩, if_pos hf, ho, hc]
      obtain ⟨n1, n2, n3, n4, n5⟩ := noted_sends hP hn
      obtain ⟨d1, d2, d3, d4, d5⟩ := dispatched_sends hP (decoded_withContent hm hb content) rfl hdis
      rw [if_neg hb', if_neg hb', hp]
      simp only
      rw [hmd]
      simp only
      rw [withContent_eq hb, if_pos ho, attempts_cons_other _ _ (by simp) (by simp), attempts_append, attempts_cons_other _ _ (by simp) (by simp),
        attempts_append, r1, n1, d1, d2, d3, d4, n2, n3, n4, numberedFrom_cons]
      simp only
      rw [numberedFrom_cons, numberedFrom_append, List.length_map, r2, r3, r4, ho, hf]
      refine ⟨by simp [numberedFrom, terminalAfter], fun hi => ?_⟩
      rw [ihu hi, d4, d5, n4, n5 hi, List.foldl_cons]
      simp only
      rw [r4, r5]

/-- Received messages are as the decoder delivers them, with no nil among the additional items of a location report. -/
theorem received_decoded {env : Env} {key : Option DecKey} {endErr : Err} {c c' : RecvState} {m : Message Entity}
    (h : Codec.receive (entityCodec env) key endErr c = (.ok m, c')) : Decoded m := by
  obtain ⟨-, f2, -⟩ := receive_facts (C := entityCodec env) (key := key) (endErr := endErr) c
  obtain ⟨f, hf⟩ := f2 m (by rw [h])
  refine ⟨C49_decoded_messages_are_delivered env key f m hf, fun b hb => ?_⟩
  obtain ⟨content, plain, e, n, -, -, hdec, hbody⟩ := Message.decode_body_inv rfl hf (by rw [hb]; simp)
  rw [hb] at hbody
  simp only [Body.val.injEq] at hbody
  subst hbody
  have := decoded_bare hdec
  intro hn
  obtain ⟨v, hv⟩ := this none hn
  cases hv

/-- The messages received, in order. -/
theorem serve_inv {env : Env} {key : Option DecKey} {endErr : Err} {auto : Bool} {s s' : State σ} {os : List (Outcome × Outcome)} {c : RecvState} {log : List Ev}
    (h : s.serve env key endErr auto P os c = .ok (s', log)) :
    ∃ (ms : List (Message Entity)) (log' : List Ev), (log = log' ∨ log = log' ++ [.closed]) ∧ ms.length ≤ os.length ∧ (∀ m ∈ ms, Decoded m) ∧
      s.run auto P (ms.zip os) = .ok (s', log') := by
  induction os generalizing s c log with
  | nil =>
    cases h
    exact ⟨[], [], .inl rfl, Nat.le_refl _, by simp, rfl⟩
  | cons o os ih =>
    unfold State.serve at h
    cases hr : Codec.receive (entityCodec env) key endErr c with
    | mk r c' =>
      rw [hr] at h
      cases r with
      | err e =>
        cases h
        exact ⟨[], [], .inr rfl, Nat.zero_le _, by simp, rfl⟩
      | panic => cases h
      | ok m =>
        simp only at h
        obtain ⟨⟨s1, x⟩, h1, h⟩ := Res.bind_ok h
        obtain ⟨⟨s2, y⟩, h2, h⟩ := Res.bind_ok h
        cases h
        obtain ⟨ms, log', g1, g2, g3, g4⟩ := ih h2
        refine ⟨m :: ms, .received m :: (x ++ log'), ?_, by simpa using g2, ?_, ?_⟩
        · rcases g1 with rfl | rfl
          · exact .inl rfl
          · exact .inr (by simp)
        · intro d hd
          rcases List.mem_cons.1 hd with rfl | hd
          · exact received_decoded hr
          · exact g3 d hd
        · simp only [List.zip_cons_cons, State.run, h1, Res.ok_bind, g4]

theorem turn_received {auto : Bool} {k k' : Knows σ} {m : Message Entity} {o : Outcome × Outcome} {x : List Ev} (h : Turn auto P k m o x k') :
    receivedOf x = [] := by
  have perf : ∀ {icc n t c x n' t' u}, Performs (σ := σ) icc n t c x n' t' u → receivedOf x = [] := by
    intro icc n t c x n' t' u h
    induction h <;> simp_all [receivedOf]
  have noted : ∀ {k k' : Knows σ} {m x}, Noted P k m x k' → receivedOf x = [] := by
    intro k k' m x h
    cases h with
    | ran _ _ hc => simpa [receivedOf] using perf hc
    | none => rfl
  have disp : ∀ {k k' : Knows σ} {m x}, Dispatched P k m x k' → receivedOf x = [] := by
    intro k k' m x h
    cases h with
    | handled _ hc => simpa [receivedOf] using perf hc
    | unhandled => rfl
  have repl : ∀ {k k' : Knows σ} {m r x}, Replied k m r x k' → receivedOf x = [] := by
    intro k k' m r x h
    cases h <;> rfl
  cases h with
  | unsupported _ hr => exact repl hr
  | ordinary _ _ hn hd =>
    have h1 := noted hn
    have h2 := disp hd
    simp_all [receivedOf]
  | lost _ _ hr => simpa [receivedOf] using repl hr
  | stored _ _ hr => simpa [receivedOf] using repl hr
  | unmerged _ _ hr =>
    have := repl hr
    simp_all [receivedOf]
  | merged _ _ _ hr _ _ _ hn hd =>
    have h0 := repl hr
    have h1 := noted hn
    have h2 := disp hd
    simp_all [receivedOf]

theorem talk_receives {auto : Bool} {k k' : Knows σ} {ms : List (Message Entity × Outcome × Outcome)} {log : List Ev} (h : Talk auto P k ms log k') :
    receivedOf log = ms.map (·.1) := by
  induction h with
  | nil => rfl
  | cons ht _ ih =>
    have := turn_received ht
    simp_all [receivedOf]

/-- What a server with plain answers does with the bytes it reads. -/
theorem serve_sends (hP : Fixed P answers after) {env : Env} {key : Option DecKey} {endErr : Err} {auto : Bool} {u : σ} {accepts : List Bool}
    {os : List (Outcome × Outcome)} {c : RecvState} {s : State σ} {log : List Ev}
    (h : ({ user := u, accepts := accepts } : State σ).serve env key endErr auto P os c = .ok (s, log)) :
    attempted log = numbered (promised answers auto 0 [] ((receivedOf log).zip os)) ∧
      (Leaves P → s.user = (givenTo auto [] ((receivedOf log).zip os)).foldl after u) := by
  obtain ⟨ms, log', h1, h2, h3, h4⟩ := serve_inv h
  have hz : ∀ x ∈ ms.zip os, Decoded x.1 := fun x hx => h3 _ (List.of_mem_zip (a := x.1) (b := x.2) hx).1
  obtain ⟨s', log'', k, r1, r2, r3⟩ := run_spec auto P (ms.zip os) (shows_fresh u accepts) fun x hx => (hz x hx).1
  obtain ⟨rfl, rfl⟩ : s = s' ∧ log' = log'' := by simpa [h4] using r1
  obtain ⟨t1, t2⟩ := talk_sends hP r2 hz
  have hr := talk_receives r2
  rw [List.map_fst_zip h2] at hr
  have e1 : receivedOf log = ms := by
    rcases h1 with rfl | rfl
    · exact hr
    · simpa [receivedOf] using hr
  have e2 : attempted log = attempted log' := by
    rcases h1 with rfl | rfl
    · rfl
    · simp [attempted]
  rw [e1, e2, t1]
  exact ⟨rfl, fun hi => by rw [r3.user, t2 hi]⟩

end Verif.Converse
