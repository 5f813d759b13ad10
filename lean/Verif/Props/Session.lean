import Verif.Lemmas.Session
import Verif.Props.Frame
import Verif.Props.Registry
import Verif.Props.RoundTrip
/-! # Sessions: serial numbers, requests, replies, encryption (C29, C30, C31, C45, C46) -/

namespace Verif

open Session Spec

variable {E : Type}

/-! ## C29 -/

/-- C29. Under every schedule of any number of goroutines the serial numbers handed out are, in this order, 1, 2, ..., 255, 1, 2, ... -/
theorem C29_sequence (C : BodyCodec E) (evs : List (Event E)) :
    ∃ n, allocations (({} : State E).run C evs).2 = (List.range n).map serialOf :=
  ⟨_, (numbered_run C evs).allocs⟩

/-- C29. Serial numbers are never 0 and lie in 1..255. -/
theorem C29_range (C : BodyCodec E) (evs : List (Event E)) (s : UInt16) (h : s ∈ allocations (({} : State E).run C evs).2) :
    1 ≤ s.toNat ∧ s.toNat ≤ 255 := by
  rw [(numbered_run C evs).allocs] at h
  obtain ⟨k, _, rfl⟩ := List.mem_map.1 h
  rw [serialOf_toNat]
  omega

/-- C29. Any 255 consecutive serial numbers are pairwise distinct. -/
theorem C29_distinct (C : BodyCodec E) (evs : List (Event E)) (i j : Nat) (a b : UInt16) (hij : i < j) (hj : j < i + 255)
    (ha : (allocations (({} : State E).run C evs).2)[i]? = some a) (hb : (allocations (({} : State E).run C evs).2)[j]? = some b) : a ≠ b := by
  rw [(numbered_run C evs).allocs] at ha hb
  rw [List.getElem?_map] at ha hb
  intro he
  subst he
  cases h1 : (List.range (allocations (({} : State E).run C evs).2).length)[i]? with
  | none => rw [h1] at ha; simp at ha
  | some x =>
    cases h2 : (List.range (allocations (({} : State E).run C evs).2).length)[j]? with
    | none => rw [h2] at hb; simp at hb
    | some y =>
      rw [h1] at ha; rw [h2] at hb
      have hx : x = i := by
        obtain ⟨hlt, hx⟩ := List.getElem?_eq_some_iff.1 h1
        simpa using hx.symm
      have hy : y = j := by
        obtain ⟨hlt, hy⟩ := List.getElem?_eq_some_iff.1 h2
        simpa using hy.symm
      subst hx; subst hy
      have h1 := congrArg UInt16.toNat (Option.some.inj ha)
      have h2 := congrArg UInt16.toNat (Option.some.inj hb)
      rw [serialOf_toNat] at h1 h2
      omega

/-- C29. A message sent carries a serial number handed out to the goroutine that sends it, and a call that returns without error returns the number
of the message it sent. -/
theorem C29_own_number (C : BodyCodec E) (evs : List (Event E)) (i : Nat) (c : Call E) :
    (∀ m, .pushed i c m ∈ (({} : State E).run C evs).2 → .allocated i m.header.serial ∈ (({} : State E).run C evs).2) ∧
    (∀ s, .returned i c (some s) ∈ (({} : State E).run C evs).2 → ∃ m, .pushed i c m ∈ (({} : State E).run C evs).2 ∧ m.header.serial = s) :=
  ⟨fun m h => ((traced_run C evs).pushed i c m h).1, fun s h => (traced_run C evs).returned i c s h⟩

namespace Sample

/-- A command and a query, each with a callback. -/
def setParams : Session.Call Entity := { body := .val (.m8103 { params := [] }), callback := some 10 }
def queryParams : Session.Call Entity := { body := .val (.m8104 {}), callback := some 11 }

/-- Two goroutines race for serial numbers: the second one's compare-and-swap fails once. -/
def race : List (Session.Event Entity) :=
  [.start 1 setParams, .start 2 queryParams, .loadIcc 1, .loadIcc 2, .loadNext 1, .loadNext 2, .cas 1, .cas 2, .push 1 true, .loadNext 2, .cas 2,
    .add 1, .push 2 true, .add 2]

end Sample

/-- In the race both goroutines get different numbers. -/
example : (({} : State Entity).run Sample.codec Sample.race).2.length = 6 ∧
    allocations (({} : State Entity).run Sample.codec Sample.race).2 = [1, 2] := by decide

/-! ## C30 -/

/-- C30. Under every schedule, requests and answers behave as a table with at most one pending request per message id: a request that returns replaces
the one with its message id, a callback runs only for an answer with its serial number and takes its request out of the table, and an answer is
ignored only if its number is 0 or belongs to no pending request. -/
theorem C30_refines_table (C : BodyCodec E) (evs : List (Event E)) : ∃ t, Table.Steps C.msgID (fun _ => none) (({} : State E).run C evs).2 t := by
  obtain ⟨t, h, _⟩ := run_agree C evs
  exact ⟨t, h⟩

/-- C30. Every answer that arrives either runs exactly one callback or is ignored. -/
theorem C30_answer (C : BodyCodec E) (st : State E) (s : UInt16) :
    (st.step C (.answer s)).2 = [.ignored s] ∨ ∃ cb, (st.step C (.answer s)).2 = [.ran cb s] := by
  simp only [State.step]
  split
  · exact .inl rfl
  · split
    · exact .inl rfl
    · exact .inr ⟨_, rfl⟩

/-- C30. A callback runs at most as often as it was registered by a `Request` that returned: once per request. -/
theorem C30_at_most_once (C : BodyCodec E) (evs : List (Event E)) (cb : Nat) :
    (({} : State E).run C evs).2.countP (runs cb) ≤ (({} : State E).run C evs).2.countP (registers cb) := by
  have := count_run C cb evs
  omega

/-- C30. A callback runs only for an answer with the serial number of a message sent by a request with this callback. -/
theorem C30_own_serial (C : BodyCodec E) (evs : List (Event E)) (cb : Nat) (s : UInt16) (h : .ran cb s ∈ (({} : State E).run C evs).2) :
    ∃ i c m, .pushed i c m ∈ (({} : State E).run C evs).2 ∧ c.callback = some cb ∧ m.header.serial = s ∧ 1 ≤ s.toNat ∧ s.toNat ≤ 255 := by
  have ht := traced_run C evs
  obtain ⟨i, c, h1, h2⟩ := ht.ran cb s h
  obtain ⟨m, h3, h4⟩ := ht.returned i c s h1
  have h5 : s ∈ allocations (({} : State E).run C evs).2 := by
    have := (ht.pushed i c m h3).1
    rw [h4] at this
    exact List.mem_filterMap.2 ⟨_, this, rfl⟩
  exact ⟨i, c, m, h3, h2, h4, C29_range C evs s h5⟩

/-- C30. Incoming messages: a message as delivered by the decoder counts as an answer exactly if it is one of the protocol's answer messages, with the
serial number in its body; `message` does not panic. -/
theorem C30_answers_recognised (env : Env) (key : Option DecKey) (data : Bytes) (d : Message Entity) (e : Entity)
    (h : Message.decode (entityCodec env) key {} data = .ok d) (hb : d.body = .val e) : replySerial d = .ok ((answered e).getD 0) := by
  have hid := C11_body_type_matches_header env key data d e h hb
  unfold replySerial
  rw [← hid, hb]
  cases e <;> rfl

/-- Answers to the requests of the race, in the wrong order, twice, and to nothing. -/
example : (({} : State Entity).run Sample.codec (Sample.race ++ [.answer 2, .answer 0, .answer 2, .answer 7, .answer 1])).2.drop 6 =
    [.ran 11 2, .ignored 0, .ignored 2, .ignored 7, .ran 10 1] := by decide

/-- A second request with the same message id replaces the first. -/
example : (({} : State Entity).run Sample.codec (Sample.race ++ [.start 3 { Sample.setParams with callback := some 12 }, .loadIcc 3, .loadNext 3, .cas 3, .push 3 true,
    .add 3, .answer 1, .answer 3])).2.drop 9 = [.ignored 1, .ran 12 3] := by decide

/-! ## C31 -/

/-- C31. If the answer comes after `Request` has returned, the request was not replaced by a newer one with the same message id and was not answered
before, and no other request with a callback had the same serial number, then its callback runs. Missing for the full property: answers that come
before `Request` returns, see `C31_refuted`. -/
theorem C31_answer_runs_callback_partial (C : BodyCodec E) (evs : List (Event E)) (l1 l2 : List (Obs E)) (i : Nat) (c : Call E) (s id : UInt16) (cb : Nat)
    (hlog : (({} : State E).run C evs).2 = l1 ++ .returned i c (some s) :: l2) (hc : c.callback = some cb) (hid : idOf C.msgID c.body = some id)
    (hnew : ∀ o ∈ l2, ∀ s' cb', ¬ Registered C.msgID o id s' cb') (hans : ∀ o ∈ l2, ∀ cb', o ≠ .ran cb' s)
    (honly : ∀ o ∈ l1 ++ l2, ∀ id' cb', ¬ Registered C.msgID o id' s cb') :
    ((({} : State E).run C evs).1.step C (.answer s)).2 = [.ran cb s] := by
  obtain ⟨t, h1, h2⟩ := run_agree C evs
  obtain ⟨t', h3, _⟩ := step_agree C _ (.answer s) t h2
  have hs0 : s ≠ 0 := by
    have ht := traced_run C evs
    obtain ⟨m, h3, h4⟩ := ht.returned i c s (by rw [hlog]; simp)
    have h5 : s ∈ allocations (({} : State E).run C evs).2 := by
      have := (ht.pushed i c m h3).1
      rw [h4] at this
      exact List.mem_filterMap.2 ⟨_, this, rfl⟩
    have := C29_range C evs s h5
    rintro rfl
    exact absurd this.1 (by decide)
  -- the request is pending
  have hpend : t id = some (s, cb) := by
    rw [hlog] at h1
    obtain ⟨t1, _, a2⟩ := steps_append_inv l1 _ h1
    obtain ⟨t2, b1, b2⟩ := steps_append_inv [.returned i c (some s)] l2 a2
    have b1 := steps_one_inv b1
    simp only [Table.Step, hc, hid] at b1
    refine steps_keep b2 id s cb ?_ hnew hans
    rw [b1, Table.put, if_pos rfl]
  rcases C30_answer C (({} : State E).run C evs).1 s with h | ⟨cb', h⟩
  · rw [h] at h3
    obtain ⟨h4, _⟩ := steps_one_inv h3
    rcases h4 with h4 | h4
    · exact absurd h4 hs0
    · exact absurd hpend (h4 id cb)
  · rw [h] at h3 ⊢
    obtain ⟨_, id', h4, _⟩ := steps_one_inv h3
    obtain ⟨o, ho, hreg⟩ := steps_registered h1 id' s cb' h4
    rw [hlog] at ho
    rcases List.mem_append.1 ho with ho | ho
    · exact absurd hreg (honly o (List.mem_append_left _ ho) id' cb')
    · rcases List.mem_cons.1 ho with rfl | ho
      · obtain ⟨j, c', he, hc', _⟩ := hreg
        simp only [Obs.returned.injEq] at he
        obtain ⟨_, rfl, _⟩ := he
        rw [hc] at hc'
        rw [Option.some.inj hc']
      · exact absurd hreg (honly o (List.mem_append_right _ ho) id' cb')

/-- C31 without wrap-around: as long as the session has handed out at most 255 serial numbers, no other request can have the same number. -/
theorem C31_first_255_partial (C : BodyCodec E) (evs : List (Event E)) (l1 l2 : List (Obs E)) (i : Nat) (c : Call E) (s id : UInt16) (cb : Nat)
    (hfew : (allocations (({} : State E).run C evs).2).length ≤ 255)
    (hlog : (({} : State E).run C evs).2 = l1 ++ .returned i c (some s) :: l2) (hc : c.callback = some cb) (hid : idOf C.msgID c.body = some id)
    (hnew : ∀ o ∈ l2, ∀ s' cb', ¬ Registered C.msgID o id s' cb') (hans : ∀ o ∈ l2, ∀ cb', o ≠ .ran cb' s) :
    ((({} : State E).run C evs).1.step C (.answer s)).2 = [.ran cb s] := by
  refine C31_answer_runs_callback_partial C evs l1 l2 i c s id cb hlog hc hid hnew hans ?_
  rintro o ho id' cb' ⟨j, c', rfl, _, _⟩
  exact returned_once C evs hfew l1 l2 i j c c' s hlog ho

/-- C31, exactly, from any point at which the session is at rest and as long as it then hands out at most 255 serial numbers: an answer runs a callback
if and only if a request with this number and callback waits, and it runs nothing if and only if no request with this number waits. (A new session is at
rest.) Missing for the full property: a request waits only after `Request` has returned, see `C31_refuted`. -/
theorem C31_exact_partial (C : BodyCodec E) (before evs : List (Event E)) (hrest : SessionAtRest (({} : State E).run C before).1)
    (hfew : (allocations ((({} : State E).run C before).1.run C evs).2).length ≤ 255) (s : UInt16) :
    (∀ cb, (((({} : State E).run C before).1.run C evs).1.step C (.answer s)).2 = [.ran cb s] ↔
      ∃ id, RequestWaits C.msgID ((({} : State E).run C before).1.run C evs).2 id s cb) ∧
    ((((({} : State E).run C before).1.run C evs).1.step C (.answer s)).2 = [.ignored s] ↔
      ∀ id cb, ¬ RequestWaits C.msgID ((({} : State E).run C before).1.run C evs).2 id s cb) := by
  have hnd := nodup_since C before evs hfew
  have hs0 : s ∈ allocations ((({} : State E).run C before).1.run C evs).2 → s ≠ 0 := by
    rintro hm rfl
    refine absurd (C29_range C (before ++ evs) 0 ?_).1 (by decide)
    rw [run_append]
    simp only [allocations_append]
    exact List.mem_append_right _ hm
  generalize (({} : State E).run C before).1 = st at hrest hnd hs0 ⊢
  have key : ∀ cb, ((st.run C evs).1.step C (.answer s)).2 = [.ran cb s] ↔ ∃ id, RequestWaits C.msgID (st.run C evs).2 id s cb := by
    intro cb
    obtain ⟨t, h1, h2⟩ := run_agree_from C st hrest evs
    obtain ⟨t', h3, _⟩ := step_agree C _ (.answer s) t h2
    constructor
    · intro h
      rw [h] at h3
      obtain ⟨_, id, h4, _⟩ := steps_one_inv h3
      obtain ⟨l1, o, l2, m1, m2, m3, m4⟩ := steps_last h1 id s cb h4
      refine ⟨id, l1, o, l2, m1, m2, m3, ?_⟩
      intro o' ho cb' he
      obtain ⟨id', hne, o'', ho'', hreg⟩ := m4 o' ho cb' he
      obtain ⟨i, c, rfl, hc, hid⟩ := m2
      obtain ⟨j, c', rfl, hc', hid'⟩ := hreg
      have hnot := returned_once_from C st hrest evs hnd l1 l2 i j c c' s m1
      rw [m1] at ho''
      rcases List.mem_append.1 ho'' with hx | hx
      · exact hnot (List.mem_append_left _ hx)
      · rcases List.mem_cons.1 hx with hx | hx
        · cases hx
          rw [hid] at hid'
          exact hne (Option.some.inj hid').symm
        · exact hnot (List.mem_append_right _ hx)
    · rintro ⟨id, l1, o, l2, m1, ⟨i, c, rfl, hc, hid⟩, m3, m4⟩
      have hs : s ≠ 0 := by
        have ht := traced_run_from C st hrest evs
        obtain ⟨m, h3, h4⟩ := ht.returned i c s (by rw [m1]; simp)
        have := (ht.pushed i c m h3).1
        rw [h4] at this
        exact hs0 (List.mem_filterMap.2 ⟨_, this, rfl⟩)
      have hpend : t id = some (s, cb) := by
        rw [m1] at h1
        obtain ⟨t1, _, a2⟩ := steps_append_inv l1 _ h1
        obtain ⟨t2, b1, b2⟩ := steps_append_inv [.returned i c (some s)] l2 a2
        have b1 := steps_one_inv b1
        simp only [Table.Step, hc, hid] at b1
        refine steps_keep b2 id s cb ?_ m3 m4
        rw [b1, Table.put, if_pos rfl]
      rcases C30_answer C (st.run C evs).1 s with h | ⟨cb', h⟩
      · rw [h] at h3
        obtain ⟨h4, _⟩ := steps_one_inv h3
        rcases h4 with h4 | h4
        · exact absurd h4 hs
        · exact absurd hpend (h4 id cb)
      · rw [h] at h3 ⊢
        obtain ⟨_, id', h4, _⟩ := steps_one_inv h3
        obtain ⟨o, ho, j, c', rfl, hc', _⟩ := steps_registered h1 id' s cb' h4
        have hnot := returned_once_from C st hrest evs hnd l1 l2 i j c c' s m1
        rw [m1] at ho
        rcases List.mem_append.1 ho with ho | ho
        · exact absurd (List.mem_append_left _ ho) hnot
        · rcases List.mem_cons.1 ho with he | ho
          · cases he
            rw [hc] at hc'
            rw [Option.some.inj hc']
          · exact absurd (List.mem_append_right _ ho) hnot
  refine ⟨key, fun h id cb hw => ?_, fun h => ?_⟩
  · have := (key cb).2 ⟨id, hw⟩
    rw [h] at this
    cases this
  · rcases C30_answer C (st.run C evs).1 s with h' | ⟨cb, h'⟩
    · exact h'
    · obtain ⟨id, hw⟩ := (key cb).1 h'
      exact absurd hw (h id cb)

/-- The session is at rest again after the race when both requests are answered, and a request made then waits; nobody waits for an answer with
number 2. -/
example : SessionAtRest (({} : State Entity).run Sample.codec (Sample.race ++ [.answer 2, .answer 1])).1 ∧
    (allocations ((({} : State Entity).run Sample.codec (Sample.race ++ [.answer 2, .answer 1])).1.run Sample.codec
      [.start 4 Sample.queryParams, .loadIcc 4, .loadNext 4, .cas 4, .push 4 true, .add 4]).2).length = 1 ∧
    RequestWaits Sample.codec.msgID ((({} : State Entity).run Sample.codec (Sample.race ++ [.answer 2, .answer 1])).1.run Sample.codec
      [.start 4 Sample.queryParams, .loadIcc 4, .loadNext 4, .cas 4, .push 4 true, .add 4]).2 0x8104 3 11 := by
  refine ⟨⟨fun i => ?_, by decide⟩, by decide, ⟨[.allocated 4 3, .pushed 4 Sample.queryParams (buildMessage 0x8104 Sample.queryParams.body 0 3)],
    .returned 4 Sample.queryParams (some 3), [], by decide, ⟨4, Sample.queryParams, rfl, rfl, rfl⟩, by simp, by simp⟩⟩
  by_cases h1 : i = 1
  · subst h1; decide
  · by_cases h2 : i = 2
    · subst h2; decide
    · rw [place_others]
      · intro ev hev
        simp only [Sample.race, List.cons_append, List.nil_append, List.mem_cons, List.not_mem_nil, or_false] at hev
        rcases hev with rfl | rfl | rfl | rfl | rfl | rfl | rfl | rfl | rfl | rfl | rfl | rfl | rfl | rfl | rfl | rfl <;>
          simp only [actor, ne_eq, Option.some.injEq, reduceCtorEq, not_false_eq_true] <;> omega

/-- Both cases occur: after the race, request 2 waits, and nobody waits for an answer with number 3. -/
example : (allocations (({} : State Entity).run Sample.codec Sample.race).2).length ≤ 255 ∧
    RequestWaits Sample.codec.msgID (({} : State Entity).run Sample.codec Sample.race).2 0x8104 2 11 ∧
    ((({} : State Entity).run Sample.codec Sample.race).1.step Sample.codec (.answer 3)).2 = [.ignored 3] :=
  ⟨by decide, ⟨(({} : State Entity).run Sample.codec Sample.race).2.take 5, .returned 2 Sample.queryParams (some 2), [], by decide,
    ⟨2, Sample.queryParams, rfl, rfl, rfl⟩, by simp, by simp⟩, by decide⟩

/-- The hypotheses are met in the race, for the first request. -/
example : ∃ l1 l2, (({} : State Entity).run Sample.codec Sample.race).2 = l1 ++ .returned 1 Sample.setParams (some 1) :: l2 ∧
    Sample.setParams.callback = some 10 ∧ idOf Sample.codec.msgID Sample.setParams.body = some 0x8103 ∧
    (∀ o ∈ l2, ∀ s' cb', ¬ Registered Sample.codec.msgID o 0x8103 s' cb') ∧ (∀ o ∈ l2, ∀ cb', o ≠ .ran cb' 1) ∧ l2 ≠ [] := by
  refine ⟨(({} : State Entity).run Sample.codec Sample.race).2.take 3, (({} : State Entity).run Sample.codec Sample.race).2.drop 4, by decide, rfl, rfl, ?_, ?_,
    by decide⟩
  · have : (({} : State Entity).run Sample.codec Sample.race).2.drop 4 =
        [.pushed 2 Sample.queryParams (buildMessage 0x8104 Sample.queryParams.body 0 2), .returned 2 Sample.queryParams (some 2)] := by decide
    rw [this]
    intro o ho s' cb'
    simp only [List.mem_cons, List.not_mem_nil, or_false] at ho
    rcases ho with rfl | rfl
    · rintro ⟨i, c, h, _⟩
      simp at h
    · rintro ⟨i, c, h, _, h'⟩
      simp only [Obs.returned.injEq] at h
      obtain ⟨_, rfl, _⟩ := h
      revert h'
      decide
  · intro o ho cb' he
    subst he
    have : ∀ o ∈ (({} : State Entity).run Sample.codec Sample.race).2.drop 4, ∀ cb, o ≠ .ran cb 1 := by
      have h : (({} : State Entity).run Sample.codec Sample.race).2.drop 4 =
        [.pushed 2 Sample.queryParams (buildMessage 0x8104 Sample.queryParams.body 0 2), .returned 2 Sample.queryParams (some 2)] := by decide
      rw [h]
      intro o ho cb
      simp only [List.mem_cons, List.not_mem_nil, or_false] at ho
      rcases ho with rfl | rfl <;> simp
    exact this _ ho cb' rfl

/-- The schedule in which the answer arrives after the message was sent and before the request is entered into the table. -/
def earlyAnswer : List (Event Entity) :=
  [.start 1 Sample.setParams, .loadIcc 1, .loadNext 1, .cas 1, .push 1 true, .answer 1, .add 1]

/-- C31 fails: the only request of a session is sent and answered once, it returns without error, and its callback never runs. The request stays
pending. -/
theorem C31_refuted : ¬ ∀ (evs pre post : List (Event Entity)) (i : Nat) (c : Call Entity) (m : Message Entity) (cb : Nat),
    evs = pre ++ .answer m.header.serial :: post → .pushed i c m ∈ (({} : State Entity).run Sample.codec pre).2 → c.callback = some cb →
    (∀ j c', .start j c' ∈ evs → j = i ∧ c' = c) → .ran cb m.header.serial ∈ (({} : State Entity).run Sample.codec evs).2 := by
  intro h
  have := h earlyAnswer [.start 1 Sample.setParams, .loadIcc 1, .loadNext 1, .cas 1, .push 1 true] [.add 1] 1 Sample.setParams
    (buildMessage 0x8103 Sample.setParams.body 0 1) 10 rfl (by decide) rfl
    (by intro j c' hm; simp [earlyAnswer] at hm; exact hm)
  revert this
  decide

/-! ## C45 -/

/-- C45 fails for every message: whatever public key is set, `Send` hands the codec messages that it writes without encryption. -/
theorem C45_never_encrypted (C : BodyCodec E) (k : EncKey) (id serial : UInt16) (icc : UInt64) (b : Body E) :
    Codec.sendBytes C (some k) (buildMessage id b icc serial) = Codec.sendBytes C none (buildMessage id b icc serial) := by
  have : Property.isEnableEncrypt (buildMessage id b icc serial).header.property = false := by show Property.isEnableEncrypt 0 = false; decide
  simp [Codec.sendBytes, this]

/-- C45 refuted: with a key set, the location query goes out in plain text, without the encryption flag. -/
theorem C45_refuted : ¬ ∀ (k : EncKey) (evs : List (Event Entity)) (i : Nat) (c : Call Entity) (m : Message Entity) (f : Bytes) (d : Message Entity),
    .pushed i c m ∈ (({} : State Entity).run Sample.codec evs).2 → Codec.sendBytes Sample.codec (some k) m = .ok f →
    Message.decode Sample.codec none {} f = .ok d → encryptFlag d.header.property.toNat = true := by
  intro h
  have := h { size := 128, enc := fun _ b => some b } [.learn 13800138000, .start 1 { body := .val (.m8001 {}) }, .loadIcc 1, .loadNext 1, .cas 1, .push 1 true] 1
    { body := .val (.m8001 {}) } (buildMessage 0x8001 (.val (.m8001 {})) 13800138000 1) _ _ (by decide) rfl rfl
  revert this
  decide

/-- C45, partial: the codec itself does encrypt a message whose header asks for it: what it writes is a frame whose body is the RSA encryption of the
encoded body. What is missing is that `Session.Send` never asks. -/
theorem C45_codec_encrypts_partial (C : BodyCodec E) (k : EncKey) (m : Message E) (e : E) (f : Bytes) (hm : m.body = .val e)
    (hflag : encryptFlag m.header.property.toNat = true) (h : Codec.sendBytes C (some k) m = .ok f) :
    ∃ plain e' cipher hb, C.encode e = .ok (plain, e') ∧ encryptOAEP k plain = .ok cipher ∧ Frame f (hb ++ cipher) := by
  have hx : Codec.sendBytes C (some k) m = (Message.encode C (some k) m).bind fun r => .ok r.1 := by
    rw [← Property.isEnableEncrypt_spec] at hflag
    simp [Codec.sendBytes, hflag]
  rw [hx] at h
  cases he : Message.encode C (some k) m with
  | err _ => simp [he, Res.bind] at h
  | panic => simp [he, Res.bind] at h
  | ok r =>
    obtain ⟨f', m'⟩ := r
    simp [he, Res.bind] at h
    subst h
    obtain ⟨body, hdr, b', id, prop, hb, h1, -, -, -, -, hf⟩ := Message.encode_inv he
    simp only [Message.encodeBody, hm] at h1
    cases hy : C.encode e with
    | err _ => simp [hy] at h1
    | panic => simp [hy] at h1
    | ok r =>
      obtain ⟨plain, e'⟩ := r
      simp only [hy, Res.ok_bind] at h1
      cases hz : encryptOAEP k plain with
      | err _ => simp [hz] at h1
      | panic => simp [hz] at h1
      | ok x =>
        simp only [hz, Res.ok_bind, Res.ok.injEq, Prod.mk.injEq] at h1
        obtain ⟨rfl, _⟩ := h1
        exact ⟨plain, e', x, hb, rfl, hz, _, hf, stuffed_escape _⟩

/-- The hypothesis is met by a header with the encryption flag. -/
example : encryptFlag ({ Sample.header with property := 0x0400 } : Header).property.toNat = true ∧
    (match Codec.sendBytes Sample.codec (some { size := 128, enc := fun _ b => some (b.map (· + 1)) })
        { Sample.message with header := { Sample.header with property := 0x0400 } } with
      | .ok f => f.length
      | _ => 0) > 20 := by decide

/-! ## C46 -/

/-- C46. The message `Send`, `Request` or `Reply` hands to the connection: goroutine `i`, idle after `pre`, starts the call; others do anything in `a` and
`b`. If the message is accepted, it has the body given, the message id of the body, the terminal number last learned when the call reads it, no
property bits, no packet information, and a serial number handed out to this call. -/
theorem C46_message_sent (C : BodyCodec E) (pre a b : List (Event E)) (i : Nat) (c : Call E) (id : UInt16) (hid : idOf C.msgID c.body = some id)
    (hidle : (({} : State E).run C pre).1.place i = none) (ha : ∀ ev ∈ a, actor ev ≠ some i)
    (hb : ∀ ev ∈ b, actor ev = some i → ev = .loadNext i ∨ ev = .cas i) :
    let s := (({} : State E).run C (pre ++ [.start i c] ++ a ++ [.loadIcc i])).1
    let r := s.run C b
    (r.1.step C (.push i true)).2 = [] ∨
    ∃ serial rest, .allocated i serial ∈ r.2 ∧ (r.1.step C (.push i true)).2 =
      .pushed i c { header := { msgID := id, property := 0, iccID := lastLearned 0 (pre ++ [.start i c] ++ a), serial := serial, packet := none }
                    body := c.body } :: rest := by
  intro s r
  have h1 : (({} : State E).run C (pre ++ [.start i c])).1.place i = some (.started c) := by
    rw [run_snoc]
    cases hbody : c.body with
    | nil => rw [hbody] at hid; simp [idOf] at hid
    | nilPtr x => simp [State.step, hidle, hbody, goto]
    | val e => simp [State.step, hidle, hbody, goto]
  have h2 : (({} : State E).run C (pre ++ [.start i c] ++ a)).1.place i = some (.started c) := by
    rw [run_append]
    show (((({} : State E).run C (pre ++ [.start i c])).1).run C a).1.place i = _
    rw [place_others C i a _ ha, h1]
  have h3 : s.place i = some (.numbering c (lastLearned 0 (pre ++ [.start i c] ++ a))) := by
    show (({} : State E).run C (pre ++ [.start i c] ++ a ++ [.loadIcc i])).1.place i = _
    rw [run_snoc]
    simp only [State.step, h2, goto, if_true]
    rw [icc_run]
  have h4 := place_numbering C i c _ b s hb (.inl h3)
  simp only at h4
  rcases h4 with h4 | ⟨seen, h4⟩ | ⟨serial, h4, hm⟩
  · exact .inl (by simp only [State.step, r, h4])
  · exact .inl (by simp only [State.step, r, h4])
  · right
    cases hc : c.callback with
    | none => exact ⟨serial, [.returned i c (some serial)], hm, by simp [State.step, r, h4, bodyMsgID_idOf, hid, hc, buildMessage]⟩
    | some cb => exact ⟨serial, [], hm, by simp [State.step, r, h4, bodyMsgID_idOf, hid, hc, buildMessage]⟩

/-- The hypotheses are met, and the message is accepted, in a schedule with another sender in between. -/
example :
    let pre : List (Event Entity) := [.learn 13800138000] ++ Sample.race
    let c := replyCall Sample.message 3
    let s := (({} : State Entity).run Sample.codec (pre ++ [.start 3 c] ++ [.start 4 c, .loadIcc 4] ++ [.loadIcc 3])).1
    let r := s.run Sample.codec [.loadNext 3, .loadNext 4, .cas 4, .cas 3, .learn 5, .loadNext 3, .cas 3]
    (({} : State Entity).run Sample.codec pre).1.place 3 = none ∧
    (r.1.step Sample.codec (.push 3 true)).2 = [.pushed 3 c
        { header := { msgID := 0x8001, property := 0, iccID := 13800138000, serial := 4, packet := none }
          body := .val (.m8001 { replySerial := 7, replyID := 0, result := 3 }) }, .returned 3 c (some 4)] := by decide

/-- C46. `Reply` sends the general answer with the serial number and message id of the message replied to, and the given result. -/
theorem C46_reply_content (m : Message Entity) (result : UInt8) :
    (replyCall m result).body = .val (.m8001 { replySerial := m.header.serial, replyID := m.header.msgID, result := result }) ∧
    (replyCall m result).callback = none := ⟨rfl, rfl⟩

/-- C46, on the wire: a terminal that receives the reply decodes exactly this content, under any key, if the session knows its number. -/
theorem C46_reply_on_the_wire (env : Env) (k : Option EncKey) (dk : Option DecKey) (m : Message Entity) (result : UInt8) (icc : UInt64) (serial : UInt16)
    (h0 : 0 < icc.toNat) (h1 : icc.toNat < 10 ^ 12) :
    ∃ f d, Codec.sendBytes (entityCodec env) k (buildMessage 0x8001 (replyCall m result).body icc serial) = .ok f ∧
      Message.decode (entityCodec env) dk {} f = .ok d ∧
      d.header.msgID = 0x8001 ∧ d.header.iccID = icc ∧ d.header.serial = serial ∧
      d.body = .val (.m8001 { replySerial := m.header.serial, replyID := m.header.msgID, result := result }) := by
  have hr : ∃ b, Entity.encode env (.m8001 { replySerial := m.header.serial, replyID := m.header.msgID, result := result }) =
      .ok (b, .m8001 { replySerial := m.header.serial, replyID := m.header.msgID, result := result }) ∧ b.length ≤ 1023 ∧
      ∃ n, Entity.decodeBody env 0x8001 b = .ok (.m8001 { replySerial := m.header.serial, replyID := m.header.msgID, result := result }, n) := by
    obtain ⟨b, e', h1, h2⟩ := Entity.round_trip env (.m8001 { replySerial := m.header.serial, replyID := m.header.msgID, result := result }) trivial
    have hb : Entity.encode env (.m8001 { replySerial := m.header.serial, replyID := m.header.msgID, result := result }) =
      .ok (put16 m.header.serial ++ put16 m.header.msgID ++ [result], .m8001 { replySerial := m.header.serial, replyID := m.header.msgID, result := result }) := rfl
    rw [hb] at h1
    simp only [Res.ok.injEq, Prod.mk.injEq] at h1
    obtain ⟨rfl, rfl⟩ := h1
    refine ⟨_, hb, ?_, _, h2⟩
    simp [put16]
  obtain ⟨b, e1, e2, n, e3⟩ := hr
  obtain ⟨frame, m', d, g1, g2, g3, g4, g5, g6, _⟩ := C01_message_round_trip (entityCodec env)
    (buildMessage 0x8001 (replyCall m result).body icc serial) _ _ _ b n rfl e1 e3 h0 h1 e2 (show encryptFlag (0 : UInt16).toNat = false by decide)
    (fun h => absurd h (show ¬ packetFlag (0 : UInt16).toNat = true by decide)) dk {}
  refine ⟨frame, d, ?_, g2, g4, g6, g5, g3⟩
  have : Codec.sendBytes (entityCodec env) none (buildMessage 0x8001 (replyCall m result).body icc serial) = .ok frame := by
    simp only [Codec.sendBytes, g1]
    rfl
  cases k with
  | none => exact this
  | some k => rw [C45_never_encrypted]; exact this

/-- A concrete reply. -/
example : (0 : Nat) < (13800138000 : UInt64).toNat ∧ (13800138000 : UInt64).toNat < 10 ^ 12 := by decide

end Verif
