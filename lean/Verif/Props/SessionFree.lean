import Verif.Lemmas.SessionFree
import Verif.Props.Requests
/-! # C31 and C67 for sessions of any length

Serial numbers are used again after 255 messages. As long as every number is handed out only while it is not in use (the call that had it before has
returned, and if that was a request, it was answered or replaced), answers and requests are never mixed up, however long the session lasts. -/

namespace Verif

open Session Spec

variable {E : Type}

/-- **C67, sessions of any length.** If numbers are handed out only while they are not in use, then whenever a callback runs for an answer, the latest
message sent with the number of the answer was sent by a request with this callback. Missing for the full property: numbers that are handed out while
a request with them waits, see `C67_refuted`. -/
theorem C67_free_partial (C : BodyCodec E) (evs : List (Event E)) (hfree : NumbersFree C.msgID (({} : State E).run C evs).2)
    (cb : Nat) (s : UInt16) (l1 l2 : List (Obs E)) (h : (({} : State E).run C evs).2 = l1 ++ .ran cb s :: l2) :
    ∃ c, lastWith s l1 = some c ∧ c.callback = some cb :=
  (freshInv_run C evs hfree).ran l1 cb s l2 h

/-- **C31, exactly, for sessions of any length.** If numbers are handed out only while they are not in use, an answer runs a callback if and only if a
request with this number and callback waits, and it runs nothing if and only if no request with this number waits. Missing for the full property: a
request waits only after `Request` has returned, see `C31_refuted`. -/
theorem C31_free_partial (C : BodyCodec E) (evs : List (Event E)) (hfree : NumbersFree C.msgID (({} : State E).run C evs).2) (s : UInt16) :
    (∀ cb, ((({} : State E).run C evs).1.step C (.answer s)).2 = [.ran cb s] ↔ ∃ id, RequestWaits C.msgID (({} : State E).run C evs).2 id s cb) ∧
    (((({} : State E).run C evs).1.step C (.answer s)).2 = [.ignored s] ↔ ∀ id cb, ¬ RequestWaits C.msgID (({} : State E).run C evs).2 id s cb) := by
  have hi := freshInv_run C evs hfree
  have key : ∀ cb, ((({} : State E).run C evs).1.step C (.answer s)).2 = [.ran cb s] ↔ ∃ id, RequestWaits C.msgID (({} : State E).run C evs).2 id s cb := by
    intro cb
    constructor
    · intro h
      simp only [State.step] at h
      split at h
      · simp at h
      · split at h
        · simp at h
        · next r rest ht =>
          obtain ⟨hs, hp⟩ := takeRequest_some _ _ _ _ ht
          simp only [List.cons.injEq, Obs.ran.injEq, and_true] at h
          have := hi.waits r (hp.mem_iff.2 (List.mem_cons_self ..))
          rw [hs, h] at this
          exact ⟨_, this⟩
    · rintro ⟨id, hw⟩
      have hm := waits_mem C evs hw
      have hs0 : s ≠ 0 := by
        rintro rfl
        obtain ⟨l1, o, l2, m1, ⟨i, c, rfl, -, -⟩, -⟩ := hw
        have ht := traced_run C evs
        obtain ⟨m, h3, h4⟩ := ht.returned i c 0 (by rw [m1]; simp)
        have h5 := (ht.pushed i c m h3).1
        rw [h4] at h5
        exact absurd (C29_range C evs 0 (List.mem_filterMap.2 ⟨_, h5, rfl⟩)).1 (by decide)
      simp only [State.step, if_neg hs0]
      split
      · next ht => exact absurd rfl (takeRequest_none _ _ ht _ hm)
      · next r rest ht =>
        obtain ⟨hs, hp⟩ := takeRequest_some _ _ _ _ ht
        have := hi.serials r (hp.mem_iff.2 (List.mem_cons_self ..)) _ hm hs
        rw [this]
  refine ⟨key, fun h id cb hw => ?_, fun h => ?_⟩
  · have := (key cb).2 ⟨id, hw⟩
    rw [h] at this
    cases this
  · rcases C30_answer C (({} : State E).run C evs).1 s with h' | ⟨cb, h'⟩
    · exact h'
    · obtain ⟨id, hw⟩ := (key cb).1 h'
      exact absurd hw (h id cb)

/-- The first 255 messages are a special case. -/
theorem C67_first_255_free (C : BodyCodec E) (evs : List (Event E)) (h : (allocations (({} : State E).run C evs).2).length ≤ 255) :
    NumbersFree C.msgID (({} : State E).run C evs).2 := by
  have hnd : (allocations (({} : State E).run C evs).2).Nodup := by
    rw [(numbered_run C evs).allocs]
    exact nodup_serials _ h
  clear h
  induction evs using snoc_induction with
  | nil => intro l1 i s l2 e; simp [State.run] at e
  | snoc evs ev ih =>
    rw [run_snoc] at hnd
    simp only [allocations_append] at hnd
    obtain ⟨h1, -, h3⟩ := List.nodup_append.1 hnd
    refine free_snoc C evs ev (ih h1) fun i s hm hu => ?_
    refine h3 s ?_ s (List.mem_filterMap.2 ⟨_, hm, rfl⟩) rfl
    have ht := traced_run C evs
    rcases hu with ⟨j, a, b, e, -⟩ | ⟨id, cb, a, o, b, e, ⟨j, c, rfl, -, -⟩, -⟩
    · rw [e]; simp [allocations]
    · obtain ⟨m, h4, h5⟩ := ht.returned j c s (by rw [e]; simp)
      have h6 := (ht.pushed j c m h4).1
      rw [h5] at h6
      exact List.mem_filterMap.2 ⟨_, h6, rfl⟩

namespace Sample

/-- A session that uses number 1 twice: a request, its answer, 254 messages, another request with number 1 and its answer. -/
def longSession : List (Session.Event Entity) :=
  Sample.send Sample.setParams ++ [.answer 1] ++ (List.replicate 254 (Sample.send { Sample.queryParams with callback := none })).flatten ++
    Sample.send Sample.queryParams ++ [.answer 1]

end Sample

/-- The hypotheses are met by a session of 256 messages: number 1 is used twice, and each time the answer runs the callback of its request. -/
example : NumbersFree Sample.codec.msgID (({} : State Entity).run Sample.codec Sample.longSession).2 ∧
    (allocations (({} : State Entity).run Sample.codec Sample.longSession).2).length = 256 ∧
    ((({} : State Entity).run Sample.codec Sample.longSession).2.filter fun o => match o with | .ran _ _ => true | _ => false) = [.ran 10 1, .ran 11 1] := by
  refine ⟨?_, by decide +kernel, by decide +kernel⟩
  have h := free_of_run Sample.codec [1] [] Sample.longSession ?_ (by intro l1 i s l2 e; simp [State.run] at e) (by decide +kernel)
  · simpa using h
  · have : ∀ ev ∈ Sample.longSession, ∀ i, actor ev = some i → i = 1 := by
      intro ev hev i hi
      simp only [Sample.longSession, Sample.send, List.mem_append, List.mem_flatten, List.mem_replicate, List.mem_cons, List.not_mem_nil, or_false] at hev
      rcases hev with (((hev | rfl) | ⟨l, ⟨-, rfl⟩, hev⟩) | hev) | rfl
      · rcases hev with rfl | rfl | rfl | rfl | rfl | rfl <;> simpa [actor, eq_comm] using hi
      · cases hi
      · simp only [List.mem_cons, List.not_mem_nil, or_false] at hev
        rcases hev with rfl | rfl | rfl | rfl | rfl | rfl <;> simpa [actor, eq_comm] using hi
      · rcases hev with rfl | rfl | rfl | rfl | rfl | rfl <;> simpa [actor, eq_comm] using hi
      · cases hi
    intro ev hev i hi
    simp [this ev (by simpa using hev) i hi]

end Verif
