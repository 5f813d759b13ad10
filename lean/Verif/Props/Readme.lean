import Verif.Lemmas.PromisedUpload
import Verif.Model.Readme
import Verif.Spec.Programs
import Verif.Props.Converse
import Verif.Props.Upload
/-! # C87: the servers of the README and of the example directory, with any terminal -/

namespace Verif
open Spec Converse Codec Handler

variable {env : Env} {key : Option DecKey} {endErr : Err}

theorem extras_any {m : Message Entity} {b : T0200} (hm : Decoded m) (hb : m.body = .val (.m0200 b)) : b.extras.any (·.isNone) = false := by
  rw [List.any_eq_false]
  intro x hx hn
  cases x with
  | none => exact hm.2 b hb hx
  | some x => cases hn

theorem first_plain : Fixed Readme.first readmeFirst fun u _ => u := by
  constructor
  · intro h u m hm hb hh
    simp only [Readme.first] at hh ⊢
    split at hh
    · rename_i hid
      unfold hasBody at hb
      split at hb
      · rename_i e he
        have ht := hm.1.type e he
        rw [hid] at ht
        unfold Readme.reportLocation readmeFirst
        rw [if_pos hid, he]
        cases e <;> simp [Entity.msgID] at ht
        simp only [extras_any hm he, Bool.false_eq_true, if_false]
        exact .send fun _ => .returns
      · cases hb
    · cases hh
  · intro u m hm hb hh
    simp only [Readme.first] at hh
    split at hh
    · cases hh
    · rename_i hid
      exact ⟨if_neg hid, rfl⟩
  · exact fun cb u m => ⟨u, .returns⟩

theorem second_plain : Fixed Readme.second readmeSecond fun u _ => u := by
  constructor
  · intro h u m hm hb hh
    simp only [Readme.second] at hh ⊢
    split at hh
    · rename_i hid
      unfold readmeSecond Readme.authentication
      rw [if_pos hid]
      exact .send fun _ => .request fun _ => .returns
    · cases hh
  · intro u m hm hb hh
    simp only [Readme.second] at hh
    split at hh
    · cases hh
    · rename_i hid
      exact ⟨if_neg hid, rfl⟩
  · intro cb u m
    simp only [Readme.second, Readme.parameters]
    split
    · exact ⟨_, .returns⟩
    · exact ⟨_, .panics⟩

/-- What the third server keeps of a message. -/
def buffered (most : Nat) (u : Readme.Seen) (m : Message Entity) : Readme.Seen :=
  { u with buffers := u.buffers ++ (contentOf m).toList.map (Readme.readOnce most) }

theorem third_plain (most : Nat) : Fixed (Readme.third most) readmeThird (buffered most) := by
  constructor
  · intro h u m hm hb hh
    simp only [Readme.third] at hh ⊢
    split at hh
    · rename_i hid
      unfold hasBody at hb
      split at hb
      · rename_i e he
        have ht := hm.1.type e he
        rw [hid] at ht
        unfold Readme.uploadMedia readmeThird mediaOf buffered contentOf
        rw [he]
        cases e <;> simp [Entity.msgID] at ht
        rename_i b
        obtain ⟨c, hc⟩ := Option.isSome_iff_exists.1 (hm.1.content b he)
        simp only [hc]
        exact .send fun _ => .returns
      · cases hb
    · cases hh
  · intro u m hm hb hh
    simp only [Readme.third] at hh
    split at hh
    · cases hh
    · rename_i hid
      unfold hasBody at hb
      split at hb
      · rename_i e he
        have ht := hm.1.type e he
        unfold readmeThird mediaOf buffered contentOf
        rw [he]
        cases e <;> simp
        exact absurd ht.symm hid
      · cases hb
  · exact fun cb u m => ⟨u, .returns⟩

/-- What the example server keeps of a message. -/
def keyed (u : Programs.Data) (m : Message Entity) : Programs.Data := match m.body with | .val (.m0a00 b) => b.publicKey | _ => u

theorem example_plain (own : Option PubKey) : Fixed (Programs.server own) (exampleAnswers own) keyed := by
  constructor
  · intro h u m hm hb hh
    unfold hasBody at hb
    split at hb
    · rename_i e he
      have ht := hm.1.type e he
      simp only [Programs.server] at hh ⊢
      unfold exampleAnswers
      split at hh
      · rename_i hid
        cases hh
        rw [hid] at ht
        unfold Programs.authentication keyed
        rw [if_pos hid, he]
        cases e <;> simp [Entity.msgID] at ht
        exact .send fun _ => .request fun _ => .returns
      split at hh
      · rename_i h1 hid
        cases hh
        rw [hid] at ht
        unfold Programs.reportLocation keyed
        rw [if_neg h1, if_pos hid, he]
        cases e <;> simp [Entity.msgID] at ht
        simp only [extras_any hm he, Bool.false_eq_true, if_false]
        exact .send fun _ => .returns
      split at hh
      · rename_i h1 h2 hid
        cases hh
        rw [hid] at ht
        unfold Programs.uploadMedia keyed readmeThird mediaOf
        rw [if_neg h1, if_neg h2, if_pos hid, he]
        cases e <;> simp [Entity.msgID] at ht
        rename_i b
        obtain ⟨c, hc⟩ := Option.isSome_iff_exists.1 (hm.1.content b he)
        simp only [hc]
        exact .send fun _ => .returns
      split at hh
      · rename_i h1 h2 h3 hid
        cases hh
        rw [hid] at ht
        unfold Programs.uploadKey keyed
        rw [if_neg h1, if_neg h2, if_neg h3, if_pos hid, he]
        cases e <;> simp [Entity.msgID] at ht
        refine .send fun _ => ?_
        cases own
        · exact .returns
        · exact .send fun _ => .returns
      · cases hh
    · cases hb
  · intro u m hm hb hh
    unfold hasBody at hb
    split at hb
    · rename_i e he
      have ht := hm.1.type e he
      simp only [Programs.server] at hh
      unfold exampleAnswers keyed
      rw [he]
      split at hh
      · cases hh
      split at hh
      · cases hh
      split at hh
      · cases hh
      split at hh
      · cases hh
      rename_i h1 h2 h3 h4
      rw [if_neg h1, if_neg h2, if_neg h3, if_neg h4]
      cases e <;> simp
      exact absurd ht.symm h4
    · cases hb
  · intro cb u m
    simp only [Programs.server, Programs.parameters]
    split
    · exact ⟨_, .returns⟩
    · exact ⟨_, .panics⟩

/-! ## C87 -/

/-- C87 for the first server of the README: whatever bytes arrive and whatever the connection accepts, the messages the server hands to the connection are
exactly: "success" for every location report, "unsupported" for every message it cannot decode. -/
theorem C87_readme_first {accepts : List Bool} {os : List (Outcome × Outcome)} {reads : List Bytes} {s : Converse.State Readme.Seen} {log : List Ev}
    (h : ({ user := {}, accepts := accepts } : Converse.State Readme.Seen).serve env key endErr false Readme.first os ⟨[], reads⟩ = .ok (s, log)) :
    attempted log = numbered (promised readmeFirst false 0 [] ((receivedOf log).zip os)) :=
  (serve_sends first_plain h).1

/-- C87 for the second server of the README: every location report is answered with "success" and a query. -/
theorem C87_readme_second {accepts : List Bool} {os : List (Outcome × Outcome)} {reads : List Bytes} {s : Converse.State Readme.Seen} {log : List Ev}
    (h : ({ user := {}, accepts := accepts } : Converse.State Readme.Seen).serve env key endErr false Readme.second os ⟨[], reads⟩ = .ok (s, log)) :
    attempted log = numbered (promised readmeSecond false 0 [] ((receivedOf log).zip os)) :=
  (serve_sends second_plain h).1

/-- C87 for the third server of the README: every part is answered, every complete upload is acknowledged, and its handler reads the content once into its
buffer. -/
theorem C87_readme_third {most : Nat} {accepts : List Bool} {os : List (Outcome × Outcome)} {reads : List Bytes} {s : Converse.State Readme.Seen} {log : List Ev}
    (h : ({ user := {}, accepts := accepts } : Converse.State Readme.Seen).serve env key endErr true (Readme.third most) os ⟨[], reads⟩ = .ok (s, log)) :
    attempted log = numbered (promised readmeThird true 0 [] ((receivedOf log).zip os)) ∧
      s.user.buffers = ((givenTo true [] ((receivedOf log).zip os)).filterMap contentOf).map (Readme.readOnce most) := by
  obtain ⟨h1, h2⟩ := serve_sends (third_plain most) h
  refine ⟨h1, ?_⟩
  rw [h2 fun cb u m => .returns]
  have key : ∀ (l : List (Message Entity)) (u : Readme.Seen), (l.foldl (buffered most) u).buffers = u.buffers ++ (l.filterMap contentOf).map (Readme.readOnce most) := by
    intro l
    induction l with
    | nil => simp
    | cons m l ih =>
      intro u
      rw [List.foldl_cons, ih]
      unfold buffered
      cases hc : contentOf m <;> simp [hc]
  rw [key]
  rfl

/-- C87 for the server of the example directory. -/
theorem C87_example {own : Option PubKey} {accepts : List Bool} {os : List (Outcome × Outcome)} {reads : List Bytes} {s : Converse.State Programs.Data}
    {log : List Ev}
    (h : ({ user := none, accepts := accepts } : Converse.State Programs.Data).serve env key endErr true (Programs.server own) os ⟨[], reads⟩ = .ok (s, log)) :
    attempted log = numbered (promised (exampleAnswers own) true 0 [] ((receivedOf log).zip os)) :=
  (serve_sends (example_plain own) h).1

/-- C87, an upload to the third server of the README: a terminal sends a file in parts, in order. However its bytes arrive, every part is answered with
"success", then the upload is acknowledged, and the handler has read the file once. (The answers to the parts carry the terminal number 0.) -/
theorem C87_upload (f : FileUpload) (hf : f.OK env) (h1 : 1 ≤ f.parts.length) (most : Nat) (accepts : List Bool) :
    ∃ sent : List Bytes, f.messages.map (fun x => sendBytes (entityCodec env) none x.1) = sent.map .ok ∧
      ∀ reads : List Bytes, (∀ c ∈ reads, c.length ≤ 128) → reads.flatten = sent.flatten →
        ∃ s log, ({ user := {}, accepts := accepts } : Converse.State Readme.Seen).serve env key endErr true (Readme.third most)
            (List.replicate f.parts.length (.ok, .ok)) ⟨[], reads⟩ = .ok (s, log) ∧
          attempted log = numbered (f.parts.map (fun p => (0, .m8001 { replySerial := p.1, replyID := 0x0801, result := 0 })) ++
            [(f.icc, .m8800 { mediaID := f.media.mediaID })]) ∧
          s.user.buffers = [Readme.readOnce most (f.parts.flatMap (·.2))] := by
  have hsend := sendable_upload (parts := f.parts) hf.icc0 hf.icc1 hf.location hf.extras hf.sizes
  have hml : f.messages.length = f.parts.length := by simp [FileUpload.messages, uploadMessages]
  obtain ⟨sent, ds, e1, e2, e3, e4⟩ := C76_end_to_end env key true (Readme.third most) ({} : Readme.Seen) accepts f.messages hsend
  refine ⟨sent, e1, fun reads hr hs => ?_⟩
  obtain ⟨s, log, k, t1, -, t3⟩ := e4 (List.replicate f.parts.length (.ok, .ok)) (by simp [hml])
  obtain ⟨hserve, -⟩ := t3 endErr (.ok, .ok) reads hr hs
  obtain ⟨c1, c2⟩ := C87_readme_third hserve
  have hrec : receivedOf log = ds := by
    rw [talk_receives t1, List.map_fst_zip (by simp [e2, hml])]
  rw [hrec] at c1 c2
  have hdl : ds.length = (f.parts.map (·.2)).length := by simp [e2, hml]
  have hn : (f.parts.map (·.2)).length ≤ 65535 := by simpa using hf.count
  -- every message carries its part
  have hcar : ∀ i (hi : i < f.parts.length), Carries (partMessage f.icc f.media f.parts.length i f.parts[i])
      (.m0801 { f.media with packet := some f.parts[i].2 }) (ds[i]'(by omega)) := by
    intro i hi
    have hm : f.messages[i]'(by omega) = (partMessage f.icc f.media f.parts.length i f.parts[i], .m0801 { f.media with packet := some f.parts[i].2 }) := by
      simp [FileUpload.messages, uploadMessages]
    have := e3 (f.messages[i]'(by omega), ds[i]'(by omega)) (List.mem_iff_getElem.2 ⟨i, by simp; omega, by simp⟩)
    rw [hm] at this
    exact this
  have hpart : ∀ i (hi : i < (f.parts.map (·.2)).length), partOf true (ds[i]'(by omega)) =
      some (f.upload, ⟨UInt16.ofNat (f.parts.map (·.2)).length, UInt16.ofNat (i + 1)⟩, (f.parts.map (·.2))[i]) := by
    intro i hi
    have hi' : i < f.parts.length := by simpa using hi
    have := partOf_carries (x := (_, _)) (hcar i hi')
    rw [this]
    simp [sentPart, partMessage, FileUpload.upload]
  have hlast : f.parts.length - 1 < f.parts.length := by omega
  obtain ⟨g1, g2⟩ := upload_all (answers := readmeThird) (by simpa using h1) hn hdl hpart 0
  simp only [List.length_map] at g1 g2
  have hb := hcar _ hlast
  have hbody : (withContent (ds[f.parts.length - 1]'(by omega)) (f.parts.map (·.2)).flatten).body =
      .val (.m0801 { f.media with packet := some (f.parts.map (·.2)).flatten }) := by
    unfold withContent
    rw [hb.1]
    rfl
  refine ⟨s, log, hserve, ?_, ?_⟩
  · rw [c1, g2]
    congr 2
    · apply List.ext_getElem
      · simp [e2, hml]
      · intro i i1 i2
        have hi : i < f.parts.length := by simpa using i2
        obtain ⟨-, b2, b3, -⟩ := hcar i hi
        simp only [List.getElem_map, resultTo, b2, b3]
        rfl
    · have hicc : terminalAfter 0 (ds[f.parts.length - 1]'(by omega)) = f.icc := by
        unfold terminalAfter
        rw [hb.2.2.2.1]
        refine if_neg fun h0 => ?_
        have := hf.icc0
        rw [show f.icc = 0 from h0] at this
        exact absurd this (by decide)
      rw [hicc]
      unfold readmeThird mediaOf
      rw [hbody]
      rfl
  · rw [c2, g1]
    simp only [List.filterMap_cons, List.filterMap_nil, contentOf, hbody, List.map_cons, List.map_nil]
    rw [List.flatMap_def]

/-- The buffer of the third server of the README begins with the whole content if this is no longer than the buffer and than what one `Read` gives. -/
theorem C87_whole_partial {most : Nat} {content : Bytes} (h1 : content.length ≤ 1048576) (h2 : content.length ≤ most) :
    content <+: Readme.readOnce most content := by
  refine ⟨List.replicate (1048576 - content.length) 0, ?_⟩
  unfold Readme.readOnce Readme.bufferSize
  have : content.take (min most 1048576) = content := List.take_of_length_le (by omega)
  simp [this]

/-- A file of more than 1 MiB: it is uploaded as the protocol demands and acknowledged, but the buffer of the handler ("read the complete packet") does not
hold it, whatever one `Read` gives. -/
theorem C87_refuted (f : FileUpload) (hf : f.OK env) (h1 : 1 ≤ f.parts.length) (h : 1048576 < (f.parts.flatMap (·.2)).length) (most : Nat) :
    ∃ sent : List Bytes, f.messages.map (fun x => sendBytes (entityCodec env) none x.1) = sent.map .ok ∧
      ∀ reads : List Bytes, (∀ c ∈ reads, c.length ≤ 128) → reads.flatten = sent.flatten →
        ∃ s log buffer, ({ user := {} } : Converse.State Readme.Seen).serve env key endErr true (Readme.third most)
            (List.replicate f.parts.length (.ok, .ok)) ⟨[], reads⟩ = .ok (s, log) ∧
          outgoing f.icc f.parts.length (.m8800 { mediaID := f.media.mediaID }) ∈ attempted log ∧
          s.user.buffers = [buffer] ∧ ¬ f.parts.flatMap (·.2) <+: buffer := by
  obtain ⟨sent, s1, s2⟩ := C87_upload (key := key) (endErr := endErr) f hf h1 most []
  refine ⟨sent, s1, fun reads hr hs => ?_⟩
  obtain ⟨s, log, t1, t2, t3⟩ := s2 reads hr hs
  refine ⟨s, log, _, t1, ?_, t3, fun hp => ?_⟩
  · rw [t2]
    simp [numbered, List.zipIdx_append]
  · have := hp.length_le
    unfold Readme.readOnce Readme.bufferSize at this
    simp only [List.length_append, List.length_take, List.length_replicate] at this
    omega

/-- There are such uploads: 1063 parts of 987 bytes. -/
def Sample.large : FileUpload := { media := Sample.media, parts := List.replicate 1063 (0, List.replicate 987 1) }

theorem Sample.large_ok : Sample.large.OK Sample.env where
  icc0 := by decide
  icc1 := by decide
  location := Sample.media_ok
  extras := rfl
  count := by unfold Sample.large; rw [List.length_replicate]; decide
  sizes p hp := by
    unfold Sample.large at hp
    rw [List.eq_of_mem_replicate hp, List.length_replicate]
    exact Nat.le_refl _

/-! The hypotheses of `C87_upload` and `C87_refuted` are satisfied. -/

example : Sample.large.OK Sample.env ∧ 1 ≤ Sample.large.parts.length ∧ 1048576 < (Sample.large.parts.flatMap (·.2)).length := by
  refine ⟨Sample.large_ok, ?_, ?_⟩
  · unfold Sample.large
    rw [List.length_replicate]
    decide
  · unfold Sample.large
    rw [length_flatMap_replicate, List.length_replicate]
    decide

/-! ## The query of the second server -/

/-- The ids of the parameters in an answer. -/
def idsOf (b : Body Entity) : List UInt32 := match b with | .val (.m0104 b) => b.params.map (·.id) | _ => []

theorem second_callback {icc : UInt64} {n n' cb : Nat} {t t' : Table} {m : Message Entity} {x : List Ev} {u u' : Readme.Seen}
    (h : Performs icc n t (Readme.second.callback cb u m) x n' t' u') : u'.printed = u.printed ++ idsOf m.body ∧ ranIn x = [] := by
  have h2 : Performs icc n t (Readme.parameters u m) x n' t' u' := h
  unfold Readme.parameters at h2
  unfold idsOf
  generalize m.body = body at h2
  cases body with
  | val e => cases e <;> (cases h2; simp [ranIn])
  | _ => cases h2; simp [ranIn]

theorem second_handler {icc : UInt64} {n n' h : Nat} {t t' : Table} {m : Message Entity} {x : List Ev} {u u' : Readme.Seen}
    (hp : Performs icc n t (Readme.second.handler h u m) x n' t' u') : u' = u ∧ ranIn x = [] := by
  simp only [Readme.second, Readme.authentication] at hp
  cases hp with
  | sent hp =>
    cases hp with
    | requested hp => cases hp; exact ⟨rfl, rfl⟩
    | requestRefused hp => cases hp; exact ⟨rfl, rfl⟩
  | refused hp =>
    cases hp with
    | requested hp => cases hp; exact ⟨rfl, rfl⟩
    | requestRefused hp => cases hp; exact ⟨rfl, rfl⟩

theorem ranIn_append (x y : List Ev) : ranIn (x ++ y) = ranIn x ++ ranIn y := by simp [ranIn]

/-- The second server prints the parameters of the answers its callback is called with. -/
theorem second_prints {k k' : Knows Readme.Seen} {ms : List (Message Entity × Outcome × Outcome)} {log : List Ev} (h : Talk false Readme.second k ms log k') :
    k'.user.printed = k.user.printed ++ (ranIn log).flatMap fun x => idsOf x.2 := by
  have noted : ∀ {k k' : Knows Readme.Seen} {m x}, Noted Readme.second k m x k' → k'.user.printed = k.user.printed ++ (ranIn x).flatMap fun x => idsOf x.2 := by
    intro k k' m x h
    cases h with
    | ran _ _ hc =>
      obtain ⟨h1, h2⟩ := second_callback hc
      unfold ranIn at h2 ⊢
      rw [List.filterMap_cons, h2]
      simpa using h1
    | none => simp [ranIn, learned_user]
  have disp : ∀ {k k' : Knows Readme.Seen} {m x}, Dispatched Readme.second k m x k' → k'.user = k.user ∧ ranIn x = [] := by
    intro k k' m x h
    cases h with
    | handled _ hc =>
      obtain ⟨h1, h2⟩ := second_handler hc
      exact ⟨h1, by simpa [ranIn] using h2⟩
    | unhandled => exact ⟨rfl, rfl⟩
  have repl : ∀ {k k' : Knows Readme.Seen} {m r x}, Replied k m r x k' → k'.user = k.user ∧ ranIn x = [] := by
    intro k k' m r x h
    cases h <;> exact ⟨rfl, rfl⟩
  have noPart : ∀ {m t}, partOf false m ≠ some t := by
    intro m t h
    simp [partOf, isPart] at h
  induction h with
  | nil => simp [ranIn]
  | @cons k k1 k2 m o x y ms ht _ ih =>
    have e : ∀ l, ranIn (.received m :: l) = ranIn l := fun l => by simp [ranIn]
    rw [ih, e, ranIn_append, List.flatMap_append, ← List.append_assoc]
    congr 1
    cases ht with
    | unsupported _ hr =>
      obtain ⟨h1, h2⟩ := repl hr
      rw [h1, h2]
      simp
    | ordinary _ _ hn hd =>
      obtain ⟨h1, h2⟩ := disp hd
      rw [h1, ranIn_append, h2, noted hn]
      simp
    | lost hp => exact absurd hp noPart
    | stored hp => exact absurd hp noPart
    | unmerged hp => exact absurd hp noPart
    | merged hp => exact absurd hp noPart

/-- C87, what the second server prints: the parameters of all answers that its callback is called with, in order, and nothing else. -/
theorem C87_prints (accepts : List Bool) (ms : List (Message Entity × Outcome × Outcome)) (hd : ∀ x ∈ ms, Delivered x.1)
    {s : Converse.State Readme.Seen} {log : List Ev} (h : ({ user := {}, accepts := accepts } : Converse.State Readme.Seen).run false Readme.second ms = .ok (s, log)) :
    s.user.printed = (ranIn log).flatMap fun x => idsOf x.2 := by
  obtain ⟨s1, l1, k1, a1, a2, a3⟩ := run_spec false Readme.second ms (shows_fresh {} accepts) hd
  obtain ⟨rfl, rfl⟩ : s = s1 ∧ log = l1 := by simpa [h] using a1
  rw [a3.user, second_prints a2]
  rfl

/-- C87, the query of the second server: while it waits for the answer, and as long as the session has sent at most 255 messages, a list of parameters that
answers it is printed. -/
theorem C87_query_partial (accepts : List Bool) (ms : List (Message Entity × Outcome × Outcome)) (hd : ∀ x ∈ ms, Delivered x.1)
    {s : Converse.State Readme.Seen} {log : List Ev} (h : ({ user := {}, accepts := accepts } : Converse.State Readme.Seen).run false Readme.second ms = .ok (s, log))
    (hfew : (attempted log).length ≤ 255) (r : Session.Pending) (hw : Awaits r log) (m : Message Entity) (hm : Delivered m) (b : T0104) (hb : m.body = .val (.m0104 b))
    (hs : b.replySerial = r.serial) (h0 : r.serial ≠ 0) (o : Outcome × Outcome) :
    ∃ s' log', ({ user := {}, accepts := accepts } : Converse.State Readme.Seen).run false Readme.second (ms ++ [(m, o)]) = .ok (s', log') ∧
      s'.user.printed = s.user.printed ++ b.params.map (·.id) := by
  obtain ⟨s', rest, h1⟩ := C31_in_handlers_partial false Readme.second {} accepts ms hd h hfew r hw m hm ⟨_, hb, by rw [← hs]; rfl, h0⟩ o
  refine ⟨s', _, h1, ?_⟩
  obtain ⟨s1, l1, k1, a1, a2, a3⟩ := run_spec false Readme.second ms (shows_fresh {} accepts) hd
  obtain ⟨rfl, rfl⟩ : s = s1 ∧ log = l1 := by simpa [h] using a1
  obtain ⟨s2, x, k2, p1, p2, p3⟩ := process_spec false Readme.second a3 o m hm
  rw [Converse.run_append, h] at h1
  simp only [Res.bind, Converse.State.run, p1, Res.ok_bind, Res.ok.injEq, Prod.mk.injEq, List.append_cancel_left_eq, List.cons.injEq, true_and, List.append_nil] at h1
  obtain ⟨rfl, h1⟩ := h1
  rw [a3.user, p3.user]
  cases p2 with
  | unsupported hbd hr => simp [hasBody, hb] at hbd
  | @ordinary x1 x2 k3 k4 hbd hp hn hdis =>
    have hu : k2.user = k3.user := by
      cases hdis with
      | handled _ hc => exact (second_handler hc).1
      | unhandled => rfl
    rw [hu]
    cases hn with
    | ran _ _ hc => rw [(second_callback hc).1, hb]; rfl
    | none => cases hdis with
      | handled => simp at h1
      | unhandled => simp at h1
  | lost hp => simp [partOf, isPart] at hp
  | stored hp => simp [partOf, isPart] at hp
  | unmerged hp => simp [partOf, isPart] at hp
  | merged hp => simp [partOf, isPart] at hp

/-- What a terminal sends that first acknowledges the query with the general answer (0x0001) and then answers it. -/
def Sample.acknowledging : List (Message Entity × Outcome × Outcome) :=
  [({ header := { msgID := 0x0200, iccID := 19901234567, serial := 1 }, body := .val (.m0200 {}) }, .ok, .ok),
   ({ header := { msgID := 0x0001, iccID := 19901234567, serial := 2 }, body := .val (.m0001 { replySerial := 2, replyID := 0x8104, result := 0 }) }, .ok, .ok),
   ({ header := { msgID := 0x0104, iccID := 19901234567, serial := 3 }, body := .val (.m0104 { replySerial := 2, params := [{ id := 1, serialized := [1] }] }) }, .ok, .ok)]

theorem Sample.acknowledging_delivered : ∀ x ∈ Sample.acknowledging, Delivered x.1 := by
  intro x hx
  simp only [Sample.acknowledging, List.mem_cons, List.not_mem_nil, or_false] at hx
  rcases hx with rfl | rfl | rfl <;> exact ⟨by simp [Entity.msgID], by simp [packetFlag], by simp⟩

/-- If the terminal first acknowledges the query, then the callback gets the acknowledgement, and panics; the parameters are never printed. -/
theorem C87_query_refuted : ∃ ms : List (Message Entity × Outcome × Outcome), (∀ x ∈ ms, Delivered x.1) ∧
    ∃ s log, ({ user := {} } : Converse.State Readme.Seen).run false Readme.second ms = .ok (s, log) ∧
      (sentIn log).map (fun m => (m.header.serial, m.header.msgID)) = [(1, 0x8001), (2, 0x8104)] ∧
      (∃ m b, m ∈ receivedOf log ∧ m.body = .val (.m0104 b) ∧ b.replySerial = 2 ∧ b.params ≠ []) ∧
      ranIn log = [(0, .val (.m0001 { replySerial := 2, replyID := 0x8104, result := 0 }))] ∧ s.user.printed = [] := by
  refine ⟨Sample.acknowledging, Sample.acknowledging_delivered, _, _, rfl, by decide, ?_, by decide, by decide⟩
  exact ⟨_, _, List.mem_cons_of_mem _ (List.mem_cons_of_mem _ (List.mem_singleton.2 rfl)), rfl, rfl, by decide⟩

/-- The hypotheses of `C87_query_partial` hold after the report, for the answer. -/
example : ∃ s log, ({ user := {} } : Converse.State Readme.Seen).run false Readme.second (Sample.acknowledging.take 1) = .ok (s, log) ∧
    (attempted log).length ≤ 255 ∧ Awaits ⟨0x8104, 2, 0⟩ log :=
  ⟨_, [_, _, _, _, _], rfl, by decide, ⟨[_, _, _, _], [], rfl, by simp, by simp⟩⟩

/-! Servers on concrete bytes: a location report, then a message that cannot be decoded. -/

/-- What the terminal sends. -/
def Sample.reports : Bytes :=
  match Codec.sendBytes (entityCodec Sample.env) none { header := Sample.header, body := .val (.m0200 { time := 1700000000, extras := [some (Extra.new (.x01 5))] }) } with
  | .ok b => b ++ [0x7e, 0x0f, 0x01, 0, 0, 1, 0x38, 0, 0x13, 0x80, 0, 0, 9, 0x0f ^^^ 1 ^^^ 1 ^^^ 0x38 ^^^ 0x13 ^^^ 0x80 ^^^ 9, 0x7e]
  | _ => []

/-- The bodies that a server hands to the connection, with the serial numbers and the terminal numbers. -/
def Sample.handed (P : Program Readme.Seen) : List (UInt16 × UInt64 × Body Entity) :=
  match ({ user := {} } : Converse.State Readme.Seen).serve Sample.env none .eof false P [(.ok, .ok), (.ok, .ok), (.ok, .ok)] ⟨[], [Sample.reports]⟩ with
  | .ok (_, log) => (attempted log).map fun m => (m.header.serial, m.header.iccID, m.body)
  | _ => []

example : Sample.handed Readme.first =
    [(1, 13800138000, .val (.m8001 { replySerial := 7, replyID := 0x0200, result := 0 })),
     (2, 13800138000, .val (.m8001 { replySerial := 9, replyID := 0x0f01, result := 3 }))] := by decide +kernel

example : Sample.handed Readme.second =
    [(1, 13800138000, .val (.m8001 { replySerial := 7, replyID := 0x0200, result := 0 })), (2, 13800138000, .val (.m8104 {})),
     (3, 13800138000, .val (.m8001 { replySerial := 9, replyID := 0x0f01, result := 3 }))] := by decide +kernel

end Verif
