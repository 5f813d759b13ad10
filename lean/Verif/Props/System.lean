import Verif.Lemmas.SystemParts
import Verif.Props.Upload
/-! # C74: many connections at once; C75: many uploads at once; C51 for the whole server -/

namespace Verif
open Handler Spec _root_.Verif.System Codec

/-- C74: however the goroutines of all connections are interleaved, what one connection does is what its loop does alone, with steps of others in
between: whenever its goroutine is between two messages or has ended, there are steps of others such that the run of the single loop on the bytes of
this connection leads to the same storage, handlers and requests, and to the same acts in the same order. The steps of others are the storing and
merging that other connections did, the registrations and the requests, and nothing else. -/
theorem C74_each_as_if_alone (env : Env) (key : Option DecKey) (endErr : Err) (auto : Bool) (reads : Nat → List Bytes) (es : List Event)
    (s : State) (log : List (Nat × Act)) (h : (start reads).run env key endErr auto es = .ok (s, log)) (k : Nat) (hk : AtRest (s.conns k)) :
    ∃ (turns : List (List Outside × Around)) (outs : List Outside),
      ({} : Loop).run auto (inputs env key endErr turns ⟨[], reads k⟩ ++ outs.map .outside) = .ok (s.view k, log.filterMap (seenBy k)) ∧
      (∀ t ∈ turns, (∀ x ∈ t.1 ++ during t.2, FromOthers k log x) ∧ ResultsIn k log t.2) ∧ ∀ x ∈ outs, FromOthers k log x := by
  have := (inv_start (env := env) (key := key) (endErr := endErr) (auto := auto) (k := k) reads).run h
  rw [List.nil_append] at this
  rcases hk with hp | hp <;> simp only [System.Inv, hp] at this
  · obtain ⟨turns, outs, c, -⟩ := this
    exact ⟨turns, outs, c.run, c.turns, c.others⟩
  · obtain ⟨turns, outs, c⟩ := this
    exact ⟨turns, outs, c.run, c.turns, c.others⟩

/-- C74: a connection only stores and merges parts of uploads it receives. -/
theorem C74_own_uploads (env : Env) (key : Option DecKey) (endErr : Err) (auto : Bool) (reads : Nat → List Bytes) (es : List Event)
    (s : State) (log : List (Nat × Act)) (h : (start reads).run env key endErr auto es = .ok (s, log)) (k : Nat) (f : Multipart)
    (hf : (∃ seq d o, (k, .wrote f seq d o) ∈ log) ∨ ∃ o, (k, .merged f o) ∈ log) :
    ∃ m, ArrivesOn env key endErr (reads k) m ∧ belongs auto ⟨f.icc, f.msgID, f.tag⟩ m = true := by
  have := own_run (inv_start (env := env) (key := key) (endErr := endErr) (auto := auto) (k := k) reads) trivial h
  rcases hf with ⟨seq, d, o, hf⟩ | ⟨o, hf⟩
  · exact this _ hf rfl
  · exact this _ hf rfl

/-- C51 for the whole server, partial: no schedule of any number of connections crashes it, whatever they send — unless one of them sends a single
byte between two delimiters. -/
theorem C51_all_connections_partial (env : Env) (key : Option DecKey) (hkey : ∀ k, key = some k → 0 < k.size) (endErr : Err) (auto : Bool)
    (reads : Nat → List Bytes) (h : ∀ k x, ¬ [0x7e, x, 0x7e] <:+: (reads k).flatten) (es : List Event) :
    ∃ s log, (start reads).run env key endErr auto es = .ok (s, log) := by
  obtain ⟨⟨s, log⟩, hr⟩ := run_ok (env := env) (key := key) (endErr := endErr) (auto := auto) (s := start reads) (reads := reads) (log := [])
    (fun k => noCrash_of_clean hkey (h k)) (fun k => inv_start reads) es
  exact ⟨s, log, hr⟩

/-- C51 for the whole server fails: three bytes on any one of the connections end the service for all. -/
theorem C51_refuted_all_connections (env : Env) (key : Option DecKey) (endErr : Err) (auto : Bool) (reads : Nat → List Bytes) (k : Nat)
    (hk : reads k = [[0x7e, 0x00, 0x7e]]) (es : List Event) : (start reads).run env key endErr auto (.receive k :: es) = .panic := by
  have hd : Message.decode (entityCodec env) key {} [0x7e, 0x00, 0x7e] = .panic := by
    rw [Message.decode_eq, (decodeEnvelope_panic_iff _).2 ⟨0, rfl⟩]
    rfl
  have hr : readFromBuffer (entityCodec env) key [0x7e, 0x00, 0x7e] = (.panic, [0x7e, 0x00, 0x7e]) := by
    simp [readFromBuffer, hd]
  have h0 : readFromBuffer (entityCodec env) key [] = (.ok none, []) := rfl
  simp [State.run, State.step, start, hk, receive, recvLoop, h0, hr]

/-- What holds of a connection alone on which the messages `all` arrive, also holds among others that do not touch the upload `u`;
the server may have started with files of an earlier process. -/
theorem alone_to_system_on (fs : FS) (env : Env) (key : Option DecKey) (endErr : Err) (all : List (Message Entity × Entity)) (u : Upload) (P : List Act → Prop)
    (reads : Nat → List Bytes) (k : Nat)
    (h3 : ∀ n, ∃ ds : List (Message Entity), ds.length = all.length ∧ (∀ p ∈ all.zip ds, Carries p.1.1 p.1.2 p.2) ∧
      (receiveMany (entityCodec env) key endErr (all.length + n) ⟨[], reads k⟩).1 = ds.map .ok ++ List.replicate n (.err endErr))
    (h2 : ∀ turns : List (List Outside × Around), turns.length = all.length → (∀ t ∈ turns, Smooth u t) →
      ∃ s log, ({ fs := fs } : Loop).run true (inputs env key endErr turns ⟨[], reads k⟩) = .ok (s, log) ∧ P log)
    (hothers : ∀ j, j ≠ k → ∀ m', ArrivesOn env key endErr (reads j) m' → belongs true u m' = false)
    (es : List Event) (s : State) (log : List (Nat × Act)) (hrun : (startOn fs reads).run env key endErr true es = .ok (s, log))
    (hend : (s.conns k).place = .ended) (hok : ∀ a ∈ actsOf k log, Succeeded a) :
    ∃ log0 log1, P log0 ∧ log.filterMap (seenBy k) = log0 ++ log1 ∧ offered log1 = [] ∧ replies log1 = [] := by
  obtain ⟨turns, outs, c1, c2, c3⟩ : ∃ (turns : List (List Outside × Around)) (outs : List Outside),
      ({ fs := fs } : Loop).run true (inputs env key endErr turns ⟨[], reads k⟩ ++ outs.map .outside) = .ok (s.view k, log.filterMap (seenBy k)) ∧
      (∀ t ∈ turns, (∀ x ∈ t.1 ++ during t.2, FromOthers k log x) ∧ ResultsIn k log t.2) ∧ ∀ x ∈ outs, FromOthers k log x := by
    have := (inv_startOn (env := env) (key := key) (endErr := endErr) (auto := true) (k := k) fs reads).run hrun
    rw [List.nil_append] at this
    simp only [System.Inv, hend] at this
    obtain ⟨turns, outs, c⟩ := this
    exact ⟨turns, outs, c.run, c.turns, c.others⟩
  have hmine : ∀ j f, ((∃ seq d o, (j, .wrote f seq d o) ∈ log) ∨ ∃ o, (j, .merged f o) ∈ log) →
      ∃ m, ArrivesOn env key endErr (reads j) m ∧ belongs true ⟨f.icc, f.msgID, f.tag⟩ m = true := by
    intro j f hf
    have := own_run (inv_startOn (env := env) (key := key) (endErr := endErr) (auto := true) (k := j) fs reads) trivial hrun
    rcases hf with ⟨seq, d, o, hf⟩ | ⟨o, hf⟩
    · exact this _ hf rfl
    · exact this _ hf rfl
  have hfrom : ∀ x, FromOthers k log x → concerns u x = false := by
    intro x hx
    cases x with
    | addHandler id g => rfl
    | addRequest r => rfl
    | write f seq d o =>
      obtain ⟨j, hj, hin⟩ := hx
      obtain ⟨m', g1, g2⟩ := hmine j f (.inl ⟨_, _, _, hin⟩)
      have := hothers j hj m' g1
      simp only [concerns, beq_eq_false_iff_ne]
      rintro rfl
      rw [g2] at this
      cases this
    | merge f o =>
      obtain ⟨j, hj, hin⟩ := hx
      obtain ⟨m', g1, g2⟩ := hmine j f (.inr ⟨_, hin⟩)
      have := hothers j hj m' g1
      simp only [concerns, beq_eq_false_iff_ne]
      rintro rfl
      rw [g2] at this
      cases this
  have hown : ∀ a, (k, a) ∈ log → Succeeded a := by
    intro a ha
    exact hok a (List.mem_map.2 ⟨(k, a), List.mem_filter.2 ⟨ha, by simp⟩, rfl⟩)
  have hsmooth : ∀ t ∈ turns, Smooth u t := by
    intro t ht
    obtain ⟨g1, g2, g3⟩ := c2 t ht
    refine ⟨?_, ?_, fun x hx => hfrom x (g1 x (List.mem_append_left _ hx)), fun x hx => hfrom x (g1 x (List.mem_append_right _ hx))⟩
    · rcases g2 with g2 | ⟨f, q, d, g2⟩
      · exact g2
      · exact hown _ g2
    · rcases g3 with g3 | ⟨f, g3⟩
      · exact g3
      · exact hown _ g3
  -- the connection ended, so there are more turns than messages
  have hlong : all.length < turns.length := by
    apply Classical.byContradiction
    intro hle
    obtain ⟨ds, e1, -, e3⟩ := h3 0
    obtain ⟨j, hj⟩ : ∃ j, turns.length + j = all.length := ⟨all.length - turns.length, by omega⟩
    have e4 := receiveMany_take (C := entityCodec env) (key := key) (endErr := endErr) turns.length j ⟨[], reads k⟩
    have e5 : turns.length + j = all.length + 0 := by simp; omega
    rw [e5, e3] at e4
    simp only [List.replicate_zero, List.append_nil, ← List.map_take] at e4
    obtain ⟨i1, i2⟩ := inputs_append turns [] ⟨[], reads k⟩ (ds.take turns.length) _ (Prod.ext e4 rfl)
    obtain ⟨-, j2, -⟩ := inputs_received env key endErr turns ⟨[], reads k⟩ (ds.take turns.length) 0 (by simp; omega) (by
      have : (ds.take turns.length).length + 0 = turns.length := by simp; omega
      rw [this, e4]; simp)
    obtain ⟨s', log', g1, -, -, -, -, g2⟩ := run_spec true { fs := fs } (inputs env key endErr turns ⟨[], reads k⟩ ++ outs.map .outside) rfl (by
      intro i hi
      rcases List.mem_append.1 hi with hi | hi
      · exact j2 i hi
      · obtain ⟨x, -, rfl⟩ := List.mem_map.1 hi
        trivial)
    rw [c1] at g1
    obtain ⟨rfl, rfl⟩ : s.view k = s' ∧ log.filterMap (seenBy k) = log' := by simpa using g1
    have := g2 (by
      intro e a hi
      rcases List.mem_append.1 hi with hi | hi
      · exact i2 e a hi
      · obtain ⟨x, -, hx⟩ := List.mem_map.1 hi
        cases hx)
    simp [State.view, hend, Place.running] at this
  obtain ⟨ts, us, rfl, hts⟩ : ∃ ts us, turns = ts ++ us ∧ ts.length = all.length :=
    ⟨turns.take (all.length), turns.drop (all.length), by simp, by simp; omega⟩
  obtain ⟨⟨o, a⟩, us, rfl⟩ : ∃ t us', us = t :: us' := by
    cases us with
    | nil => simp [hts] at hlong
    | cons t us => exact ⟨t, us, rfl⟩
  obtain ⟨ds, e1, -, e3⟩ := h3 1
  have hdl : ds.length = all.length := by simpa using e1
  have hlen : all.length + 1 = ts.length + 1 := by simp [hts]
  rw [hlen, receiveMany_snoc] at e3
  obtain ⟨e4, e5⟩ := List.append_inj' e3 (by simp)
  have e5 : (Codec.receive (entityCodec env) key endErr (receiveMany (entityCodec env) key endErr ts.length ⟨[], reads k⟩).2).1 = .err endErr := by
    simpa using e5
  obtain ⟨i1, -⟩ := inputs_append ts ((o, a) :: us) ⟨[], reads k⟩ ds _ (Prod.ext e4 rfl)
  obtain ⟨s0, log0, k1, k2⟩ := h2 ts hts (fun t ht => hsmooth t (List.mem_append_left _ ht))
  have i3 : inputs env key endErr ((o, a) :: us) (receiveMany (entityCodec env) key endErr ts.length ⟨[], reads k⟩).2 =
      o.map .outside ++ [.receive (.err endErr) a] := by
    unfold inputs
    simp only [e5]
  rw [i1, i3, List.append_assoc, List.append_assoc, Handler.run_append, k1] at c1
  simp only [Res.bind, Handler.run_append true s0, run_outsides] at c1
  -- what happens at the end offers and answers nothing
  refine ⟨log0, ?_⟩
  obtain ⟨log1, hlog, ho, hp'⟩ : ∃ log1, log.filterMap (seenBy k) = log0 ++ log1 ∧ offered log1 = [] ∧ replies log1 = [] := by
    have hsplit : ∀ L : Loop, L.run true ([Input.receive (.err endErr) a] ++ outs.map .outside) =
        .ok (({ L with running := false } : Loop).outsides outs |>.1, (if L.running then [Act.closed] else []) ++
          (({ L with running := false } : Loop).outsides outs).2) := by
      intro L
      rw [Handler.run_append, show L.run true [Input.receive (.err endErr) a] =
        .ok ({ L with running := false }, if L.running then [Act.closed] else []) from by
          obtain ⟨_, _, _, _, r⟩ := L
          cases r <;> rfl]
      simp only [Res.bind, run_outsides]
    rw [hsplit] at c1
    simp only [Res.ok.injEq, Prod.mk.injEq] at c1
    refine ⟨_, c1.2.symm, ?_, ?_⟩
    · rw [offered_append, offered_append, outsides_offered, outsides_offered]
      split <;> rfl
    · rw [replies_append, replies_append, outsides_replies, outsides_replies]
      split <;> rfl
  exact ⟨log1, k2, hlog, ho, hp'⟩

/-- The same for a server that starts without files: what holds of a connection alone on which the messages `all` arrive, also holds among others that do not touch the upload `u`. -/
theorem alone_to_system (env : Env) (key : Option DecKey) (endErr : Err) (all : List (Message Entity × Entity)) (u : Upload) (P : List Act → Prop)
    (reads : Nat → List Bytes) (k : Nat)
    (h3 : ∀ n, ∃ ds : List (Message Entity), ds.length = all.length ∧ (∀ p ∈ all.zip ds, Carries p.1.1 p.1.2 p.2) ∧
      (receiveMany (entityCodec env) key endErr (all.length + n) ⟨[], reads k⟩).1 = ds.map .ok ++ List.replicate n (.err endErr))
    (h2 : ∀ turns : List (List Outside × Around), turns.length = all.length → (∀ t ∈ turns, Smooth u t) →
      ∃ s log, serve env key endErr true turns (reads k) = .ok (s, log) ∧ P log)
    (hothers : ∀ j, j ≠ k → ∀ m', ArrivesOn env key endErr (reads j) m' → belongs true u m' = false)
    (es : List Event) (s : State) (log : List (Nat × Act)) (hrun : (start reads).run env key endErr true es = .ok (s, log))
    (hend : (s.conns k).place = .ended) (hok : ∀ a ∈ actsOf k log, Succeeded a) :
    ∃ log0 log1, P log0 ∧ log.filterMap (seenBy k) = log0 ++ log1 ∧ offered log1 = [] ∧ replies log1 = [] :=
  alone_to_system_on (fun _ => none) env key endErr all u P reads k h3 h2 hothers es s log hrun hend hok

/-- C75: any number of terminals at once. A terminal sends messages, among them the parts of an upload as in C72. However the goroutines are
interleaved and whatever the other connections do, as long as none of them receives a part of the same upload and storing and merging does not fail
for this connection: when this connection has ended, exactly one message of the upload has been given to the handler registered last, with the header
data and the media data of the last part and the concatenation of the parts as they were sent last; and every part was answered with "success". -/
theorem C75_upload_arrives (env : Env) (key : Option DecKey) (endErr : Err) (ms : List (Message Entity × Entity)) (m : Message Entity) (b : T0801)
    (p : Packet) (u : Upload) (hu : u = ⟨m.header.iccID, 0x0801, b.mediaID⟩)
    (hms : ∀ x ∈ ms, Sendable env x.1 x.2) (hm : Sendable env m (.m0801 b)) (hp : m.header.packet = some p)
    (hlast : p.seq = p.sum) (hsum : 1 ≤ p.sum.toNat)
    (hparts : ∀ x ∈ ms, ∀ q d, sentPart x = some (u, q, d) → 1 ≤ q.seq.toNat ∧ q.seq.toNat < p.sum.toNat ∧ q.sum = p.sum)
    (hall : ∀ i : UInt16, 1 ≤ i.toNat → i.toNat < p.sum.toNat → ∃ x ∈ ms, ∃ q d, sentPart x = some (u, q, d) ∧ q.seq = i) :
    ∃ sent : List Bytes, (ms ++ [(m, Entity.m0801 b)]).map (fun x => sendBytes (entityCodec env) none x.1) = sent.map .ok ∧
      ∀ (reads : Nat → List Bytes) (k : Nat), (∀ c ∈ reads k, c.length ≤ 128) → (reads k).flatten = sent.flatten →
        (∀ j, j ≠ k → ∀ m', ArrivesOn env key endErr (reads j) m' → belongs true u m' = false) →
        ∀ es s log, (start reads).run env key endErr true es = .ok (s, log) → (s.conns k).place = .ended → (∀ a ∈ actsOf k log, Succeeded a) →
          ∃ d, Carries m (.m0801 { b with packet := some (joined (lastSent u (ms ++ [(m, Entity.m0801 b)])) 1 p.sum.toNat) }) d ∧
            (offered (actsOf k log)).filter (belongs true u) = [d] ∧ Given (log.filterMap (seenBy k)) d ∧
            replies (actsOf k log) = successes (ms ++ [(m, Entity.m0801 b)]) := by
  obtain ⟨sent, h1, h2⟩ := C72_upload_arrives env key endErr ms m b p u hu hms hm hp hlast hsum hparts hall
  obtain ⟨sent', h1', h3⟩ := C12_end_to_end env key endErr (ms ++ [(m, Entity.m0801 b)]) (by
    intro x hx
    rcases List.mem_append.1 hx with hx | hx
    · exact hms x hx
    · obtain rfl : x = (m, .m0801 b) := by simpa using hx
      exact hm)
  obtain rfl : sent = sent' := by
    rw [h1] at h1'
    exact List.map_inj_right (by simp) |>.1 h1'
  refine ⟨sent, h1, ?_⟩
  intro reads k hr hs hothers es s log hrun hend hok
  obtain ⟨log0, log1, ⟨d, k2, k3, k4, k5⟩, hlog, ho, hp'⟩ := alone_to_system env key endErr (ms ++ [(m, Entity.m0801 b)]) u
    (fun log => ∃ d, Carries m (.m0801 { b with packet := some (joined (lastSent u (ms ++ [(m, Entity.m0801 b)])) 1 p.sum.toNat) }) d ∧
      (offered log).filter (belongs true u) = [d] ∧ Given log d ∧ replies log = successes (ms ++ [(m, Entity.m0801 b)]))
    reads k (h3 (reads k) hr hs) (by
      intro turns ht hsm
      obtain ⟨s0, log0, d, k1, k2⟩ := h2 (reads k) hr hs turns (by simpa using ht) hsm
      exact ⟨s0, log0, k1, d, k2⟩) hothers es s log hrun hend hok
  refine ⟨d, k2, ?_, ?_, ?_⟩
  · rw [← offered_seen, hlog, offered_append, ho, List.append_nil, k3]
  · obtain ⟨before, after, hg⟩ := k4
    refine ⟨before, after ++ log1, ?_⟩
    rw [hlog, hg]
    simp
  · rw [← replies_seen, hlog, replies_append, hp', List.append_nil, k5]

/-- C75 for files: terminals upload different files at once, each in parts of at most 987 bytes, in order. However the goroutines are interleaved, the
server does not crash, and when the connection of a terminal has ended, and storing and merging did not fail for it, then the handler registered last
was given the file of this terminal, exactly once and unmixed, and all its parts were answered with "success". -/
theorem C75_files_arrive (env : Env) (key : Option DecKey) (endErr : Err) (files : Nat → FileUpload) (hok : ∀ k, (files k).OK env)
    (hdiff : ∀ j k, j ≠ k → (files j).parts ≠ [] → (files k).parts ≠ [] → (files j).upload ≠ (files k).upload) :
    ∃ sent : Nat → List Bytes, (∀ k, (files k).messages.map (fun x => sendBytes (entityCodec env) none x.1) = (sent k).map .ok) ∧
      ∀ reads : Nat → List Bytes, (∀ k, (∀ c ∈ reads k, c.length ≤ 128) ∧ (reads k).flatten = (sent k).flatten) →
        ∀ es, ∃ s log, (start reads).run env key endErr true es = .ok (s, log) ∧
          ∀ k, (files k).parts ≠ [] → (s.conns k).place = .ended → (∀ a ∈ actsOf k log, Succeeded a) →
            ∃ d, d.body = .val (.m0801 { (files k).media with packet := some ((files k).parts.flatMap (·.2)) }) ∧ d.header.iccID = (files k).icc ∧
              (offered (actsOf k log)).filter (belongs true (files k).upload) = [d] ∧ Given (log.filterMap (seenBy k)) d ∧
              replies (actsOf k log) = (files k).parts.map fun p => (p.1, 0x0801, 0) := by
  have hsend : ∀ k, ∀ x ∈ (files k).messages, Sendable env x.1 x.2 := fun k =>
    sendable_upload (hok k).icc0 (hok k).icc1 (hok k).location (hok k).extras (hok k).sizes
  have hC12 := fun k => C12_end_to_end env key endErr (files k).messages (hsend k)
  refine ⟨fun k => (hC12 k).choose, fun k => (hC12 k).choose_spec.1, ?_⟩
  intro reads hreads es
  have h3 : ∀ k n, ∃ ds : List (Message Entity), ds.length = (files k).messages.length ∧ (∀ p ∈ (files k).messages.zip ds, Carries p.1.1 p.1.2 p.2) ∧
      (receiveMany (entityCodec env) key endErr ((files k).messages.length + n) ⟨[], reads k⟩).1 = ds.map .ok ++ List.replicate n (.err endErr) :=
    fun k n => (hC12 k).choose_spec.2 (reads k) (hreads k).1 (hreads k).2 n
  have hnc : ∀ k, NoCrash env key endErr (reads k) := by
    intro k n hp
    obtain ⟨ds, -, -, e3⟩ := h3 k n
    rw [receiveMany_take (C := entityCodec env) (key := key) (endErr := endErr) n (files k).messages.length, Nat.add_comm, e3] at hp
    have := List.mem_of_mem_take hp
    simp at this
  obtain ⟨⟨s, log⟩, hrun⟩ := run_ok (env := env) (key := key) (endErr := endErr) (auto := true) (s := start reads) (reads := reads) (log := [])
    hnc (fun k => inv_start reads) es
  refine ⟨s, log, hrun, ?_⟩
  intro k hne hend hsucc
  have hothers : ∀ j, j ≠ k → ∀ m', ArrivesOn env key endErr (reads j) m' → belongs true (files k).upload m' = false := by
    rintro j hj m' ⟨n, hm'⟩
    obtain ⟨ds, e1, e2, e3⟩ := h3 j n
    rw [receiveMany_take (C := entityCodec env) (key := key) (endErr := endErr) n (files j).messages.length, Nat.add_comm, e3] at hm'
    have hmem := List.mem_of_mem_take hm'
    simp only [List.mem_append, List.mem_map, Res.ok.injEq, exists_eq_right, List.mem_replicate, reduceCtorEq, and_false, or_false] at hmem
    obtain ⟨i, hi, rfl⟩ := List.mem_iff_getElem.1 hmem
    have hi' : i < (files j).messages.length := by omega
    have hc := e2 ((files j).messages[i], ds[i]) (by
      rw [List.mem_iff_getElem]
      exact ⟨i, by simp; omega, by simp⟩)
    have hpart := partOf_carries hc
    obtain ⟨q, dd, hs⟩ := sentPart_upload (List.getElem_mem hi')
    unfold belongs
    rw [hpart, hs]
    simp only [Option.map_some, beq_eq_false_iff_ne, ne_eq, Option.some.injEq]
    exact hdiff j k hj (by rintro h0; simp [FileUpload.messages, uploadMessages, h0] at hi') hne
  obtain ⟨sent, g1, g2⟩ := C72_file_arrives env key endErr (files k).icc (files k).media (files k).parts (hok k).icc0 (hok k).icc1 (hok k).location
    (hok k).extras (List.length_pos_iff.2 hne) (hok k).count (hok k).sizes
  have hsent : sent = (hC12 k).choose := by
    have := (hC12 k).choose_spec.1
    exact List.map_inj_right (f := Res.ok) (by simp) |>.1 (g1.symm.trans this)
  obtain ⟨log0, log1, ⟨d, k2, k3, k4, k5, k6⟩, hlog, ho, hp'⟩ := alone_to_system env key endErr (files k).messages (files k).upload
    (fun log => ∃ d, d.body = .val (.m0801 { (files k).media with packet := some ((files k).parts.flatMap (·.2)) }) ∧ d.header.iccID = (files k).icc ∧
      (offered log).filter (belongs true (files k).upload) = [d] ∧ Given log d ∧ replies log = (files k).parts.map fun p => (p.1, 0x0801, 0))
    reads k (h3 k) (by
      intro turns ht hsm
      obtain ⟨s0, log0, d, k1, k2⟩ := g2 (reads k) (hreads k).1 (by rw [(hreads k).2, hsent]) turns
        (by simpa [FileUpload.messages, uploadMessages] using ht) hsm
      exact ⟨s0, log0, k1, d, k2⟩) hothers es s log hrun hend hsucc
  refine ⟨d, k2, k3, ?_, ?_, ?_⟩
  · rw [← offered_seen, hlog, offered_append, ho, List.append_nil, k4]
  · obtain ⟨before, after, hg⟩ := k5
    refine ⟨before, after ++ log1, ?_⟩
    rw [hlog, hg]
    simp
  · rw [← replies_seen, hlog, replies_append, hp', List.append_nil, k6]

/-! ## Concrete cases -/

/-- Two terminals with the same media number. -/
def Sample.files : Nat → FileUpload
  | 1 => { icc := 19901234567, media := Sample.media, parts := [(7, [1, 2]), (8, [3])] }
  | 2 => { icc := 2, media := Sample.media, parts := [(1, [4]), (2, [5, 6])] }
  | _ => { media := Sample.media }

/-- What they send, in pieces. -/
def Sample.pieces (k : Nat) : List Bytes :=
  (Sample.files k).messages.flatMap fun x =>
    match sendBytes (entityCodec Sample.env) none x.1 with
    | .ok b => [b.take 30, b.drop 30]
    | _ => []

/-- An interleaving; a handler registers and panics, a request is added. -/
def Sample.schedule : List Event :=
  [.receive 1, .receive 2, .process 2 .ok .returns, .process 1 .ok .returns, .addHandler 0x0801 (some 9), .check 2, .check 1, .receive 2, .receive 1,
    .process 1 .ok .returns, .check 1, .process 2 .ok .returns, .merge 1 .ok, .check 2, .note 1 .returns, .merge 2 .ok, .note 2 .returns,
    .dispatch 2 .panics, .addRequest 1 ⟨0x8104, 3, 4⟩, .dispatch 1 .returns, .receive 1, .receive 2]

/-- Whether both connections have ended, and what was done. -/
def Sample.outcome : Option (Bool × List (Nat × Act)) :=
  match (start Sample.pieces).run Sample.env none .eof true Sample.schedule with
  | .ok (s, log) => some (decide ((s.conns 1).place = .ended) && decide ((s.conns 2).place = .ended), log)
  | _ => none

/-- Both connections end, both uploads are given to the handler, and storing and merging succeeds. -/
example : Sample.outcome.map (·.1) = some true ∧
    (Sample.outcome.map fun x => (offered (actsOf 1 x.2)).map (·.header.iccID)) = some [19901234567] ∧
    (Sample.outcome.map fun x => (offered (actsOf 2 x.2)).map (·.header.iccID)) = some [2] ∧
    (Sample.outcome.map fun x => x.2.filterMap fun | (_, .wrote _ _ _ o) => some o | (_, .merged _ o) => some o | _ => none) =
      some [.ok, .ok, .ok, .ok, .ok, .ok] := by
  decide +kernel

example : (∀ k, (Sample.files k).OK Sample.env) ∧
    ∀ j k, j ≠ k → (Sample.files j).parts ≠ [] → (Sample.files k).parts ≠ [] → (Sample.files j).upload ≠ (Sample.files k).upload := by
  refine ⟨?_, ?_⟩
  · intro k
    unfold Sample.files
    split
    all_goals exact ⟨by decide, by decide, Sample.media_ok, rfl, by decide, by decide⟩
  · intro j k hjk h1 h2
    unfold Sample.files at h1 h2 ⊢
    split at h1 <;> split at h2 <;> simp_all <;> decide

/-- Pieces of at most 128 bytes. -/
example : (∀ c ∈ Sample.pieces 1, c.length ≤ 128) ∧ (Sample.pieces 1).flatten.length = 113 := by decide +kernel

end Verif
