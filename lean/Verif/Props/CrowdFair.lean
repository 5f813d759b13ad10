import Verif.Lemmas.CrowdFair
import Verif.Props.Crowd
/-! # C98 in the long run: what happens in every run without end in which the loops are given turns -/

namespace Verif
open Converse Programs Session Handler Spec Codec Crowd

section
variable {σ : Type}

/-- C98, in the long run: in every run without end in which the loop of a connection is given turns again and again and from some time on nothing arrives on
it, this loop gets done with what has arrived, and stays so. It does not matter what happens on other connections, how long the handlers are, what other
goroutines send, and which work on files fails. -/
theorem C98_fair_gets_done (env : Env) (key : Option DecKey) (hkey : ∀ k, key = some k → 0 < k.size) (endErr : Err) (auto : Bool) (P : Program σ) (user : Nat → σ)
    (accepts : Nat → List Bool) (ev : Nat → Crowd.Event) (h : ∀ n k x, ¬ [0x7e, x, 0x7e] <:+: (arrivedOn k (firsts ev n)).flatten) (k : Nat)
    (hserved : Served k ev) (N : Nat) (hquiet : ∀ n, N ≤ n → ∀ piece, ev n ≠ .arrive k piece) :
    ∃ M, ∀ n, M ≤ n → ∃ s log, (State.start user accepts).run env key endErr auto P (firsts ev n) = .ok (s, log) ∧ NothingToDo env key (s.conns k) := by
  have hrun := fun n => C98_no_crash env key hkey endErr auto P user accepts (firsts ev n) (h n)
  obtain ⟨st, hst⟩ : ∃ st : Nat → Crowd.State σ, ∀ n, ∃ log, (State.start user accepts).run env key endErr auto P (firsts ev n) = .ok (st n, log) :=
    ⟨fun n => (hrun n).choose, fun n => (hrun n).choose_spec⟩
  obtain ⟨log, hlog⟩ : ∃ log : Nat → List (Nat × Ev), ∀ n, (State.start user accepts).run env key endErr auto P (firsts ev n) = .ok (st n, log n) :=
    ⟨fun n => (hst n).choose, fun n => (hst n).choose_spec⟩
  obtain ⟨M, -, hM⟩ := (endless_of_runs hlog).done hserved hquiet
  exact ⟨M, fun n hn => ⟨st n, log n, hlog n, hM n hn⟩⟩

/-- C98, uploads in the long run: any number of terminals upload files as in `C98_files_arrive`, in a run without end. Every file that arrives completely, whose
terminal does not send anything after hanging up, whose loop is given turns again and again and for which no work on files fails, is given to the handler at
some time, and every part is answered with "success". -/
theorem C98_fair_files_arrive (env : Env) (key : Option DecKey) (endErr : Err) (P : Program σ) (user : Nat → σ) (accepts : Nat → List Bool) (f : Nat → FileUpload)
    (hf : ∀ k, (f k).OK env) (hd : ∀ j k, (f j).parts ≠ [] → (f k).parts ≠ [] → (f j).upload = (f k).upload → j = k) :
    ∃ sent : Nat → List Bytes, (∀ k, (f k).messages.map (fun x => sendBytes (entityCodec env) none x.1) = (sent k).map .ok) ∧
      ∀ ev : Nat → Crowd.Event, (∀ n k, (∀ c ∈ arrivedOn k (firsts ev n), c.length ≤ 128) ∧ (arrivedOn k (firsts ev n)).flatten <+: (sent k).flatten) →
        ∀ k, (f k).parts ≠ [] → Served k ev → (∀ n e, ev n ≠ .send k e) → (∀ n e cb, ev n ≠ .request k e cb) → (∀ n o, ev n = .turn k o → o = .ok) →
          ∀ N, (arrivedOn k (firsts ev N)).flatten = (sent k).flatten → (∀ n, N ≤ n → ∀ piece, ev n ≠ .arrive k piece) →
          (∀ n m piece, ev n = .hangUp k → n < m → ev m ≠ .arrive k piece) →
          ∃ M, ∀ n, M ≤ n → ∃ s log, (State.start user accepts).run env key endErr true P (firsts ev n) = .ok (s, log) ∧
            ∃ d, d.body = .val (.m0801 { (f k).media with packet := some ((f k).parts.flatMap (·.2)) }) ∧ d.header.iccID = (f k).icc ∧
              (offeredIn (logOf k log)).filter (belongs true (f k).upload) = [d] ∧ GivenTo P (logOf k log) d ∧
              answersIn (logOf k log) = (f k).parts.map fun p => (p.1, 0x0801, 0) := by
  obtain ⟨sent, h1, h2⟩ := C98_files_arrive env key endErr P user accepts f hf hd
  refine ⟨sent, h1, ?_⟩
  intro ev hall k hn hserved hsend hreq hok N hN hquiet hhang
  have hrun := fun n => h2 (firsts ev n) (hall n)
  obtain ⟨st, hst⟩ : ∃ st : Nat → Crowd.State σ, ∀ n, ∃ log, (State.start user accepts).run env key endErr true P (firsts ev n) = .ok (st n, log) :=
    ⟨fun n => (hrun n).choose, fun n => ⟨_, (hrun n).choose_spec.choose_spec.1⟩⟩
  obtain ⟨log, hlog⟩ : ∃ log : Nat → List (Nat × Ev), ∀ n, (State.start user accepts).run env key endErr true P (firsts ev n) = .ok (st n, log n) :=
    ⟨fun n => (hst n).choose, fun n => (hst n).choose_spec⟩
  obtain ⟨M, hM, hdone⟩ := (endless_of_runs hlog).done hserved hquiet
  refine ⟨M, fun n hn' => ⟨st n, log n, hlog n, ?_⟩⟩
  obtain ⟨s, l, e1, e2⟩ := hrun n
  rw [hlog n] at e1
  simp only [Res.ok.injEq, Prod.mk.injEq] at e1
  obtain ⟨rfl, rfl⟩ := e1
  -- nothing arrives after `N`
  have later : ∀ d, arrivedOn k (firsts ev (N + d)) = arrivedOn k (firsts ev N) := by
    intro d
    induction d with
    | zero => rfl
    | succ d ih =>
      show arrivedOn k (firsts ev (N + d + 1)) = _
      rw [firsts_succ, arrivedOn_append, ih]
      have : arrivedOn k [ev (N + d)] = [] := by
        cases he : ev (N + d) with
        | arrive j b =>
          by_cases hj : j = k
          · subst hj; exact absurd he (hquiet _ (by omega) b)
          · simp [arrivedOn, hj]
        | _ => rfl
      rw [this, List.append_nil]
  refine e2 k hn ⟨fun e he => ?_, fun e cb he => ?_⟩ (fun o ho => ?_) ?_ ?_ (hdone n hn')
  · obtain ⟨m, -, hm⟩ := mem_firsts.1 he; exact hsend m e hm
  · obtain ⟨m, -, hm⟩ := mem_firsts.1 he; exact hreq m e cb hm
  · obtain ⟨m, -, hm⟩ := mem_firsts.1 ho; exact hok m o hm
  · have := later (n - N)
    rw [show N + (n - N) = n by omega] at this
    rw [this, hN]
  · intro es1 es2 hes
    rw [hes, arrivedOn_append]
    have : arrivedOn k (.hangUp k :: es2) = [] := by
      rw [arrivedOn_cons, show arrivedOn k [.hangUp k] = [] from rfl, List.nil_append]
      unfold arrivedOn
      rw [List.filterMap_eq_nil_iff]
      intro e he
      obtain ⟨i, hi, rfl⟩ := List.mem_iff_getElem.1 he
      have at1 : ev es1.length = .hangUp k := by
        have h3 : (firsts ev n)[es1.length]? = some (.hangUp k) := by rw [hes]; simp
        obtain ⟨h4, h5⟩ := List.getElem?_eq_some_iff.1 h3
        simpa [firsts] using h5
      have at2 : ev (es1.length + (i + 1)) = es2[i] := by
        have h3 : (firsts ev n)[es1.length + (i + 1)]? = some es2[i] := by rw [hes]; simp [hi]
        obtain ⟨h4, h5⟩ := List.getElem?_eq_some_iff.1 h3
        simpa [firsts] using h5
      cases hx : es2[i] with
      | arrive j b =>
        by_cases hj : j = k
        · subst hj; exact absurd (at2.trans hx) (hhang _ _ b at1 (by omega))
        · simp [hj]
      | _ => rfl
    rw [this, List.append_nil]

/-- Such a run: the two uploads of `Sample.twoUploads`, and then turns of connection 1 for ever. All hypotheses hold for connection 1, so its loop gets done and
its file is given to the handler. -/
example : (∃ M, ∀ n, M ≤ n → ∃ s log, (Crowd.State.start (σ := Data) (fun _ => none) fun _ => []).run Sample.env none .eof true (server none)
      (firsts (thenTurns 1 Sample.twoUploads) n) = .ok (s, log) ∧ NothingToDo Sample.env none (s.conns 1) ∧
      ∃ d, d.body = .val (.m0801 { Sample.media with packet := some ((Sample.files 1).parts.flatMap (·.2)) }) ∧ GivenTo (server none) (logOf 1 log) d) := by
  have hok : ∀ k, (Sample.files k).OK Sample.env := by
    intro k
    unfold Sample.files
    split
    all_goals exact ⟨by decide, by decide, Sample.media_ok, rfl, by decide, by decide⟩
  have hdiff : ∀ j k, (Sample.files j).parts ≠ [] → (Sample.files k).parts ≠ [] → (Sample.files j).upload = (Sample.files k).upload → j = k := by
    intro j k h1 h2 h3
    unfold Sample.files at h1 h2 h3
    split at h1 <;> split at h2 <;> simp_all <;> revert h3 <;> decide
  obtain ⟨sent, h1, h2⟩ := C98_fair_files_arrive Sample.env none .eof (server none) (fun _ => none) (fun _ => []) Sample.files hok hdiff
  have hsent : ∀ k, (Sample.files k).messages.map (fun x => sendBytes (entityCodec Sample.env) none x.1) = (Sample.sentBy k).map .ok
    | 0 => rfl
    | 1 => by decide +kernel
    | 2 => by decide +kernel
    | _ + 3 => rfl
  have hs : ∀ k, sent k = Sample.sentBy k := fun k => (List.map_inj_right fun a b hab => Res.ok.inj hab).1 ((h1 k).symm.trans (hsent k))
  have harr : ∀ k ∈ [1, 2], (∀ c ∈ arrivedOn k Sample.twoUploads, c.length ≤ 128) ∧ (arrivedOn k Sample.twoUploads).flatten = (Sample.sentBy k).flatten := by decide +kernel
  have hno : ∀ k ∈ [1, 2], (List.range (Sample.sentBy k).flatten.length).all (fun i =>
      !((Sample.sentBy k).flatten[i]? == some 0x7e && (Sample.sentBy k).flatten[i + 2]? == some 0x7e)) = true := by decide +kernel
  have hconn : ∀ e ∈ Sample.twoUploads, e.conn = 1 ∨ e.conn = 2 := by decide +kernel
  have hfirst : ∀ n k, arrivedOn k (firsts (thenTurns 1 Sample.twoUploads) n) = arrivedOn k (Sample.twoUploads.take n) := by
    intro n k
    rw [firsts_thenTurns, arrivedOn_append]
    have : arrivedOn k (List.replicate (n - Sample.twoUploads.length) (.turn 1 .ok)) = [] := by
      rw [arrivedOn, List.filterMap_eq_nil_iff]
      intro e he
      rw [List.eq_of_mem_replicate he]
    rw [this, List.append_nil]
  have hpre : ∀ n k, arrivedOn k (Sample.twoUploads.take n) <+: arrivedOn k Sample.twoUploads := by
    intro n k
    have := arrivedOn_append k (Sample.twoUploads.take n) (Sample.twoUploads.drop n)
    rw [List.take_append_drop] at this
    rw [this]
    exact List.prefix_append _ _
  have hflat : ∀ n k, (∀ c ∈ arrivedOn k (firsts (thenTurns 1 Sample.twoUploads) n), c.length ≤ 128) ∧
      (arrivedOn k (firsts (thenTurns 1 Sample.twoUploads) n)).flatten <+: (Sample.sentBy k).flatten := by
    intro n k
    rw [hfirst]
    by_cases hk : k ∈ [1, 2]
    · refine ⟨fun c hc => (harr k hk).1 c ((hpre n k).subset hc), ?_⟩
      rw [← (harr k hk).2]
      obtain ⟨x, hx⟩ := hpre n k
      rw [← hx, List.flatten_append]
      exact List.prefix_append _ _
    · have : arrivedOn k (Sample.twoUploads.take n) = [] := by
        rw [arrivedOn, List.filterMap_eq_nil_iff]
        intro e he
        have := hconn e (List.mem_of_mem_take he)
        cases e <;> simp [Crowd.Event.conn] at this hk ⊢
        omega
      rw [this]
      simp
  have later : ∀ n, Sample.twoUploads.length ≤ n → thenTurns 1 Sample.twoUploads n = .turn 1 .ok := by
    intro n hn
    unfold thenTurns
    rw [List.getElem?_eq_none hn]
    rfl
  have hserved : Served 1 (thenTurns 1 Sample.twoUploads) := fun n => ⟨max n Sample.twoUploads.length, by omega, .ok, later _ (by omega)⟩
  have hown : ∀ n, (match thenTurns 1 Sample.twoUploads n with | .send .. => false | .request .. => false | .turn _ o => o == .ok | .hangUp j => j == 2 | _ => true) = true := by
    intro n
    by_cases hn : Sample.twoUploads.length ≤ n
    · rw [later n hn]; rfl
    · have h : ∀ e ∈ Sample.twoUploads, (match e with | .send .. => false | .request .. => false | .turn _ o => o == .ok | .hangUp j => j == 2 | _ => true) = true := by
        decide +kernel
      refine h _ ?_
      unfold thenTurns
      rw [List.getElem?_eq_getElem (by omega)]
      exact List.getElem_mem _
  have hquiet : ∀ n, Sample.twoUploads.length ≤ n → ∀ piece, thenTurns 1 Sample.twoUploads n ≠ .arrive 1 piece := by
    intro n hn piece
    rw [later n hn]
    simp
  obtain ⟨M1, hM1⟩ := C98_fair_gets_done Sample.env none (by simp) .eof true (server none) (fun _ => none) (fun _ => []) (thenTurns 1 Sample.twoUploads) (by
    intro n k x hx
    have hin := hx.trans (hflat n k).2.isInfix
    by_cases hk : k ∈ [1, 2]
    · obtain ⟨a, b, hab⟩ := hin
      have := List.all_eq_true.1 (hno k hk) a.length (by rw [← hab]; simp)
      rw [← hab] at this
      simp at this
    · have : Sample.sentBy k = [] := by
        match k, hk with
        | 0, _ => rfl
        | 1, hk => simp at hk
        | 2, hk => simp at hk
        | _ + 3, _ => rfl
      rw [this] at hin
      simpa using hin) 1 hserved _ hquiet
  obtain ⟨M2, hM2⟩ := h2 (thenTurns 1 Sample.twoUploads) (by simpa only [hs] using hflat) 1 (by decide) hserved
    (fun n e he => by have := hown n; rw [he] at this; cases this) (fun n e cb he => by have := hown n; rw [he] at this; cases this)
    (fun n o ho => by have := hown n; rw [ho] at this; simpa using this) Sample.twoUploads.length
    (by rw [hs, hfirst, List.take_length, (harr 1 (by simp)).2]) hquiet
    (fun n m piece hh => by have := hown n; rw [hh] at this; simp at this)
  refine ⟨max M1 M2, fun n hn => ?_⟩
  obtain ⟨s, log, r1, r2⟩ := hM1 n (by omega)
  obtain ⟨s', log', r3, d, d1, -, -, d4, -⟩ := hM2 n (by omega)
  rw [r1] at r3
  simp only [Res.ok.injEq, Prod.mk.injEq] at r3
  obtain ⟨rfl, rfl⟩ := r3
  exact ⟨s, log, r1, r2, d, d1, d4⟩

end

variable {env : Env} {now : Nat → Time} {pkey own : PubKey} {file : Bytes}

/-- C98, the example in the long run: in every fair run without end of the example server with the example client and any other connections, as long as the server
does not crash and no other connection uploads what the client uploads, everything has been said at some time that is said when the two are alone: the server
has sent the ten messages, called the handlers and callbacks for what the client sends, and keeps the client's key; the client has read the ten messages. -/
theorem C98_fair_example_completes (h : ExampleOK env now pkey own file) (key : Option DecKey) (pub : Option EncKey) (ec es : Err) (tc : Nat) (hc : 10 < tc)
    (user : Nat → Data) (accepts : Nat → List Bool) (k : Nat) (hu : user k = none) (hacc : accepts k = []) (ev : Nat → Crowd.Event) (down : Nat → List Bytes)
    (hfair : Fair ((State.start user accepts).run env key es true (server (some own))) (Converse.wire env pub) (clientSends env now pkey file ec tc) k ev down)
    (hr : ∀ n, ∃ s log, (State.start user accepts).run env key es true (server (some own)) (firsts ev n) = .ok (s, log) ∧ Apart k log) :
    ∃ M, ∀ n, M ≤ n → ∃ s log, (State.start user accepts).run env key es true (server (some own)) (firsts ev n) = .ok (s, log) ∧
      sentIn (logOf k log) = exampleMessages own ∧ handledIn (logOf k log) = exampleHandled now pkey file ∧ ranIn (logOf k log) = exampleRan env ∧
      (s.conns k).sess.user = some pkey ∧
      ∃ ds, listen env ec tc ⟨[], down n⟩ = .ok ds ∧ ds.length = 10 ∧ ∀ p ∈ (exampleMessages own).zip ds, ∃ e, p.1.body = .val e ∧ Carries p.1 e p.2 := by
  obtain ⟨xs, ys, c⟩ := course h key
  obtain ⟨st, hst⟩ : ∃ st : Nat → Crowd.State Data, ∀ n, ∃ log, (State.start user accepts).run env key es true (server (some own)) (firsts ev n) = .ok (st n, log) ∧ Apart k log :=
    ⟨fun n => (hr n).choose, fun n => (hr n).choose_spec⟩
  obtain ⟨log, hlog⟩ : ∃ log : Nat → List (Nat × Ev), ∀ n, (State.start user accepts).run env key es true (server (some own)) (firsts ev n) = .ok (st n, log n) ∧
      Apart k (log n) := ⟨fun n => (hst n).choose, fun n => (hst n).choose_spec⟩
  have facts := fun n => crowded_facts h c pub ec es tc hc hu hacc (hfair.along n) (hlog n).1 (hlog n).2
  obtain ⟨M, hM⟩ := fair_settles (wire_prefix env pub) hfair (fun n => (hlog n).1) (bound := max (exampleMessages own).length (joinedFrames xs).length)
    (by
      intro n
      obtain ⟨_, _, _, _, -, -, -, -, -, -, k7, k8, -⟩ := facts n
      exact Nat.le_trans (k7.trans k8).length_le (Nat.le_max_left _ _))
    (by
      intro n
      obtain ⟨_, _, _, b, -, k2, k3, k4, -⟩ := facts n
      exact ⟨b, k2, k3, Nat.le_trans k4.length_le (Nat.le_max_right _ _)⟩)
  refine ⟨M, fun n hn => ⟨st n, log n, (hlog n).1, ?_⟩⟩
  exact C98_example_in_the_end h key pub ec es tc hc user accepts k hu hacc _ _ (hfair.along n) _ _ (hlog n).1 (hlog n).2 (hM n hn)

/-- There are such runs: whatever has happened before, as long as no other connection has uploaded anything, it goes on as a fair run that meets the hypotheses of
`C98_fair_example_completes`. -/
theorem C98_fair_runs (h : ExampleOK env now pkey own file) (key : Option DecKey) (pub : Option EncKey) (ec es : Err) (tc : Nat) (hc : 10 < tc)
    (user : Nat → Data) (accepts : Nat → List Bool) (k : Nat) (hu : user k = none) (hacc : accepts k = []) (evs : List Crowd.Event) (down : List Bytes)
    (hj : Crowded ((State.start user accepts).run env key es true (server (some own))) (Converse.wire env pub) (clientSends env now pkey file ec tc) k evs down)
    (s : Crowd.State Data) (log : List (Nat × Ev)) (hr : (State.start user accepts).run env key es true (server (some own)) evs = .ok (s, log))
    (hothers : ∀ x ∈ log, x.1 ≠ k → evUpload x.2 = none) :
    ∃ ev downs, firsts ev evs.length = evs ∧
      Fair ((State.start user accepts).run env key es true (server (some own))) (Converse.wire env pub) (clientSends env now pkey file ec tc) k ev downs ∧
      ∀ n, ∃ s log, (State.start user accepts).run env key es true (server (some own)) (firsts ev n) = .ok (s, log) ∧ Apart k log := by
  obtain ⟨evs', down', s', log', -, g2, g3, g4, g5⟩ := C98_example_can_complete h key pub ec es tc hc user accepts k hu hacc evs down hj s log hr hothers
  obtain ⟨xs, ys, c⟩ := course h key
  have hbd := c.bounded h pub ec es tc 9 hc (by omega)
  obtain ⟨-, v2, -, ⟨b, -, v4, v5⟩⟩ := reach_invariant hbd (crowded_reach h c pub ec es tc 9 hc (by omega) hu hacc g2 g3 g4)
  obtain ⟨f, hf, hlog⟩ := fair_after (wire_prefix env pub) g2 g3 g5 (by
    rintro d b0 ⟨x, hx⟩ hd
    exact hbd.mono_client x (by rw [hx]; exact v2) (by rw [hx]; exact v4.trans v5) hd (by rw [hx]; exact g5.up))
  refine ⟨thenTurns k (evs ++ evs'), f, ?_, hf, fun n => ?_⟩
  · rw [firsts_thenTurns, List.take_left, List.length_append, show evs.length - (evs.length + evs'.length) = 0 by omega]
    simp
  · obtain ⟨s1, log1, r1⟩ := run_thenTurns g3 g5.loop n
    exact ⟨s1, log1, r1, fun x hx y hy => g4 x ((hlog n s1 log1 r1).subset hx) y ((hlog n s1 log1 r1).subset hy)⟩

/-- Such a run: another terminal, on connection 1, sends part of a frame and hangs up. All hypotheses of `C98_fair_example_completes` can be met after that. -/
example : ∃ ev M, ev 1 = .hangUp 1 ∧ ∀ n, M ≤ n → ∃ s log,
    (State.start (fun _ => none) (fun _ => [])).run Sample.env none .eof true (server (some ⟨some (2 ^ 1023 + 3), 65537⟩)) (firsts ev n) = .ok (s, log) ∧
      (sentIn (logOf 0 log)).length = 10 ∧ (handledIn (logOf 0 log)).length = 4 := by
  have hj := Crowded.start (run := (State.start (fun _ => none) (fun _ => [])).run Sample.env none .eof true (server (some ⟨some (2 ^ 1023 + 3), 65537⟩)))
    (bytes := Converse.wire Sample.env none) (client := clientSends Sample.env (fun i => 1700000000 + i) ⟨some (2 ^ 1023 + 1), 65537⟩ (List.replicate 2048 0) .other 11) (k := 0)
  have hj' := ((hj.other (e := .arrive 1 [0x7e, 1]) (by decide)).other (e := .hangUp 1) (by decide)).other (e := .turn 1 .ok) (by decide)
  obtain ⟨s, log, hr, hlog⟩ : ∃ s log, (State.start (fun _ => none) (fun _ => [])).run Sample.env none .eof true (server (some ⟨some (2 ^ 1023 + 3), 65537⟩))
      [.arrive 1 [0x7e, 1], .hangUp 1, .turn 1 .ok] = .ok (s, log) ∧ log = [(1, .closed)] := ⟨_, _, rfl, by decide⟩
  obtain ⟨ev, downs, h1, h2, h3⟩ := C98_fair_runs example_ok none none .other .eof 11 (by omega) _ _ 0 rfl rfl _ _ hj' s log hr (by rw [hlog]; simp [evUpload])
  obtain ⟨M, hM⟩ := C98_fair_example_completes example_ok none none .other .eof 11 (by omega) _ _ 0 rfl rfl ev downs h2 h3
  refine ⟨ev, M, ?_, fun n hn => ?_⟩
  · have : (firsts ev 3)[1]? = some (.hangUp 1) := by
      rw [show firsts ev 3 = _ from h1]
      rfl
    simpa [firsts] using this
  · obtain ⟨s, log, k1, k2, k3, -⟩ := hM n hn
    exact ⟨s, log, k1, by rw [k2]; rfl, by rw [k3]; rfl⟩

end Verif
