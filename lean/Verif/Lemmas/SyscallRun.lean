import Verif.Lemmas.SyscallStep
/-! # Lemmas: a run in which system calls interleave has a counterpart in which calls are made at once -/

namespace Verif.Syscall
open Handler Session Spec Codec
open Files (By Elsewhere Basic OpFor opsOf_append heard_append Outcomes Ongoing)

variable {env : Env} {key : Option DecKey} {endErr : Err} {auto : Bool} {reads : Nat → List Bytes} {fs0 : FS}

theorem Sim.same {s : State} {log : List Item} {t : System.State} {alog : List (Nat × Act)} (h : Sim env key endErr auto reads fs0 s log t alog) :
    ∃ t' y, Sim env key endErr auto reads fs0 s (log ++ []) t' (alog ++ y) := ⟨t, [], by simpa using h⟩

/-- A call begins. -/
theorem sim_call {s s' : State} {log x : List Item} {t : System.State} {alog : List (Nat × Act)} {k : Nat} {p : Place} {c : Files.Call}
    (hown : OwnUploads env key endErr auto reads) (h : Sim env key endErr auto reads fs0 s log t alog) (hs : s.call k p c = .ok (s', x))
    (hd : s.files.doing k = none) (ho : Owns env key endErr auto reads k (callUpload c))
    (hl : ∀ f log', f.doing k = some c → opsOf (filesIn log') = opsOf (filesIn log) → Linked env key endErr auto reads f log' alog k p (t.conns k).place) :
    ∃ t' y, Sim env key endErr auto reads fs0 s' (log ++ x) t' (alog ++ y) := by
  have hstep : s.files.step (.call k c) = .ok (s.files.goto k (some c.start), [.began k c]) := by
    obtain ⟨h1, h2⟩ := doing_none.1 hd
    simp [Files.State.step, h1, h2]
  unfold State.call at hs
  rw [hstep] at hs
  cases hs
  refine ⟨t, [], ?_⟩
  rw [List.append_nil]
  refine h.filed (ev := .call k c) (l := [.began k c]) k hown rfl ?_ rfl rfl ?_ ?_ ?_ ?_ ?_ ?_ ?_
  · rw [hstep]; rfl
  · intro i hi; simp [State.goto, State.put, hi]
  · simp [State.goto, State.put]
  · simp [State.goto, State.put]
  · simp [State.goto, State.put]
  · simp only [State.goto, State.put, if_true]
    refine hl _ _ ?_ ?_
    · show (s.files.goto k (some c.start)).doing k = some c
      rw [Files.doing_goto _ (doing_none.1 hd).2]
      simp [Files.start_call]
    · rw [filesIn_append, opsOf_append]; simp [filesIn, opsOf, opOf]
  · intro j c' hx
    simp only [List.mem_singleton, Files.Obs.began.injEq] at hx
    obtain ⟨rfl, rfl⟩ := hx
    exact ho
  · have := told_still (k := k) (x := [.file (.began k c)]) (y := []) h (by simp) (by simp [filesIn]) (by simp [filesIn]) (by simp)
    simpa using this

theorem release_step {f : Files.State} {flog : List Files.Obs} {k : Nat} (hb : Basic f flog) (hd : f.doing k = none ∨ ∃ r, f.reader k = some r) :
    ∃ f' l, f.step (.release k) = .ok (f', l) ∧ f'.doing k = none ∧ opsOf l = [] ∧ (∀ j c, .got j c ∉ l) ∧ (∀ j, .eof j ∉ l) ∧ ∀ j c, .began j c ∉ l := by
  rcases hd with hd | ⟨⟨m, pos⟩, hr⟩
  · refine ⟨f, [], ?_, hd, rfl, by simp, by simp, by simp⟩
    simp [Files.State.step, (doing_none.1 hd).2]
  · refine ⟨f.setReader k none, [.closed k (Files.fullFile m), .released k], by simp [Files.State.step, hr], ?_, rfl, by simp, by simp, by simp⟩
    have hj : f.job k = none := Classical.byContradiction fun hx => by rw [hb.one k hx] at hr; cases hr
    exact doing_none.2 ⟨hj, by simp [Files.State.setReader]⟩

theorem result_ongoing (s : State) (k : Nat) (o : Files.Obs) (h : Ongoing o) : s.result k o = (s, []) := by
  unfold State.result
  cases o <;> first | exact absurd h id | (cases (s.conns k).place <;> rfl)

theorem result_none (s : State) (k : Nat) (l : List Files.Obs) (h : ∀ o ∈ l, Ongoing o) : s.returned k l = (s, []) := by
  unfold State.returned
  cases hl : l.getLast? with
  | none => rfl
  | some o => exact result_ongoing s k o (h o (List.mem_of_getLast? hl))

theorem result_last (s : State) (k : Nat) (l : List Files.Obs) (o : Files.Obs) : s.returned k (l ++ [o]) = s.result k o := by
  simp [State.returned]

theorem opsOf_ongoing {l : List Files.Obs} (h : ∀ o ∈ l, Ongoing o) (o : Files.Obs) : opsOf (l ++ [o]) = (opOf o).toList := by
  rw [opsOf_append, (Ongoing.quiet h).2.2.2]
  cases ho : opOf o <;> simp [opsOf, ho]

theorem atPart {s : State} {log : List Item} {t : System.State} {alog : List (Nat × Act)} (h : Sim env key endErr auto reads fs0 s log t alog) (k : Nat) :
    System.AtPart env key endErr auto (reads k) (t.conns k).place := by
  obtain ⟨es, he⟩ := h.atOnce
  exact System.own_place (System.inv_startOn fs0 reads) trivial he

theorem write_snd (o : Outcome) (f : Multipart) (seq : UInt16) (data : Bytes) (fs : FS) : (f.write o seq data fs).2 = decide (o = .ok) := by
  cases o <;> rfl

theorem flagged {m : Message Entity} (h : ¬ (!auto || !Property.isEnablePacket m.header.property) = true) : Flagged auto m := by
  unfold Flagged
  rw [← Property.isEnablePacket_spec]
  cases auto <;> simp_all

theorem part_flagged {m : Message Entity} (h : Flagged auto m) (b : T0801) : isPart auto { m with body := .val (.m0801 b) } = true := by
  unfold isPart
  rw [Bool.and_true]
  exact h

/-- A call returns. -/
theorem sim_done {s : State} {log : List Item} {t : System.State} {alog : List (Nat × Act)} {k : Nat} {a : Files.Answer} {f' : Files.State} {l : List Files.Obs}
    {fs' : FS} {p' : Place} {q' : System.Place} {xs : List Act} {e : System.Event} (hown : OwnUploads env key endErr auto reads)
    (h : Sim env key endErr auto reads fs0 s log t alog) (hstep : s.files.step (.step k a) = .ok (f', l))
    (hq : (∀ i c, .got i c ∉ l) ∧ (∀ i, .eof i ∉ l) ∧ ∀ i c, .began i c ∉ l)
    (hret : ({ s with files := f' } : State).returned k l = ({ s with files := f' }.goto k p', xs)) (hx : ∀ g m, .handle g m ∉ xs) (hoff : offered xs = [])
    (ht : t.step env key endErr auto e = .ok ({ t with fs := fs' }.goto k q', System.State.acts k xs)) (ha : After (opsOf (filesIn log ++ l)).reverse fs')
    (hl : ∀ log' alog', filesIn log' = filesIn log ++ l → Linked env key endErr auto reads f' log' alog' k p' q') :
    ∃ t' y, Sim env key endErr auto reads fs0 (({ s with files := f' } : State).returned k l).1
      (log ++ (l.map Item.file ++ (({ s with files := f' } : State).returned k l).2.map (Item.act k))) t' (alog ++ y) := by
  rw [hret]
  have hfile : filesIn (l.map Item.file ++ xs.map (Item.act k)) = l := by rw [filesIn_append, filesIn_file, filesIn_act, List.append_nil]
  refine ⟨{ t with fs := fs' }.goto k q', System.State.acts k xs, h.next k hown (.inr ⟨.step k a, rfl, by rw [hfile]; exact hstep⟩) (.inr ⟨e, ht⟩)
    ?_ ?_ ?_ ?_ ?_ ?_ ?_ ?_ ?_ ?_ ?_ ?_⟩
  · intro j a' hm
    rcases List.mem_append.1 hm with hm | hm
    · obtain ⟨o, -, ho⟩ := List.mem_map.1 hm
      cases ho
    · obtain ⟨o, -, ho⟩ := List.mem_map.1 hm
      cases ho; rfl
  · rw [actsIn_append, actsIn_file, actsIn_act]
    exact sameAct_refl k xs hoff
  · rw [filesIn_append, hfile]; exact ha
  · exact h.handlers
  · intro i hi; simp [State.goto, State.put, hi]
  · intro i hi; simp [System.State.goto, System.State.put, hi]
  · simpa [State.goto, State.put, System.State.goto, System.State.put] using h.recv k
  · simpa [State.goto, State.put, System.State.goto, System.State.put] using h.requests k
  · simpa [State.goto, State.put, System.State.goto, System.State.put] using h.icc k
  · simp only [State.goto, State.put, System.State.goto, System.State.put, if_true]
    exact hl _ _ (by rw [filesIn_append, hfile])
  · rw [hfile]
    intro j c hm
    exact absurd hm (hq.2.2 j c)
  · obtain ⟨n1, n2, n3, n4⟩ := acts_nothandle (k := k) hx
    refine told_still h ?_ ?_ ?_ n4
    · intro j g m hm
      rcases List.mem_append.1 hm with hm | hm
      · obtain ⟨o, -, ho⟩ := List.mem_map.1 hm
        cases ho
      · exact n1 j g m hm
    · rw [hfile]; exact hq.1
    · rw [hfile]; exact hq.2.1

/-- A system call. -/
theorem sim_sys {s : State} {log : List Item} {t : System.State} {alog : List (Nat × Act)} {k : Nat} {a : Files.Answer} {f' : Files.State} {l : List Files.Obs}
    (hown : OwnUploads env key endErr auto reads) (h : Sim env key endErr auto reads fs0 s log t alog) (hstep : s.files.step (.step k a) = .ok (f', l))
    (hlist : ∀ j m, .unlisted j m ∉ filesIn log ++ l) :
    ∃ t' y, Sim env key endErr auto reads fs0 (({ s with files := f' } : State).returned k l).1
      (log ++ (l.map Item.file ++ (({ s with files := f' } : State).returned k l).2.map (Item.act k))) t' (alog ++ y) := by
  have hb := h.basic
  cases hj : s.files.job k with
  | none =>
    simp only [Files.State.step, hj] at hstep
    cases hstep
    exact ⟨t, [], by simpa [State.returned] using h⟩
  | some j =>
    have hr : s.files.reader k = none := hb.one k (by rw [hj]; simp)
    have hadv : s.files.advance k a j = .ok (f', l) := by simpa only [Files.State.step, hj] using hstep
    have hout := Files.advance_outcomes hj hr hadv
    have hquiet := hout.quiet
    have hdo : s.files.doing k = some j.call := by simp [Files.State.doing, hj]
    have noread : ∀ {c}, ¬ Reading env key endErr auto reads s.files log k c := by
      rintro c ⟨file, pos, h1, -⟩
      rw [hr] at h1; cases h1
    have hp := h.place k
    cases hout with
    | on h1 h2 =>
      rw [result_none _ _ _ h1]
      have hops : opsOf l = [] := (Ongoing.quiet h1).2.2.2
      refine ⟨t, [], ?_⟩
      simp only [List.map_nil, List.append_nil]
      refine h.filed (s' := { s with files := f' }) k hown (ev := .step k a) rfl hstep hops rfl (fun _ _ => rfl) rfl rfl rfl ?_ ?_ ?_
      · have hops' : opsOf (filesIn (log ++ l.map .file)) = opsOf (filesIn log) := by
          rw [filesIn_append, filesIn_file, opsOf_append, hops, List.append_nil]
        have hsame : f'.doing k = s.files.doing k := h2.trans hdo.symm
        show Linked env key endErr auto reads f' _ alog k (s.conns k).place (t.conns k).place
        generalize (s.conns k).place = sp at hp
        generalize (t.conns k).place = tp at hp
        cases hp with
        | waiting g1 => exact .waiting (hsame.trans g1)
        | received m g1 => exact .received m (hsame.trans g1)
        | storing g1 g2 g3 g4 g5 => exact .storing (hsame.trans g1) g2 g3 g4 g5
        | stored m b p g1 g2 g3 => exact .stored m b p (hsame.trans g1) (hops' ▸ g2) g3
        | checking g1 g2 g3 g4 => exact .checking (hsame.trans g1) (hops' ▸ g2) g3 g4
        | full m b p g1 g2 g3 => exact .full m b p (hsame.trans g1) (hops' ▸ g2) g3
        | merging g1 g2 g3 => exact .merging (hsame.trans g1) (hops' ▸ g2) g3
        | merged g1 g2 g3 => exact absurd g2 noread
        | noted m g1 g2 => exact .noted m (hsame.trans g1) g2
        | notedUpload g1 g2 g3 => exact absurd g2 noread
        | handling g1 => exact .handling (hsame.trans g1)
        | handlingUpload g1 g2 g3 g4 g5 => exact absurd g2 noread
        | ended g1 => exact .ended (hsame.trans g1)
      · intro i c hx; exact absurd hx (hquiet.2.2 i c)
      · have := told_still (k := k) (x := l.map .file) (y := []) h (by simp) (by rw [filesIn_file]; exact hquiet.1) (by rw [filesIn_file]; exact hquiet.2.1) (by simp)
        simpa using this
    | @wrote l1 f sq data o hc h1 h2 =>
      rw [hc] at hdo
      generalize hsp : (s.conns k).place = sp at hp
      generalize htp : (t.conns k).place = tp at hp
      cases hp with
      | @storing m b p data' g1 g2 g3 g4 g5 =>
        rw [hdo] at g1
        cases g1
        have hops : opsOf (l1 ++ [Files.Obs.wrote k (Loop.partFile m b p) p.seq data o]) = [.write (uploadOf (Loop.partFile m b p)) p.seq data o] := opsOf_ongoing h1 _
        have hafter : After (opsOf (filesIn log ++ (l1 ++ [Files.Obs.wrote k (Loop.partFile m b p) p.seq data o]))).reverse
            ((Loop.partFile m b p).write o p.seq data t.fs).1 := by
          rw [opsOf_append, hops, List.reverse_append]
          exact after_write h.store (uploadOf (Loop.partFile m b p)) p.sum p.seq data o
        have htstep : t.step env key endErr auto (.process k o .returns) = .ok (t.store k o m b p data) := by
          simp only [System.State.step, htp, g2, g3, g4]
          rw [if_neg g5]
        by_cases ho : o = .ok
        · refine sim_done (p' := .stored m b p) (q' := .stored m b p) (fs' := ((Loop.partFile m b p).write o p.seq data t.fs).1)
            (xs := [.wrote (Loop.partFile m b p) p.seq data o, .reply m.header.serial m.header.msgID 0]) (e := .process k o .returns)
            hown h hstep hquiet ?_ (by simp) rfl ?_ hafter ?_
          · rw [result_last]
            unfold State.result
            simp only [hsp, ho, if_true]
          · rw [htstep]
            simp only [System.State.store, write_snd, ho, decide_true, if_true]
          · intro log' alog' hlog
            refine .stored m b p h2 ?_ (flagged g5)
            rw [hlog, opsOf_append, hops]
            exact ⟨_, List.mem_append_right _ (List.mem_singleton_self _), rfl, _, _, _, _, rfl, by rw [ho]; simp⟩
        · refine sim_done (p' := .waiting) (q' := .waiting) (fs' := ((Loop.partFile m b p).write o p.seq data t.fs).1)
            (xs := [.wrote (Loop.partFile m b p) p.seq data o, .reply m.header.serial m.header.msgID 1]) (e := .process k o .returns)
            hown h hstep hquiet ?_ (by simp) rfl ?_ hafter ?_
          · rw [result_last]
            unfold State.result
            simp only [hsp, ho, if_false]
          · rw [htstep]
            simp only [System.State.store, write_snd, ho, decide_false, Bool.false_eq_true, if_false]
          · intro log' alog' hlog
            exact .waiting h2
      | checking g1 => rw [hdo] at g1; cases g1
      | merging g1 => rw [hdo] at g1; cases g1
      | merged g1 g2 g3 => exact absurd g2 noread
      | notedUpload g1 g2 g3 => exact absurd g2 noread
      | handlingUpload g1 g2 g3 g4 g5 => exact absurd g2 noread
      | waiting g1 => rw [hdo] at g1; cases g1
      | received m g1 => rw [hdo] at g1; cases g1
      | stored m b p g1 g2 => rw [hdo] at g1; cases g1
      | full m b p g1 g2 => rw [hdo] at g1; cases g1
      | noted m g1 => rw [hdo] at g1; cases g1
      | handling g1 => rw [hdo] at g1; cases g1
      | ended g1 => rw [hdo] at g1; cases g1
    | @checked l1 f full hc h1 h2 =>
      rw [hc] at hdo
      generalize hsp : (s.conns k).place = sp at hp
      generalize htp : (t.conns k).place = tp at hp
      cases hp with
      | @checking m b p g1 g2 g3 g4 =>
        rw [hdo] at g1
        cases g1
        have hops : opsOf (l1 ++ [Files.Obs.checked k (Loop.partFile m b p) full]) = [] := opsOf_ongoing h1 _
        have hlast := h.good hown hstep hquiet.2.2 hlist (uploadOf (Loop.partFile m b p)) l1 (.checked k (Loop.partFile m b p) full) [] rfl rfl
        rw [opsOf_append, (Ongoing.quiet h1).2.2.2, List.append_nil] at hlast
        have hd : t.fs m.header.iccID ≠ none := (h.store.dirs _).2 ((hasDir_reverse _ _).2 g2)
        obtain ⟨full', e1, e2⟩ := isFull_spec h.store.stored (uploadOf (Loop.partFile m b p)) p.sum hd
        have hfull : full = full' := by
          rw [Bool.eq_iff_iff]
          exact hlast.trans e2.symm
        have e1 : (Loop.partFile m b p).isFull t.fs = .ok full := by rw [hfull]; exact e1
        refine sim_done (p' := if full then .full m b p else .waiting) (q' := if full then .full m b p else .waiting) (fs' := t.fs)
            (xs := []) (e := .check k) hown h hstep hquiet ?_ (by simp) rfl ?_ ?_ ?_
        · rw [result_last]
          unfold State.result
          simp only [hsp]
        · simp only [System.State.step, htp, g3, ne_eq, not_true_eq_false, if_false]
          rw [e1]
          cases full <;> rfl
        · rw [opsOf_append, hops, List.append_nil]; exact h.store
        · intro log' alog' hlog
          cases full with
          | true =>
            refine .full m b p h2 ?_ g4
            rw [hlog, opsOf_append, hops, List.append_nil]
            exact g2
          | false => exact .waiting h2
      | storing g1 => rw [hdo] at g1; cases g1
      | merging g1 => rw [hdo] at g1; cases g1
      | merged g1 g2 g3 => exact absurd g2 noread
      | notedUpload g1 g2 g3 => exact absurd g2 noread
      | handlingUpload g1 g2 g3 g4 g5 => exact absurd g2 noread
      | waiting g1 => rw [hdo] at g1; cases g1
      | received m g1 => rw [hdo] at g1; cases g1
      | stored m b p g1 g2 => rw [hdo] at g1; cases g1
      | full m b p g1 g2 => rw [hdo] at g1; cases g1
      | noted m g1 => rw [hdo] at g1; cases g1
      | handling g1 => rw [hdo] at g1; cases g1
      | ended g1 => rw [hdo] at g1; cases g1
    | @failed l1 f o hc ho h1 h2 =>
      rw [hc] at hdo
      generalize hsp : (s.conns k).place = sp at hp
      generalize htp : (t.conns k).place = tp at hp
      cases hp with
      | @merging m b p g1 g2 g4 =>
        rw [hdo] at g1
        cases g1
        have hops : opsOf (l1 ++ [Files.Obs.merged k (Loop.partFile m b p) o]) = [.merge (uploadOf (Loop.partFile m b p)) o] := opsOf_ongoing h1 _
        obtain ⟨fs', e1, e2⟩ := after_merge h.store (uploadOf (Loop.partFile m b p)) p.sum o ((hasDir_reverse _ _).2 g2)
        rw [if_neg ho] at e1
        refine sim_done (p' := .waiting) (q' := .waiting) (fs' := fs')
            (xs := [.merged (Loop.partFile m b p) o]) (e := .merge k o) hown h hstep hquiet ?_ (by simp) rfl ?_ ?_ ?_
        · rw [result_last]
          unfold State.result
          simp only [hsp, ho, if_false]
        · simp only [System.State.step, htp]
          rw [show (Loop.partFile m b p).merge o t.fs = .ok (fs', none) from e1]
          rfl
        · rw [opsOf_append, hops, List.reverse_append]; exact e2
        · intro log' alog' hlog
          exact .waiting h2
      | storing g1 => rw [hdo] at g1; cases g1
      | checking g1 => rw [hdo] at g1; cases g1
      | merged g1 g2 g3 => exact absurd g2 noread
      | notedUpload g1 g2 g3 => exact absurd g2 noread
      | handlingUpload g1 g2 g3 g4 g5 => exact absurd g2 noread
      | waiting g1 => rw [hdo] at g1; cases g1
      | received m g1 => rw [hdo] at g1; cases g1
      | stored m b p g1 g2 => rw [hdo] at g1; cases g1
      | full m b p g1 g2 => rw [hdo] at g1; cases g1
      | noted m g1 => rw [hdo] at g1; cases g1
      | handling g1 => rw [hdo] at g1; cases g1
      | ended g1 => rw [hdo] at g1; cases g1
    | @merged l1 f hc h1 h2 =>
      rw [hc] at hdo
      generalize hsp : (s.conns k).place = sp at hp
      generalize htp : (t.conns k).place = tp at hp
      cases hp with
      | @merging m b p g1 g2 g4 =>
        rw [hdo] at g1
        cases g1
        have hops : opsOf (l1 ++ [Files.Obs.merged k (Loop.partFile m b p) .ok]) = [.merge (uploadOf (Loop.partFile m b p)) .ok] := opsOf_ongoing h1 _
        obtain ⟨fs', e1, e2⟩ := after_merge h.store (uploadOf (Loop.partFile m b p)) p.sum .ok ((hasDir_reverse _ _).2 g2)
        rw [if_pos rfl] at e1
        obtain ⟨c, hcont⟩ : ∃ c, mergedIn (uploadOf (Loop.partFile m b p)) (.merge (uploadOf (Loop.partFile m b p)) .ok :: (opsOf (filesIn log)).reverse) = some c := by
          rw [mergedIn, if_pos rfl]; exact ⟨_, rfl⟩
        rw [hcont] at e1
        have hbeg : .began k (.merge (Loop.partFile m b p)) ∈ filesIn log := Files.inProgress_began ((hb.prog k).trans hdo)
        refine sim_done (p' := .merged (State.withReader m b)) (q' := .merged { m with body := .val (.m0801 { b with packet := some c }) }) (fs' := fs')
            (xs := [.merged (Loop.partFile m b p) .ok]) (e := .merge k .ok) hown h hstep hquiet ?_ (by simp) rfl ?_ ?_ ?_
        · rw [result_last]
          unfold State.result
          simp only [hsp, if_true]
        · simp only [System.State.step, htp]
          rw [show (Loop.partFile m b p).merge .ok t.fs = .ok (fs', some c) from e1]
          rfl
        · rw [opsOf_append, hops, List.reverse_append]; exact e2
        · intro log' alog' hlog
          refine .merged (c := c) ⟨part_flagged g4 _, b, rfl, rfl⟩ ⟨_, 0, h2, ?_, h.owner k _ hbeg⟩ ?_
          · rw [hlog, opsOf_append, hops]
            unfold merged
            rw [List.reverse_append]
            exact hcont
          · rw [hlog, heard_append, List.foldl_append]
            simp [hear]
      | storing g1 => rw [hdo] at g1; cases g1
      | checking g1 => rw [hdo] at g1; cases g1
      | merged g1 g2 g3 => exact absurd g2 noread
      | notedUpload g1 g2 g3 => exact absurd g2 noread
      | handlingUpload g1 g2 g3 g4 g5 => exact absurd g2 noread
      | waiting g1 => rw [hdo] at g1; cases g1
      | received m g1 => rw [hdo] at g1; cases g1
      | stored m b p g1 g2 => rw [hdo] at g1; cases g1
      | full m b p g1 g2 => rw [hdo] at g1; cases g1
      | noted m g1 => rw [hdo] at g1; cases g1
      | handling g1 => rw [hdo] at g1; cases g1
      | ended g1 => rw [hdo] at g1; cases g1

theorem each_cons {α β : Type} {R : α → β → Prop} {a : α} {b : β} {l : List α} {l' : List β} (h : Each R (a :: l) (b :: l')) : R a b ∧ Each R l l' := by
  cases h with
  | cons h1 h2 => exact ⟨h1, h2⟩

/-- The handler reads. -/
theorem sim_read {s : State} {log : List Item} {t : System.State} {alog : List (Nat × Act)} {k n : Nat} {f' : Files.State} {l : List Files.Obs}
    (hown : OwnUploads env key endErr auto reads) (h : Sim env key endErr auto reads fs0 s log t alog) (hsp : (s.conns k).place = .handling)
    (hstep : s.files.step (.read k n) = .ok (f', l)) (hlist : ∀ j m, .unlisted j m ∉ filesIn log ++ l) :
    ∃ t' y, Sim env key endErr auto reads fs0 { s with files := f' } (log ++ l.map Item.file) t' (alog ++ y) := by
  refine ⟨t, [], ?_⟩
  rw [List.append_nil]
  have hs0 := hstep
  have hb := h.basic
  have hp := h.place k
  rw [hsp] at hp
  generalize htp : (t.conns k).place = tp at hp
  cases hp with
  | handling h1 =>
    simp only [Files.State.step, (doing_none.1 h1).2] at hstep
    cases hstep
    simpa using h
  | @handlingUpload m' c g got gs hs h1 h2 h3 h4 h5 =>
    obtain ⟨file, pos, r1, r2, r3⟩ := h2
    have hj : s.files.job k = none := Classical.byContradiction fun hx => by rw [hb.one k hx] at r1; cases r1
    have hdo : s.files.doing k = some (.merge file) := by simp [Files.State.doing, hj, r1]
    have hprog : inProgress k (filesIn log) = some (.merge file) := (hb.prog k).trans hdo
    have told := h.told k
    rw [h3, h5] at told
    obtain ⟨t1, t2⟩ := each_cons told
    obtain ⟨t3, t4⟩ := t1
    have hc : ∀ c', Unread got.message m' c' → c' = c := by
      rintro c' ⟨b', q1, q2⟩
      obtain ⟨-, b, q3, q4⟩ := h1
      rw [q2] at q4
      have := congrArg Message.body q4
      simp at this
      exact this.2.2.2.2.2.2
    have hne : got.message ≠ m' := by
      obtain ⟨-, b, q3, q4⟩ := h1
      intro he
      rw [q4] at he
      have := congrArg Message.body he
      rw [q3] at this
      simp at this
    simp only [Files.State.step, r1] at hstep
    split at hstep
    · cases hstep
      have hgood := h.good (ev := .read k n) hown (by simp only [Files.State.step, r1]; rw [if_pos (by assumption)]) (by simp) hlist (uploadOf file) [] _ [] rfl file
        (by rw [List.append_nil]; exact hprog) rfl
      rw [List.append_nil, r2] at hgood
      have hall : c = heard k (filesIn log) := Option.some.inj hgood
      refine h.filed (s' := { s with files := s.files }) k hown (ev := .read k n) (l := [.eof k]) rfl
        (by simp only [Files.State.step, r1]; rw [if_pos (by assumption)]) rfl rfl (fun _ _ => rfl) rfl rfl rfl ?_ (by simp) ?_
      · show Linked env key endErr auto reads s.files _ alog k (s.conns k).place (t.conns k).place
        rw [hsp, htp]
        refine .handlingUpload (g := { got with toEnd := true }) (gs := gs) h1 ⟨file, pos, r1, ?_, r3⟩ ?_ ?_ h5
        · rw [filesIn_append, filesIn_file, opsOf_append]
          exact (congrArg (fun z => merged z _) (List.append_nil _)).trans r2
        · rw [gotBy_append, h3]
          simp [gotNext]
        · rw [filesIn_append, filesIn_file, heard_append]
          simpa [hear] using h4
      · rw [gotBy_append, h3, h5]
        simp only [List.map_cons, List.map_nil, List.foldl_cons, List.foldl_nil, gotNext, if_true]
        refine .cons ⟨t3, .inr ⟨h1.1, c, h1.2, ?_, ?_⟩⟩ t2
        · show got.read <+: c
          rw [h4, ← hall]
          exact List.prefix_refl _
        · intro _; show got.read = c; rw [h4, ← hall]
    · obtain ⟨chunk, pos', rfl, rfl⟩ : ∃ chunk pos', f' = s.files.setReader k (some (file, pos')) ∧ l = [.got k chunk] := by
        cases hstep
        exact ⟨_, _, rfl, rfl⟩
      have hgood := h.good hown hs0 (by simp) hlist (uploadOf file) [] _ [] rfl file (by rw [List.append_nil]; exact hprog) rfl
      obtain ⟨c', g1, g2⟩ := hgood
      rw [List.append_nil, r2] at g1
      cases g1
      rw [List.append_nil] at g2
      refine h.filed (s' := { s with files := s.files.setReader k (some (file, pos')) }) k hown (ev := .read k n) (l := [.got k chunk]) rfl hs0 rfl rfl
        (fun _ _ => rfl) rfl rfl rfl ?_ (by simp) ?_
      · show Linked env key endErr auto reads _ _ alog k (s.conns k).place (t.conns k).place
        rw [hsp, htp]
        refine .handlingUpload (g := { got with read := got.read ++ chunk }) (gs := gs) h1 ⟨file, pos', by simp [Files.State.setReader], ?_, r3⟩ ?_ ?_ h5
        · rw [filesIn_append, filesIn_file, opsOf_append]
          exact (congrArg (fun z => merged z _) (List.append_nil _)).trans r2
        · rw [gotBy_append, h3]
          simp [gotNext]
        · rw [filesIn_append, filesIn_file, heard_append]
          simp [hear, h4]
      · rw [gotBy_append, h3, h5]
        simp only [List.map_cons, List.map_nil, List.foldl_cons, List.foldl_nil, gotNext, if_true]
        refine .cons ⟨t3, .inr ⟨h1.1, c, h1.2, ?_, ?_⟩⟩ t2
        · show got.read ++ chunk <+: c
          rw [h4]
          exact g2
        · intro hend
          have hend : got.toEnd = true := hend
          have hread : got.read = c := by
            rcases t4 with ⟨-, e1, -⟩ | ⟨-, c', e1, -, e2⟩
            · exact absurd e1 hne
            · rw [e2 hend, hc c' e1]
          rw [← h4, hread] at g2
          have hlen := g2.length_le
          rw [List.length_append] at hlen
          show got.read ++ chunk = c
          rw [hread, List.length_eq_zero_iff.1 (show chunk.length = 0 by omega), List.append_nil]

end Verif.Syscall
