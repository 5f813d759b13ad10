import Verif.Lemmas.SyscallRun
/-! # Lemmas: every run in which system calls interleave has a counterpart in which calls are made at once -/

namespace Verif.Syscall
open Handler Session Spec Codec
open Files (By Elsewhere Basic OpFor opsOf_append heard_append Outcomes Ongoing)

variable {env : Env} {key : Option DecKey} {endErr : Err} {auto : Bool} {reads : Nat → List Bytes} {fs0 : FS}

/-- A message is done with. -/
theorem sim_finish {s s' : State} {log x : List Item} {t t' : System.State} {alog y : List (Nat × Act)} {k : Nat} {xs : List Act}
    (hown : OwnUploads env key endErr auto reads) (h : Sim env key endErr auto reads fs0 s log t alog) (hs : s.finish k (xs.map (.act k)) = .ok (s', x))
    (hd : s.files.doing k = none ∨ ∃ r, s.files.reader k = some r) (hf : Follows env key endErr auto t t' y)
    (hacts : Each (SameAct auto) (System.State.acts k xs) y) (hx : ∀ g m, .handle g m ∉ xs) (hy : ∀ j g m, (j, Act.handle g m) ∉ y)
    (ht : t' = t.goto k .waiting) : Sim env key endErr auto reads fs0 s' (log ++ x) t' (alog ++ y) := by
  obtain ⟨f', l, h1, h2, h3, h4, h5, h6⟩ := release_step h.basic hd
  unfold State.finish at hs
  rw [h1] at hs
  cases hs
  have hfile : filesIn (xs.map (Item.act k) ++ l.map Item.file) = l := by rw [filesIn_append, filesIn_file, filesIn_act, List.nil_append]
  subst ht
  refine h.next k hown (.inr ⟨.release k, rfl, by rw [hfile]; exact h1⟩) hf ?_ ?_ ?_ h.handlers ?_ ?_ ?_ ?_ ?_ ?_ ?_ ?_
  · intro j a hm
    rcases List.mem_append.1 hm with hm | hm
    · obtain ⟨o, -, ho⟩ := List.mem_map.1 hm
      cases ho; rfl
    · obtain ⟨o, -, ho⟩ := List.mem_map.1 hm
      cases ho
  · rw [actsIn_append, actsIn_file, actsIn_act, List.append_nil]
    exact hacts
  · rw [filesIn_append, hfile, opsOf_append, h3, List.append_nil]; exact h.store
  · intro i hi; simp [State.goto, State.put, hi]
  · intro i hi; simp [System.State.goto, System.State.put, hi]
  · simpa [State.goto, State.put, System.State.goto, System.State.put] using h.recv k
  · simpa [State.goto, State.put, System.State.goto, System.State.put] using h.requests k
  · simpa [State.goto, State.put, System.State.goto, System.State.put] using h.icc k
  · simp only [State.goto, State.put, System.State.goto, System.State.put, if_true]
    exact .waiting h2
  · rw [hfile]
    intro j c hm
    exact absurd hm (h6 j c)
  · refine told_still h ?_ ?_ ?_ hy
    · intro j g m hm
      rcases List.mem_append.1 hm with hm | hm
      · obtain ⟨o, ho, ho'⟩ := List.mem_map.1 hm
        cases ho'
        exact hx _ _ ho
      · obtain ⟨o, -, ho⟩ := List.mem_map.1 hm
        cases ho
    · rw [hfile]; exact h4
    · rw [hfile]; exact h5

theorem goto_waiting (t : System.State) (k : Nat) (h : (t.conns k).place = .waiting) : t = t.goto k .waiting := by
  obtain ⟨fs, hs, cs⟩ := t
  simp only [System.State.goto, System.State.put, System.State.mk.injEq, true_and]
  funext i
  split
  · subst i
    rw [← h]
  · rfl

/-- The handler is called, or there is none. -/
theorem sim_dispatch {s s' : State} {log x : List Item} {t : System.State} {alog : List (Nat × Act)} {k : Nat} {m : Message Entity}
    (hown : OwnUploads env key endErr auto reads) (h : Sim env key endErr auto reads fs0 s log t alog) (hsp : (s.conns k).place = .noted m)
    (hs : (match s.handlers m.header.msgID with
      | none => s.finish k [.act k (.unhandled m)]
      | some g => .ok (s.goto k .handling, [.act k .touch, .act k (.handle g m)])) = .ok (s', x)) :
    ∃ t' y, Sim env key endErr auto reads fs0 s' (log ++ x) t' (alog ++ y) := by
  have hp := h.place k
  rw [hsp] at hp
  generalize htp : (t.conns k).place = tp at hp
  have main : ∀ m' : Message Entity, tp = .noted m' → m'.header = m.header → SameToRead auto m m' → (s.files.doing k = none ∨ ∃ r, s.files.reader k = some r) →
      (∀ (g : Nat) log' alog', filesIn log' = filesIn log → gotBy k log' = { handler := g, message := m } :: gotBy k log →
        handledBy k alog' = (g, m') :: handledBy k alog →
        Linked env key endErr auto reads s.files log' alog' k .handling .waiting ∧ Told auto { handler := g, message := m } (g, m')) →
      ∃ t' y, Sim env key endErr auto reads fs0 s' (log ++ x) t' (alog ++ y) := by
    intro m' hm' hh hsame hd hl
    subst hm'
    have hth : (t.view k).handlers m'.header.msgID = s.handlers m.header.msgID := by rw [hh]; exact (congrFun h.handlers _).symm
    split at hs
    · rename_i hn
      rw [hn] at hth
      refine ⟨t.goto k .waiting, [(k, .unhandled m')], sim_finish (xs := [.unhandled m]) hown h hs hd (.inr ⟨.dispatch k .returns, ?_⟩) ?_ (by simp) (by simp) rfl⟩
      · simp only [System.State.step, htp, Loop.dispatch, hth]
        rfl
      · exact .cons (.unhandled k hsame) .nil
    · rename_i g hg
      rw [hg] at hth
      cases hs
      have hgot : gotBy k (log ++ [.act k .touch, .act k (.handle g m)]) = { handler := g, message := m } :: gotBy k log := by
        rw [gotBy_append]
        simp [gotNext]
      have hhand : handledBy k (alog ++ [(k, .touch), (k, .handle g m')]) = (g, m') :: handledBy k alog := by
        rw [handledBy_append]
        simp [handledBy]
      obtain ⟨l1, l2⟩ := hl g (log ++ [.act k .touch, .act k (.handle g m)]) (alog ++ [(k, .touch), (k, .handle g m')])
        (by rw [filesIn_append]; exact List.append_nil _) hgot hhand
      refine ⟨t.goto k .waiting, [(k, .touch), (k, .handle g m')], h.acted (s' := s.goto k .handling) k [.touch, .handle g m] hown rfl
        (.inr ⟨.dispatch k .returns, ?_⟩) ?_ rfl h.handlers ?_ ?_ ?_ ?_ ?_ ?_ ?_⟩
      · simp only [System.State.step, htp, Loop.dispatch, hth]
        rfl
      · exact .cons (.same _ _ rfl) (.cons (.handle k g hsame) .nil)
      · intro i hi; simp [State.goto, State.put, hi]
      · intro i hi; simp [System.State.goto, System.State.put, hi]
      · simpa [State.goto, State.put, System.State.goto, System.State.put] using h.recv k
      · simpa [State.goto, State.put, System.State.goto, System.State.put] using h.requests k
      · simpa [State.goto, State.put, System.State.goto, System.State.put] using h.icc k
      · simp only [State.goto, State.put, System.State.goto, System.State.put, if_true]
        exact l1
      · show Each (Told auto) (gotBy k (log ++ [.act k .touch, .act k (.handle g m)])) _
        rw [hgot, hhand]
        exact .cons l2 (h.told k)
  cases hp with
  | noted _ h1 h2 =>
    refine main m rfl rfl (.inl ⟨h2, rfl⟩) (.inl h1) ?_
    intro g log' alog' _ _ _
    exact ⟨.handling h1, rfl, .inl ⟨h2, rfl, rfl, rfl⟩⟩
  | @notedUpload _ m' c h1 h2 h3 =>
    have hh : m'.header = m.header := by obtain ⟨-, b, -, rfl⟩ := h1; rfl
    refine main m' rfl hh (.inr ⟨h1.1, c, h1.2⟩) (.inr ?_) ?_
    · obtain ⟨file, pos, r1, -⟩ := h2
      exact ⟨_, r1⟩
    · intro g log' alog' e1 e2 e3
      refine ⟨.handlingUpload (g := { handler := g, message := m }) h1 ?_ e2 ?_ e3, rfl, .inr ⟨h1.1, c, h1.2, List.nil_prefix, by simp⟩⟩
      · obtain ⟨file, pos, r1, r2, r3⟩ := h2
        exact ⟨file, pos, r1, by rw [e1]; exact r2, r3⟩
      · rw [e1, h3]

theorem plain_flag {m : Message Entity} (h : (!auto || !Property.isEnablePacket m.header.property) = true) : isPart auto m = false := by
  unfold isPart
  rw [← Property.isEnablePacket_spec]
  cases auto <;> simp_all

theorem plain_body {m : Message Entity} {e : Entity} (hb : m.body = .val e) (h : ∀ b, e ≠ .m0801 b) : isPart auto m = false := by
  unfold isPart
  rw [hb]
  cases e <;> first | exact absurd rfl (h _) | simp

/-- One step of any kind. -/
theorem Sim.step {s s' : State} {log x : List Item} {t : System.State} {alog : List (Nat × Act)} {e : Event} (hown : OwnUploads env key endErr auto reads)
    (h : Sim env key endErr auto reads fs0 s log t alog) (hs : s.step env key endErr auto e = .ok (s', x)) (hlist : AllListed (log ++ x)) :
    ∃ t' y, Sim env key endErr auto reads fs0 s' (log ++ x) t' (alog ++ y) := by
  have same : Res.ok (s, ([] : List Item)) = .ok (s', x) → ∃ t' y, Sim env key endErr auto reads fs0 s' (log ++ x) t' (alog ++ y) := by
    intro h'; cases h'; exact h.same
  have listed : ∀ l, x = l.map .file ++ (x.drop l.length) → ∀ j m, .unlisted j m ∉ filesIn log ++ l := by
    intro l hl j m hm
    rcases List.mem_append.1 hm with hm | hm
    · obtain ⟨w, hw, hw'⟩ := List.mem_filterMap.1 hm
      cases w with
      | act j a => cases hw'
      | file o => cases hw'; exact hlist j m (List.mem_append_left _ hw)
    · refine hlist j m (List.mem_append_right _ ?_)
      rw [hl]
      exact List.mem_append_left _ (List.mem_map.2 ⟨_, hm, rfl⟩)
  cases e with
  | receive k =>
    simp only [State.step] at hs
    have hp := h.place k
    split at hs
    · rename_i hsp
      rw [hsp] at hp
      generalize htp : (t.conns k).place = tp at hp
      cases hp with
      | waiting hd =>
        have hr := h.recv k
        split at hs
        · rename_i m r hrec
          cases hs
          refine ⟨t.put k { t.conns k with place := .received m, recv := r }, [], h.acted k [] hown rfl (.inr ⟨.receive k, ?_⟩) .nil rfl h.handlers ?_ ?_ ?_ ?_ ?_ ?_ ?_⟩
          · simp only [System.State.step, htp, ← hr, hrec]
          · intro i hi; simp [State.put, hi]
          · intro i hi; simp [System.State.put, hi]
          · simp [State.put, System.State.put]
          · simpa [State.put, System.State.put] using h.requests k
          · simpa [State.put, System.State.put] using h.icc k
          · simp only [State.put, System.State.put, if_true]
            exact .received m hd
          · simpa using h.told k
        · rename_i er r hrec
          cases hs
          refine ⟨t.put k { t.conns k with place := .ended, recv := r }, [(k, .closed)], h.acted k [.closed] hown rfl (.inr ⟨.receive k, ?_⟩) ?_ rfl h.handlers ?_ ?_ ?_ ?_ ?_ ?_ ?_⟩
          · simp only [System.State.step, htp, ← hr, hrec]
          · exact sameAct_refl k [.closed] rfl
          · intro i hi; simp [State.put, hi]
          · intro i hi; simp [System.State.put, hi]
          · simp [State.put, System.State.put]
          · simpa [State.put, System.State.put] using h.requests k
          · simpa [State.put, System.State.put] using h.icc k
          · simp only [State.put, System.State.put, if_true]
            exact .ended hd
          · exact told_still h (by simp) (by simp [filesIn]) (by simp [filesIn]) (by simp)
        · cases hs
    · exact same hs
  | process k u =>
    simp only [State.step] at hs
    have hp := h.place k
    split at hs
    · rename_i m hsp
      rw [hsp] at hp
      generalize htp : (t.conns k).place = tp at hp
      cases hp with
      | received _ hd =>
        split at hs
        · rename_i ent hb
          split at hs
          · rename_i hc
            refine sim_message (e := .process k .ok u) (m' := m) hown h hs ?_ (.inl ⟨rfl, hd, plain_flag hc⟩)
            simp only [System.State.step, htp, hb]
            rw [if_pos hc]
          · rename_i hc
            split at hs
            · rename_i b
              split at hs
              · rename_i p data hpk hdata
                have hat := atPart h k
                rw [htp] at hat
                have hu := System.uploads_of_part (auto := auto) hat hb hpk hdata hc
                refine sim_call hown h hs hd hu ?_
                intro f log' hf hops
                rw [htp]
                exact .storing hf hb hpk hdata hc
              · cases hs
            · rename_i hne
              refine sim_message (e := .process k .ok u) (m' := m) hown h hs ?_ (.inl ⟨rfl, hd, plain_body hb fun b => hne b⟩)
              simp only [System.State.step, htp, hb]
              rw [if_neg hc]
        · rename_i hne
          cases hs
          refine ⟨t.goto k .waiting, [(k, .reply m.header.serial m.header.msgID 3)],
            h.acted k [.reply m.header.serial m.header.msgID 3] hown rfl (.inr ⟨.process k .ok u, ?_⟩) ?_ rfl h.handlers ?_ ?_ ?_ ?_ ?_ ?_ ?_⟩
          · simp only [System.State.step, htp]
          · exact sameAct_refl k [.reply m.header.serial m.header.msgID 3] rfl
          · intro i hi; simp [State.goto, State.put, hi]
          · intro i hi; simp [System.State.goto, System.State.put, hi]
          · simpa [State.goto, State.put, System.State.goto, System.State.put] using h.recv k
          · simpa [State.goto, State.put, System.State.goto, System.State.put] using h.requests k
          · simpa [State.goto, State.put, System.State.goto, System.State.put] using h.icc k
          · simp only [State.goto, State.put, System.State.goto, System.State.put, if_true]
            exact .waiting hd
          · exact told_still h (by simp) (by simp [filesIn]) (by simp [filesIn]) (by simp)
    · exact same hs
  | check k =>
    simp only [State.step] at hs
    have hp := h.place k
    split at hs
    · rename_i m b p hsp
      rw [hsp] at hp
      generalize htp : (t.conns k).place = tp at hp
      cases hp with
      | stored _ _ _ hd hdir hflag =>
        split at hs
        · rename_i hne
          cases hs
          refine ⟨t.goto k .waiting, [], h.acted k [] hown rfl (.inr ⟨.check k, ?_⟩) .nil rfl h.handlers ?_ ?_ ?_ ?_ ?_ ?_ ?_⟩
          · simp only [System.State.step, htp]
            rw [if_pos hne]
          · intro i hi; simp [State.goto, State.put, hi]
          · intro i hi; simp [System.State.goto, System.State.put, hi]
          · simpa [State.goto, State.put, System.State.goto, System.State.put] using h.recv k
          · simpa [State.goto, State.put, System.State.goto, System.State.put] using h.requests k
          · simpa [State.goto, State.put, System.State.goto, System.State.put] using h.icc k
          · simp only [State.goto, State.put, System.State.goto, System.State.put, if_true]
            exact .waiting hd
          · simpa using h.told k
        · rename_i heq
          have hat := atPart h k
          rw [htp] at hat
          refine sim_call hown h hs hd hat ?_
          intro f log' hf hops
          rw [htp]
          exact .checking hf (hops ▸ hdir) (Classical.not_not.1 heq) hflag
    · exact same hs
  | merge k =>
    simp only [State.step] at hs
    have hp := h.place k
    split at hs
    · rename_i m b p hsp
      rw [hsp] at hp
      generalize htp : (t.conns k).place = tp at hp
      cases hp with
      | full _ _ _ hd hdir hflag =>
        have hat := atPart h k
        rw [htp] at hat
        refine sim_call hown h hs hd hat ?_
        intro f log' hf hops
        rw [htp]
        exact .merging hf (hops ▸ hdir) hflag
    · exact same hs
  | sys k a =>
    simp only [State.step] at hs
    obtain ⟨⟨f', l⟩, h1, hs⟩ := Res.bind_ok hs
    cases hs
    exact sim_sys hown h h1 (listed l (by simp))
  | note k u =>
    simp only [State.step] at hs
    have hp := h.place k
    split at hs
    · rename_i m hsp
      rw [hsp] at hp
      generalize htp : (t.conns k).place = tp at hp
      cases hp with
      | @merged _ m' c h1 h2 h3 =>
        refine sim_message (e := .note k u) (m' := m') hown h hs ?_ (.inr ⟨c, h1, h2, h3⟩)
        simp only [System.State.step, htp]
    · exact same hs
  | dispatch k =>
    simp only [State.step] at hs
    split at hs
    · rename_i m hsp
      exact sim_dispatch hown h hsp hs
    · exact same hs
  | read k n =>
    simp only [State.step] at hs
    split at hs
    · rename_i hsp
      obtain ⟨⟨f', l⟩, h1, hs⟩ := Res.bind_ok hs
      cases hs
      exact sim_read hown h hsp h1 (listed l (by simp))
    · exact same hs
  | ret k u =>
    simp only [State.step] at hs
    split at hs
    · rename_i hsp
      obtain ⟨-, -, hs⟩ := Res.bind_ok hs
      have hp := h.place k
      rw [hsp] at hp
      generalize htp : (t.conns k).place = tp at hp
      have hd : s.files.doing k = none ∨ ∃ r, s.files.reader k = some r := by
        cases hp with
        | handling h1 => exact .inl h1
        | handlingUpload h1 h2 =>
          obtain ⟨file, pos, r1, -⟩ := h2
          exact .inr ⟨_, r1⟩
      have htp : (t.conns k).place = .waiting := by cases hp <;> exact htp
      exact ⟨t, [], sim_finish (xs := []) hown h hs hd (.inl ⟨rfl, rfl⟩) .nil (by simp) (by simp) (goto_waiting t k htp)⟩
    · exact same hs
  | addHandler id g =>
    cases g with
    | none => exact same hs
    | some g =>
      simp only [State.step] at hs
      cases hs
      refine ⟨{ t with handlers := fun y => if y = id then some g else t.handlers y }, [(0, .registered id g)],
        h.acted 0 [.registered id g] hown rfl (.inr ⟨.addHandler id (some g), rfl⟩) ?_ rfl ?_ (fun _ _ => rfl) (fun _ _ => rfl) (h.recv 0) (h.requests 0) (h.icc 0) ?_ ?_⟩
      · exact sameAct_refl 0 [.registered id g] rfl
      · show (fun y => _) = fun y => _
        rw [h.handlers]
      · exact (h.place 0).aside rfl rfl (fun _ => rfl) (fun _ => rfl) rfl (by simp [filesIn, opsOf])
      · exact told_still h (by simp) (by simp [filesIn]) (by simp [filesIn]) (by simp)
  | addRequest k r =>
    simp only [State.step] at hs
    cases hs
    refine ⟨t.put k { t.conns k with requests := addRequest r (t.conns k).requests }, [(k, .requested r)],
      h.acted k [.requested r] hown rfl (.inr ⟨.addRequest k r, rfl⟩) ?_ rfl h.handlers ?_ ?_ ?_ ?_ ?_ ?_ ?_⟩
    · exact sameAct_refl k [.requested r] rfl
    · intro i hi; simp [State.put, hi]
    · intro i hi; simp [System.State.put, hi]
    · simpa [State.put, System.State.put] using h.recv k
    · simp [State.put, System.State.put, h.requests k]
    · simpa [State.put, System.State.put] using h.icc k
    · simp only [State.put, System.State.put, if_true]
      exact (h.place k).aside rfl rfl (fun _ => rfl) (fun _ => rfl) rfl (by simp [filesIn, opsOf])
    · exact told_still h (by simp) (by simp [filesIn]) (by simp [filesIn]) (by simp)

theorem Sim.run {s s' : State} {log x : List Item} {t : System.State} {alog : List (Nat × Act)} {es : List Event} (hown : OwnUploads env key endErr auto reads)
    (h : Sim env key endErr auto reads fs0 s log t alog) (hs : s.run env key endErr auto es = .ok (s', x)) (hlist : AllListed (log ++ x)) :
    ∃ t' y, Sim env key endErr auto reads fs0 s' (log ++ x) t' (alog ++ y) := by
  induction es generalizing s log t alog x with
  | nil => cases hs; exact h.same
  | cons e es ih =>
    obtain ⟨⟨s1, a⟩, h1, hs⟩ := Res.bind_ok hs
    obtain ⟨⟨s2, b⟩, h2, hs⟩ := Res.bind_ok hs
    cases hs
    rw [← List.append_assoc] at hlist
    obtain ⟨t1, y1, g1⟩ := h.step hown h1 (fun k m hm => hlist k m (List.mem_append_left _ hm))
    obtain ⟨t2, y2, g2⟩ := ih g1 h2 hlist
    exact ⟨t2, y1 ++ y2, by rw [← List.append_assoc, ← List.append_assoc]; exact g2⟩

theorem gotBy_files (k : Nat) (l : List Files.Obs) : gotBy k (l.map .file) = [] := by
  unfold gotBy
  induction l with
  | nil => rfl
  | cons o l ih =>
    rw [List.map_cons, List.foldl_cons]
    have : gotNext k [] (.file o) = [] := by cases o <;> simp [gotNext]
    rw [this, ih]

/-- At the beginning of a process that finds files of earlier ones. -/
theorem sim_startOn {log0 : List Files.Obs} (h0 : Files.Founded fs0 log0) (ha : After (opsOf log0).reverse fs0) :
    Sim env key endErr auto reads fs0 (startOn fs0 reads) (log0.map .file) (System.startOn fs0 reads) [] where
  files := ⟨log0, [], [], h0, rfl, by rw [filesIn_file, List.append_nil]⟩
  atOnce := ⟨[], rfl⟩
  acts := by rw [actsIn_file]; exact .nil
  store := by rw [filesIn_file]; exact ha
  handlers := rfl
  recv _ := rfl
  requests _ := rfl
  icc _ := rfl
  place _ := .waiting rfl
  owner k c hx := by rw [filesIn_file] at hx; exact absurd hx (h0.after k c)
  told k := by rw [gotBy_files]; exact .nil

theorem sim_start : Sim env key endErr auto reads (fun _ => none) (start reads) [] (System.start reads) [] :=
  sim_startOn (log0 := []) Files.founded_empty after_empty

end Verif.Syscall
