import Verif.Spec.Lives
import Verif.Lemmas.FilesRest
import Verif.Lemmas.SyscallSafe
import Verif.Lemmas.SyscallWhole
/-! # Lemmas: files that are left from process to process -/

namespace Verif.Syscall
open Handler Session Spec Codec
open Files (Rests Founded opsOf_append opsOf_asObs)

variable {env : Env} {key : Option DecKey} {endErr : Err} {auto : Bool} {reads : Nat → List Bytes} {fs0 : FS}

theorem message_files {s s' : State} {k : Nat} {u : UserCode} {m : Message Entity} {x : List Item} (h : s.message k u m = .ok (s', x)) :
    s'.files = s.files ∧ filesIn x = [] := by
  unfold State.message at h
  obtain ⟨⟨l, y⟩, -, h⟩ := Res.bind_ok h
  cases h
  exact ⟨rfl, filesIn_act k y⟩

theorem files_one {f f' : Files.State} {ev : Files.Event} {l : List Files.Obs} (h : f.step ev = .ok (f', l)) : f.run [ev] = .ok (f', l) := by
  show (f.step ev >>= fun r => r.1.run [] >>= fun q => .ok (q.1, r.2 ++ q.2)) = _
  rw [h]
  show Res.ok (f', l ++ []) = _
  rw [List.append_nil]

theorem result_files (s : State) (k : Nat) (o : Files.Obs) : (s.result k o).1.files = s.files := by
  unfold State.result
  split
  · split <;> rfl
  all_goals rfl

/-- What a step does on files. -/
theorem step_files {s s' : State} {e : Event} {x : List Item} (h : s.step env key endErr auto e = .ok (s', x)) :
    (∃ evs, s.files.run evs = .ok (s'.files, filesIn x)) ∧
    ∀ k f q d, .began k (.write f q d) ∈ filesIn x → ∃ m p, (s.conns k).place = .received m ∧ partOf auto m = some (uploadOf f, p, d) ∧ p.seq = q := by
  have quiet : s'.files = s.files → filesIn x = [] → (∃ evs, s.files.run evs = .ok (s'.files, filesIn x)) ∧
      ∀ k f q d, .began k (.write f q d) ∈ filesIn x → ∃ m p, (s.conns k).place = .received m ∧ partOf auto m = some (uploadOf f, p, d) ∧ p.seq = q := by
    intro h1 h2
    rw [h1, h2]
    exact ⟨⟨[], rfl⟩, by simp⟩
  have same : Res.ok (s, ([] : List Item)) = .ok (s', x) → (∃ evs, s.files.run evs = .ok (s'.files, filesIn x)) ∧
      ∀ k f q d, .began k (.write f q d) ∈ filesIn x → ∃ m p, (s.conns k).place = .received m ∧ partOf auto m = some (uploadOf f, p, d) ∧ p.seq = q := by
    intro h; cases h; exact quiet rfl rfl
  have call : ∀ {k p c}, s.call k p c = .ok (s', x) →
      (∃ evs, s.files.run evs = .ok (s'.files, filesIn x)) ∧ ∀ k' c', .began k' c' ∈ filesIn x → k' = k ∧ c' = c := by
    intro k p c h
    unfold State.call at h
    obtain ⟨⟨f, l⟩, h1, h⟩ := Res.bind_ok h
    cases h
    rw [filesIn_file]
    refine ⟨⟨_, files_one h1⟩, ?_⟩
    intro k' c' hm
    simp only [Files.State.step] at h1
    split at h1 <;> cases h1
    · simp at hm; exact hm
    · simp at hm
  have finish : ∀ {k} {xs : List Act}, s.finish k (xs.map (.act k)) = .ok (s', x) →
      (∃ evs, s.files.run evs = .ok (s'.files, filesIn x)) ∧
      ∀ k f q d, .began k (.write f q d) ∈ filesIn x → ∃ m p, (s.conns k).place = .received m ∧ partOf auto m = some (uploadOf f, p, d) ∧ p.seq = q := by
    intro k xs h
    unfold State.finish at h
    obtain ⟨⟨f, l⟩, h1, h⟩ := Res.bind_ok h
    cases h
    rw [filesIn_append, filesIn_act, filesIn_file, List.nil_append]
    refine ⟨⟨_, files_one h1⟩, ?_⟩
    intro k' f' q d hm
    simp only [Files.State.step] at h1
    split at h1 <;> cases h1 <;> simp at hm
  cases e with
  | receive k =>
    simp only [State.step] at h
    split at h
    · split at h <;> cases h <;> exact quiet rfl rfl
    · exact same h
  | process k u =>
    simp only [State.step] at h
    split at h
    · rename_i m hp
      split at h
      · rename_i ent hb
        split at h
        · obtain ⟨h1, h2⟩ := message_files h; exact quiet h1 h2
        · rename_i hc
          split at h
          · rename_i b
            split at h
            · rename_i p data hpk hdata
              obtain ⟨h1, h2⟩ := call h
              refine ⟨h1, ?_⟩
              intro k' f q d hm
              obtain ⟨rfl, hx⟩ := h2 k' _ hm
              cases hx
              refine ⟨m, p, hp, ?_, rfl⟩
              have hpart : isPart auto m = true := by
                have := part_flagged (flagged hc) b
                rwa [show ({ m with body := .val (.m0801 b) } : Message Entity) = m by rw [← hb]] at this
              unfold partOf
              rw [if_pos hpart]
              simp only [hb, hpk, hdata, Option.map_some]
              rfl
            · cases h
          · obtain ⟨h1, h2⟩ := message_files h; exact quiet h1 h2
      · cases h; exact quiet rfl rfl
    · exact same h
  | check k =>
    simp only [State.step] at h
    split at h
    · split at h
      · cases h; exact quiet rfl rfl
      · obtain ⟨h1, h2⟩ := call h
        refine ⟨h1, ?_⟩
        intro k' f q d hm
        cases (h2 k' _ hm).2
    · exact same h
  | merge k =>
    simp only [State.step] at h
    split at h
    · obtain ⟨h1, h2⟩ := call h
      refine ⟨h1, ?_⟩
      intro k' f q d hm
      cases (h2 k' _ hm).2
    · exact same h
  | sys k a =>
    simp only [State.step] at h
    obtain ⟨⟨f, l⟩, h1, h⟩ := Res.bind_ok h
    cases h
    rw [filesIn_append, filesIn_act, filesIn_file, List.append_nil]
    have hfiles : ({ s with files := f }.returned k l).1.files = f := by
      unfold State.returned
      split
      · exact result_files _ _ _
      · rfl
    refine ⟨⟨_, by rw [hfiles]; exact files_one h1⟩, ?_⟩
    intro k' f' q d hm
    simp only [Files.State.step] at h1
    split at h1
    · exact absurd hm (Files.advance_no_began h1)
    · cases h1; simp at hm
  | note k u =>
    simp only [State.step] at h
    split at h
    · obtain ⟨h1, h2⟩ := message_files h; exact quiet h1 h2
    · exact same h
  | dispatch k =>
    simp only [State.step] at h
    split at h
    · split at h
      · exact finish (xs := [_]) h
      · cases h; exact quiet rfl rfl
    · exact same h
  | read k n =>
    simp only [State.step] at h
    split at h
    · obtain ⟨⟨f, l⟩, h1, h⟩ := Res.bind_ok h
      cases h
      rw [filesIn_file]
      refine ⟨⟨_, files_one h1⟩, ?_⟩
      intro k' f' q d hm
      simp only [Files.State.step] at h1
      split at h1
      · split at h1 <;> cases h1 <;> simp at hm
      · cases h1; simp at hm
    · exact same h
  | ret k u =>
    simp only [State.step] at h
    split at h
    · obtain ⟨_, -, h⟩ := Res.bind_ok h
      exact finish (xs := []) h
    · exact same h
  | addHandler id g =>
    cases g with
    | none => exact same h
    | some g => simp only [State.step] at h; cases h; exact quiet rfl rfl
  | addRequest k r => simp only [State.step] at h; cases h; exact quiet rfl rfl

theorem run_files {s s' : State} {es : List Event} {x : List Item} (h : s.run env key endErr auto es = .ok (s', x)) :
    ∃ evs, s.files.run evs = .ok (s'.files, filesIn x) := by
  induction es generalizing s x with
  | nil => cases h; exact ⟨[], rfl⟩
  | cons e es ih =>
    obtain ⟨⟨s1, a⟩, h1, h⟩ := Res.bind_ok h
    obtain ⟨⟨s2, b⟩, h2, h⟩ := Res.bind_ok h
    cases h
    obtain ⟨evs1, g1⟩ := (step_files h1).1
    obtain ⟨evs2, g2⟩ := ih h2
    exact ⟨_, by rw [filesIn_append]; exact Files.run_append g1 g2⟩

/-- What is stored has arrived. -/
theorem run_began {s s' : State} {log x : List Item} {t : System.State} {alog : List (Nat × Act)} {es : List Event} (hown : OwnUploads env key endErr auto reads)
    (h : Sim env key endErr auto reads fs0 s log t alog) (hs : s.run env key endErr auto es = .ok (s', x)) (hlist : AllListed (log ++ x))
    {k : Nat} {f : Multipart} {q : UInt16} {d : Bytes} (hm : .began k (.write f q d) ∈ filesIn x) :
    ∃ m p, ArrivesOn env key endErr (reads k) m ∧ partOf auto m = some (uploadOf f, p, d) ∧ p.seq = q := by
  induction es generalizing s log t alog x with
  | nil => cases hs; simp [filesIn] at hm
  | cons e es ih =>
    obtain ⟨⟨s1, a⟩, h1, hs⟩ := Res.bind_ok hs
    obtain ⟨⟨s2, b⟩, h2, hs⟩ := Res.bind_ok hs
    cases hs
    rw [← List.append_assoc] at hlist
    rw [filesIn_append] at hm
    rcases List.mem_append.1 hm with hm | hm
    · obtain ⟨m, p, g1, g2, g3⟩ := (step_files h1).2 k f q d hm
      have hp := h.place k
      have hat := atPart h k
      rw [g1] at hp
      generalize (t.conns k).place = tp at hp hat
      cases hp with
      | received _ _ => exact ⟨m, p, hat, g2, g3⟩
    · obtain ⟨t1, y1, g1⟩ := h.step hown h1 (fun k m hm => hlist k m (List.mem_append_left _ hm))
      exact ih g1 h2 hlist hm

theorem rests_sim {ops : List FileOp} (h : Rests fs0 ops) :
    Sim env key endErr auto reads fs0 (startOn fs0 reads) ((ops.map Files.asObs).map .file) (System.startOn fs0 reads) [] :=
  sim_startOn h.founded (by rw [opsOf_asObs]; exact h.after)

theorem allListed_rests {ops : List FileOp} {log : List Item} (h : AllListed log) : AllListed ((ops.map Files.asObs).map .file ++ log) := by
  intro k m hx
  rcases List.mem_append.1 hx with hx | hx
  · obtain ⟨o, ho, hx⟩ := List.mem_map.1 hx
    obtain ⟨op, -, rfl⟩ := List.mem_map.1 ho
    cases op <;> cases hx
  · exact h k m hx

/-- What a process adds to the files, wherever it ends. -/
structure Adds (env : Env) (key : Option DecKey) (endErr : Err) (auto : Bool) (reads : Nat → List Bytes) (log : List Item) (ops new : List FileOp) : Prop where
  arrived : ∀ u sq d o, .write u sq d o ∈ new → ∃ k m p, ArrivesOn env key endErr (reads k) m ∧ partOf auto m = some (u, p, d) ∧ p.seq = sq
  kept : ∀ u i d, KeptIn u i d log → latest (ops ++ new) u i = some d
  same : ∀ u i, (∀ x ∈ log, ¬ Storing u i x) → latest (ops ++ new) u i = latest ops u i

theorem mem_filesIn {o : Files.Obs} {log : List Item} : o ∈ filesIn log ↔ .file o ∈ log := by
  unfold filesIn
  rw [List.mem_filterMap]
  constructor
  · rintro ⟨x, hx, h⟩
    cases x <;> cases h
    exact hx
  · intro h; exact ⟨_, h, rfl⟩

theorem latest_untouched {ops new : List FileOp} {u : Upload} {i : UInt16} (h : ∀ d o, .write u i d o ∉ new) : latest (ops ++ new) u i = latest ops u i := by
  unfold latest
  rw [List.reverse_append, latestIn_append]
  cases hx : latestIn u i new.reverse with
  | none => rfl
  | some c =>
    obtain ⟨d, o, hm, -⟩ := latestIn_mem hx
    exact absurd (List.mem_reverse.1 hm) (h d o)

theorem life_rests {ops : List FileOp} (h0 : Rests fs0 ops) (hown : OwnUploads env key endErr auto reads) {es : List Event} {s : State} {log : List Item}
    (h : (startOn fs0 reads).run env key endErr auto es = .ok (s, log)) (hlist : AllListed log) :
    ∃ new, Rests s.files.fs (ops ++ new) ∧ Adds env key endErr auto reads log ops new := by
  have hlist' := allListed_rests (ops := ops) hlist
  obtain ⟨t, y, g⟩ := (rests_sim (env := env) (key := key) (endErr := endErr) (auto := auto) (reads := reads) h0).run hown h hlist'
  obtain ⟨evs, hr⟩ := run_files h
  have hr : ({ fs := fs0 } : Files.State).run evs = .ok (s.files, filesIn log) := hr
  have hfiles : filesIn ((ops.map Files.asObs).map .file ++ log) = ops.map Files.asObs ++ filesIn log := by rw [filesIn_append, filesIn_file]
  have hturn : ∀ u, InTurn u (ops.map Files.asObs ++ filesIn log) := by
    intro u
    refine inTurn_of_owner h0.founded hr hown ?_ u
    intro k c hm
    exact g.owner k c (by rw [hfiles]; exact hm)
  have hlisted : ∀ u, Listed u (ops.map Files.asObs ++ filesIn log) := by
    intro u k m hm
    rw [← hfiles] at hm
    exact absurd (mem_filesIn.1 hm) (hlist' k m)
  obtain ⟨broken, h1, h2⟩ := Files.rests h0.founded h0.made hr hturn hlisted
  have hb := h0.founded.basic
  rw [opsOf_append, opsOf_asObs, List.append_assoc] at h1
  -- a call that is in progress or has returned has begun
  have began : ∀ {k c} {x : List Files.Obs} {y : List Files.Obs}, filesIn log = x ++ y → inProgress k (ops.map Files.asObs ++ x) = some c → .began k c ∈ filesIn log := by
    intro k c x y hxy hp
    rcases List.mem_append.1 (Files.inProgress_began hp) with hm | hm
    · exact absurd hm (Files.asObs_began ops k c)
    · rw [hxy]; exact List.mem_append_left _ hm
  have writes : ∀ u sq d o, .write u sq d o ∈ opsOf (filesIn log) ++ broken → ∃ k m, .began k (.write m sq d) ∈ filesIn log ∧ uploadOf m = u := by
    intro u sq d o hm
    have : ∃ k c, .began k c ∈ filesIn log ∧ Files.OpFor c (.write u sq d o) := by
      rcases List.mem_append.1 hm with hm | hm
      · obtain ⟨ob, hob, hop⟩ := List.mem_filterMap.1 hm
        obtain ⟨x, y, hxy⟩ := List.append_of_mem hob
        obtain ⟨k, c, g1, g2, -⟩ := Files.returned_doing hb hr hxy hop
        exact ⟨k, c, began hxy g1, g2⟩
      · obtain ⟨k, c, g1, g2⟩ := h2 _ hm
        exact ⟨k, c, began (y := []) (by simp) g1, g2⟩
    obtain ⟨k, c, g1, g2⟩ := this
    rcases g2 with ⟨m, sq', d', o', rfl, g2⟩ | ⟨m, o', rfl, g2⟩
    · simp only [FileOp.write.injEq] at g2
      obtain ⟨rfl, rfl, rfl, rfl⟩ := g2
      exact ⟨k, m, g1, rfl⟩
    · cases g2
  refine ⟨opsOf (filesIn log) ++ broken, h1, ?_, ?_, ?_⟩
  · intro u sq d o hm
    obtain ⟨k, m, g1, rfl⟩ := writes u sq d o hm
    obtain ⟨m', p, g2, g3, g4⟩ := run_began hown (rests_sim (env := env) (key := key) (endErr := endErr) (auto := auto) (reads := reads) h0) h hlist' g1
    exact ⟨k, m', p, g2, g3, g4⟩
  · rintro u i d ⟨before, k, m, after, rfl, rfl, hno⟩
    have hl : filesIn (before ++ .file (.wrote k m i d .ok) :: after) = filesIn before ++ .wrote k m i d .ok :: filesIn after := by
      rw [filesIn_append]; rfl
    have hno' : ∀ k' m' d', .began k' (.write m' i d') ∈ filesIn after → uploadOf m' ≠ uploadOf m := by
      intro k' m' d' hm hu
      exact hno _ (mem_filesIn.1 hm) ⟨hu, rfl⟩
    obtain ⟨g1, g2⟩ := Files.latest_kept hb hr (hturn _) hl hno'
    rw [opsOf_append, opsOf_asObs] at g1
    rw [← List.append_assoc, latest_untouched, g1]
    intro d' o hm
    obtain ⟨k', c, g3, g4⟩ := h2 _ hm
    rcases g4 with ⟨m', sq', d'', o', rfl, g4⟩ | ⟨m', o', rfl, g4⟩
    · simp only [FileOp.write.injEq] at g4
      obtain ⟨g5, rfl, rfl, rfl⟩ := g4
      exact g2 k' m' _ g3 g5.symm
    · cases g4
  · intro u i hno
    refine latest_untouched ?_
    intro d o hm
    obtain ⟨k, m, g1, g2⟩ := writes u i d o hm
    exact hno _ (mem_filesIn.1 g1) ⟨g2, rfl⟩

/-- What any number of processes leave. -/
theorem lives_rests {ops : List FileOp} {ls : List Life} (h0 : Rests fs0 ops) (hown : ∀ l ∈ ls, OwnUploads env key endErr auto l.reads) {fs : FS}
    {logs : List (List Item)} (h : lives env key endErr auto fs0 ls = .ok (fs, logs)) (hlist : ∀ log ∈ logs, AllListed log) :
    ∃ new, Rests fs (ops ++ new) ∧
      (∀ u sq d o, .write u sq d o ∈ new → ∃ l ∈ ls, ∃ k m p, ArrivesOn env key endErr (l.reads k) m ∧ partOf auto m = some (u, p, d) ∧ p.seq = sq) ∧
      (∀ u i d, Kept u i d logs → latest (ops ++ new) u i = some d) ∧
      ∀ u i, (∀ log ∈ logs, ∀ x ∈ log, ¬ Storing u i x) → latest (ops ++ new) u i = latest ops u i := by
  induction ls generalizing fs0 ops logs with
  | nil =>
    cases h
    refine ⟨[], by simpa using h0, by simp, ?_, by simp⟩
    rintro u i d ⟨a, b, c, hx, -⟩
    simp at hx
  | cons l ls ih =>
    obtain ⟨⟨s, log⟩, h1, h⟩ := Res.bind_ok h
    obtain ⟨⟨fs', logs'⟩, h2, h⟩ := Res.bind_ok h
    cases h
    obtain ⟨new, g1, g2⟩ := life_rests h0 (hown l (by simp)) h1 (hlist log (by simp))
    obtain ⟨new', g3, g4, g5, g6⟩ := ih g1 (fun l' hl => hown l' (by simp [hl])) h2 (fun x hx => hlist x (by simp [hx]))
    rw [List.append_assoc] at g3
    refine ⟨new ++ new', g3, ?_, ?_, ?_⟩
    · intro u sq d o hm
      rcases List.mem_append.1 hm with hm | hm
      · obtain ⟨k, m, p, e1, e2, e3⟩ := g2.arrived u sq d o hm
        exact ⟨l, by simp, k, m, p, e1, e2, e3⟩
      · obtain ⟨l', hl, e⟩ := g4 u sq d o hm
        exact ⟨l', by simp [hl], e⟩
    · rintro u i d ⟨a, b, c, hx, hk, hlater⟩
      rw [← List.append_assoc]
      cases a with
      | nil =>
        simp only [List.nil_append, List.cons.injEq] at hx
        obtain ⟨rfl, rfl⟩ := hx
        rw [g6 u i hlater]
        exact g2.kept u i d hk
      | cons a as =>
        rw [List.cons_append, List.cons.injEq] at hx
        exact g5 u i d ⟨as, b, c, hx.2, hk, hlater⟩
    · intro u i hno
      rw [← List.append_assoc, g6 u i fun x hx => hno x (by simp [hx]), g2.same u i (hno log (by simp))]

end Verif.Syscall
