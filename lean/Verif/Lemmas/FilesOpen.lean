import Verif.Lemmas.FilesRun
/-! # Overlapping file operations: open files, and directories -/

namespace Verif.Files

open Spec

/-- The files of the parts that were found. -/
def partsOf (m : Multipart) (found : List (UInt16 × Bytes)) : List File := found.map fun p => (m.icc, p.2)

/-- The files a job has open. -/
def Job.files : Job → List File
  | .put m seq _ _ | .shut m seq _ _ _ => [partFile m seq]
  | .visit m g _ found => if g then partsOf m found else []
  | .openPart m _ _ _ found | .createFull m found => partsOf m found
  | .copy m found _ _ _ | .reopen m found _ => fullFile m :: partsOf m found
  | _ => []

/-- The files a goroutine has open. -/
def State.held (s : State) (k : Nat) : List File := ((s.job k).elim [] Job.files) ++ (s.reader k).elim [] fun r => [fullFile r.1]

theorem held_goto (s : State) (k : Nat) (j : Option Job) (fs : FS) (hr : s.reader k = none) :
    ({ s with fs := fs }.goto k j).held k = j.elim [] Job.files := by
  simp [State.held, State.goto, hr]

theorem closed_parts (k : Nat) (m : Multipart) (found : List (UInt16 × Bytes)) (f : File) :
    closedBy k f (closeParts k m found) = (partsOf m found).count f := by
  unfold closedBy closeParts partsOf
  induction found with
  | nil => rfl
  | cons p found ih =>
    rw [List.map_cons, List.map_cons, List.count_cons, List.count_cons, ih]
    congr 1
    by_cases h : (m.icc, p.2) = f
    · simp [h]
    · rw [if_neg (by simpa using fun hx => h hx), if_neg (by simpa using h)]

theorem opened_parts (k i : Nat) (m : Multipart) (found : List (UInt16 × Bytes)) (f : File) : openedBy i f (closeParts k m found) = 0 := by
  unfold openedBy closeParts
  rw [List.count_eq_zero]
  simp

theorem closed_parts_other (k i : Nat) (m : Multipart) (found : List (UInt16 × Bytes)) (f : File) (hi : i ≠ k) :
    closedBy i f (closeParts k m found) = 0 := by
  unfold closedBy closeParts
  rw [List.count_eq_zero]
  simp only [List.mem_map, not_exists, not_and, Obs.closed.injEq]
  exact fun _ _ hx => absurd hx.symm hi

theorem opened_append (k : Nat) (f : File) (a b : List Obs) : openedBy k f (a ++ b) = openedBy k f a + openedBy k f b := List.count_append
theorem closed_append (k : Nat) (f : File) (a b : List Obs) : closedBy k f (a ++ b) = closedBy k f a + closedBy k f b := List.count_append
theorem opened_nil (k : Nat) (f : File) : openedBy k f [] = 0 := rfl
theorem closed_nil (k : Nat) (f : File) : closedBy k f [] = 0 := rfl

theorem opened_cons (k : Nat) (f : File) (o : Obs) (l : List Obs) : openedBy k f (o :: l) = openedBy k f l + if o = .opened k f then 1 else 0 := by
  unfold openedBy
  rw [List.count_cons]
  congr 1
  by_cases h : o = .opened k f <;> simp [h]

theorem closed_cons (k : Nat) (f : File) (o : Obs) (l : List Obs) : closedBy k f (o :: l) = closedBy k f l + if o = .closed k f then 1 else 0 := by
  unfold closedBy
  rw [List.count_cons]
  congr 1
  by_cases h : o = .closed k f <;> simp [h]

theorem count_cons' (f g : File) (l : List File) : (g :: l).count f = l.count f + if g = f then 1 else 0 := by
  rw [List.count_cons]
  congr 1
  by_cases h : g = f <;> simp [h]

/-- What a step of goroutine `k` does to the open files. -/
def Balanced (s s' : State) (k : Nat) (l : List Obs) : Prop :=
  (∀ f, openedBy k f l + (s.held k).count f = closedBy k f l + (s'.held k).count f) ∧ ∀ i, i ≠ k → ∀ f, openedBy i f l = 0 ∧ closedBy i f l = 0

theorem walked_balanced {s s' : State} {k : Nat} {m : Multipart} {g : Bool} {found : List (UInt16 × Bytes)} {l : List Obs} (hr : s.reader k = none)
    (hh : s.held k = if g then partsOf m found else []) (h : walked s k m g found = (s', l)) : Balanced s s' k l := by
  unfold walked at h
  cases g with
  | true =>
    rw [if_pos rfl] at h
    cases h
    refine ⟨fun f => ?_, fun _ _ _ => ⟨rfl, rfl⟩⟩
    rw [held_goto s k _ s.fs hr, hh]
    rfl
  | false =>
    rw [if_neg (by simp)] at h
    cases h
    refine ⟨fun f => ?_, fun _ _ _ => ⟨rfl, rfl⟩⟩
    rw [held_goto s k _ s.fs hr, hh]
    rfl

theorem advance_balanced {s s' : State} {k : Nat} {a : Answer} {j : Job} {l : List Obs} (hj : s.job k = some j) (hr : s.reader k = none)
    (h : s.advance k a j = .ok (s', l)) : Balanced s s' k l := by
  have hh : s.held k = j.files := by simp [State.held, hj, hr]
  have same : s = s' ∧ [] = l → Balanced s s' k l := by
    rintro ⟨rfl, rfl⟩
    exact ⟨fun _ => rfl, fun _ _ _ => ⟨rfl, rfl⟩⟩
  have on : ∀ (fs : FS) (j' : Job), { s with fs := fs }.goto k (some j') = s' ∧ [] = l → j'.files = j.files → Balanced s s' k l := by
    rintro fs j' ⟨rfl, rfl⟩ hf
    refine ⟨fun f => ?_, fun _ _ _ => ⟨rfl, rfl⟩⟩
    rw [held_goto s k _ fs hr, hh, Option.elim, hf]
    rfl
  have opens : ∀ (fs : FS) (j' : Job) (g : File), { s with fs := fs }.goto k (some j') = s' ∧ [.opened k g] = l → j'.files = g :: j.files → Balanced s s' k l := by
    rintro fs j' g ⟨rfl, rfl⟩ hf
    refine ⟨fun f => ?_, fun i hi f => ⟨?_, rfl⟩⟩
    · rw [held_goto s k _ fs hr, hh, Option.elim, hf, opened_cons, opened_nil, closed_cons, closed_nil, count_cons']
      simp only [Obs.opened.injEq, true_and, reduceCtorEq, if_false]
      omega
    · rw [opened_cons, opened_nil]
      simp [Ne.symm hi]
  cases j with
  | mkdir m seq data =>
    cases a <;> simp only [State.advance, Res.ok.injEq, Prod.mk.injEq] at h <;> try exact same h
    · exact on _ _ h rfl
    · obtain ⟨rfl, rfl⟩ := h
      refine ⟨fun f => ?_, fun _ _ _ => ⟨rfl, rfl⟩⟩
      rw [held_goto s k _ s.fs hr, hh]; rfl
  | create m seq data =>
    cases a <;> simp only [State.advance, Res.ok.injEq, Prod.mk.injEq] at h <;> try exact same h
    · exact opens _ _ _ h rfl
    · obtain ⟨rfl, rfl⟩ := h
      refine ⟨fun f => ?_, fun _ _ _ => ⟨rfl, rfl⟩⟩
      rw [held_goto s k _ s.fs hr, hh]; rfl
  | put m seq data done =>
    by_cases hd : data.length ≤ done
    · cases a <;> simp only [State.advance, hd, if_true, Res.ok.injEq, Prod.mk.injEq] at h <;> exact on s.fs _ h rfl
    · cases a <;> simp only [State.advance, hd, if_false, Res.ok.injEq, Prod.mk.injEq] at h <;> first | exact same h | exact on _ _ h rfl | exact on s.fs _ h rfl
  | shut m seq data done ok =>
    cases a <;> simp only [State.advance, Res.ok.injEq, Prod.mk.injEq] at h <;> try exact same h
    all_goals
      obtain ⟨rfl, rfl⟩ := h
      refine ⟨fun f => ?_, fun i hi f => ⟨rfl, ?_⟩⟩
      · rw [held_goto s k _ s.fs hr, hh, opened_cons, opened_cons, opened_nil, closed_cons, closed_cons, closed_nil]
        simp only [Job.files, count_cons', Obs.closed.injEq, true_and, reduceCtorEq, if_false, Option.elim, List.count_nil]
        omega
      · rw [closed_cons, closed_cons, closed_nil]
        simp [Ne.symm hi]
  | stat m g =>
    cases a <;> simp only [State.advance, Res.ok.injEq, Prod.mk.injEq, reduceCtorEq] at h <;> try exact same h
    split at h
    · cases h
    · cases h; exact on s.fs _ ⟨rfl, rfl⟩ rfl
  | list m g before =>
    cases a <;> simp only [State.advance, Res.ok.injEq, Prod.mk.injEq] at h <;> try exact same h
    · obtain ⟨rfl, rfl⟩ := h
      obtain ⟨h1, h2⟩ := walked_balanced (s := s) (k := k) (m := m) (g := g) (found := []) hr (by rw [hh]; cases g <;> rfl) rfl
      exact ⟨h1, h2⟩
    · split at h
      · cases h
        exact on s.fs (.visit m g _ []) ⟨rfl, rfl⟩ (by cases g <;> rfl)
      · cases h; exact same ⟨rfl, rfl⟩
  | visit m g todo found =>
    cases todo with
    | nil =>
      simp only [State.advance, Res.ok.injEq] at h
      exact walked_balanced hr hh h
    | cons n todo =>
      cases a <;> simp only [State.advance, Res.ok.injEq, Prod.mk.injEq, reduceCtorEq] at h <;> try exact same h
      split at h
      · cases h; exact on s.fs _ ⟨rfl, rfl⟩ rfl
      · split at h
        · cases h
          rename_i hg
          exact on s.fs _ ⟨rfl, rfl⟩ (by simp [Job.files, hg])
        · cases h
          rename_i hg
          exact on s.fs _ ⟨rfl, rfl⟩ (by simp [Job.files, hg])
  | openPart m seq n todo found =>
    cases a <;> simp only [State.advance, Res.ok.injEq, Prod.mk.injEq] at h <;> try exact same h
    · exact opens s.fs _ _ h rfl
    · obtain ⟨rfl, rfl⟩ := h
      refine ⟨fun f => ?_, fun i hi f => ⟨?_, ?_⟩⟩
      · rw [held_goto s k _ s.fs hr, hh, opened_append, closed_append, closed_parts, opened_parts]
        simp [opened_cons, opened_nil, closed_cons, closed_nil, Job.files]
      · rw [opened_append, opened_parts]; rfl
      · rw [closed_append, closed_parts_other _ _ _ _ _ hi]; rfl
  | createFull m found =>
    cases a <;> simp only [State.advance, Res.ok.injEq, Prod.mk.injEq] at h <;> try exact same h
    · exact opens _ _ _ h rfl
    · obtain ⟨rfl, rfl⟩ := h
      refine ⟨fun f => ?_, fun i hi f => ⟨?_, ?_⟩⟩
      · rw [held_goto s k _ s.fs hr, hh, opened_append, closed_append, closed_parts, opened_parts]
        simp [opened_cons, opened_nil, closed_cons, closed_nil, Job.files]
      · rw [opened_append, opened_parts]; rfl
      · rw [closed_append, closed_parts_other _ _ _ _ _ hi]; rfl
  | copy m found todo pos out =>
    cases todo with
    | nil =>
      simp only [State.advance, Res.ok.injEq, Prod.mk.injEq] at h
      exact on s.fs _ h rfl
    | cons p todo =>
      obtain ⟨seq, n⟩ := p
      cases a <;> simp only [State.advance, Res.ok.injEq, Prod.mk.injEq] at h <;> try exact same h
      · obtain ⟨rfl, rfl⟩ := h
        refine ⟨fun f => ?_, fun i hi f => ⟨?_, ?_⟩⟩
        · rw [held_goto s k _ s.fs hr, hh, List.cons_append, opened_cons, closed_cons, opened_append, closed_append, closed_parts, opened_parts]
          simp [opened_cons, opened_nil, closed_cons, closed_nil, Job.files, count_cons']
        · rw [List.cons_append, opened_cons, opened_append, opened_parts]; rfl
        · rw [List.cons_append, closed_cons, closed_append, closed_parts_other _ _ _ _ _ hi]
          simp [closed_cons, closed_nil, Ne.symm hi]
      · split at h
        · cases h; exact on s.fs _ ⟨rfl, rfl⟩ rfl
        · cases h; exact on _ _ ⟨rfl, rfl⟩ rfl
  | reopen m found out =>
    cases a <;> simp only [State.advance, Res.ok.injEq, Prod.mk.injEq] at h <;> try exact same h
    · obtain ⟨rfl, rfl⟩ := h
      refine ⟨fun f => ?_, fun i hi f => ⟨?_, ?_⟩⟩
      · rw [hh, List.cons_append, List.cons_append, opened_cons, opened_cons, closed_cons, closed_cons, opened_append, closed_append, closed_parts, opened_parts]
        simp [opened_cons, opened_nil, closed_cons, closed_nil, Job.files, count_cons', State.held, State.goto, State.setReader]
        omega
      · rw [List.cons_append, List.cons_append, opened_cons, opened_cons, opened_append, opened_parts]
        simp [opened_cons, opened_nil, Ne.symm hi]
      · rw [List.cons_append, List.cons_append, closed_cons, closed_cons, closed_append, closed_parts_other _ _ _ _ _ hi]
        simp [closed_cons, closed_nil, Ne.symm hi]
    · obtain ⟨rfl, rfl⟩ := h
      refine ⟨fun f => ?_, fun i hi f => ⟨?_, ?_⟩⟩
      · rw [held_goto s k _ s.fs hr, hh, List.cons_append, opened_cons, closed_cons, opened_append, closed_append, closed_parts, opened_parts]
        simp [opened_cons, opened_nil, closed_cons, closed_nil, Job.files, count_cons']
      · rw [List.cons_append, opened_cons, opened_append, opened_parts]; rfl
      · rw [List.cons_append, closed_cons, closed_append, closed_parts_other _ _ _ _ _ hi]
        simp [closed_cons, closed_nil, Ne.symm hi]

/-- What is open is what was opened and not closed. -/
def Open (s : State) (log : List Obs) : Prop := ∀ k f, openedBy k f log = closedBy k f log + (s.held k).count f

theorem Open.step {s s' : State} {log l : List Obs} {ev : Event} (h : Open s log) (hb : Basic s log) (hs : s.step ev = .ok (s', l)) : Open s' (log ++ l) := by
  have same : s = s' ∧ [] = l → Open s' (log ++ l) := by
    rintro ⟨rfl, rfl⟩
    simpa using h
  cases ev with
  | call k c =>
    simp only [State.step] at hs
    split at hs
    · rename_i hj hr
      cases hs
      intro i f
      rw [opened_append, closed_append, h i f]
      have : (s.goto k (some c.start)).held i = s.held i := by
        by_cases hi : i = k
        · subst hi
          simp only [State.held, State.goto, hj, hr, if_true]
          cases c <;> rfl
        · simp [State.held, State.goto, hi]
      rw [this]
      rfl
    · cases hs; exact same ⟨rfl, rfl⟩
  | step k a =>
    simp only [State.step] at hs
    split at hs
    · rename_i j hj
      have hr := hb.one k (by simp [hj])
      obtain ⟨h1, h2⟩ := advance_balanced hj hr hs
      have f := advance_facts hj hr hs
      intro i g
      rw [opened_append, closed_append]
      by_cases hi : i = k
      · subst hi
        have := h1 g
        have := h i g
        omega
      · have e : s'.held i = s.held i := by unfold State.held; rw [f.jobs i hi, f.readers i hi]
        rw [(h2 i hi g).1, (h2 i hi g).2, e]
        exact h i g
    · cases hs; exact same ⟨rfl, rfl⟩
  | read k n =>
    simp only [State.step] at hs
    split at hs
    · rename_i m pos hr
      split at hs
      · cases hs
        intro i f
        rw [opened_append, closed_append, h i f]; rfl
      · cases hs
        intro i f
        rw [opened_append, closed_append, h i f]
        have : (s.setReader k (some (m, pos + (((content s.fs (fullFile m)).getD []).drop pos |>.take (n + 1)).length))).held i = s.held i := by
          by_cases hi : i = k
          · subst hi; simp [State.held, State.setReader, hr]
          · simp [State.held, State.setReader, hi]
        rw [this]
        rfl
    · cases hs; exact same ⟨rfl, rfl⟩
  | release k =>
    simp only [State.step] at hs
    split at hs
    · rename_i m pos hr
      have hj : s.job k = none := Classical.byContradiction fun hx => by rw [hb.one k hx] at hr; cases hr
      cases hs
      intro i f
      rw [opened_append, closed_append, h i f]
      by_cases hi : i = k
      · subst hi
        simp only [State.held, State.setReader, hj, hr, if_true, Option.elim, List.nil_append, opened_cons, opened_nil, closed_cons, closed_nil, count_cons',
          List.count_nil, reduceCtorEq, if_false, Obs.closed.injEq, true_and]
      · have : (s.setReader k none).held i = s.held i := by simp [State.held, State.setReader, hi]
        rw [this]
        simp [opened_cons, opened_nil, closed_cons, closed_nil, Ne.symm hi]
    · cases hs; exact same ⟨rfl, rfl⟩

theorem Open.run {s t : State} {evs : List Event} {log l : List Obs} (h : Open s log) (hb : Basic s log) (hr : s.run evs = .ok (t, l)) : Open t (log ++ l) := by
  induction evs generalizing s log l with
  | nil => rw [State.run] at hr; cases hr; simpa using h
  | cons ev evs ih =>
    obtain ⟨s', l1, l2, h1, h2, rfl⟩ := run_cons hr
    rw [← List.append_assoc]
    exact ih (h.step hb h1) (hb.step h1) h2

/-- An observation comes from one step of the schedule. -/
theorem run_split {s t : State} {evs : List Event} {l l1 l2 : List Obs} {o : Obs} (hr : s.run evs = .ok (t, l)) (h : l = l1 ++ o :: l2) :
    ∃ evs1 ev s1 s2 la r lb, s.run evs1 = .ok (s1, la) ∧ s1.step ev = .ok (s2, r ++ o :: lb) ∧ l1 = la ++ r := by
  induction evs generalizing s l l1 with
  | nil => rw [State.run] at hr; cases hr; simp at h
  | cons ev evs ih =>
    obtain ⟨s', la, lb, h1, h2, rfl⟩ := run_cons hr
    rcases split_append h with ⟨r, hr⟩ | ⟨r, rfl, hr⟩
    · exact ⟨[], ev, s, s', [], l1, r, rfl, by rw [← hr]; exact h1, by simp⟩
    · obtain ⟨evs1, ev', s1, s2, la', r', lb', h3, h4, rfl⟩ := ih h2 hr
      refine ⟨ev :: evs1, ev', s1, s2, la ++ la', r', lb', ?_, h4, by simp⟩
      rw [State.run, h1, Res.ok_bind]
      simp only [h3]
      rfl

/-- While a `Merge` has found all parts, each of them is among the files it has open exactly once. -/
theorem seen_count {L : UInt16 → Option Bytes} {m : Multipart} {found : List (UInt16 × Bytes)} (h : Seen L m [] found) (sq : UInt16) :
    (partsOf m found).count (partFile m sq) = if (L sq).isSome then 1 else 0 := by
  have hnd : (partsOf m found).Nodup := by
    unfold partsOf List.Nodup
    rw [List.pairwise_map]
    refine List.Pairwise.imp_of_mem ?_ h.once
    intro a b ha hb hne heq
    have h1 := (h.got a ha).1
    have h2 := (h.got b hb).1
    have h3 : a.2 = b.2 := (Prod.mk.inj heq).2
    rw [h1, h2] at h3
    exact hne (Multipart.partName_inj h3).2.2
  have hmem : partFile m sq ∈ partsOf m found ↔ (L sq).isSome := by
    unfold partsOf
    rw [List.mem_map]
    constructor
    · rintro ⟨p, hp, heq⟩
      have h1 := h.got p hp
      have h3 : p.2 = m.partName sq := congrArg Prod.snd heq
      rw [h1.1] at h3
      rw [← (Multipart.partName_inj h3).2.2]
      exact h1.2
    · intro hs
      rcases h.all sq hs with h1 | h1
      · simp at h1
      · exact ⟨_, h1, rfl⟩
  by_cases hs : (L sq).isSome
  · rw [if_pos hs]
    exact Nat.le_antisymm (List.nodup_iff_count.1 hnd _) (List.count_pos_iff.2 (hmem.2 hs))
  · rw [if_neg hs]
    exact List.count_eq_zero_of_not_mem fun hx => hs (hmem.1 hx)

theorem partFile_ne_fullFile (m : Multipart) (sq : UInt16) : fullFile m ≠ partFile m sq := fun h =>
  Multipart.partName_ne_fullName _ _ _ (congrArg Prod.snd h).symm

/-- Only `Merge` opens the merged file, with all parts open. -/
theorem opens_full {s s' : State} {log l l1 l2 : List Obs} {k i : Nat} {a : Answer} {j : Job} {m : Multipart} (h : Turn (uploadOf m) s log)
    (hj : s.job i = some j) (hr : s.reader i = none) (hs : s.advance i a j = .ok (s', l)) (hl : l = l1 ++ .opened k (fullFile m) :: l2)
    (hk : k = i) (hc : j.call = .merge m) :
    l1 = [] ∧ ∀ sq, (s.held k).count (partFile m sq) = if (latest (opsOf log) (uploadOf m) sq).isSome then 1 else 0 := by
  subst hk
  have ok := h.jobs k j hj (by rw [hc]; rfl)
  have hh : s.held k = j.files := by simp [State.held, hj, hr]
  have hmem : Obs.opened k (fullFile m) ∈ l := by rw [hl]; simp
  have nil : [] = l → False := by rintro rfl; simp at hmem
  have parts : ∀ m' found, Obs.opened k (fullFile m) ∉ closeParts k m' found := by
    intro m' found ho
    simp only [closeParts, List.mem_map] at ho
    obtain ⟨p, -, hx⟩ := ho
    cases hx
  cases j with
  | mkdir m' seq data => cases hc
  | create m' seq data => cases hc
  | put m' seq data done => cases hc
  | shut m' seq data done b => cases hc
  | stat m' g =>
    cases a <;> simp only [State.advance, Res.ok.injEq, Prod.mk.injEq, reduceCtorEq] at hs <;> try exact (nil hs.2).elim
    split at hs
    · cases hs
    · cases hs; exact (nil rfl).elim
  | list m' g before =>
    cases a <;> simp only [State.advance, Res.ok.injEq, Prod.mk.injEq] at hs <;> try exact (nil hs.2).elim
    · obtain ⟨-, rfl⟩ := hs
      unfold walked at hmem
      cases g <;> simp at hmem
    · split at hs <;> cases hs <;> exact (nil rfl).elim
  | visit m' g todo found =>
    cases todo with
    | nil =>
      simp only [State.advance, Res.ok.injEq] at hs
      unfold walked at hs
      cases g with
      | true => cases hs; exact (nil rfl).elim
      | false => cases hs; simp at hmem
    | cons n todo =>
      cases a <;> simp only [State.advance, Res.ok.injEq, Prod.mk.injEq, reduceCtorEq] at hs <;> try exact (nil hs.2).elim
      split at hs
      · cases hs; exact (nil rfl).elim
      · split at hs <;> cases hs <;> exact (nil rfl).elim
  | openPart m' seq n todo found =>
    cases hc
    cases a <;> simp only [State.advance, Res.ok.injEq, Prod.mk.injEq] at hs <;> try exact (nil hs.2).elim
    · obtain ⟨-, rfl⟩ := hs
      simp only [List.mem_singleton, Obs.opened.injEq, true_and] at hmem
      have hn : m.fullName = n := congrArg Prod.snd hmem
      have := ok.2
      rw [← hn, Multipart.partSeq_fullName] at this
      cases this
    · obtain ⟨-, rfl⟩ := hs
      rcases List.mem_append.1 hmem with hmem | hmem
      · exact absurd hmem (parts _ _)
      · simp at hmem
  | createFull m' found =>
    cases hc
    cases a <;> simp only [State.advance, Res.ok.injEq, Prod.mk.injEq] at hs <;> try exact (nil hs.2).elim
    · obtain ⟨-, rfl⟩ := hs
      refine ⟨(split_singleton hl).1, fun sq => ?_⟩
      rw [hh]
      exact seen_count ok sq
    · obtain ⟨-, rfl⟩ := hs
      rcases List.mem_append.1 hmem with hmem | hmem
      · exact absurd hmem (parts _ _)
      · simp at hmem
  | copy m' found todo pos out =>
    cases hc
    cases todo with
    | nil =>
      simp only [State.advance, Res.ok.injEq, Prod.mk.injEq] at hs
      exact (nil hs.2).elim
    | cons p todo =>
      obtain ⟨seq, n⟩ := p
      cases a <;> simp only [State.advance, Res.ok.injEq, Prod.mk.injEq] at hs <;> try exact (nil hs.2).elim
      · obtain ⟨-, rfl⟩ := hs
        rcases List.mem_append.1 hmem with hmem | hmem
        · rcases List.mem_cons.1 hmem with hx | hmem
          · cases hx
          · exact absurd hmem (parts _ _)
        · simp at hmem
      · split at hs <;> cases hs <;> exact (nil rfl).elim
  | reopen m' found out =>
    cases hc
    cases a <;> simp only [State.advance, Res.ok.injEq, Prod.mk.injEq] at hs <;> try exact (nil hs.2).elim
    · obtain ⟨-, rfl⟩ := hs
      constructor
      · cases l1 with
        | nil => rfl
        | cons x l1 =>
          rw [List.cons_append, List.cons_append, List.cons_append, List.cons.injEq] at hl
          have hm : Obs.opened k (fullFile m) ∈ .closed k (fullFile m) :: (closeParts k m found ++ [.merged k m .ok]) := by rw [hl.2]; simp
          rcases List.mem_cons.1 hm with hx | hm
          · cases hx
          · rcases List.mem_append.1 hm with hm | hm
            · exact absurd hm (parts _ _)
            · simp at hm
      · intro sq
        rw [hh]
        simp only [Job.files, count_cons', if_neg (partFile_ne_fullFile m sq), Nat.add_zero]
        exact seen_count ok.1 sq
    · obtain ⟨-, rfl⟩ := hs
      rcases List.mem_append.1 hmem with hmem | hmem
      · rcases List.mem_cons.1 hmem with hx | hmem
        · cases hx
        · exact absurd hmem (parts _ _)
      · simp at hmem

/-- The directory of the terminal has been made. -/
def Past : Job → Prop
  | .create _ _ _ | .put _ _ _ _ | .shut _ _ _ _ _ => True
  | _ => False

/-- Directories exist when the completed calls say so. -/
structure Dirs (s : State) (log : List Obs) : Prop where
  past : ∀ k j, s.job k = some j → Past j → s.fs (callUpload j.call).icc ≠ none
  has : ∀ icc, hasDir (opsOf log) icc → s.fs icc ≠ none

theorem store_dir (fs : FS) (f : File) (x : Bytes) (icc : UInt64) (h : fs icc ≠ none) : store fs f x icc ≠ none := by
  unfold store FS.set
  split
  · simp
  · exact h

theorem effect_dir {fs fs' : FS} {c : Call} (h : Effect fs fs' c) (icc : UInt64) (hi : fs icc ≠ none) : fs' icc ≠ none := by
  rcases h with rfl | ⟨m, sq, d, rfl, rfl | ⟨x, rfl⟩⟩ | ⟨m, x, rfl, rfl⟩
  · exact hi
  · unfold FS.set
    split
    · simp
    · exact hi
  · exact store_dir _ _ _ _ hi
  · exact store_dir _ _ _ _ hi

theorem advance_past {s s' : State} {k : Nat} {a : Answer} {j : Job} {l : List Obs} (hj : s.job k = some j)
    (hp : Past j → s.fs (callUpload j.call).icc ≠ none) (h : s.advance k a j = .ok (s', l)) (f : Facts s s' k j.call l) :
    (∀ j', s'.job k = some j' → Past j' → s'.fs (callUpload j'.call).icc ≠ none) ∧
      ∀ u sq d o, FileOp.write u sq d o ∈ opsOf l → o ≠ .noDir → s'.fs u.icc ≠ none := by
  -- a job past the directory, of a step that was past it already
  have main : Past j → (∀ j', s'.job k = some j' → Past j' → s'.fs (callUpload j'.call).icc ≠ none) ∧
      ∀ u sq d o, FileOp.write u sq d o ∈ opsOf l → o ≠ .noDir → s'.fs u.icc ≠ none := by
    intro hpj
    have hi := effect_dir f.effect _ (hp hpj)
    constructor
    · intro j' hj' _
      have hd : s'.doing k = some j'.call := by simp [State.doing, hj']
      rcases f.goesOn with h1 | h1
      · rw [h1] at hd; cases hd
      · rw [h1] at hd; rw [← Option.some.inj hd]; exact hi
    · intro u sq d o hop _
      rcases f.ops _ hop with ⟨m, s1, d1, o1, h1, h2⟩ | ⟨m, o1, h1, h2⟩
      · cases h2; rw [h1] at hi; exact hi
      · cases h2
  -- a step of a call that is not a `Write`
  have walk : (∀ m sq d, j.call ≠ .write m sq d) → (∀ j', s'.job k = some j' → Past j' → s'.fs (callUpload j'.call).icc ≠ none) ∧
      ∀ u sq d o, FileOp.write u sq d o ∈ opsOf l → o ≠ .noDir → s'.fs u.icc ≠ none := by
    intro hw
    constructor
    · intro j' hj' hpast
      have hd : s'.doing k = some j'.call := by simp [State.doing, hj']
      rcases f.goesOn with h1 | h1
      · rw [h1] at hd; cases hd
      · rw [h1] at hd
        have := Option.some.inj hd
        cases j' <;> simp only [Past] at hpast <;> exact absurd this (hw _ _ _)
    · intro u sq d o hop _
      rcases f.ops _ hop with ⟨m, s1, d1, o1, h1, h2⟩ | ⟨m, o1, h1, h2⟩
      · exact absurd h1 (hw _ _ _)
      · cases h2
  cases j with
  | mkdir m seq data =>
    cases a <;> simp only [State.advance, Res.ok.injEq, Prod.mk.injEq] at h
    · obtain ⟨rfl, rfl⟩ := h
      constructor
      · intro j' hj' _
        rw [goto_job_self] at hj'
        cases hj'
        simp [State.goto, FS.set, Job.call, callUpload, uploadOf]
      · intro u sq d o hop
        simp [opsOf] at hop
    · obtain ⟨rfl, rfl⟩ := h
      constructor
      · intro j' hj' _
        rw [goto_job_self] at hj'
        cases hj'
      · intro u sq d o hop ho
        simp [opsOf, opOf] at hop
        exact absurd hop.2.2.2 ho
    all_goals
      obtain ⟨rfl, rfl⟩ := h
      constructor
      · intro j' hj' hpast
        rw [hj] at hj'; cases hj'; exact hpast.elim
      · intro u sq d o hop
        simp [opsOf] at hop
  | create m seq data => exact main trivial
  | put m seq data done => exact main trivial
  | shut m seq data done b => exact main trivial
  | stat m g => exact walk (by cases g <;> simp [Job.call])
  | list m g before => exact walk (by cases g <;> simp [Job.call])
  | visit m g todo found => exact walk (by cases g <;> simp [Job.call])
  | openPart m seq n todo found => exact walk (by simp [Job.call])
  | createFull m found => exact walk (by simp [Job.call])
  | copy m found todo pos out => exact walk (by simp [Job.call])
  | reopen m found out => exact walk (by simp [Job.call])

theorem Dirs.step {s s' : State} {log l : List Obs} {ev : Event} (h : Dirs s log) (hb : Basic s log) (hs : s.step ev = .ok (s', l)) : Dirs s' (log ++ l) := by
  have quiet : s'.fs = s.fs → opsOf l = [] → (∀ k j, s'.job k = some j → Past j → s.job k = some j) → Dirs s' (log ++ l) := by
    intro hfs hops hjobs
    refine ⟨?_, ?_⟩
    · intro k j hj hp
      rw [hfs]; exact h.past k j (hjobs k j hj hp) hp
    · intro icc hd
      rw [opsOf_append, hops, List.append_nil] at hd
      rw [hfs]; exact h.has icc hd
  cases ev with
  | call k c =>
    simp only [State.step] at hs
    split at hs
    · cases hs
      refine quiet rfl rfl ?_
      intro i j hj hp
      by_cases hi : i = k
      · subst hi
        rw [goto_job_self] at hj
        cases hj
        cases c <;> exact hp.elim
      · rw [goto_job_other _ _ _ _ hi] at hj; exact hj
    · cases hs; exact quiet rfl rfl fun _ _ hj _ => hj
  | step k a =>
    simp only [State.step] at hs
    split at hs
    · rename_i j hj
      have f := advance_facts hj (hb.one k (by simp [hj])) hs
      obtain ⟨h1, h2⟩ := advance_past hj (h.past k j hj) hs f
      refine ⟨?_, ?_⟩
      · intro i ji hji hp
        by_cases hi : i = k
        · subst hi; exact h1 ji hji hp
        · rw [f.jobs i hi] at hji
          exact effect_dir f.effect _ (h.past i ji hji hp)
      · rintro icc ⟨op, hop, rfl, u, sq, d, o, rfl, ho⟩
        rw [opsOf_append] at hop
        rcases List.mem_append.1 hop with hop | hop
        · exact effect_dir f.effect _ (h.has _ ⟨_, hop, rfl, u, sq, d, o, rfl, ho⟩)
        · exact h2 u sq d o hop ho
    · cases hs; exact quiet rfl rfl fun _ _ hj _ => hj
  | read k n =>
    simp only [State.step] at hs
    split at hs
    · split at hs <;> cases hs <;> exact quiet rfl rfl fun _ _ hj _ => hj
    · cases hs; exact quiet rfl rfl fun _ _ hj _ => hj
  | release k =>
    simp only [State.step] at hs
    split at hs <;> cases hs <;> exact quiet rfl rfl fun _ _ hj _ => hj

theorem Dirs.run {s t : State} {evs : List Event} {log l : List Obs} (h : Dirs s log) (hb : Basic s log) (hr : s.run evs = .ok (t, l)) : Dirs t (log ++ l) := by
  induction evs generalizing s log l with
  | nil => rw [State.run] at hr; cases hr; simpa using h
  | cons ev evs ih =>
    obtain ⟨s', l1, l2, h1, h2, rfl⟩ := run_cons hr
    rw [← List.append_assoc]
    exact ih (h.step hb h1) (hb.step h1) h2

theorem dirs_empty : Dirs {} [] := ⟨fun _ _ h => (by cases h), fun _ ⟨_, h, _⟩ => (by simp [opsOf] at h)⟩

theorem open_empty : Open {} [] := fun _ _ => rfl

end Verif.Files
