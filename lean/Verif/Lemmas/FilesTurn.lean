import Verif.Lemmas.Files
/-! # Overlapping file operations: the invariant for one upload -/

namespace Verif.Files

open Spec

/-- The content of a part of an upload. -/
def part (fs : FS) (u : Upload) (sq : UInt16) : Option Bytes := content fs (u.icc, u.partName sq)

/-- The content of the merged file of an upload. -/
def full (fs : FS) (u : Upload) : Option Bytes := content fs (u.icc, (u.multipart 0).fullName)

theorem partFile_eq {m : Multipart} {u : Upload} {sq sq' : UInt16} (h : partFile m sq = (u.icc, u.partName sq')) : uploadOf m = u ∧ sq = sq' := by
  have h1 : m.icc = u.icc := congrArg Prod.fst h
  have h2 : m.partName sq = (u.multipart 0).partName sq' := congrArg Prod.snd h
  obtain ⟨a, b, c⟩ := Multipart.partName_inj h2
  exact ⟨upload_ext h1 a b, c⟩

theorem fullFile_eq {m : Multipart} {u : Upload} (h : fullFile m = (u.icc, (u.multipart 0).fullName)) : uploadOf m = u := by
  have h1 : m.icc = u.icc := congrArg Prod.fst h
  have h2 : m.fullName = (u.multipart 0).fullName := congrArg Prod.snd h
  obtain ⟨a, b⟩ := Multipart.fullName_inj h2
  exact upload_ext h1 a b

theorem effect_parts {fs fs' : FS} {c : Call} (h : Effect fs fs' c) (u : Upload) (sq : UInt16) (hne : part fs' u sq ≠ part fs u sq) :
    ∃ m d, c = .write m sq d ∧ uploadOf m = u := by
  rcases h with rfl | ⟨m, s, d, rfl, rfl | ⟨x, rfl⟩⟩ | ⟨m, x, rfl, rfl⟩
  · exact absurd rfl hne
  · exact absurd (content_mkdir _ _ _) hne
  · unfold part at hne
    rw [content_store] at hne
    split at hne
    · rename_i heq
      obtain ⟨h1, rfl⟩ := partFile_eq heq.symm
      exact ⟨m, d, rfl, h1⟩
    · exact absurd rfl hne
  · unfold part at hne
    rw [content_store, if_neg] at hne
    · exact absurd rfl hne
    · intro heq
      exact Multipart.partName_ne_fullName _ _ _ (congrArg Prod.snd heq)

theorem effect_full {fs fs' : FS} {c : Call} (h : Effect fs fs' c) (u : Upload) (hne : full fs' u ≠ full fs u) : ∃ m, c = .merge m ∧ uploadOf m = u := by
  rcases h with rfl | ⟨m, s, d, rfl, rfl | ⟨x, rfl⟩⟩ | ⟨m, x, rfl, rfl⟩
  · exact absurd rfl hne
  · exact absurd (content_mkdir _ _ _) hne
  · unfold full at hne
    rw [content_store, if_neg] at hne
    · exact absurd rfl hne
    · intro heq
      exact Multipart.partName_ne_fullName _ _ _ (congrArg Prod.snd heq).symm
  · unfold full at hne
    rw [content_store] at hne
    split at hne
    · rename_i heq
      exact ⟨m, rfl, fullFile_eq heq.symm⟩
    · exact absurd rfl hne

theorem opsOf_append (a b : List Obs) : opsOf (a ++ b) = opsOf a ++ opsOf b := List.filterMap_append

theorem ops_latest {log l : List Obs} {c : Call} (h : ∀ op ∈ opsOf l, OpFor c op) (u : Upload) (sq : UInt16)
    (hne : latest (opsOf (log ++ l)) u sq ≠ latest (opsOf log) u sq) : ∃ m d, c = .write m sq d ∧ uploadOf m = u := by
  unfold latest at hne
  rw [opsOf_append, List.reverse_append, latestIn_append] at hne
  cases hx : latestIn u sq (opsOf l).reverse with
  | none => rw [hx] at hne; exact absurd rfl hne
  | some x =>
    obtain ⟨d, o, hm, -⟩ := latestIn_mem hx
    rcases h _ (List.mem_reverse.1 hm) with ⟨m, s, d', o', h1, h2⟩ | ⟨m, o', h1, h2⟩
    · cases h2
      exact ⟨m, d, h1, rfl⟩
    · cases h2

theorem ops_merged {log l : List Obs} {c : Call} (h : ∀ op ∈ opsOf l, OpFor c op) (u : Upload)
    (hne : merged (opsOf (log ++ l)) u ≠ merged (opsOf log) u) : ∃ m, c = .merge m ∧ uploadOf m = u := by
  apply Classical.byContradiction
  intro hno
  apply hne
  unfold merged
  rw [opsOf_append, List.reverse_append, mergedIn_append]
  intro o hm
  rcases h _ (List.mem_reverse.1 hm) with ⟨m, s, d', o', h1, h2⟩ | ⟨m, o', h1, h2⟩
  · cases h2
  · cases h2
    exact hno ⟨m, h1, rfl⟩

/-- The job is writing to the file of the part. -/
def Writing (u : Upload) (sq : UInt16) : Job → Prop
  | .put m s _ _ => uploadOf m = u ∧ s = sq
  | .shut m s _ _ _ => uploadOf m = u ∧ s = sq
  | _ => False

/-- The job is writing to the merged file. -/
def Merging (u : Upload) : Job → Prop
  | .copy m _ _ _ _ => uploadOf m = u
  | .reopen m _ _ => uploadOf m = u
  | _ => False

theorem Writing.call {u : Upload} {sq : UInt16} {j : Job} (h : Writing u sq j) : ∃ m d, j.call = .write m sq d ∧ uploadOf m = u := by
  cases j <;> simp only [Writing] at h
  · obtain ⟨h1, rfl⟩ := h; exact ⟨_, _, rfl, h1⟩
  · obtain ⟨h1, rfl⟩ := h; exact ⟨_, _, rfl, h1⟩

theorem Merging.call {u : Upload} {j : Job} (h : Merging u j) : ∃ m, j.call = .merge m ∧ uploadOf m = u := by
  cases j <;> simp only [Merging] at h
  · exact ⟨_, rfl, h⟩
  · exact ⟨_, rfl, h⟩

/-- The walk has still to visit `todo` and has found `found`. -/
structure Seen (L : UInt16 → Option Bytes) (m : Multipart) (todo : List Bytes) (found : List (UInt16 × Bytes)) : Prop where
  left : ∀ n ∈ todo, ∀ sq, m.partSeq n = some sq → n = m.partName sq ∧ (L sq).isSome
  got : ∀ p ∈ found, p.2 = m.partName p.1 ∧ (L p.1).isSome
  all : ∀ sq, (L sq).isSome → m.partName sq ∈ todo ∨ (sq, m.partName sq) ∈ found
  nodup : todo.Nodup
  fresh : ∀ p ∈ found, p.2 ∉ todo
  once : found.Pairwise fun a b => a.1 ≠ b.1

/-- What `Merge` leaves after the bytes `new` were written over the old content. -/
def over (M : Option Bytes) (new : Bytes) : Bytes := new ++ (M.getD []).drop new.length

/-- Where a job for the upload is, in terms of the files and the completed calls. -/
def JobOK (P L : UInt16 → Option Bytes) (F M : Option Bytes) : Job → Prop
  | .put _ seq data done => P seq = some (data.take done) ∧ done ≤ data.length
  | .shut _ seq data done ok => P seq = some (data.take done) ∧ done ≤ data.length ∧ (ok = true → done = data.length)
  | .list m _ before => ∀ sq, (L sq).isSome → m.partName sq ∈ before
  | .visit m _ todo found => Seen L m todo found
  | .openPart m seq n todo found => Seen L m (n :: todo) found ∧ m.partSeq n = some seq
  | .createFull m found => Seen L m [] found
  | .copy m found todo pos out => Seen L m [] found ∧ F = some (over M ((joined L 0 65536).take out)) ∧
      ∃ pre, inOrder found = pre ++ todo ∧ (todo = [] → pos = 0) ∧ (∀ p t, todo = p :: t → pos ≤ ((L p.1).getD []).length) ∧
        out = (pre.flatMap fun p => (L p.1).getD []).length + pos
  | .reopen m found out => Seen L m [] found ∧ F = some (over M (joined L 0 65536)) ∧ out = (joined L 0 65536).length
  | _ => True

theorem seen_joined {L : UInt16 → Option Bytes} {m : Multipart} {found : List (UInt16 × Bytes)} (h : Seen L m [] found) :
    (inOrder found).flatMap (fun p => (L p.1).getD []) = joined L 0 65536 := by
  have hs := sorted_sortParts found h.once
  have := sorted_join L 65536 0 ((inOrder found).map fun p => (p.1, (L p.1).getD [])) (by omega) ?_ ?_ ?_
  · rw [← this, List.flatMap_map]
  · rw [List.pairwise_map]
    exact hs
  · intro p _
    have := p.1.toNat_lt
    omega
  · intro s _ _ c
    simp only [List.mem_map, Prod.mk.injEq]
    constructor
    · rintro ⟨p, hp, rfl, rfl⟩
      have := (h.got p ((mem_sortParts _ _).1 hp)).2
      obtain ⟨c, hc⟩ := Option.isSome_iff_exists.1 this
      rw [hc]; rfl
    · intro hc
      rcases h.all s (by rw [hc]; rfl) with h1 | h1
      · simp at h1
      · exact ⟨_, (mem_sortParts _ _).2 h1, rfl, by rw [hc]; rfl⟩

/-- What holds of every state. -/
structure Basic (s : State) (log : List Obs) : Prop where
  prog : ∀ k, inProgress k log = s.doing k
  one : ∀ k, s.job k ≠ none → s.reader k = none
  nodup : ∀ icc, (names s.fs icc).Nodup
  named : ∀ icc n, n ∈ names s.fs icc → ∃ v : Upload, v.icc = icc ∧ ((∃ sq, n = v.partName sq) ∨ n = (v.multipart 0).fullName)

theorem effect_names {fs fs' : FS} {c : Call} (h : Effect fs fs' c) (hn : ∀ icc, (names fs icc).Nodup)
    (hw : ∀ icc n, n ∈ names fs icc → ∃ v : Upload, v.icc = icc ∧ ((∃ sq, n = v.partName sq) ∨ n = (v.multipart 0).fullName)) :
    (∀ icc, (names fs' icc).Nodup) ∧
      ∀ icc n, n ∈ names fs' icc → ∃ v : Upload, v.icc = icc ∧ ((∃ sq, n = v.partName sq) ∨ n = (v.multipart 0).fullName) := by
  have main : ∀ (f : File) (x : Bytes), (∃ v : Upload, v.icc = f.1 ∧ ((∃ sq, f.2 = v.partName sq) ∨ f.2 = (v.multipart 0).fullName)) → fs' = store fs f x →
      (∀ icc, (names fs' icc).Nodup) ∧
      ∀ icc n, n ∈ names fs' icc → ∃ v : Upload, v.icc = icc ∧ ((∃ sq, n = v.partName sq) ∨ n = (v.multipart 0).fullName) := by
    rintro f x hf rfl
    constructor
    · intro icc
      rw [names_store]
      split
      · split
        · exact hn icc
        · rename_i hi hx
          rw [List.nodup_append]
          refine ⟨hn icc, by simp, ?_⟩
          intro a ha b hb
          simp at hb
          subst hb
          rintro rfl
          exact hx ha
      · exact hn icc
    · intro icc n hm
      rw [names_store] at hm
      split at hm
      · split at hm
        · exact hw icc n hm
        · rename_i hi hx
          rw [List.mem_append, List.mem_singleton] at hm
          rcases hm with hm | rfl
          · exact hw icc n hm
          · rw [hi]; exact hf
      · exact hw icc n hm
  rcases h with rfl | ⟨m, s, d, rfl, rfl | ⟨x, rfl⟩⟩ | ⟨m, x, rfl, rfl⟩
  · exact ⟨hn, hw⟩
  · constructor
    · intro icc; rw [names_mkdir]; exact hn icc
    · intro icc n hm; rw [names_mkdir] at hm; exact hw icc n hm
  · exact main _ x ⟨uploadOf m, rfl, .inl ⟨s, rfl⟩⟩ rfl
  · exact main _ x ⟨uploadOf m, rfl, .inr rfl⟩ rfl

theorem inProgress_append (k : Nat) (a b : List Obs) : inProgress k (a ++ b) = b.foldl (progress k) (inProgress k a) := List.foldl_append

theorem heard_append (k : Nat) (a b : List Obs) : heard k (a ++ b) = b.foldl (hear k) (heard k a) := List.foldl_append

theorem doing_other {s s' : State} {i : Nat} (hj : s'.job i = s.job i) (hr : s'.reader i = s.reader i) : s'.doing i = s.doing i := by
  unfold State.doing; rw [hj, hr]

theorem Basic.facts {s s' : State} {log l : List Obs} {k : Nat} {c : Call} (h : Basic s log) (hd : s.doing k = some c) (f : Facts s s' k c l) :
    Basic s' (log ++ l) := by
  obtain ⟨hn, hw⟩ := effect_names f.effect h.nodup h.named
  refine ⟨?_, ?_, hn, hw⟩
  · intro i
    rw [inProgress_append, h.prog]
    by_cases hi : i = k
    · subst hi; rw [hd, f.now]
    · rw [f.still i hi, doing_other (f.jobs i hi) (f.readers i hi)]
  · intro i hji
    by_cases hi : i = k
    · subst hi; exact f.one hji
    · rw [f.readers i hi]; rw [f.jobs i hi] at hji; exact h.one i hji

theorem Basic.step {s s' : State} {log l : List Obs} {ev : Event} (h : Basic s log) (hs : s.step ev = .ok (s', l)) : Basic s' (log ++ l) := by
  cases ev with
  | call k c =>
    simp only [State.step] at hs
    split at hs
    · rename_i hj hr
      cases hs
      refine ⟨?_, ?_, h.nodup, h.named⟩
      · intro i
        rw [inProgress_append, h.prog]
        by_cases hi : i = k
        · subst hi; simp [progress, State.doing, State.goto, start_call]
        · simp [progress, State.doing, State.goto, hi, Ne.symm hi]
      · intro i hji
        by_cases hi : i = k
        · subst hi; exact hr
        · exact h.one i (by simpa [State.goto, hi] using hji)
    · cases hs; simpa using h
  | step k a =>
    simp only [State.step] at hs
    split at hs
    · rename_i j hj
      exact h.facts (by simp [State.doing, hj]) (advance_facts hj (h.one k (by simp [hj])) hs)
    · cases hs; simpa using h
  | read k n =>
    simp only [State.step] at hs
    split at hs
    · rename_i m pos hr
      have hj : s.job k = none := Classical.byContradiction fun hx => by rw [h.one k hx] at hr; cases hr
      split at hs
      · cases hs
        exact ⟨fun i => by rw [inProgress_append, h.prog]; rfl, h.one, h.nodup, h.named⟩
      · cases hs
        refine ⟨?_, ?_, h.nodup, h.named⟩
        · intro i
          rw [inProgress_append, h.prog]
          by_cases hi : i = k
          · subst hi; simp [progress, State.doing, State.setReader, hj, hr]
          · simp [progress, State.doing, State.setReader, hi]
        · intro i hji
          by_cases hi : i = k
          · subst hi; exact absurd hj hji
          · simpa [State.setReader, hi] using h.one i hji
    · cases hs; simpa using h
  | release k =>
    simp only [State.step] at hs
    split at hs
    · rename_i m pos hr
      have hj : s.job k = none := Classical.byContradiction fun hx => by rw [h.one k hx] at hr; cases hr
      cases hs
      refine ⟨?_, ?_, h.nodup, h.named⟩
      · intro i
        rw [inProgress_append, h.prog]
        by_cases hi : i = k
        · subst hi; simp [progress, State.doing, State.setReader, hj]
        · simp [progress, State.doing, State.setReader, hi, Ne.symm hi]
      · intro i hji
        by_cases hi : i = k
        · subst hi; exact absurd hj hji
        · simpa [State.setReader, hi] using h.one i hji
    · cases hs; simpa using h

/-- What holds of the files of one upload, if calls for it began in turn and the directory could be read. -/
structure Turn (u : Upload) (s : State) (log : List Obs) : Prop where
  excl : ∀ k k' c c', k ≠ k' → s.doing k = some c → s.doing k' = some c' → callUpload c = u → callUpload c' = u → ¬ Conflict c c'
  parts : ∀ sq, (∀ k j, s.job k = some j → ¬ Writing u sq j) → part s.fs u sq = latest (opsOf log) u sq
  whole : (∀ k j, s.job k = some j → ¬ Merging u j) → full s.fs u = merged (opsOf log) u
  jobs : ∀ k j, s.job k = some j → callUpload j.call = u →
    JobOK (part s.fs u) (latest (opsOf log) u) (full s.fs u) (merged (opsOf log) u) j
  readers : ∀ k m pos, s.reader k = some (m, pos) → uploadOf m = u → ∃ c, full s.fs u = some c ∧ heard k log = c.take pos ∧ pos ≤ c.length

theorem Turn.update {u : Upload} {s s' : State} {log l : List Obs} {k : Nat} (h : Turn u s log) (hone : ∀ i, s.job i ≠ none → s.reader i = none)
    (hjobs : ∀ i, i ≠ k → s'.job i = s.job i) (hreaders : ∀ i, i ≠ k → s'.reader i = s.reader i)
    (hdo : ∀ c, s'.doing k = some c → callUpload c = u → ∀ i, i ≠ k → ∀ c', s.doing i = some c' → callUpload c' = u → ¬ Conflict c c' ∧ ¬ Conflict c' c)
    (hP : ∀ sq, part s'.fs u sq ≠ part s.fs u sq ∨ latest (opsOf (log ++ l)) u sq ≠ latest (opsOf log) u sq →
      ∃ m d, s.doing k = some (.write m sq d) ∧ uploadOf m = u)
    (hF : Files.full s'.fs u ≠ Files.full s.fs u ∨ merged (opsOf (log ++ l)) u ≠ merged (opsOf log) u → ∃ m, s.doing k = some (.merge m) ∧ uploadOf m = u)
    (hjob : ∀ j, s'.job k = some j → callUpload j.call = u →
      JobOK (part s'.fs u) (latest (opsOf (log ++ l)) u) (Files.full s'.fs u) (merged (opsOf (log ++ l)) u) j)
    (hparts : ∀ sq, (∀ i j, i ≠ k → s.job i = some j → ¬ Writing u sq j) → (∀ j, s'.job k = some j → ¬ Writing u sq j) →
      part s'.fs u sq = latest (opsOf (log ++ l)) u sq)
    (hfull : (∀ i j, i ≠ k → s.job i = some j → ¬ Merging u j) → (∀ j, s'.job k = some j → ¬ Merging u j) →
      Files.full s'.fs u = merged (opsOf (log ++ l)) u)
    (hreader : ∀ m pos, s'.reader k = some (m, pos) → uploadOf m = u →
      ∃ c, Files.full s'.fs u = some c ∧ heard k (log ++ l) = c.take pos ∧ pos ≤ c.length)
    (hheard : ∀ i, i ≠ k → heard i (log ++ l) = heard i log) : Turn u s' (log ++ l) := by
  have hdoing : ∀ i, i ≠ k → s'.doing i = s.doing i := fun i hi => doing_other (hjobs i hi) (hreaders i hi)
  -- what a goroutine that is not writing, or writing another part, relies on is unchanged
  have keepP : ∀ i c, i ≠ k → s.doing i = some c → callUpload c = u → ∀ sq, Conflict c (.write ⟨u.icc, u.msgID, u.tag, 0⟩ sq []) →
      part s'.fs u sq = part s.fs u sq ∧ latest (opsOf (log ++ l)) u sq = latest (opsOf log) u sq := by
    intro i c hi hc hu sq hcon
    apply Classical.byContradiction
    intro hx
    obtain ⟨m, d, h1, h2⟩ := hP sq (by
      by_cases hy : part s'.fs u sq = part s.fs u sq
      · right; exact fun hz => hx ⟨hy, hz⟩
      · exact .inl hy)
    apply h.excl i k c _ hi hc h1 hu h2
    cases c <;> simpa [Conflict] using hcon
  have keepF : ∀ i c, i ≠ k → s.doing i = some c → callUpload c = u → Conflict c (.merge ⟨u.icc, u.msgID, u.tag, 0⟩) →
      Files.full s'.fs u = Files.full s.fs u ∧ merged (opsOf (log ++ l)) u = merged (opsOf log) u := by
    intro i c hi hc hu hcon
    apply Classical.byContradiction
    intro hx
    obtain ⟨m, h1, h2⟩ := hF (by
      by_cases hy : Files.full s'.fs u = Files.full s.fs u
      · right; exact fun hz => hx ⟨hy, hz⟩
      · exact .inl hy)
    apply h.excl i k c _ hi hc h1 hu h2
    cases c <;> simp [Conflict]
  refine ⟨?_, ?_, ?_, ?_, ?_⟩
  · intro i i' c c' hne h1 h2 hu hu'
    by_cases hi : i = k
    · subst hi
      rw [hdoing i' (Ne.symm hne)] at h2
      exact (hdo c h1 hu i' (Ne.symm hne) c' h2 hu').1
    · rw [hdoing i hi] at h1
      by_cases hi' : i' = k
      · subst hi'
        exact (hdo c' h2 hu' i hi c h1 hu).2
      · rw [hdoing i' hi'] at h2
        exact h.excl i i' c c' hne h1 h2 hu hu'
  · intro sq hno
    refine hparts sq ?_ (fun j hj => hno k j hj)
    intro i j hi hj
    exact hno i j (by rw [hjobs i hi]; exact hj)
  · intro hno
    refine hfull ?_ (fun j hj => hno k j hj)
    intro i j hi hj
    exact hno i j (by rw [hjobs i hi]; exact hj)
  · intro i j hj hu
    by_cases hi : i = k
    · subst hi; exact hjob j hj hu
    · rw [hjobs i hi] at hj
      have old := h.jobs i j hj hu
      have hc : s.doing i = some j.call := by simp [State.doing, hj]
      have eqP : ∀ sq, Conflict j.call (.write ⟨u.icc, u.msgID, u.tag, 0⟩ sq []) → _ := keepP i j.call hi hc hu
      have eqF : Conflict j.call (.merge ⟨u.icc, u.msgID, u.tag, 0⟩) → _ := keepF i j.call hi hc hu
      have eqL : (∀ sq, Conflict j.call (.write ⟨u.icc, u.msgID, u.tag, 0⟩ sq [])) → latest (opsOf (log ++ l)) u = latest (opsOf log) u :=
        fun hcon => funext fun sq => (eqP sq (hcon sq)).2
      cases j with
      | mkdir m seq data => trivial
      | create m seq data => trivial
      | put m seq data done =>
        simp only [JobOK] at old ⊢
        rw [(eqP seq (by simp [Job.call, Conflict])).1]; exact old
      | shut m seq data done ok =>
        simp only [JobOK] at old ⊢
        rw [(eqP seq (by simp [Job.call, Conflict])).1]; exact old
      | stat m g => trivial
      | list m g before =>
        simp only [JobOK] at old ⊢
        rw [eqL (by intro sq; cases g <;> simp [Job.call, Conflict])]; exact old
      | visit m g todo found =>
        simp only [JobOK] at old ⊢
        rw [eqL (by intro sq; cases g <;> simp [Job.call, Conflict])]; exact old
      | openPart m seq n todo found =>
        simp only [JobOK] at old ⊢
        rw [eqL (by intro sq; simp [Job.call, Conflict])]; exact old
      | createFull m found =>
        simp only [JobOK] at old ⊢
        rw [eqL (by intro sq; simp [Job.call, Conflict])]; exact old
      | copy m found todo pos out =>
        simp only [JobOK] at old ⊢
        have := eqF (by simp [Job.call, Conflict])
        rw [eqL (by intro sq; simp [Job.call, Conflict]), this.1, this.2]; exact old
      | reopen m found out =>
        simp only [JobOK] at old ⊢
        have := eqF (by simp [Job.call, Conflict])
        rw [eqL (by intro sq; simp [Job.call, Conflict]), this.1, this.2]; exact old
  · intro i m pos hr hu
    by_cases hi : i = k
    · subst hi; exact hreader m pos hr hu
    · rw [hreaders i hi] at hr
      have hkeep : Files.full s'.fs u = Files.full s.fs u := by
        cases hj : s.job i with
        | none => exact (keepF i (.merge m) hi (by simp [State.doing, hj, hr]) hu (by simp [Conflict])).1
        | some j => rw [hone i (by simp [hj])] at hr; cases hr
      rw [hkeep, hheard i hi]
      exact h.readers i m pos hr hu

end Verif.Files
