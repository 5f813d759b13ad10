import Verif.Lemmas.FilesStep
/-! # Overlapping file operations: the invariant is kept by every system call -/

namespace Verif.Files

open Spec

theorem store_part_self (fs : FS) (m : Multipart) (sq : UInt16) (x : Bytes) : part (store fs (partFile m sq) x) (uploadOf m) sq = some x := by
  unfold part
  rw [content_store]
  exact if_pos rfl

theorem store_part_other (fs : FS) (m : Multipart) (sq sq' : UInt16) (x : Bytes) (h : sq' ≠ sq) :
    part (store fs (partFile m sq) x) (uploadOf m) sq' = part fs (uploadOf m) sq' := by
  unfold part
  rw [content_store, if_neg]
  intro heq
  exact h (partFile_eq heq.symm).2.symm

theorem store_part_full (fs : FS) (m : Multipart) (sq : UInt16) (x : Bytes) : full (store fs (partFile m sq) x) (uploadOf m) = full fs (uploadOf m) := by
  unfold full
  rw [content_store, if_neg]
  intro heq
  exact Multipart.partName_ne_fullName _ _ _ (congrArg Prod.snd heq).symm

theorem store_full_self (fs : FS) (m : Multipart) (x : Bytes) : full (store fs (fullFile m) x) (uploadOf m) = some x := by
  unfold full
  rw [content_store]
  exact if_pos rfl

theorem store_full_part (fs : FS) (m : Multipart) (sq : UInt16) (x : Bytes) : part (store fs (fullFile m) x) (uploadOf m) sq = part fs (uploadOf m) sq := by
  unfold part
  rw [content_store, if_neg]
  intro heq
  exact Multipart.partName_ne_fullName _ _ _ (congrArg Prod.snd heq)

theorem opsOf_closeParts_snoc (k : Nat) (m : Multipart) (found : List (UInt16 × Bytes)) (o : Outcome) :
    opsOf (closeParts k m found ++ [.merged k m o]) = [.merge (uploadOf m) o] := by
  rw [opsOf_append, closeParts_ops]; rfl

theorem latestIn_merge (u v : Upload) (sq : UInt16) (o : Outcome) (ops : List FileOp) : latestIn u sq (.merge v o :: ops) = latestIn u sq ops := rfl
theorem mergedIn_write (u v : Upload) (sq : UInt16) (d : Bytes) (o : Outcome) (ops : List FileOp) : mergedIn u (.write v sq d o :: ops) = mergedIn u ops := rfl

theorem Turn.walked {s s' : State} {log l : List Obs} {k : Nat} {j : Job} {m : Multipart} {g : Bool} {found : List (UInt16 × Bytes)}
    (h : Turn (uploadOf m) s log) (hb : Basic s log) (hj : s.job k = some j) (hc : j.call = if g then .merge m else .isFull m)
    (hno : (∀ sq, ¬ Writing (uploadOf m) sq j) ∧ ¬ Merging (uploadOf m) j) (hseen : Seen (latest (opsOf log) (uploadOf m)) m [] found)
    (hs : walked s k m g found = (s', l)) : Turn (uploadOf m) s' (log ++ l) := by
  have hr := hb.one k (by simp [hj])
  have f := walked_facts hr hs
  rw [← hc] at f
  unfold Files.walked at hs
  cases g with
  | true =>
    rw [if_pos rfl] at hs
    cases hs
    refine h.own hb hj f hr (fun _ => rfl) rfl (fun _ => latest_nil _ _ rfl _ _) (merged_nil _ _ rfl _) (fun sq hx => absurd hx (hno.1 sq))
      (fun hx => absurd hx hno.2) ?_
    intro j' hj'
    rw [goto_job_self] at hj'
    cases hj'
    exact hseen
  | false =>
    rw [if_neg (by simp)] at hs
    cases hs
    refine h.own hb hj f hr (fun _ => rfl) rfl (fun _ => latest_nil _ _ rfl _ _) (merged_nil _ _ rfl _) (fun sq hx => absurd hx (hno.1 sq))
      (fun hx => absurd hx hno.2) ?_
    intro j' hj'
    rw [goto_job_self] at hj'
    cases hj'

/-- A failed `Merge` that left the merged file as it was. -/
theorem Turn.noFile {s s' : State} {log l : List Obs} {k : Nat} {j : Job} {m : Multipart}
    (h : Turn (uploadOf m) s log) (hb : Basic s log) (hj : s.job k = some j) (f : Facts s s' k j.call l) (hs : s' = s.goto k none)
    (hl : opsOf l = [.merge (uploadOf m) .noFile]) (hno : (∀ sq, ¬ Writing (uploadOf m) sq j) ∧ ¬ Merging (uploadOf m) j) :
    Turn (uploadOf m) s' (log ++ l) := by
  subst hs
  refine h.own hb hj f (hb.one k (by simp [hj])) (fun _ => rfl) rfl (fun _ => ?_) ?_ (fun sq hx => absurd hx (hno.1 sq)) (fun hx => absurd hx hno.2) ?_
  · rw [latest_snoc _ _ _ hl]; rfl
  · rw [merged_snoc _ _ _ hl, mergedIn, if_pos rfl]; rfl
  · intro j' hj'
    rw [goto_job_self] at hj'
    cases hj'

/-- A `Merge` that broke off after `out` bytes, or at its end. -/
theorem Turn.torn {s s' : State} {log l : List Obs} {k : Nat} {j : Job} {m : Multipart} {out : Nat}
    (h : Turn (uploadOf m) s log) (hb : Basic s log) (hj : s.job k = some j) (f : Facts s s' k j.call l) (hs : s' = s.goto k none)
    (hl : opsOf l = [.merge (uploadOf m) (.torn out)]) (hno : ∀ sq, ¬ Writing (uploadOf m) sq j)
    (hfull : full s.fs (uploadOf m) = some (over (merged (opsOf log) (uploadOf m)) ((joined (latest (opsOf log) (uploadOf m)) 0 65536).take out))) :
    Turn (uploadOf m) s' (log ++ l) := by
  subst hs
  have eL : ∀ sq, latest (opsOf (log ++ l)) (uploadOf m) sq = latest (opsOf log) (uploadOf m) sq := fun sq => by rw [latest_snoc _ _ _ hl]; rfl
  refine h.facts hb (by simp [State.doing, hj]) f ?_ ?_ ?_ ?_
  · intro j' hj'
    rw [goto_job_self] at hj'
    cases hj'
  · intro sq ho _
    rw [eL]
    apply h.parts
    intro i ji hji
    by_cases hi : i = k
    · subst hi; rw [hj] at hji; cases hji; exact hno sq
    · exact ho i ji hi hji
  · intro _ _
    rw [merged_snoc _ _ _ hl, mergedIn, if_pos rfl]
    exact hfull
  · intro m' pos hr
    have : s.reader k = some (m', pos) := hr
    rw [hb.one k (by simp [hj])] at this
    cases this

theorem Turn.wrote {s s' : State} {log l : List Obs} {k : Nat} {j : Job} {m : Multipart} {seq : UInt16} {data : Bytes} {o : Outcome} {x : Bytes}
    (h : Turn (uploadOf m) s log) (hb : Basic s log) (hj : s.job k = some j) (f : Facts s s' k j.call l) (hs : s' = s.goto k none)
    (hl : opsOf l = [.write (uploadOf m) seq data o]) (ho : leaves data o = some x) (hp : part s.fs (uploadOf m) seq = some x)
    (hw : ∀ sq, Writing (uploadOf m) sq j → sq = seq) (hm : ¬ Merging (uploadOf m) j) : Turn (uploadOf m) s' (log ++ l) := by
  subst hs
  refine h.facts hb (by simp [State.doing, hj]) f ?_ ?_ ?_ ?_
  · intro j' hj'
    rw [goto_job_self] at hj'
    cases hj'
  · intro sq hoth _
    rw [latest_snoc _ _ _ hl, latestIn]
    by_cases hsq : seq = sq
    · subst hsq
      rw [if_pos ⟨rfl, rfl⟩, ho]
      exact hp
    · rw [if_neg (fun hx => hsq hx.2)]
      apply h.parts
      intro i ji hji
      by_cases hi : i = k
      · subst hi; rw [hj] at hji; cases hji; exact fun hx => hsq (hw sq hx).symm
      · exact hoth i ji hi hji
  · intro hoth _
    rw [merged_snoc _ _ _ hl, mergedIn_write]
    apply h.whole
    intro i ji hji
    by_cases hi : i = k
    · subst hi; rw [hj] at hji; cases hji; exact hm
    · exact hoth i ji hi hji
  · intro m' pos hr
    have : s.reader k = some (m', pos) := hr
    rw [hb.one k (by simp [hj])] at this
    cases this

/-- Writing to the file of a part. -/
theorem Turn.writes {s s' : State} {log : List Obs} {l : List Obs} {k : Nat} {j : Job} {m : Multipart} {seq : UInt16} {data : Bytes} {done : Nat} {x : Bytes}
    (h : Turn (uploadOf m) s log) (hb : Basic s log) (hj : s.job k = some j) (f : Facts s s' k j.call l)
    (hs : s' = { s with fs := store s.fs (partFile m seq) x }.goto k (some (.put m seq data done)))
    (hl : opsOf l = []) (hx : x = data.take done) (hd : done ≤ data.length)
    (hw : ∀ sq, Writing (uploadOf m) sq j → sq = seq) (hm : ¬ Merging (uploadOf m) j) : Turn (uploadOf m) s' (log ++ l) := by
  subst hs
  refine h.facts hb (by simp [State.doing, hj]) f ?_ ?_ ?_ ?_
  · intro j' hj' _
    rw [goto_job_self] at hj'
    cases hj'
    refine ⟨?_, hd⟩
    rw [← hx]
    exact store_part_self _ _ _ _
  · intro sq hoth hk
    have hsq : sq ≠ seq := by
      rintro rfl
      exact hk _ (goto_job_self _ _ _) ⟨rfl, rfl⟩
    rw [latest_nil _ _ hl]
    refine (store_part_other _ _ _ _ _ hsq).trans (h.parts sq ?_)
    intro i ji hji
    by_cases hi : i = k
    · subst hi; rw [hj] at hji; cases hji; exact fun hx => hsq (hw sq hx)
    · exact hoth i ji hi hji
  · intro hoth _
    rw [merged_nil _ _ hl]
    refine (store_part_full _ _ _ _).trans (h.whole ?_)
    intro i ji hji
    by_cases hi : i = k
    · subst hi; rw [hj] at hji; cases hji; exact hm
    · exact hoth i ji hi hji
  · intro m' pos hr
    have : s.reader k = some (m', pos) := hr
    rw [hb.one k (by simp [hj])] at this
    cases this

/-- Writing to the merged file. -/
theorem Turn.copies {s s' : State} {log l : List Obs} {k : Nat} {j : Job} {m : Multipart} {found todo : List (UInt16 × Bytes)} {pos out : Nat} {x : Bytes}
    (h : Turn (uploadOf m) s log) (hb : Basic s log) (hj : s.job k = some j) (f : Facts s s' k j.call l)
    (hs : s' = { s with fs := store s.fs (fullFile m) x }.goto k (some (.copy m found todo pos out)))
    (hl : opsOf l = []) (hw : ∀ sq, ¬ Writing (uploadOf m) sq j)
    (hok : JobOK (part s.fs (uploadOf m)) (latest (opsOf log) (uploadOf m)) (some x) (merged (opsOf log) (uploadOf m)) (.copy m found todo pos out)) :
    Turn (uploadOf m) s' (log ++ l) := by
  subst hs
  refine h.facts hb (by simp [State.doing, hj]) f ?_ ?_ ?_ ?_
  · intro j' hj' _
    rw [goto_job_self] at hj'
    cases hj'
    rw [show latest (opsOf (log ++ l)) (uploadOf m) = latest (opsOf log) (uploadOf m) from funext fun sq => latest_nil _ _ hl _ _, merged_nil _ _ hl]
    have e := store_full_self s.fs m x
    show JobOK _ _ (full (store s.fs (fullFile m) x) (uploadOf m)) _ _
    rw [e]
    exact hok
  · intro sq hoth _
    rw [latest_nil _ _ hl]
    refine (store_full_part _ _ _ _).trans (h.parts sq ?_)
    intro i ji hji
    by_cases hi : i = k
    · subst hi; rw [hj] at hji; cases hji; exact hw sq
    · exact hoth i ji hi hji
  · intro _ hk
    exact absurd rfl (hk _ (goto_job_self _ _ _))
  · intro m' pos hr
    have : s.reader k = some (m', pos) := hr
    rw [hb.one k (by simp [hj])] at this
    cases this

theorem Turn.advance {u : Upload} {s s' : State} {log l : List Obs} {k : Nat} {a : Answer} {j : Job} (h : Turn u s log) (hb : Basic s log)
    (hj : s.job k = some j) (hs : s.advance k a j = .ok (s', l)) (hl : Listed u (log ++ l)) : Turn u s' (log ++ l) := by
  have hr := hb.one k (by simp [hj])
  have f := advance_facts hj hr hs
  by_cases hu : callUpload j.call = u
  case neg => exact h.foreign hb hj hu f
  have ok := h.jobs k j hj hu
  have hd : s.doing k = some j.call := by simp [State.doing, hj]
  have same : s = s' ∧ [] = l → Turn u s' (log ++ l) := by
    rintro ⟨rfl, rfl⟩
    simpa using h
  cases j with
  | mkdir m seq data =>
    have hu : uploadOf m = u := hu
    subst hu
    cases a <;> simp only [State.advance, Res.ok.injEq, Prod.mk.injEq] at hs <;> try exact same hs
    · obtain ⟨rfl, rfl⟩ := hs
      refine h.own hb hj f hr (fun _ => content_mkdir _ _ _) (content_mkdir _ _ _) (fun _ => latest_nil _ _ rfl _ _) (merged_nil _ _ rfl _)
        (fun _ hx => hx.elim) (fun hx => hx.elim) ?_
      intro j' hj'
      rw [goto_job_self] at hj'; cases hj'; trivial
    · obtain ⟨rfl, rfl⟩ := hs
      refine h.own hb hj f hr (fun _ => rfl) rfl (fun _ => ?_) ?_ (fun _ hx => hx.elim) (fun hx => hx.elim) ?_
      · rw [latest_snoc _ _ _ rfl, latestIn]; split <;> rfl
      · rw [merged_snoc _ _ _ rfl]; rfl
      · intro j' hj'
        rw [goto_job_self] at hj'; cases hj'
  | create m seq data =>
    have hu : uploadOf m = u := hu
    subst hu
    cases a <;> simp only [State.advance, Res.ok.injEq, Prod.mk.injEq] at hs <;> try exact same hs
    · obtain ⟨rfl, rfl⟩ := hs
      exact h.writes hb hj f rfl rfl rfl (Nat.zero_le _) (fun _ hx => hx.elim) (fun hx => hx.elim)
    · obtain ⟨rfl, rfl⟩ := hs
      refine h.own hb hj f hr (fun _ => rfl) rfl (fun _ => ?_) ?_ (fun _ hx => hx.elim) (fun hx => hx.elim) ?_
      · rw [latest_snoc _ _ _ rfl, latestIn]; split <;> rfl
      · rw [merged_snoc _ _ _ rfl]; rfl
      · intro j' hj'
        rw [goto_job_self] at hj'; cases hj'
  | put m seq data done =>
    have hu : uploadOf m = u := hu
    subst hu
    obtain ⟨h1, h2⟩ := ok
    by_cases hdone : data.length ≤ done
    · have hs : s' = s.goto k (some (.shut m seq data done true)) ∧ l = [] := by
        cases a <;> simp only [State.advance, hdone, if_true, Res.ok.injEq, Prod.mk.injEq] at hs <;> exact ⟨hs.1.symm, hs.2.symm⟩
      obtain ⟨rfl, rfl⟩ := hs
      refine h.own hb hj f hr (fun _ => rfl) rfl (fun _ => latest_nil _ _ rfl _ _) (merged_nil _ _ rfl _)
        (fun _ hx => ⟨_, goto_job_self _ _ _, hx⟩) (fun hx => hx.elim) ?_
      intro j' hj'
      rw [goto_job_self] at hj'; cases hj'
      exact ⟨h1, h2, fun _ => by omega⟩
    · cases a <;> simp only [State.advance, hdone, if_false, Res.ok.injEq, Prod.mk.injEq] at hs <;> try exact same hs
      · obtain ⟨rfl, rfl⟩ := hs
        refine h.own hb hj f hr (fun _ => rfl) rfl (fun _ => latest_nil _ _ rfl _ _) (merged_nil _ _ rfl _)
          (fun _ hx => ⟨_, goto_job_self _ _ _, hx⟩) (fun hx => hx.elim) ?_
        intro j' hj'
        rw [goto_job_self] at hj'; cases hj'
        exact ⟨h1, h2, fun hx => by cases hx⟩
      · obtain ⟨rfl, rfl⟩ := hs
        refine h.writes hb hj f rfl rfl ?_ ?_ (fun _ hx => hx.2.symm) (fun hx => hx.elim)
        · have : content s.fs (partFile m seq) = some (data.take done) := h1
          rw [this, Option.getD_some]
          exact writeAt_take data done _ h2
        · rw [List.length_take, List.length_drop]; omega
  | shut m seq data done b =>
    have hu : uploadOf m = u := hu
    subst hu
    obtain ⟨h1, h2, h3⟩ := ok
    cases a <;> simp only [State.advance, Res.ok.injEq, Prod.mk.injEq] at hs <;> try exact same hs
    · obtain ⟨rfl, rfl⟩ := hs
      refine h.wrote hb hj f rfl rfl ?_ h1 (fun _ hx => hx.2.symm) (fun hx => hx.elim)
      cases b with
      | true => rw [if_pos rfl, h3 rfl, List.take_length]; rfl
      | false => rw [if_neg (by simp)]; rfl
    · obtain ⟨rfl, rfl⟩ := hs
      exact h.wrote hb hj f rfl rfl rfl h1 (fun _ hx => hx.2.symm) (fun hx => hx.elim)
  | stat m g =>
    have hc : ∀ m' sq d, (Job.stat m g).call ≠ .write m' sq d := by cases g <;> simp [Job.call]
    have q := h.quiet hd hu hc
    have hu : uploadOf m = u := by cases g <;> exact hu
    subst hu
    cases a <;> simp only [State.advance, Res.ok.injEq, Prod.mk.injEq, reduceCtorEq] at hs <;> try exact same hs
    split at hs
    · cases hs
    · cases hs
      refine h.own hb hj f hr (fun _ => rfl) rfl (fun _ => latest_nil _ _ rfl _ _) (merged_nil _ _ rfl _)
        (fun _ hx => hx.elim) (fun hx => hx.elim) ?_
      intro j' hj'
      rw [goto_job_self] at hj'; cases hj'
      intro sq hsq
      rw [← q sq] at hsq
      exact (mem_names _ _ _).2 hsq
  | list m g before =>
    have hc : ∀ m' sq d, (Job.list m g before).call ≠ .write m' sq d := by cases g <;> simp [Job.call]
    have q := h.quiet hd hu hc
    have hu : uploadOf m = u := by cases g <;> exact hu
    subst hu
    cases a <;> simp only [State.advance, Res.ok.injEq, Prod.mk.injEq] at hs <;> try exact same hs
    · obtain ⟨-, rfl⟩ := hs
      exact absurd rfl (hl k m (by simp))
    · split at hs
      · rename_i hnames
        cases hs
        refine h.own hb hj f hr (fun _ => rfl) rfl (fun _ => latest_nil _ _ rfl _ _) (merged_nil _ _ rfl _)
          (fun _ hx => hx.elim) (fun hx => hx.elim) ?_
        intro j' hj'
        rw [goto_job_self] at hj'; cases hj'
        exact seen_list hb m rfl q before _ ok hnames.1 hnames.2.1 hnames.2.2
      · cases hs
        exact same ⟨rfl, rfl⟩
  | visit m g todo found =>
    have hu : uploadOf m = u := by cases g <;> exact hu
    subst hu
    cases todo with
    | nil =>
      simp only [State.advance, Res.ok.injEq] at hs
      exact h.walked hb hj rfl ⟨fun _ hx => hx, fun hx => hx⟩ ok hs
    | cons n todo =>
      cases a <;> simp only [State.advance, Res.ok.injEq, Prod.mk.injEq, reduceCtorEq] at hs <;> try exact same hs
      split at hs
      · rename_i hn
        cases hs
        refine h.own hb hj f hr (fun _ => rfl) rfl (fun _ => latest_nil _ _ rfl _ _) (merged_nil _ _ rfl _)
          (fun _ hx => hx.elim) (fun hx => hx.elim) ?_
        intro j' hj'
        rw [goto_job_self] at hj'; cases hj'
        exact seen_skip ok hn
      · rename_i seq hn
        split at hs
        · cases hs
          refine h.own hb hj f hr (fun _ => rfl) rfl (fun _ => latest_nil _ _ rfl _ _) (merged_nil _ _ rfl _)
            (fun _ hx => hx.elim) (fun hx => hx.elim) ?_
          intro j' hj'
          rw [goto_job_self] at hj'; cases hj'
          exact ⟨ok, hn⟩
        · cases hs
          refine h.own hb hj f hr (fun _ => rfl) rfl (fun _ => latest_nil _ _ rfl _ _) (merged_nil _ _ rfl _)
            (fun _ hx => hx.elim) (fun hx => hx.elim) ?_
          intro j' hj'
          rw [goto_job_self] at hj'; cases hj'
          exact seen_found ok hn
  | openPart m seq n todo found =>
    have hu : uploadOf m = u := hu
    subst hu
    cases a <;> simp only [State.advance, Res.ok.injEq, Prod.mk.injEq] at hs <;> try exact same hs
    · obtain ⟨rfl, rfl⟩ := hs
      refine h.own hb hj f hr (fun _ => rfl) rfl (fun _ => latest_nil _ _ rfl _ _) (merged_nil _ _ rfl _)
        (fun _ hx => hx.elim) (fun hx => hx.elim) ?_
      intro j' hj'
      rw [goto_job_self] at hj'; cases hj'
      exact seen_found ok.1 ok.2
    · obtain ⟨rfl, rfl⟩ := hs
      exact h.noFile hb hj f rfl (opsOf_closeParts_snoc _ _ _ _) ⟨fun _ hx => hx, fun hx => hx⟩
  | createFull m found =>
    have hu : uploadOf m = u := hu
    subst hu
    cases a <;> simp only [State.advance, Res.ok.injEq, Prod.mk.injEq] at hs <;> try exact same hs
    · obtain ⟨rfl, rfl⟩ := hs
      refine h.copies hb hj f rfl rfl (fun _ hx => hx) ⟨ok, ?_, [], rfl, fun _ => rfl, fun _ _ _ => Nat.zero_le _, rfl⟩
      have : content s.fs (fullFile m) = merged (opsOf log) (uploadOf m) := h.alone hd rfl (fun j' hj' => by rw [hj] at hj'; cases hj'; exact fun hx => hx)
      rw [this]
      simp [over]
    · obtain ⟨rfl, rfl⟩ := hs
      exact h.noFile hb hj f rfl (opsOf_closeParts_snoc _ _ _ _) ⟨fun _ hx => hx, fun hx => hx⟩
  | copy m found todo pos out =>
    have q := h.quiet hd hu (by intro m' sq d hx; cases hx)
    have hu : uploadOf m = u := hu
    subst hu
    obtain ⟨hseen, hfull, pre, hpre, hzero, hpos, hout⟩ := ok
    have hJ := seen_joined hseen
    cases todo with
    | nil =>
      simp only [State.advance, Res.ok.injEq, Prod.mk.injEq] at hs
      obtain ⟨rfl, rfl⟩ := hs
      have hlen : out = (joined (latest (opsOf log) (uploadOf m)) 0 65536).length := by
        rw [← hJ, hpre, List.append_nil, hout, hzero rfl, Nat.add_zero]
      refine h.own hb hj f hr (fun _ => rfl) rfl (fun _ => latest_nil _ _ rfl _ _) (merged_nil _ _ rfl _)
        (fun _ hx => hx.elim) (fun _ => ⟨_, goto_job_self _ _ _, rfl⟩) ?_
      intro j' hj'
      rw [goto_job_self] at hj'; cases hj'
      refine ⟨hseen, ?_, hlen⟩
      rw [hfull, hlen, List.take_length]
    | cons p todo =>
      obtain ⟨seq, n⟩ := p
      have hn : n = m.partName seq := (hseen.got (seq, n) ((mem_sortParts _ _).1 (by
        have : (seq, n) ∈ inOrder found := by rw [hpre]; simp
        exact this))).1
      have hcont : (content s.fs (m.icc, n)).getD [] = (latest (opsOf log) (uploadOf m) seq).getD [] := by
        rw [hn, ← q seq]; rfl
      have hpos := hpos _ _ rfl
      cases a <;> simp only [State.advance, Res.ok.injEq, Prod.mk.injEq] at hs <;> try exact same hs
      · obtain ⟨rfl, rfl⟩ := hs
        exact h.torn hb hj f rfl (opsOf_closeParts_snoc k m found (.torn out)) (fun _ hx => hx) hfull
      · split at hs
        · rename_i hle
          rw [hcont] at hle
          cases hs
          refine h.own hb hj f hr (fun _ => rfl) rfl (fun _ => latest_nil _ _ rfl _ _) (merged_nil _ _ rfl _)
            (fun _ hx => hx.elim) (fun _ => ⟨_, goto_job_self _ _ _, rfl⟩) ?_
          intro j' hj'
          rw [goto_job_self] at hj'; cases hj'
          refine ⟨hseen, hfull, pre ++ [(seq, n)], by rw [hpre]; simp, fun _ => rfl, fun _ _ _ => Nat.zero_le _, ?_⟩
          rw [hout, List.flatMap_append, List.length_append]
          simp only [List.flatMap_cons, List.flatMap_nil, List.append_nil]
          simp only at hpos
          omega
        · rename_i hle
          rw [hcont] at hle hs
          cases hs
          generalize hg : (latest (opsOf log) (uploadOf m) seq).getD [] = prt at *
          have hJ' : joined (latest (opsOf log) (uploadOf m)) 0 65536 =
              (pre.flatMap fun p => (latest (opsOf log) (uploadOf m) p.1).getD []) ++ (prt ++ todo.flatMap fun p => (latest (opsOf log) (uploadOf m) p.1).getD []) := by
            rw [← hJ, hpre, List.flatMap_append, List.flatMap_cons, hg]
          generalize hpf : (pre.flatMap fun p => (latest (opsOf log) (uploadOf m) p.1).getD []) = pf at *
          generalize (todo.flatMap fun p => (latest (opsOf log) (uploadOf m) p.1).getD []) = tf at *
          have hdrop : (joined (latest (opsOf log) (uploadOf m)) 0 65536).drop out = prt.drop pos ++ tf := by
            rw [hJ', hout, ← List.drop_drop, List.drop_left, List.drop_append_of_le_length hpos]
          rename_i bb
          refine h.copies hb hj f rfl rfl (fun _ hx => hx) ⟨hseen, ?_, pre, hpre, by simp, ?_, ?_⟩
          · have : content s.fs (fullFile m) = some (over (merged (opsOf log) (uploadOf m)) ((joined (latest (opsOf log) (uploadOf m)) 0 65536).take out)) := hfull
            rw [this, Option.getD_some, writeAt_over]
            · rw [hJ', List.length_append, List.length_append]; omega
            · rw [hdrop, List.take_append_of_le_length (by rw [List.length_take]; omega), List.length_take, List.take_eq_take_iff]; omega
          · intro p t hpt
            cases hpt
            rw [hg, List.length_take, List.length_drop]; omega
          · rw [hpf, hout, Nat.add_assoc]
  | reopen m found out =>
    have hu : uploadOf m = u := hu
    subst hu
    obtain ⟨hseen, hfull, hlen⟩ := ok
    cases a <;> simp only [State.advance, Res.ok.injEq, Prod.mk.injEq] at hs <;> try exact same hs
    · obtain ⟨rfl, rfl⟩ := hs
      have hops : opsOf (Obs.opened k (fullFile m) :: .closed k (fullFile m) :: closeParts k m found ++ [.merged k m .ok]) = [.merge (uploadOf m) .ok] :=
        opsOf_closeParts_snoc _ _ _ _
      have eL : ∀ sq, latest (opsOf (log ++ (Obs.opened k (fullFile m) :: .closed k (fullFile m) :: closeParts k m found ++ [.merged k m .ok]))) (uploadOf m) sq =
          latest (opsOf log) (uploadOf m) sq := fun sq => by rw [latest_snoc _ _ _ hops]; rfl
      refine h.facts hb hd f ?_ ?_ ?_ ?_
      · intro j' hj'
        simp [State.setReader, State.goto] at hj'
      · intro sq hoth _
        rw [eL]
        apply h.parts
        intro i ji hji
        by_cases hi : i = k
        · subst hi; rw [hj] at hji; cases hji; exact fun hx => hx
        · exact hoth i ji hi hji
      · intro _ _
        rw [merged_snoc _ _ _ hops, mergedIn, if_pos rfl]
        exact hfull
      · intro m' pos hr' _
        simp [State.setReader] at hr'
        obtain ⟨rfl, rfl⟩ := hr'
        refine ⟨_, hfull, ?_, Nat.zero_le _⟩
        rw [heard_append, List.foldl_append]
        simp [hear]
    · obtain ⟨rfl, rfl⟩ := hs
      refine h.torn hb hj f rfl (opsOf_closeParts_snoc k m found (.torn out)) (fun _ hx => hx) ?_
      rw [hfull, hlen, List.take_length]

end Verif.Files
