import Verif.Lemmas.FilesTurn
/-! # Overlapping file operations: the invariant is kept -/

namespace Verif.Files

open Spec

theorem conflict_symm {c c' : Call} (h : ¬ Conflict c c') : ¬ Conflict c' c := by
  cases c <;> cases c' <;> simp_all [Conflict]
  exact fun h' => h h'.symm

theorem Turn.facts {u : Upload} {s s' : State} {log l : List Obs} {k : Nat} {c : Call} (h : Turn u s log) (hb : Basic s log)
    (hd : s.doing k = some c) (f : Facts s s' k c l)
    (hjob : ∀ j, s'.job k = some j → callUpload j.call = u →
      JobOK (part s'.fs u) (latest (opsOf (log ++ l)) u) (full s'.fs u) (merged (opsOf (log ++ l)) u) j)
    (hparts : ∀ sq, (∀ i j, i ≠ k → s.job i = some j → ¬ Writing u sq j) → (∀ j, s'.job k = some j → ¬ Writing u sq j) →
      part s'.fs u sq = latest (opsOf (log ++ l)) u sq)
    (hfull : (∀ i j, i ≠ k → s.job i = some j → ¬ Merging u j) → (∀ j, s'.job k = some j → ¬ Merging u j) →
      full s'.fs u = merged (opsOf (log ++ l)) u)
    (hreader : ∀ m pos, s'.reader k = some (m, pos) → uploadOf m = u →
      ∃ c, full s'.fs u = some c ∧ heard k (log ++ l) = c.take pos ∧ pos ≤ c.length) : Turn u s' (log ++ l) := by
  refine h.update hb.one f.jobs f.readers ?_ ?_ ?_ hjob hparts hfull hreader ?_
  · intro c' hc' hu i hi c'' hc'' hu''
    rcases f.goesOn with h1 | h1
    · rw [h1] at hc'; cases hc'
    · rw [h1] at hc'; cases hc'
      have := h.excl k i c c'' (Ne.symm hi) hd hc'' hu hu''
      exact ⟨this, conflict_symm this⟩
  · intro sq hx
    rcases hx with hx | hx
    · obtain ⟨m, d, rfl, hm⟩ := effect_parts f.effect u sq hx
      exact ⟨m, d, hd, hm⟩
    · obtain ⟨m, d, rfl, hm⟩ := ops_latest f.ops u sq hx
      exact ⟨m, d, hd, hm⟩
  · intro hx
    rcases hx with hx | hx
    · obtain ⟨m, rfl, hm⟩ := effect_full f.effect u hx
      exact ⟨m, hd, hm⟩
    · obtain ⟨m, rfl, hm⟩ := ops_merged f.ops u hx
      exact ⟨m, hd, hm⟩
  · intro i hi
    rw [heard_append, f.silent i hi]

/-- A step of a call for another upload. -/
theorem Turn.foreign {u : Upload} {s s' : State} {log l : List Obs} {k : Nat} {j : Job} (h : Turn u s log) (hb : Basic s log)
    (hj : s.job k = some j) (hu : callUpload j.call ≠ u) (f : Facts s s' k j.call l) : Turn u s' (log ++ l) := by
  have hd : s.doing k = some j.call := by simp [State.doing, hj]
  have eP : ∀ sq, part s'.fs u sq = part s.fs u sq := fun sq => Classical.byContradiction fun hx => by
    obtain ⟨m, d, h1, hm⟩ := effect_parts f.effect u sq hx
    rw [h1] at hu; exact hu hm
  have eL : ∀ sq, latest (opsOf (log ++ l)) u sq = latest (opsOf log) u sq := fun sq => Classical.byContradiction fun hx => by
    obtain ⟨m, d, h1, hm⟩ := ops_latest f.ops u sq hx
    rw [h1] at hu; exact hu hm
  have eF : full s'.fs u = full s.fs u := Classical.byContradiction fun hx => by
    obtain ⟨m, h1, hm⟩ := effect_full f.effect u hx
    rw [h1] at hu; exact hu hm
  have eM : merged (opsOf (log ++ l)) u = merged (opsOf log) u := Classical.byContradiction fun hx => by
    obtain ⟨m, h1, hm⟩ := ops_merged f.ops u hx
    rw [h1] at hu; exact hu hm
  refine h.facts hb hd f ?_ ?_ ?_ ?_
  · intro j' hj' hu'
    have hd' : s'.doing k = some j'.call := by simp [State.doing, hj']
    rcases f.goesOn with h1 | h1
    · rw [h1] at hd'; cases hd'
    · rw [h1] at hd'
      exact absurd (by rw [Option.some.inj hd']; exact hu') hu
  · intro sq ho _
    rw [eP, eL]
    apply h.parts
    intro i ji hji hw
    by_cases hi : i = k
    · subst hi
      rw [hj] at hji; cases hji
      obtain ⟨m, d, h1, h2⟩ := hw.call
      rw [h1] at hu; exact hu h2
    · exact ho i ji hi hji hw
  · intro ho _
    rw [eF, eM]
    apply h.whole
    intro i ji hji hw
    by_cases hi : i = k
    · subst hi
      rw [hj] at hji; cases hji
      obtain ⟨m, h1, h2⟩ := hw.call
      rw [h1] at hu; exact hu h2
    · exact ho i ji hi hji hw
  · intro m pos hr hm
    have hjn : s'.job k = none := Classical.byContradiction fun hx => by rw [f.one hx] at hr; cases hr
    have hd' : s'.doing k = some (.merge m) := by simp [State.doing, hjn, hr]
    rcases f.goesOn with h1 | h1
    · rw [h1] at hd'; cases hd'
    · rw [h1] at hd'
      exact absurd (by rw [Option.some.inj hd']; exact hm) hu

/-- A step of a call for the upload that changes neither its files nor its history. -/
theorem Turn.own {u : Upload} {s s' : State} {log l : List Obs} {k : Nat} {j : Job} (h : Turn u s log) (hb : Basic s log)
    (hj : s.job k = some j) (f : Facts s s' k j.call l) (hr : s'.reader k = none)
    (eP : ∀ sq, part s'.fs u sq = part s.fs u sq) (eF : full s'.fs u = full s.fs u)
    (eL : ∀ sq, latest (opsOf (log ++ l)) u sq = latest (opsOf log) u sq) (eM : merged (opsOf (log ++ l)) u = merged (opsOf log) u)
    (hw : ∀ sq, Writing u sq j → ∃ j', s'.job k = some j' ∧ Writing u sq j') (hm : Merging u j → ∃ j', s'.job k = some j' ∧ Merging u j')
    (hjob : ∀ j', s'.job k = some j' → JobOK (part s.fs u) (latest (opsOf log) u) (full s.fs u) (merged (opsOf log) u) j') : Turn u s' (log ++ l) := by
  have hd : s.doing k = some j.call := by simp [State.doing, hj]
  refine h.facts hb hd f ?_ ?_ ?_ ?_
  · intro j' hj' _
    rw [show part s'.fs u = part s.fs u from funext eP, show latest (opsOf (log ++ l)) u = latest (opsOf log) u from funext eL, eF, eM]
    exact hjob j' hj'
  · intro sq ho hk
    rw [eP, eL]
    apply h.parts
    intro i ji hji hx
    by_cases hi : i = k
    · subst hi
      rw [hj] at hji; cases hji
      obtain ⟨j', h1, h2⟩ := hw sq hx
      exact hk j' h1 h2
    · exact ho i ji hi hji hx
  · intro ho hk
    rw [eF, eM]
    apply h.whole
    intro i ji hji hx
    by_cases hi : i = k
    · subst hi
      rw [hj] at hji; cases hji
      obtain ⟨j', h1, h2⟩ := hm hx
      exact hk j' h1 h2
    · exact ho i ji hi hji hx
  · intro m pos hr'
    rw [hr] at hr'; cases hr'

theorem latest_snoc (log : List Obs) (l : List Obs) (op : FileOp) (h : opsOf l = [op]) (u : Upload) (sq : UInt16) :
    latest (opsOf (log ++ l)) u sq = latestIn u sq (op :: (opsOf log).reverse) := by
  unfold latest; rw [opsOf_append, h, List.reverse_append]; rfl

theorem merged_snoc (log : List Obs) (l : List Obs) (op : FileOp) (h : opsOf l = [op]) (u : Upload) :
    merged (opsOf (log ++ l)) u = mergedIn u (op :: (opsOf log).reverse) := by
  unfold merged; rw [opsOf_append, h, List.reverse_append]; rfl

theorem latest_nil (log : List Obs) (l : List Obs) (h : opsOf l = []) (u : Upload) (sq : UInt16) :
    latest (opsOf (log ++ l)) u sq = latest (opsOf log) u sq := by
  rw [opsOf_append, h, List.append_nil]

theorem merged_nil (log : List Obs) (l : List Obs) (h : opsOf l = []) (u : Upload) : merged (opsOf (log ++ l)) u = merged (opsOf log) u := by
  rw [opsOf_append, h, List.append_nil]

/-- While a goroutine walks or merges, the parts are those of the completed calls. -/
theorem Turn.quiet {u : Upload} {s : State} {log : List Obs} {k : Nat} {c : Call} (h : Turn u s log) (hd : s.doing k = some c) (hu : callUpload c = u)
    (hc : ∀ m sq d, c ≠ .write m sq d) (sq : UInt16) : part s.fs u sq = latest (opsOf log) u sq := by
  apply h.parts
  intro i j hj hw
  obtain ⟨m, d, h1, h2⟩ := hw.call
  by_cases hi : i = k
  · subst hi
    have : s.doing i = some j.call := by simp [State.doing, hj]
    rw [this] at hd
    exact hc m sq d (by rw [← h1]; exact (Option.some.inj hd).symm)
  · refine h.excl k i c j.call (Ne.symm hi) hd (by simp [State.doing, hj]) hu (by rw [h1]; exact h2) ?_
    rw [h1]
    cases c with
    | write m' sq' d' => exact absurd rfl (hc m' sq' d')
    | isFull _ => trivial
    | merge _ => trivial

/-- While a goroutine merges, no other does. -/
theorem Turn.alone {u : Upload} {s : State} {log : List Obs} {k : Nat} {m : Multipart} (h : Turn u s log) (hd : s.doing k = some (.merge m))
    (hu : uploadOf m = u) (hm : ∀ j, s.job k = some j → ¬ Merging u j) : full s.fs u = merged (opsOf log) u := by
  apply h.whole
  intro i j hj hw
  by_cases hi : i = k
  · subst hi; exact hm j hj hw
  · obtain ⟨m', h1, h2⟩ := hw.call
    exact h.excl k i _ j.call (Ne.symm hi) hd (by simp [State.doing, hj]) hu (by rw [h1]; exact h2) (by rw [h1]; trivial)

theorem seen_list {u : Upload} {s : State} {log : List Obs} {L : UInt16 → Option Bytes} (hb : Basic s log) (m : Multipart) (hm : uploadOf m = u)
    (hL : ∀ sq, part s.fs u sq = L sq) (before names' : List Bytes) (hbefore : ∀ sq, (L sq).isSome → m.partName sq ∈ before) (hn : names'.Nodup)
    (h1 : ∀ n ∈ before, n ∈ names') (h2 : ∀ n ∈ names', n ∈ names s.fs m.icc) : Seen L m names' [] := by
  subst hm
  refine ⟨?_, by simp, ?_, hn, by simp, by simp⟩
  · intro n hmem sq hsq
    have hin := h2 n hmem
    obtain ⟨v, hv, ⟨sq', rfl⟩ | rfl⟩ := hb.named _ _ hin
    · unfold Upload.partName at hsq ⊢
      rw [Multipart.partSeq_partName] at hsq
      split at hsq
      · rename_i heq
        cases hsq
        have hvu : v = uploadOf m := upload_ext hv heq.1.symm heq.2.symm
        subst hvu
        refine ⟨rfl, ?_⟩
        rw [← hL]
        exact (mem_names _ _ _).1 hin
      · cases hsq
    · rw [Multipart.partSeq_fullName] at hsq; cases hsq
  · intro sq hsq
    exact .inl (h1 _ (hbefore sq hsq))

theorem partSeq_own (m : Multipart) (sq : UInt16) : m.partSeq (m.partName sq) = some sq := by
  rw [Multipart.partSeq_partName, if_pos ⟨rfl, rfl⟩]

theorem seen_skip {L : UInt16 → Option Bytes} {m : Multipart} {n : Bytes} {todo : List Bytes} {found : List (UInt16 × Bytes)}
    (h : Seen L m (n :: todo) found) (hn : m.partSeq n = none) : Seen L m todo found := by
  refine ⟨fun x hx => h.left x (by simp [hx]), h.got, ?_, (List.nodup_cons.1 h.nodup).2, fun p hp hx => h.fresh p hp (by simp [hx]), h.once⟩
  intro sq hsq
  rcases h.all sq hsq with h1 | h1
  · rcases List.mem_cons.1 h1 with h2 | h2
    · rw [← h2, partSeq_own] at hn; cases hn
    · exact .inl h2
  · exact .inr h1

theorem seen_found {L : UInt16 → Option Bytes} {m : Multipart} {n : Bytes} {todo : List Bytes} {found : List (UInt16 × Bytes)} {seq : UInt16}
    (h : Seen L m (n :: todo) found) (hn : m.partSeq n = some seq) : Seen L m todo ((seq, n) :: found) := by
  obtain ⟨h1, h2⟩ := h.left n (by simp) seq hn
  have hnd := List.nodup_cons.1 h.nodup
  refine ⟨fun x hx => h.left x (by simp [hx]), ?_, ?_, hnd.2, ?_, ?_⟩
  · intro p hp
    rcases List.mem_cons.1 hp with rfl | hp
    · exact ⟨h1, h2⟩
    · exact h.got p hp
  · intro sq hsq
    rcases h.all sq hsq with h3 | h3
    · rcases List.mem_cons.1 h3 with h4 | h4
      · right
        have : sq = seq := by
          have := partSeq_own m sq
          rw [h4, hn] at this
          exact (Option.some.inj this).symm
        subst this
        rw [h4]; simp
      · exact .inl h4
    · exact .inr (by simp [h3])
  · intro p hp
    rcases List.mem_cons.1 hp with rfl | hp
    · exact hnd.1
    · exact fun hx => h.fresh p hp (by simp [hx])
  · rw [List.pairwise_cons]
    refine ⟨?_, h.once⟩
    intro p hp heq
    apply h.fresh p hp
    rw [(h.got p hp).1, ← heq, ← h1]
    simp

theorem writeAt_take (data : Bytes) (done n : Nat) (h : done ≤ data.length) :
    writeAt (data.take done) done ((data.drop done).take n) = data.take (done + ((data.drop done).take n).length) := by
  have hl : (data.take done).length = done := by rw [List.length_take]; omega
  have hd : (data.take done).drop (done + ((data.drop done).take n).length) = [] := List.drop_eq_nil_of_le (by omega)
  unfold writeAt
  rw [hd, List.take_of_length_le (by omega), List.append_nil, List.take_add]
  congr 1
  rw [List.length_take, List.length_drop, List.take_eq_take_iff, List.length_drop]
  omega

theorem over_length (M : Option Bytes) (new : Bytes) : new.length ≤ (over M new).length := by simp [over]

theorem writeAt_over (M : Option Bytes) (J chunk : Bytes) (out : Nat) (ho : out ≤ J.length) (hc : chunk = (J.drop out).take chunk.length) :
    writeAt (over M (J.take out)) out chunk = over M (J.take (out + chunk.length)) := by
  have hl : (J.take out).length = out := by simp [ho]
  have hJ : J.take (out + chunk.length) = J.take out ++ chunk := by rw [List.take_add, ← hc]
  unfold writeAt over
  rw [List.take_append_of_le_length (by omega), List.take_of_length_le (by omega), hJ, List.length_append, hl]
  have hd : (J.take out ++ (M.getD []).drop out).drop (out + chunk.length) = (M.getD []).drop (out + chunk.length) := by
    rw [← List.drop_drop, List.drop_append_of_le_length (by omega), List.drop_eq_nil_of_le (by omega : (J.take out).length ≤ out), List.nil_append, List.drop_drop]
  rw [hd]

end Verif.Files
