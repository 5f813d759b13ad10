import Verif.Lemmas.Syscall
import Verif.Lemmas.FilesClaims
/-! # Lemmas: files that a process leaves behind when it ends in the middle of its calls -/

namespace Verif.Files

open Spec

/-! ## Directories -/

/-- The walk in the directory has begun. -/
def Walking : Job → Prop
  | .list _ _ _ | .visit _ _ _ _ | .openPart _ _ _ _ _ | .createFull _ _ | .copy _ _ _ _ _ | .reopen _ _ _ => True
  | _ => False

/-- Directories exist only if calls made them. -/
structure Made (s : State) (log : List Obs) : Prop where
  made : ∀ icc, s.fs icc ≠ none → hasDir (opsOf log) icc ∨ ∃ k j, s.job k = some j ∧ Past j ∧ (callUpload j.call).icc = icc
  walk : ∀ k j, s.job k = some j → Walking j → s.fs (callUpload j.call).icc ≠ none

theorem store_other {fs : FS} {f : File} {x : Bytes} {icc : UInt64} (h : store fs f x icc ≠ none) : fs icc ≠ none ∨ icc = f.1 := by
  unfold store FS.set at h
  split at h
  · rename_i hx; exact .inr hx
  · exact .inl h

theorem advance_made {s s' : State} {k : Nat} {a : Answer} {j : Job} {l : List Obs} (hj : s.job k = some j)
    (hp : Past j → s.fs (callUpload j.call).icc ≠ none) (hw : Walking j → s.fs (callUpload j.call).icc ≠ none) (h : s.advance k a j = .ok (s', l))
    (f : Facts s s' k j.call l) :
    (Past j → (∃ j', s'.job k = some j' ∧ Past j' ∧ callUpload j'.call = callUpload j.call) ∨
      ∃ sq d o, FileOp.write (callUpload j.call) sq d o ∈ opsOf l ∧ o ≠ .noDir) ∧
    (∀ icc, s'.fs icc ≠ none → s.fs icc ≠ none ∨ ∃ j', s'.job k = some j' ∧ Past j' ∧ (callUpload j'.call).icc = icc) ∧
    ∀ j', s'.job k = some j' → Walking j' → s'.fs (callUpload j'.call).icc ≠ none := by
  have sameUpload : ∀ j', s'.job k = some j' → callUpload j'.call = callUpload j.call := by
    intro j' hj'
    have hd : s'.doing k = some j'.call := by simp [State.doing, hj']
    rcases f.goesOn with h1 | h1
    · rw [h1] at hd; cases hd
    · rw [h1] at hd; rw [← Option.some.inj hd]
  have third : (Past j ∨ Walking j) → ∀ j', s'.job k = some j' → Walking j' → s'.fs (callUpload j'.call).icc ≠ none := by
    intro hpw j' hj' _
    rw [sameUpload j' hj']
    exact effect_dir f.effect _ (hpw.elim hp hw)
  have second : (Past j ∨ Walking j) → ∀ icc, s'.fs icc ≠ none → s.fs icc ≠ none := by
    intro hpw icc hi
    have hold := hpw.elim hp hw
    apply Classical.byContradiction
    intro hno
    rcases f.effect with h1 | ⟨m, sq, d, hc, h1 | ⟨x, h1⟩⟩ | ⟨m, x, hc, h1⟩
    · rw [h1] at hi; exact hno hi
    · rw [h1] at hi
      unfold FS.set at hi
      split at hi
      · rename_i hx
        rw [hc] at hold
        exact hno (hx ▸ hold)
      · exact hno hi
    · rw [h1] at hi
      rcases store_other hi with h2 | h2
      · exact hno h2
      · rw [hc] at hold; exact hno (h2 ▸ hold)
    · rw [h1] at hi
      rcases store_other hi with h2 | h2
      · exact hno h2
      · rw [hc] at hold; exact hno (h2 ▸ hold)
  have same : Res.ok (s, ([] : List Obs)) = .ok (s', l) → Past j →
      (∃ j', s'.job k = some j' ∧ Past j' ∧ callUpload j'.call = callUpload j.call) ∨
      ∃ sq d o, FileOp.write (callUpload j.call) sq d o ∈ opsOf l ∧ o ≠ .noDir := by
    intro h hpj; cases h; exact .inl ⟨j, hj, hpj, rfl⟩
  cases j with
  | mkdir m seq data =>
    refine ⟨fun hx => hx.elim, ?_, ?_⟩
    · intro icc hi
      cases a <;> simp only [State.advance, Res.ok.injEq, Prod.mk.injEq] at h
      · obtain ⟨rfl, rfl⟩ := h
        simp only [State.goto, FS.set] at hi
        split at hi
        · rename_i hx
          exact .inr ⟨_, goto_job_self _ _ _, trivial, hx.symm⟩
        · exact .inl hi
      all_goals
        obtain ⟨rfl, rfl⟩ := h
        exact .inl hi
    · intro j' hj' hwj
      cases a <;> simp only [State.advance, Res.ok.injEq, Prod.mk.injEq] at h <;> obtain ⟨rfl, rfl⟩ := h
      · rw [goto_job_self] at hj'; cases hj'; exact hwj.elim
      · rw [goto_job_self] at hj'; cases hj'
      all_goals rw [hj] at hj'; cases hj'; exact hwj.elim
  | create m seq data =>
    refine ⟨fun hpj => ?_, fun icc hi => .inl (second (.inl trivial) icc hi), third (.inl trivial)⟩
    cases a <;> simp only [State.advance] at h <;> try exact same h hpj
    · cases h; exact .inl ⟨_, goto_job_self _ _ _, trivial, rfl⟩
    · cases h; exact .inr ⟨seq, data, .noFile, by simp [opsOf, opOf, Job.call, callUpload], by simp⟩
  | put m seq data done =>
    refine ⟨fun hpj => ?_, fun icc hi => .inl (second (.inl trivial) icc hi), third (.inl trivial)⟩
    simp only [State.advance] at h
    split at h
    · cases h; exact .inl ⟨_, goto_job_self _ _ _, trivial, rfl⟩
    · cases a <;> simp only at h <;> try exact same h hpj
      all_goals cases h; exact .inl ⟨_, goto_job_self _ _ _, trivial, rfl⟩
  | shut m seq data done b =>
    refine ⟨fun hpj => ?_, fun icc hi => .inl (second (.inl trivial) icc hi), third (.inl trivial)⟩
    cases a <;> simp only [State.advance] at h <;> try exact same h hpj
    · cases h; exact .inr ⟨seq, data, if b = true then .ok else .torn done, by simp [opsOf, opOf, Job.call, callUpload], by cases b <;> simp⟩
    · cases h; exact .inr ⟨seq, data, .torn done, by simp [opsOf, opOf, Job.call, callUpload], by simp⟩
  | stat m g =>
    refine ⟨fun hx => hx.elim, ?_, ?_⟩
    · intro icc hi
      cases a <;> simp only [State.advance] at h
      · split at h
        · cases h
        · cases h; exact .inl hi
      · cases h
      all_goals cases h; exact .inl hi
    · intro j' hj' hwj
      cases a <;> simp only [State.advance] at h
      · split at h
        · cases h
        · rename_i d hd
          cases h
          rw [sameUpload j' hj']
          have : (callUpload (Job.stat m g).call).icc = m.icc := by cases g <;> rfl
          rw [this]
          show s.fs m.icc ≠ none
          rw [hd]; simp
      · cases h
      all_goals cases h; rw [hj] at hj'; cases hj'; exact hwj.elim
  | list m g before => exact ⟨fun hx => hx.elim, fun icc hi => .inl (second (.inr trivial) icc hi), third (.inr trivial)⟩
  | visit m g todo found => exact ⟨fun hx => hx.elim, fun icc hi => .inl (second (.inr trivial) icc hi), third (.inr trivial)⟩
  | openPart m seq n todo found => exact ⟨fun hx => hx.elim, fun icc hi => .inl (second (.inr trivial) icc hi), third (.inr trivial)⟩
  | createFull m found => exact ⟨fun hx => hx.elim, fun icc hi => .inl (second (.inr trivial) icc hi), third (.inr trivial)⟩
  | copy m found todo pos out => exact ⟨fun hx => hx.elim, fun icc hi => .inl (second (.inr trivial) icc hi), third (.inr trivial)⟩
  | reopen m found out => exact ⟨fun hx => hx.elim, fun icc hi => .inl (second (.inr trivial) icc hi), third (.inr trivial)⟩

theorem hasDir_left {a b : List FileOp} {icc : UInt64} (h : hasDir a icc) : hasDir (a ++ b) icc := by
  obtain ⟨op, hm, h⟩ := h
  exact ⟨op, List.mem_append_left _ hm, h⟩

theorem Made.step {s s' : State} {log l : List Obs} {ev : Event} (h : Made s log) (hb : Basic s log) (hd : Dirs s log) (hs : s.step ev = .ok (s', l)) :
    Made s' (log ++ l) := by
  have quiet : s'.fs = s.fs → opsOf l = [] → (∀ k j, s'.job k = some j → Walking j → s.job k = some j) →
      (∀ k j, s.job k = some j → Past j → s'.job k = some j) → Made s' (log ++ l) := by
    intro hfs hops hjobs hkeep
    refine ⟨?_, ?_⟩
    · intro icc hi
      rw [hfs] at hi
      rw [opsOf_append, hops, List.append_nil]
      rcases h.made icc hi with h1 | ⟨k, j, h1, h2, h3⟩
      · exact .inl h1
      · exact .inr ⟨k, j, hkeep k j h1 h2, h2, h3⟩
    · intro k j hj hw
      rw [hfs]; exact h.walk k j (hjobs k j hj hw) hw
  cases ev with
  | call k c =>
    simp only [State.step] at hs
    split at hs
    · rename_i hjn hrn
      cases hs
      refine quiet rfl rfl ?_ ?_
      · intro i j hj hp
        by_cases hi : i = k
        · subst hi
          rw [goto_job_self] at hj
          cases hj
          cases c <;> exact hp.elim
        · rw [goto_job_other _ _ _ _ hi] at hj; exact hj
      · intro i j hj hp
        by_cases hi : i = k
        · subst hi
          rw [hjn] at hj; cases hj
        · rw [goto_job_other _ _ _ _ hi]; exact hj
    · cases hs; exact quiet rfl rfl (fun _ _ hj _ => hj) fun _ _ hj _ => hj
  | step k a =>
    simp only [State.step] at hs
    split at hs
    · rename_i j hj
      have f := advance_facts hj (hb.one k (by simp [hj])) hs
      obtain ⟨h1, h2, h3⟩ := advance_made hj (hd.past k j hj) (h.walk k j hj) hs f
      refine ⟨?_, ?_⟩
      · intro icc hi
        rcases h2 icc hi with h4 | ⟨j', h4⟩
        · rcases h.made icc h4 with h5 | ⟨i, ji, h5, h6, h7⟩
          · rw [opsOf_append]; exact .inl (hasDir_left h5)
          · by_cases hik : i = k
            · subst hik
              rw [hj] at h5; cases h5
              rcases h1 h6 with ⟨j', h8, h9, h10⟩ | ⟨sq, d, o, h8, h9⟩
              · exact .inr ⟨i, j', h8, h9, by rw [h10]; exact h7⟩
              · rw [opsOf_append]
                exact .inl ⟨_, List.mem_append_right _ h8, h7, _, sq, d, o, rfl, h9⟩
            · exact .inr ⟨i, ji, by rw [f.jobs i hik]; exact h5, h6, h7⟩
        · exact .inr ⟨k, j', h4⟩
      · intro i ji hji hp
        by_cases hi : i = k
        · subst hi; exact h3 ji hji hp
        · rw [f.jobs i hi] at hji
          exact effect_dir f.effect _ (h.walk i ji hji hp)
    · cases hs; exact quiet rfl rfl (fun _ _ hj _ => hj) fun _ _ hj _ => hj
  | read k n =>
    simp only [State.step] at hs
    split at hs
    · split at hs <;> cases hs <;> exact quiet rfl rfl (fun _ _ hj _ => hj) fun _ _ hj _ => hj
    · cases hs; exact quiet rfl rfl (fun _ _ hj _ => hj) fun _ _ hj _ => hj
  | release k =>
    simp only [State.step] at hs
    split at hs <;> cases hs <;> exact quiet rfl rfl (fun _ _ hj _ => hj) fun _ _ hj _ => hj

theorem Made.run {s t : State} {evs : List Event} {log l : List Obs} (h : Made s log) (hb : Basic s log) (hd : Dirs s log) (hr : s.run evs = .ok (t, l)) :
    Made t (log ++ l) := by
  induction evs generalizing s log l with
  | nil => rw [State.run] at hr; cases hr; simpa using h
  | cons ev evs ih =>
    obtain ⟨s', l1, l2, h1, h2, rfl⟩ := run_cons hr
    rw [← List.append_assoc]
    exact ih (h.step hb hd h1) (hb.step h1) (hd.step hb h1) h2

/-! ## Completed calls and calls in progress -/

theorem progress_ongoing {k : Nat} {l : List Obs} (h : ∀ o ∈ l, Ongoing o) (x : Option Call) : l.foldl (progress k) x = x := by
  refine foldl_id _ _ (fun o ho x => ?_) x
  have := h o ho
  cases o <;> first | rfl | exact this.elim

/-- A call that returns was in progress. -/
theorem returned_doing {s t : State} {evs : List Event} {log0 log l1 l2 : List Obs} {o : Obs} {op : FileOp} (hb0 : Basic s log0) (hr : s.run evs = .ok (t, log))
    (h : log = l1 ++ o :: l2) (ho : opOf o = some op) :
    ∃ k c, inProgress k (log0 ++ l1) = some c ∧ OpFor c op ∧ (∀ m sq d x, o = .wrote k m sq d x → c = .write m sq d) ∧
      ((∃ m sq d x, o = .wrote k m sq d x) ∨ ∃ m x, o = .merged k m x) := by
  obtain ⟨evs1, ev, s1, s2, la, r, lb, h1, h2, rfl⟩ := run_split hr h
  have hb := hb0.run h1
  cases ev with
  | call k c =>
    simp only [State.step] at h2
    split at h2
    · simp only [Res.ok.injEq, Prod.mk.injEq] at h2
      obtain ⟨-, h2⟩ := h2
      have : o ∈ [Obs.began k c] := by rw [h2]; simp
      simp at this; subst this; cases ho
    · simp at h2
  | step k a =>
    simp only [State.step] at h2
    split at h2
    · rename_i j hj
      have hr : s1.reader k = none := hb.one k (by rw [hj]; simp)
      have out := advance_outcomes hj hr h2
      have hprog : ∀ l, (∀ o ∈ l, Ongoing o) → inProgress k (log0 ++ (la ++ l)) = some j.call := by
        intro l hl
        rw [← List.append_assoc, inProgress_append, progress_ongoing hl, hb.prog k]
        simp [State.doing, hj]
      have last : ∀ {l : List Obs} {q : Obs}, (∀ o ∈ l, Ongoing o) → l ++ [q] = r ++ o :: lb → r = l ∧ o = q := by
        intro l q hl he
        rcases List.append_eq_append_iff.1 he with ⟨x, e1, e2⟩ | ⟨x, e1, e2⟩
        · cases x with
          | nil => simp at e1 e2; exact ⟨e1, e2.1.symm⟩
          | cons y ys => simp at e2
        · cases x with
          | nil => simp at e1 e2; exact ⟨e1.symm, e2.1⟩
          | cons y ys =>
            rw [List.cons_append, List.cons.injEq] at e2
            have := hl o (by rw [e1, e2.1]; simp)
            cases o <;> first | exact this.elim | cases ho
      generalize hL : r ++ o :: lb = L at out
      cases out with
      | on e1 e2 =>
        have := e1 o (by rw [← hL]; simp)
        cases o <;> first | exact this.elim | cases ho
      | wrote o' e1 e2 e3 =>
        obtain ⟨rfl, rfl⟩ := last e2 hL.symm
        cases ho
        refine ⟨k, j.call, hprog _ e2, .inl ⟨_, _, _, _, e1, rfl⟩, ?_, .inl ⟨_, _, _, _, rfl⟩⟩
        rintro m sq d x hx
        cases hx
        exact e1
      | checked o' e1 e2 e3 =>
        obtain ⟨rfl, rfl⟩ := last e2 hL.symm
        cases ho
      | failed o' e1 e2 e3 e4 =>
        obtain ⟨rfl, rfl⟩ := last e3 hL.symm
        cases ho
        exact ⟨k, j.call, hprog _ e3, .inr ⟨_, _, e1, rfl⟩, by simp, .inr ⟨_, _, rfl⟩⟩
      | merged e1 e2 e3 =>
        obtain ⟨rfl, rfl⟩ := last e2 hL.symm
        cases ho
        exact ⟨k, j.call, hprog _ e2, .inr ⟨_, _, e1, rfl⟩, by simp, .inr ⟨_, _, rfl⟩⟩
    · simp at h2
  | read k n =>
    simp only [State.step] at h2
    split at h2
    · split at h2
      · simp only [Res.ok.injEq, Prod.mk.injEq] at h2
        have : o ∈ [Obs.eof k] := by rw [h2.2]; simp
        simp at this; subst this; cases ho
      · simp only [Res.ok.injEq, Prod.mk.injEq] at h2
        have := (List.mem_singleton (α := Obs)).1 (show o ∈ [_] by rw [h2.2]; simp)
        subst this; cases ho
    · simp at h2
  | release k =>
    simp only [State.step] at h2
    split at h2
    · simp only [Res.ok.injEq, Prod.mk.injEq] at h2
      have hm := List.mem_append_right r (List.mem_cons_self (a := o) (l := lb))
      rw [← h2.2] at hm
      rcases List.mem_cons.1 hm with rfl | hm
      · cases ho
      · simp at hm; subst hm; cases ho
    · simp at h2

/-- Calls in progress for one upload do not get in each other's way. -/
theorem inTurn_excl {u : Upload} {log : List Obs} (h : InTurn u log) {k k' : Nat} {c c' : Call} (hk : k ≠ k') (h1 : inProgress k log = some c)
    (h2 : inProgress k' log = some c') (hc : callUpload c = u) (hc' : callUpload c' = u) : ¬ Conflict c c' := by
  suffices H : ∀ (r : List Obs) {k k' : Nat} {c c' : Call}, InTurn u r.reverse → k ≠ k' → inProgress k r.reverse = some c → inProgress k' r.reverse = some c' →
      callUpload c = u → callUpload c' = u → ¬ Conflict c c' from
    H log.reverse (by simpa using h) hk (by simpa using h1) (by simpa using h2) hc hc'
  clear h h1 h2 hk hc hc'
  intro r
  induction r with
  | nil => intro k k' c c' _ _ h1; simp [inProgress] at h1
  | cons o r ih =>
    intro k k' c c' h hk h1 h2 hc hc'
    rw [List.reverse_cons] at h h1 h2
    rw [inProgress_append] at h1 h2
    simp only [List.foldl_cons, List.foldl_nil] at h1 h2
    have hp := inTurn_prefix h
    rcases progress_some h1 with g1 | g1
    · rcases progress_some h2 with g2 | g2
      · exact ih hp hk g1 g2 hc hc'
      · subst g2
        exact conflict_symm (h _ _ _ _ rfl hc' k c g1 hc)
    · subst g1
      rcases progress_some h2 with g2 | g2
      · exact h _ _ _ _ rfl hc k' c' g2 hc'
      · cases g2; exact absurd rfl hk

/-- What was written by the last call of `Write` for a part, when that call has returned without error and no later one has begun. -/
theorem latest_kept {s t : State} {evs : List Event} {log0 l l1 l2 : List Obs} {k : Nat} {m : Multipart} {sq : UInt16} {d : Bytes} (hb0 : Basic s log0)
    (hr : s.run evs = .ok (t, l)) (ht : InTurn (uploadOf m) (log0 ++ l)) (hl : l = l1 ++ .wrote k m sq d .ok :: l2)
    (hno : ∀ k' m' d', .began k' (.write m' sq d') ∈ l2 → uploadOf m' ≠ uploadOf m) :
    latest (opsOf (log0 ++ l)) (uploadOf m) sq = some d ∧
      ∀ k' m' d', inProgress k' (log0 ++ l) = some (.write m' sq d') → uploadOf m' ≠ uploadOf m := by
  -- no call for the part is in progress after it has returned
  have free : ∀ x y, l2 = x ++ y → ∀ k' m' d', inProgress k' (log0 ++ (l1 ++ .wrote k m sq d .ok :: x)) = some (.write m' sq d') → uploadOf m' ≠ uploadOf m := by
    intro x y hxy k' m' d' hp hu
    rw [show log0 ++ (l1 ++ Obs.wrote k m sq d .ok :: x) = (log0 ++ l1) ++ .wrote k m sq d .ok :: x by simp, inProgress_append, List.foldl_cons] at hp
    rcases progress_fold hp with h1 | h1
    · simp only [progress] at h1
      split at h1
      · cases h1
      · rename_i hk
        obtain ⟨k0, c0, g1, -, g3, g4⟩ := returned_doing hb0 hr hl rfl
        obtain rfl : k = k0 := by rcases g4 with ⟨_, _, _, _, g4⟩ | ⟨_, _, g4⟩ <;> cases g4; rfl
        obtain rfl := g3 _ _ _ _ rfl
        have hpre : InTurn (uploadOf m) (log0 ++ l1) := by
          rw [hl, ← List.append_assoc] at ht
          exact inTurn_prefix ht
        exact inTurn_excl hpre hk g1 h1 rfl hu rfl
    · exact hno k' m' d' (by rw [hxy]; exact List.mem_append_left _ h1) hu
  refine ⟨?_, ?_⟩
  · rw [show log0 ++ l = (log0 ++ l1) ++ ([.wrote k m sq d .ok] ++ l2) by rw [hl]; simp, opsOf_append (log0 ++ l1), opsOf_append _ l2]
    unfold latest
    rw [List.reverse_append, List.reverse_append, List.append_assoc, latestIn_append]
    have hnone : latestIn (uploadOf m) sq (opsOf l2).reverse = none := by
      cases hx : latestIn (uploadOf m) sq (opsOf l2).reverse with
      | none => rfl
      | some c =>
        obtain ⟨d', o, hmem, -⟩ := latestIn_mem hx
        obtain ⟨ob, hob, hop⟩ := List.mem_filterMap.1 (List.mem_reverse.1 hmem)
        obtain ⟨x, y, rfl⟩ := List.append_of_mem hob
        obtain ⟨k0, c0, g1, g2, -, -⟩ := returned_doing (l1 := l1 ++ .wrote k m sq d .ok :: x) (l2 := y) hb0 hr (by rw [hl]; simp) hop
        rcases g2 with ⟨m', sq', d'', o', rfl, g2⟩ | ⟨m', o', rfl, g2⟩
        · simp only [FileOp.write.injEq] at g2
          rw [← g2.2.1] at g1
          exact absurd g2.1.symm (free x _ rfl k0 m' _ g1)
        · cases g2
    rw [hnone]
    simp [opsOf, opOf, latestIn, leaves]
  · intro k' m' d' hp
    rw [hl] at hp
    exact free l2 [] (by simp) k' m' d' hp

/-! ## The calls in progress when the process ends -/

/-- The job has changed files, and its call has not returned. -/
def Busy : Job → Prop
  | .create _ _ _ | .put _ _ _ _ | .shut _ _ _ _ _ | .copy _ _ _ _ _ | .reopen _ _ _ => True
  | _ => False

/-- What ends the calls in progress leaves the files as they are. -/
structure Settles (s s' : State) (l : List Obs) : Prop where
  run : ∃ evs, s.run evs = .ok (s', l)
  fs : s'.fs = s.fs
  jobs : ∀ i j, s'.job i = some j → s.job i = some j
  began : ∀ i c, .began i c ∉ l
  unlisted : ∀ i m, .unlisted i m ∉ l

theorem Settles.none (s : State) : Settles s s [] := ⟨⟨[], rfl⟩, rfl, fun _ _ h => h, by simp, by simp⟩

theorem run_append {s s' s'' : State} {evs evs' : List Event} {l l' : List Obs} (h : s.run evs = .ok (s', l)) (h' : s'.run evs' = .ok (s'', l')) :
    s.run (evs ++ evs') = .ok (s'', l ++ l') := by
  induction evs generalizing s l with
  | nil => cases h; exact h'
  | cons ev evs ih =>
    obtain ⟨s1, a, b, h1, h2, rfl⟩ := run_cons h
    show (s.step ev >>= fun r => r.1.run (evs ++ evs') >>= fun q => .ok (q.1, r.2 ++ q.2)) = _
    rw [h1]
    show (s1.run (evs ++ evs') >>= fun q => .ok (q.1, a ++ q.2)) = _
    rw [ih h2]
    show Res.ok (s'', a ++ (b ++ l')) = _
    rw [List.append_assoc]

theorem Settles.trans {s s' s'' : State} {l l' : List Obs} (h : Settles s s' l) (h' : Settles s' s'' l') : Settles s s'' (l ++ l') := by
  obtain ⟨evs, h1⟩ := h.run
  obtain ⟨evs', h2⟩ := h'.run
  refine ⟨⟨_, run_append h1 h2⟩, h'.fs.trans h.fs, fun i j hj => h.jobs i j (h'.jobs i j hj), ?_, ?_⟩
  · intro i c hm; rcases List.mem_append.1 hm with hm | hm
    · exact h.began i c hm
    · exact h'.began i c hm
  · intro i c hm; rcases List.mem_append.1 hm with hm | hm
    · exact h.unlisted i c hm
    · exact h'.unlisted i c hm

theorem settle_one (s : State) (k : Nat) : ∃ s' l, Settles s s' l ∧ ∀ j, s'.job k = some j → ¬ Busy j := by
  have gone : ∀ {j : Option Job} i j', (s.goto k none).job i = some j' → s.job i = some j' := by
    intro _ i j' h
    by_cases hi : i = k
    · subst hi; rw [goto_job_self] at h; cases h
    · rw [goto_job_other _ _ _ _ hi] at h; exact h
  have gone2 : ∀ {x : Option Job} i j', ((s.goto k x).goto k none).job i = some j' → s.job i = some j' := by
    intro x i j' h
    by_cases hi : i = k
    · subst hi; rw [goto_job_self] at h; cases h
    · rw [goto_job_other _ _ _ _ hi, goto_job_other _ _ _ _ hi] at h; exact h
  have run1 : ∀ {j : Job} {l : List Obs}, s.job k = some j → s.advance k .fail j = .ok (s.goto k none, l) → s.run [.step k .fail] = .ok (s.goto k none, l) := by
    intro j l hj h
    show (s.step (.step k .fail) >>= fun r => r.1.run [] >>= fun q => .ok (q.1, r.2 ++ q.2)) = _
    simp only [State.step, hj, h, Res.ok_bind, State.run, List.append_nil]
  have run2 : ∀ {j j' : Job} {l : List Obs}, s.job k = some j → s.advance k .fail j = .ok (s.goto k (some j'), []) →
      (s.goto k (some j')).advance k .fail j' = .ok ((s.goto k (some j')).goto k none, l) →
      s.run [.step k .fail, .step k .fail] = .ok ((s.goto k (some j')).goto k none, l) := by
    intro j j' l hj h h'
    show (s.step (.step k .fail) >>= fun r => r.1.run [.step k .fail] >>= fun q => .ok (q.1, r.2 ++ q.2)) = _
    simp only [State.step, hj, h, Res.ok_bind, State.run, goto_job_self, h', List.append_nil, List.nil_append]
  have no : ∀ j, (s.goto k none).job k = some j → ¬ Busy j := by intro j h; rw [goto_job_self] at h; cases h
  have no2 : ∀ {x : Option Job} j, ((s.goto k x).goto k none).job k = some j → ¬ Busy j := by intro x j h; rw [goto_job_self] at h; cases h
  have stay : (∀ j, s.job k = some j → ¬ Busy j) → ∃ s' l, Settles s s' l ∧ ∀ j, s'.job k = some j → ¬ Busy j := fun h => ⟨s, [], .none s, h⟩
  cases hj : s.job k with
  | none => exact stay (by rw [hj]; simp)
  | some j =>
    cases j with
    | create m seq data => exact ⟨_, _, ⟨⟨_, run1 hj rfl⟩, rfl, gone (j := none), by simp, by simp⟩, no⟩
    | put m seq data done =>
      by_cases hd : data.length ≤ done
      · exact ⟨_, _, ⟨⟨_, run2 (j' := .shut m seq data done true) hj (by simp only [State.advance, hd, if_true]) rfl⟩, rfl, gone2, by simp, by simp⟩, no2⟩
      · exact ⟨_, _, ⟨⟨_, run2 (j' := .shut m seq data done false) hj (by simp only [State.advance, hd, if_false]) rfl⟩, rfl, gone2, by simp, by simp⟩, no2⟩
    | shut m seq data done b => exact ⟨_, _, ⟨⟨_, run1 hj rfl⟩, rfl, gone (j := none), by simp, by simp⟩, no⟩
    | copy m found todo pos out =>
      cases todo with
      | nil => exact ⟨_, _, ⟨⟨_, run2 (j' := .reopen m found out) hj rfl rfl⟩, rfl, gone2, by simp [closeParts], by simp [closeParts]⟩, no2⟩
      | cons p todo => exact ⟨_, _, ⟨⟨_, run1 hj rfl⟩, rfl, gone (j := none), by simp [closeParts], by simp [closeParts]⟩, no⟩
    | reopen m found out => exact ⟨_, _, ⟨⟨_, run1 hj rfl⟩, rfl, gone (j := none), by simp [closeParts], by simp [closeParts]⟩, no⟩
    | _ => exact stay (by rw [hj]; rintro j hx hb; cases hx; exact hb.elim)

theorem settle_all (s : State) (ks : List Nat) : ∃ s' l, Settles s s' l ∧ ∀ k ∈ ks, ∀ j, s'.job k = some j → ¬ Busy j := by
  induction ks generalizing s with
  | nil => exact ⟨s, [], .none s, by simp⟩
  | cons k ks ih =>
    obtain ⟨s1, l1, h1, h2⟩ := settle_one s k
    obtain ⟨s2, l2, h3, h4⟩ := ih s1
    refine ⟨s2, _, h1.trans h3, ?_⟩
    intro i hi j hj
    rcases List.mem_cons.1 hi with rfl | hi
    · exact h2 j (h3.jobs i j hj)
    · exact h4 i hi j hj

/-! ## The files that are left -/

/-- The files are what completed calls of `Write` and `Merge` leave, one after the other. -/
structure Rests (fs : FS) (ops : List FileOp) : Prop where
  nodup : ∀ icc, (names fs icc).Nodup
  named : ∀ icc n, n ∈ names fs icc → ∃ v : Upload, v.icc = icc ∧ ((∃ sq, n = v.partName sq) ∨ n = (v.multipart 0).fullName)
  parts : ∀ u sq, part fs u sq = latest ops u sq
  whole : ∀ u, full fs u = merged ops u
  dirs : ∀ icc, fs icc ≠ none ↔ hasDir ops icc

theorem rests_empty : Rests (fun _ => none) [] :=
  ⟨by simp [names], by simp [names], fun _ _ => rfl, fun _ => rfl, fun icc => by simp [hasDir]⟩

/-- The calls as observations. -/
def asObs : FileOp → Obs
  | .write u sq d o => .wrote 0 (u.multipart 0) sq d o
  | .merge u o => .merged 0 (u.multipart 0) o

theorem opsOf_asObs (ops : List FileOp) : opsOf (ops.map asObs) = ops := by
  unfold opsOf
  rw [List.filterMap_map]
  have : (opOf ∘ asObs) = some := by funext op; cases op <;> rfl
  rw [this, List.filterMap_some]

theorem asObs_began (ops : List FileOp) (k : Nat) (c : Call) : .began k c ∉ ops.map asObs := by
  intro h
  obtain ⟨op, -, h⟩ := List.mem_map.1 h
  cases op <;> cases h

theorem Rests.founded {fs : FS} {ops : List FileOp} (h : Rests fs ops) : Founded fs (ops.map asObs) where
  basic :=
    { prog := fun k => by
        cases hp : inProgress k (ops.map asObs) with
        | none => rfl
        | some c => exact absurd (inProgress_began hp) (asObs_began ops k c)
      one := fun k hk => rfl
      nodup := h.nodup
      named := h.named }
  turn := fun u =>
    { excl := fun k k' c c' _ hk => by cases hk
      parts := fun sq _ => by rw [opsOf_asObs]; exact h.parts u sq
      whole := fun _ => by rw [opsOf_asObs]; exact h.whole u
      jobs := fun k j hj => by cases hj
      readers := fun k m pos hr => by cases hr }
  dirs := ⟨fun k j hj => (by cases hj), fun icc hd => (h.dirs icc).2 (by rw [opsOf_asObs] at hd; exact hd)⟩
  after := asObs_began ops

theorem Rests.made {fs : FS} {ops : List FileOp} (h : Rests fs ops) : Made { fs := fs } (ops.map asObs) :=
  ⟨fun icc hi => .inl (by rw [opsOf_asObs]; exact (h.dirs icc).1 hi), fun k j hj => by cases hj⟩

theorem Rests.after {fs : FS} {ops : List FileOp} (h : Rests fs ops) : After ops.reverse fs where
  stored := by
    intro icc
    cases hd : fs icc with
    | none =>
      intro u s hu
      have := h.parts u s
      unfold part content latest at this
      rw [show fs u.icc = none by rw [hu]; exact hd] at this
      exact this.symm
    | some d =>
      have hn : (d.map (·.1)).Nodup := by have := h.nodup icc; rwa [names, hd] at this
      have hget : ∀ {n c}, d.get n = some c ↔ (n, c) ∈ d := by intro n c; exact Dir.get_eq_some _ hn n c
      refine ⟨hn, ?_, ?_⟩
      · intro f hf
        obtain ⟨v, hv, hx⟩ := h.named icc f.1 (by rw [names, hd]; exact List.mem_map.2 ⟨f, hf, rfl⟩)
        rcases hx with ⟨sq, hx⟩ | hx
        · refine .inl ⟨v, sq, hv, hx, ?_⟩
          have := h.parts v sq
          unfold part content latest at this
          rw [show fs v.icc = some d by rw [hv]; exact hd, ← hx] at this
          rw [← this]
          exact hget.2 hf
        · exact .inr ⟨v, hx⟩
      · intro u s c hu hc
        have := h.parts u s
        unfold part content latest at this
        rw [show fs u.icc = some d by rw [hu]; exact hd, hc] at this
        exact hget.1 this
  fulls := by
    intro u
    have := h.whole u
    unfold full content merged at this
    rw [← this]
    cases fs u.icc <;> rfl
  dirs := fun icc => by rw [h.dirs, hasDir_reverse]

/-- Whenever a process ends, the files are what its completed calls and those that it broke off leave. -/
theorem rests {fs0 : FS} {log0 l : List Obs} {s : State} {evs : List Event} (h0 : Founded fs0 log0) (hm : Made { fs := fs0 } log0)
    (hr : ({ fs := fs0 } : State).run evs = .ok (s, l)) (ht : ∀ u, InTurn u (log0 ++ l)) (hl : ∀ u, Listed u (log0 ++ l)) :
    ∃ broken, Rests s.fs (opsOf (log0 ++ l) ++ broken) ∧ ∀ op ∈ broken, ∃ k c, inProgress k (log0 ++ l) = some c ∧ OpFor c op := by
  have hb := h0.basic.run hr
  have hd := h0.dirs.run h0.basic hr
  have hm := hm.run h0.basic h0.dirs hr
  obtain ⟨s', x, hs, hno⟩ := settle_all s ((log0 ++ l).filterMap fun | .began k _ => some k | _ => none)
  obtain ⟨evs', hx⟩ := hs.run
  have hb' := hb.run hx
  have hd' := hd.run hb hx
  have hm' := hm.run hb hd hx
  have idle : ∀ k j, s'.job k = some j → ¬ Busy j := by
    intro k j hj
    refine hno k ?_ j hj
    have : s.doing k = some j.call := by simp [State.doing, hs.jobs k j hj]
    rw [← hb.prog k] at this
    rw [List.mem_filterMap]
    exact ⟨_, inProgress_began this, rfl⟩
  have turn : ∀ u, Turn u s' (log0 ++ l ++ x) := by
    intro u
    have t1 := ((h0.turn u).run h0.basic hr (ht u) (hl u)).1
    refine (t1.run hb hx ?_ ?_).1
    · intro l1 k c l2 heq
      rcases split_append heq with ⟨r, h1⟩ | ⟨r, -, h1⟩
      · exact ht u l1 k c r h1
      · exact absurd (by rw [h1]; simp) (hs.began k c)
    · intro k m hx
      rcases List.mem_append.1 hx with hx | hx
      · exact hl u k m hx
      · exact absurd hx (hs.unlisted k m)
  refine ⟨opsOf x, ?_, ?_⟩
  · rw [← opsOf_append, ← hs.fs]
    refine ⟨hb'.nodup, hb'.named, ?_, ?_, ?_⟩
    · intro u sq
      refine (turn u).parts sq fun k j hj hw => idle k j hj ?_
      cases j <;> first | trivial | exact hw.elim
    · intro u
      refine (turn u).whole fun k j hj hw => idle k j hj ?_
      cases j <;> first | trivial | exact hw.elim
    · intro icc
      refine ⟨fun hi => ?_, hd'.has icc⟩
      rcases hm'.made icc hi with h1 | ⟨k, j, h1, h2, -⟩
      · exact h1
      · exact absurd (by cases j <;> first | trivial | exact h2.elim) (idle k j h1)
  · intro op hop
    obtain ⟨o, ho, ho'⟩ := List.mem_filterMap.1 hop
    obtain ⟨a, b, rfl⟩ := List.append_of_mem ho
    obtain ⟨k, c, g1, g2, -⟩ := returned_doing hb hx rfl ho'
    refine ⟨k, c, ?_, g2⟩
    rw [inProgress_append] at g1
    exact (progress_fold g1).resolve_right fun hx => hs.began k c (List.mem_append_left _ hx)

end Verif.Files
