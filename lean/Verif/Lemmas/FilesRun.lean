import Verif.Lemmas.FilesAdvance
/-! # Overlapping file operations: whole schedules -/

namespace Verif.Files

open Spec

/-- What each observation tells, after the observations `l1`, if calls for the upload began in turn. -/
def Good (u : Upload) (l1 : List Obs) : Obs → Prop
  | .checked _ m b => uploadOf m = u →
      (b = true ↔ ∀ i : UInt16, 1 ≤ i.toNat → i.toNat ≤ m.sum.toNat → (latest (opsOf l1) u i).isSome)
  | .eof k => ∀ m, inProgress k l1 = some (.merge m) → uploadOf m = u → merged (opsOf l1) u = some (heard k l1)
  | .got k chunk => ∀ m, inProgress k l1 = some (.merge m) → uploadOf m = u → ∃ c, merged (opsOf l1) u = some c ∧ heard k l1 ++ chunk <+: c
  | _ => True

theorem full_of (l : List Obs) (m : Multipart) (u : Upload) (hu : uploadOf m = u) (found : List (UInt16 × Bytes))
    (h : Seen (latest (opsOf l) u) m [] found) :
    (((List.range m.sum.toNat).all fun i => found.any fun p => p.1 = UInt16.ofNat (i + 1)) = true ↔
      ∀ i : UInt16, 1 ≤ i.toNat → i.toNat ≤ m.sum.toNat → (latest (opsOf l) u i).isSome) := by
  rw [List.all_eq_true]
  constructor
  · intro hall i h1 h2
    have := hall (i.toNat - 1) (List.mem_range.2 (by omega))
    rw [List.any_eq_true] at this
    obtain ⟨p, hp, heq⟩ := this
    have heq : p.1 = i := by
      rw [decide_eq_true_eq] at heq
      rw [heq, show i.toNat - 1 + 1 = i.toNat by omega, UInt16.ofNat_toNat]
    rw [← heq]
    exact (h.got p hp).2
  · intro hall i hi
    have hi := List.mem_range.1 hi
    have hn := m.sum.toNat_lt
    have ht : (UInt16.ofNat (i + 1)).toNat = i + 1 := by
      rw [UInt16.toNat_ofNat_of_lt']; simp only [UInt16.size]; omega
    rw [List.any_eq_true]
    rcases h.all (UInt16.ofNat (i + 1)) (hall _ (by omega) (by omega)) with h1 | h1
    · simp at h1
    · exact ⟨_, h1, by simp⟩

theorem advance_good {u : Upload} {s s' : State} {log l : List Obs} {k : Nat} {a : Answer} {j : Job} (h : Turn u s log)
    (hj : s.job k = some j) (hs : s.advance k a j = .ok (s', l)) (hl : Listed u (log ++ l)) (l1 : List Obs) (o : Obs) (l2 : List Obs)
    (hsplit : l = l1 ++ o :: l2) : Good u (log ++ l1) o := by
  have hmem : o ∈ l := by rw [hsplit]; simp
  have nil : [] = l → Good u (log ++ l1) o := by rintro rfl; simp at hmem
  have parts : ∀ m found, o ∈ closeParts k m found → Good u (log ++ l1) o := by
    intro m found ho
    simp only [closeParts, List.mem_map] at ho
    obtain ⟨p, -, rfl⟩ := ho
    trivial
  cases j with
  | mkdir m seq data =>
    cases a <;> simp only [State.advance, Res.ok.injEq, Prod.mk.injEq] at hs <;> try exact nil hs.2
    obtain ⟨-, rfl⟩ := hs
    simp at hmem; subst hmem; trivial
  | create m seq data =>
    cases a <;> simp only [State.advance, Res.ok.injEq, Prod.mk.injEq] at hs <;> try exact nil hs.2
    all_goals
      obtain ⟨-, rfl⟩ := hs
      simp at hmem; subst hmem; trivial
  | put m seq data done =>
    by_cases hd : data.length ≤ done
    · cases a <;> simp only [State.advance, hd, if_true, Res.ok.injEq, Prod.mk.injEq] at hs <;> exact nil hs.2
    · cases a <;> simp only [State.advance, hd, if_false, Res.ok.injEq, Prod.mk.injEq] at hs <;> exact nil hs.2
  | shut m seq data done b =>
    cases a <;> simp only [State.advance, Res.ok.injEq, Prod.mk.injEq] at hs <;> try exact nil hs.2
    all_goals
      obtain ⟨-, rfl⟩ := hs
      simp at hmem
      rcases hmem with rfl | rfl <;> trivial
  | stat m g =>
    cases a <;> simp only [State.advance, Res.ok.injEq, Prod.mk.injEq, reduceCtorEq] at hs <;> try exact nil hs.2
    split at hs
    · cases hs
    · cases hs; exact nil rfl
  | list m g before =>
    cases a <;> simp only [State.advance, Res.ok.injEq, Prod.mk.injEq] at hs <;> try exact nil hs.2
    · obtain ⟨-, rfl⟩ := hs
      have hne := hl k m (by simp)
      rcases List.mem_cons.1 hmem with rfl | hmem
      · trivial
      · unfold walked at hmem
        cases g with
        | true => simp at hmem
        | false =>
          simp at hmem
          subst hmem
          exact fun hx => absurd hx hne
    · split at hs <;> cases hs <;> exact nil rfl
  | visit m g todo found =>
    cases todo with
    | nil =>
      simp only [State.advance, Res.ok.injEq] at hs
      unfold walked at hs
      cases g with
      | true => cases hs; exact nil rfl
      | false =>
        cases hs
        rw [List.mem_singleton] at hmem
        subst hmem
        intro hu
        have hl1 : l1 = [] := by
          cases l1 with
          | nil => rfl
          | cons x xs =>
            have := congrArg List.length hsplit
            simp at this
        subst hl1
        rw [List.append_nil]
        exact full_of log m u hu found (h.jobs k _ hj hu)
    | cons n todo =>
      cases a <;> simp only [State.advance, Res.ok.injEq, Prod.mk.injEq, reduceCtorEq] at hs <;> try exact nil hs.2
      split at hs
      · cases hs; exact nil rfl
      · split at hs <;> cases hs <;> exact nil rfl
  | openPart m seq n todo found =>
    cases a <;> simp only [State.advance, Res.ok.injEq, Prod.mk.injEq] at hs <;> try exact nil hs.2
    · obtain ⟨-, rfl⟩ := hs
      simp at hmem; subst hmem; trivial
    · obtain ⟨-, rfl⟩ := hs
      rcases List.mem_append.1 hmem with hmem | hmem
      · exact parts _ _ hmem
      · simp at hmem; subst hmem; trivial
  | createFull m found =>
    cases a <;> simp only [State.advance, Res.ok.injEq, Prod.mk.injEq] at hs <;> try exact nil hs.2
    · obtain ⟨-, rfl⟩ := hs
      simp at hmem; subst hmem; trivial
    · obtain ⟨-, rfl⟩ := hs
      rcases List.mem_append.1 hmem with hmem | hmem
      · exact parts _ _ hmem
      · simp at hmem; subst hmem; trivial
  | copy m found todo pos out =>
    cases todo with
    | nil =>
      simp only [State.advance, Res.ok.injEq, Prod.mk.injEq] at hs
      exact nil hs.2
    | cons p todo =>
      obtain ⟨seq, n⟩ := p
      cases a <;> simp only [State.advance, Res.ok.injEq, Prod.mk.injEq] at hs <;> try exact nil hs.2
      · obtain ⟨-, rfl⟩ := hs
        rcases List.mem_append.1 hmem with hmem | hmem
        · rcases List.mem_cons.1 hmem with rfl | hmem
          · trivial
          · exact parts _ _ hmem
        · simp at hmem; subst hmem; trivial
      · split at hs <;> cases hs <;> exact nil rfl
  | reopen m found out =>
    cases a <;> simp only [State.advance, Res.ok.injEq, Prod.mk.injEq] at hs <;> try exact nil hs.2
    · obtain ⟨-, rfl⟩ := hs
      rcases List.mem_append.1 hmem with hmem | hmem
      · rcases List.mem_cons.1 hmem with rfl | hmem
        · trivial
        · rcases List.mem_cons.1 hmem with rfl | hmem
          · trivial
          · exact parts _ _ hmem
      · simp at hmem; subst hmem; trivial
    · obtain ⟨-, rfl⟩ := hs
      rcases List.mem_append.1 hmem with hmem | hmem
      · rcases List.mem_cons.1 hmem with rfl | hmem
        · trivial
        · exact parts _ _ hmem
      · simp at hmem; subst hmem; trivial

theorem take_chunk (c : Bytes) (pos n : Nat) : c.take pos ++ (c.drop pos).take n = c.take (pos + ((c.drop pos).take n).length) := by
  rw [List.take_add]
  congr 1
  rw [List.length_take, List.take_eq_take_iff]
  omega

theorem split_singleton {α : Type} {o' o : α} {l1 l2 : List α} (h : [o'] = l1 ++ o :: l2) : l1 = [] ∧ o = o' := by
  cases l1 with
  | nil => cases h; exact ⟨rfl, rfl⟩
  | cons x xs =>
    have := congrArg List.length h
    simp at this

/-- The merged file of a goroutine that has it open. -/
theorem reader_full {u : Upload} {s : State} {log : List Obs} {k : Nat} {m : Multipart} {pos : Nat} (h : Turn u s log) (hb : Basic s log)
    (hr : s.reader k = some (m, pos)) (hu : uploadOf m = u) :
    s.job k = none ∧ ∃ c, content s.fs (fullFile m) = some c ∧ merged (opsOf log) u = some c ∧ heard k log = c.take pos ∧ pos ≤ c.length := by
  have hj : s.job k = none := Classical.byContradiction fun hx => by rw [hb.one k hx] at hr; cases hr
  have hd : s.doing k = some (.merge m) := by simp [State.doing, hj, hr]
  obtain ⟨c, h1, h2, h3⟩ := h.readers k m pos hr hu
  have := h.alone hd hu (fun j hx => by rw [hj] at hx; cases hx)
  subst hu
  exact ⟨hj, c, h1, by rw [← this]; exact h1, h2, h3⟩

theorem Turn.step {u : Upload} {s s' : State} {log l : List Obs} {ev : Event} (h : Turn u s log) (hb : Basic s log) (hs : s.step ev = .ok (s', l))
    (ht : InTurn u (log ++ l)) (hl : Listed u (log ++ l)) : Turn u s' (log ++ l) ∧ ∀ l1 o l2, l = l1 ++ o :: l2 → Good u (log ++ l1) o := by
  have same : s = s' ∧ [] = l → Turn u s' (log ++ l) ∧ ∀ l1 o l2, l = l1 ++ o :: l2 → Good u (log ++ l1) o := by
    rintro ⟨rfl, rfl⟩
    exact ⟨by simpa using h, fun l1 o l2 hx => by simp at hx⟩
  cases ev with
  | call k c =>
    simp only [State.step] at hs
    split at hs
    · rename_i hj hr
      cases hs
      have eL : ∀ sq, latest (opsOf (log ++ [.began k c])) u sq = latest (opsOf log) u sq := fun sq => latest_nil _ _ rfl _ _
      have eM : merged (opsOf (log ++ [.began k c])) u = merged (opsOf log) u := merged_nil _ _ rfl _
      have nowr : ∀ sq, ¬ Writing u sq c.start := by cases c <;> intro sq hx <;> exact hx
      have nomg : ¬ Merging u c.start := by cases c <;> intro hx <;> exact hx
      refine ⟨h.update hb.one (fun i hi => goto_job_other _ _ _ _ hi) (fun _ _ => rfl) ?_ ?_ ?_ ?_ ?_ ?_ ?_ ?_, ?_⟩
      · intro c' hc' hu i hi c'' hc'' hu''
        have : c' = c := by
          have : (s.goto k (some c.start)).doing k = some c := by simp [State.doing, State.goto, start_call]
          rw [this] at hc'
          exact (Option.some.inj hc').symm
        subst this
        have := ht log k c' [] rfl hu i c'' (by rw [hb.prog]; exact hc'') hu''
        exact ⟨this, conflict_symm this⟩
      · intro sq hx
        rcases hx with hx | hx
        · exact absurd rfl hx
        · exact absurd (eL sq) hx
      · intro hx
        rcases hx with hx | hx
        · exact absurd rfl hx
        · exact absurd eM hx
      · intro j hj' _
        rw [goto_job_self] at hj'
        cases hj'
        cases c <;> trivial
      · intro sq ho _
        rw [eL]
        apply h.parts
        intro i ji hji
        by_cases hi : i = k
        · subst hi; rw [hj] at hji; cases hji
        · exact ho i ji hi hji
      · intro ho _
        rw [eM]
        apply h.whole
        intro i ji hji
        by_cases hi : i = k
        · subst hi; rw [hj] at hji; cases hji
        · exact ho i ji hi hji
      · intro m pos hr'
        have : s.reader k = some (m, pos) := hr'
        rw [hr] at this; cases this
      · intro i _
        rw [heard_append]; rfl
      · intro l1 o l2 hx
        obtain ⟨rfl, rfl⟩ := split_singleton hx
        trivial
    · cases hs; exact same ⟨rfl, rfl⟩
  | step k a =>
    simp only [State.step] at hs
    split at hs
    · rename_i j hj
      exact ⟨h.advance hb hj hs hl, advance_good h hj hs hl⟩
    · cases hs; exact same ⟨rfl, rfl⟩
  | read k n =>
    simp only [State.step] at hs
    split at hs
    · rename_i m pos hr
      have hj : s.job k = none := Classical.byContradiction fun hx => by rw [hb.one k hx] at hr; cases hr
      have hd : s.doing k = some (.merge m) := by simp [State.doing, hj, hr]
      -- the upload of the file that is read
      have own : ∀ m', inProgress k log = some (.merge m') → m' = m := by
        intro m' hm'
        rw [hb.prog, hd] at hm'
        cases hm'; rfl
      split at hs
      · rename_i hle
        cases hs
        refine ⟨⟨h.excl, ?_, ?_, ?_, ?_⟩, ?_⟩
        · intro sq hx
          rw [latest_nil _ _ rfl]; exact h.parts sq hx
        · intro hx
          rw [merged_nil _ _ rfl]; exact h.whole hx
        · intro i j hi hu
          rw [show latest (opsOf (log ++ [.eof k])) u = latest (opsOf log) u from funext fun sq => latest_nil _ _ rfl _ _, merged_nil _ _ rfl]
          exact h.jobs i j hi hu
        · intro i m' pos' hi hu
          rw [heard_append]
          exact h.readers i m' pos' hi hu
        · intro l1 o l2 hx
          obtain ⟨rfl, rfl⟩ := split_singleton hx
          intro m' hm' hu
          rw [List.append_nil] at hm' ⊢
          obtain rfl := own m' hm'
          obtain ⟨-, c, h1, h2, h3, h4⟩ := reader_full h hb hr hu
          rw [h1, Option.getD_some] at hle
          rw [h2, h3, List.take_of_length_le hle]
      · rename_i hle
        cases hs
        refine ⟨h.update (k := k) hb.one (fun _ _ => rfl) (fun i hi => by simp [State.setReader, hi]) ?_ ?_ ?_ ?_ ?_ ?_ ?_ ?_, ?_⟩
        · intro c' hc' hu i hi c'' hc'' hu''
          have : c' = .merge m := by
            simp [State.doing, State.setReader, hj] at hc'
            exact hc'.symm
          subst this
          have := h.excl k i _ c'' (Ne.symm hi) hd hc'' hu hu''
          exact ⟨this, conflict_symm this⟩
        · intro sq hx
          rcases hx with hx | hx
          · exact absurd rfl hx
          · exact absurd (latest_nil _ _ rfl _ _) hx
        · intro hx
          rcases hx with hx | hx
          · exact absurd rfl hx
          · exact absurd (merged_nil _ _ rfl _) hx
        · intro j' hj'
          have : s.job k = some j' := hj'
          rw [hj] at this; cases this
        · intro sq ho hk
          rw [latest_nil _ _ rfl]
          apply h.parts
          intro i ji hji
          by_cases hi : i = k
          · subst hi; rw [hj] at hji; cases hji
          · exact ho i ji hi hji
        · intro ho hk
          rw [merged_nil _ _ rfl]
          apply h.whole
          intro i ji hji
          by_cases hi : i = k
          · subst hi; rw [hj] at hji; cases hji
          · exact ho i ji hi hji
        · intro m' pos' hr' hu
          simp [State.setReader] at hr'
          obtain ⟨rfl, rfl⟩ := hr'
          obtain ⟨-, c, h1, h2, h3, h4⟩ := reader_full h hb hr hu
          subst hu
          refine ⟨c, h1, ?_, ?_⟩
          · rw [heard_append, h1, Option.getD_some, h3]
            simp only [List.foldl_cons, List.foldl_nil, hear, if_true]
            rw [take_chunk, List.length_take, List.length_drop]
          · rw [h1, Option.getD_some]; omega
        · intro i hi
          rw [heard_append]
          simp [hear, Ne.symm hi]
        · intro l1 o l2 hx
          obtain ⟨rfl, rfl⟩ := split_singleton hx
          intro m' hm' hu
          rw [List.append_nil] at hm' ⊢
          obtain rfl := own m' hm'
          obtain ⟨-, c, h1, h2, h3, h4⟩ := reader_full h hb hr hu
          refine ⟨c, h2, ?_⟩
          rw [h3, h1, Option.getD_some]
          rw [take_chunk]
          exact List.take_prefix _ _
    · cases hs; exact same ⟨rfl, rfl⟩
  | release k =>
    simp only [State.step] at hs
    split at hs
    · rename_i m pos hr
      have hj : s.job k = none := Classical.byContradiction fun hx => by rw [hb.one k hx] at hr; cases hr
      cases hs
      refine ⟨h.update (k := k) hb.one (fun _ _ => rfl) (fun i hi => by simp [State.setReader, hi]) ?_ ?_ ?_ ?_ ?_ ?_ ?_ ?_, ?_⟩
      · intro c' hc'
        simp [State.doing, State.setReader, hj] at hc'
      · intro sq hx
        rcases hx with hx | hx
        · exact absurd rfl hx
        · exact absurd (latest_nil _ _ rfl _ _) hx
      · intro hx
        rcases hx with hx | hx
        · exact absurd rfl hx
        · exact absurd (merged_nil _ _ rfl _) hx
      · intro j' hj'
        have : s.job k = some j' := hj'
        rw [hj] at this; cases this
      · intro sq ho hk
        rw [latest_nil _ _ rfl]
        apply h.parts
        intro i ji hji
        by_cases hi : i = k
        · subst hi; rw [hj] at hji; cases hji
        · exact ho i ji hi hji
      · intro ho hk
        rw [merged_nil _ _ rfl]
        apply h.whole
        intro i ji hji
        by_cases hi : i = k
        · subst hi; rw [hj] at hji; cases hji
        · exact ho i ji hi hji
      · intro m' pos' hr'
        simp [State.setReader] at hr'
      · intro i hi
        rw [heard_append]
        rfl
      · intro l1 o l2 hx
        have : o ∈ [Obs.closed k (fullFile m), .released k] := by rw [hx]; simp
        simp at this
        rcases this with rfl | rfl <;> trivial
    · cases hs; exact same ⟨rfl, rfl⟩

theorem basic_empty : Basic {} [] := ⟨fun _ => rfl, fun _ h => absurd rfl h, fun _ => by simp [names], fun _ _ h => by simp [names] at h⟩

theorem turn_empty (u : Upload) : Turn u {} [] :=
  ⟨fun _ _ _ _ _ h => (by cases h), fun _ _ => rfl, fun _ => rfl, fun _ _ h => (by cases h), fun _ _ _ h => (by cases h)⟩

theorem inTurn_prefix {u : Upload} {a b : List Obs} (h : InTurn u (a ++ b)) : InTurn u a := by
  intro l1 k c l2 heq
  exact h l1 k c (l2 ++ b) (by rw [heq]; simp)

theorem listed_prefix {u : Upload} {a b : List Obs} (h : Listed u (a ++ b)) : Listed u a := fun k m hx => h k m (List.mem_append_left _ hx)

theorem run_cons {s t : State} {ev : Event} {evs : List Event} {log : List Obs} (h : s.run (ev :: evs) = .ok (t, log)) :
    ∃ s' l l', s.step ev = .ok (s', l) ∧ s'.run evs = .ok (t, l') ∧ log = l ++ l' := by
  rw [State.run] at h
  cases hs : s.step ev with
  | panic => rw [hs] at h; cases h
  | err e => rw [hs] at h; cases h
  | ok r =>
    obtain ⟨s', l⟩ := r
    rw [hs] at h
    cases hr : s'.run evs with
    | panic => rw [Res.ok_bind] at h; simp only [hr] at h; cases h
    | err e => rw [Res.ok_bind] at h; simp only [hr] at h; cases h
    | ok r =>
      obtain ⟨t', l'⟩ := r
      rw [Res.ok_bind] at h
      simp only [hr] at h
      rw [Res.ok_bind] at h
      cases h
      exact ⟨s', l, l', rfl, hr, rfl⟩

theorem Basic.run {s t : State} {evs : List Event} {log l : List Obs} (h : Basic s log) (hr : s.run evs = .ok (t, l)) : Basic t (log ++ l) := by
  induction evs generalizing s log l with
  | nil => rw [State.run] at hr; cases hr; simpa using h
  | cons ev evs ih =>
    obtain ⟨s', l1, l2, h1, h2, rfl⟩ := run_cons hr
    rw [← List.append_assoc]
    exact ih (h.step h1) h2

theorem split_append {α : Type} {a b l1 l2 : List α} {o : α} (h : a ++ b = l1 ++ o :: l2) :
    (∃ r, a = l1 ++ o :: r) ∨ ∃ r, l1 = a ++ r ∧ b = r ++ o :: l2 := by
  rcases List.append_eq_append_iff.1 h with ⟨x, h1, h2⟩ | ⟨x, h1, h2⟩
  · exact .inr ⟨x, h1, h2⟩
  · cases x with
    | nil => exact .inr ⟨[], by simpa using h1.symm, by simpa using h2.symm⟩
    | cons y ys =>
      rw [List.cons_append, List.cons.injEq] at h2
      exact .inl ⟨ys, by rw [h1, h2.1]⟩

theorem Turn.run {u : Upload} {s t : State} {evs : List Event} {log l : List Obs} (h : Turn u s log) (hb : Basic s log) (hr : s.run evs = .ok (t, l))
    (ht : InTurn u (log ++ l)) (hl : Listed u (log ++ l)) : Turn u t (log ++ l) ∧ ∀ l1 o l2, l = l1 ++ o :: l2 → Good u (log ++ l1) o := by
  induction evs generalizing s log l with
  | nil =>
    rw [State.run] at hr
    cases hr
    exact ⟨by simpa using h, fun l1 o l2 hx => by simp at hx⟩
  | cons ev evs ih =>
    obtain ⟨s', la, lb, h1, h2, rfl⟩ := run_cons hr
    rw [← List.append_assoc] at ht hl
    obtain ⟨hstep, hgood⟩ := h.step hb h1 (inTurn_prefix ht) (listed_prefix hl)
    obtain ⟨hfin, hgood'⟩ := ih hstep (hb.step h1) h2 ht hl
    rw [← List.append_assoc]
    refine ⟨hfin, ?_⟩
    intro l1 o l2 hx
    rcases split_append hx with ⟨r, hr⟩ | ⟨r, rfl, hr⟩
    · exact hgood l1 o r hr
    · rw [← List.append_assoc]
      exact hgood' r o l2 hr

end Verif.Files
