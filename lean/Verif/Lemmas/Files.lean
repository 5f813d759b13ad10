import Verif.Lemmas.Multipart
import Verif.Spec.Files
/-! # Overlapping file operations: facts about single steps -/

namespace Verif.Files

open Spec

theorem content_store (fs : FS) (f g : File) (c : Bytes) : content (store fs f c) g = if g = f then some c else content fs g := by
  obtain ⟨i, n⟩ := f
  obtain ⟨i', n'⟩ := g
  unfold content store FS.set
  by_cases hi : i' = i
  · subst hi
    simp only [if_true, Option.bind_some, Dir.get_put, Prod.mk.injEq, true_and]
    split
    · rfl
    · cases fs i' with
      | none => rfl
      | some d => rfl
  · simp only [hi, if_false, Prod.mk.injEq, false_and]

theorem content_mkdir (fs : FS) (icc : UInt64) (g : File) : content (fs.set icc ((fs icc).getD [])) g = content fs g := by
  obtain ⟨i, n⟩ := g
  unfold content FS.set
  by_cases hi : i = icc
  · subst hi
    simp only [if_true, Option.bind_some]
    cases fs i with
    | none => rfl
    | some d => rfl
  · simp only [hi, if_false]

theorem names_store (fs : FS) (f : File) (c : Bytes) (icc : UInt64) :
    names (store fs f c) icc = if icc = f.1 then (if f.2 ∈ names fs icc then names fs icc else names fs icc ++ [f.2]) else names fs icc := by
  unfold names store FS.set
  by_cases hi : icc = f.1
  · subst hi
    simp only [if_true, Option.getD_some, Dir.names_put]
  · simp only [hi, if_false]

theorem names_mkdir (fs : FS) (i icc : UInt64) : names (fs.set i ((fs i).getD [])) icc = names fs icc := by
  unfold names FS.set
  by_cases hi : icc = i
  · subst hi; simp
  · simp only [hi, if_false]

theorem mem_names (fs : FS) (icc : UInt64) (n : Bytes) : n ∈ names fs icc ↔ (content fs (icc, n)).isSome := by
  unfold names content Dir.get
  cases h : fs icc with
  | none => simp
  | some d =>
    simp only [Option.getD_some, Option.bind_some, Option.isSome_map, List.find?_isSome, List.mem_map, decide_eq_true_eq]

/-- The call that a job carries out. -/
def Job.call : Job → Call
  | .mkdir m seq data | .create m seq data | .put m seq data _ | .shut m seq data _ _ => .write m seq data
  | .stat m g | .list m g _ | .visit m g _ _ => if g then .merge m else .isFull m
  | .openPart m _ _ _ _ | .createFull m _ | .copy m _ _ _ _ | .reopen m _ _ => .merge m

/-- The call a goroutine is in, also while it has a merged file open. -/
def State.doing (s : State) (k : Nat) : Option Call :=
  match s.job k with
  | some j => some j.call
  | none => (s.reader k).map fun r => .merge r.1

theorem start_call (c : Call) : c.start.call = c := by cases c <;> rfl

/-- What a step of a call may do to the files. -/
def Effect (fs fs' : FS) (c : Call) : Prop :=
  fs' = fs ∨ (∃ m sq d, c = .write m sq d ∧ (fs' = fs.set m.icc ((fs m.icc).getD []) ∨ ∃ x, fs' = store fs (partFile m sq) x)) ∨
    ∃ m x, c = .merge m ∧ fs' = store fs (fullFile m) x

theorem goto_job_self (s : State) (k : Nat) (j : Option Job) : (s.goto k j).job k = j := by simp [State.goto]

theorem goto_job_other (s : State) (k i : Nat) (j : Option Job) (h : i ≠ k) : (s.goto k j).job i = s.job i := by simp [State.goto, h]

/-- The completed call belongs to the call. -/
def OpFor (c : Call) (op : FileOp) : Prop :=
  (∃ m sq d o, c = .write m sq d ∧ op = .write (uploadOf m) sq d o) ∨ ∃ m o, c = .merge m ∧ op = .merge (uploadOf m) o

/-- What every step of a call keeps. -/
structure Facts (s s' : State) (k : Nat) (c : Call) (l : List Obs) : Prop where
  jobs : ∀ i, i ≠ k → s'.job i = s.job i
  readers : ∀ i, i ≠ k → s'.reader i = s.reader i
  still : ∀ i, i ≠ k → ∀ x, l.foldl (progress i) x = x
  now : l.foldl (progress k) (some c) = s'.doing k
  goesOn : s'.doing k = none ∨ s'.doing k = some c
  one : s'.job k ≠ none → s'.reader k = none
  silent : ∀ i, i ≠ k → ∀ x, l.foldl (hear i) x = x
  ops : ∀ op ∈ opsOf l, OpFor c op
  effect : Effect s.fs s'.fs c

theorem foldl_id {α β : Type} (f : β → α → β) (l : List α) (h : ∀ a ∈ l, ∀ x, f x a = x) (x : β) : l.foldl f x = x := by
  induction l generalizing x with
  | nil => rfl
  | cons a l ih =>
    rw [List.foldl_cons, h a (by simp), ih (fun b hb => h b (by simp [hb]))]

theorem closeParts_progress (k i : Nat) (m : Multipart) (found : List (UInt16 × Bytes)) (x : Option Call) :
    (closeParts k m found).foldl (progress i) x = x := by
  apply foldl_id
  intro a ha y
  simp only [closeParts, List.mem_map] at ha
  obtain ⟨p, -, rfl⟩ := ha
  rfl

theorem closeParts_hear (k i : Nat) (m : Multipart) (found : List (UInt16 × Bytes)) (x : Bytes) : (closeParts k m found).foldl (hear i) x = x := by
  apply foldl_id
  intro a ha y
  simp only [closeParts, List.mem_map] at ha
  obtain ⟨p, -, rfl⟩ := ha
  rfl

theorem closeParts_ops (k : Nat) (m : Multipart) (found : List (UInt16 × Bytes)) : opsOf (closeParts k m found) = [] := by
  unfold opsOf
  rw [List.filterMap_eq_nil_iff]
  intro a ha
  simp only [closeParts, List.mem_map] at ha
  obtain ⟨p, -, rfl⟩ := ha
  rfl

/-- A step that goes on with the same call, without a result. -/
theorem Facts.on {s : State} {k : Nat} {c : Call} (fs : FS) (j : Job) (l : List Obs) (hr : s.reader k = none) (hj : j.call = c)
    (hl : ∀ o ∈ l, (∀ i x, progress i x o = x) ∧ (∀ i x, hear i x o = x) ∧ opOf o = none) (he : Effect s.fs fs c) :
    Facts s ({ s with fs := fs }.goto k (some j)) k c l where
  jobs i hi := by simp [State.goto, hi]
  readers i _ := rfl
  still i _ x := foldl_id _ _ (fun o ho y => (hl o ho).1 i y) x
  now := by
    rw [foldl_id _ _ (fun o ho y => (hl o ho).1 k y)]
    simp [State.doing, State.goto, hj]
  goesOn := by right; simp [State.doing, State.goto, hj]
  one _ := hr
  silent i _ x := foldl_id _ _ (fun o ho y => (hl o ho).2.1 i y) x
  ops op hop := by
    simp only [opsOf, List.mem_filterMap] at hop
    obtain ⟨o, ho, h⟩ := hop
    rw [(hl o ho).2.2] at h
    cases h
  effect := he

/-- A step after which the call has returned. -/
theorem Facts.done {s : State} {k : Nat} {c : Call} (pre : List Obs) (o : Obs) (hr : s.reader k = none)
    (hl : ∀ o ∈ pre, (∀ i x, progress i x o = x) ∧ (∀ i x, hear i x o = x) ∧ opOf o = none)
    (ho : (∀ i, i ≠ k → ∀ x, progress i x o = x) ∧ progress k (some c) o = none ∧ (∀ i, i ≠ k → ∀ x, hear i x o = x) ∧ ∀ op, opOf o = some op → OpFor c op) :
    Facts s (s.goto k none) k c (pre ++ [o]) where
  jobs i hi := by simp [State.goto, hi]
  readers i _ := rfl
  still i hi x := by
    rw [List.foldl_append, foldl_id _ _ (fun o ho y => (hl o ho).1 i y)]
    exact ho.1 i hi x
  now := by
    rw [List.foldl_append, foldl_id _ _ (fun o ho y => (hl o ho).1 k y)]
    show progress k (some c) o = _
    rw [ho.2.1]
    simp [State.doing, State.goto, hr]
  goesOn := by left; simp [State.doing, State.goto, hr]
  one h := absurd (goto_job_self s k none) h
  silent i hi x := by
    rw [List.foldl_append, foldl_id _ _ (fun o ho y => (hl o ho).2.1 i y)]
    exact ho.2.2.1 i hi x
  ops op hop := by
    simp only [opsOf, List.mem_filterMap, List.mem_append, List.mem_singleton] at hop
    obtain ⟨p, hp | rfl, h⟩ := hop
    · rw [(hl p hp).2.2] at h
      cases h
    · exact ho.2.2.2 op h
  effect := .inl rfl

theorem Facts.same {s : State} {k : Nat} {j : Job} (hj : s.job k = some j) (hr : s.reader k = none) : Facts s s k j.call [] where
  jobs _ _ := rfl
  readers _ _ := rfl
  still _ _ _ := rfl
  now := by simp [State.doing, hj]
  goesOn := by right; simp [State.doing, hj]
  one _ := hr
  silent _ _ _ := rfl
  ops _ h := by simp [opsOf] at h
  effect := .inl rfl

theorem Facts.prepend {s s' : State} {k : Nat} {c : Call} {l : List Obs} (h : Facts s s' k c l) (o : Obs)
    (ho : (∀ i x, progress i x o = x) ∧ (∀ i x, hear i x o = x) ∧ opOf o = none) : Facts s s' k c (o :: l) :=
  { h with
    still := fun i hi x => by rw [List.foldl_cons, ho.1]; exact h.still i hi x
    now := by rw [List.foldl_cons, ho.1]; exact h.now
    silent := fun i hi x => by rw [List.foldl_cons, ho.2.1]; exact h.silent i hi x
    ops := fun op hop => by
      unfold opsOf at hop
      rw [List.filterMap_cons_none ho.2.2] at hop
      exact h.ops op hop }

theorem walked_facts {s s' : State} {k : Nat} {m : Multipart} {g : Bool} {found : List (UInt16 × Bytes)} {l : List Obs} (hr : s.reader k = none)
    (h : walked s k m g found = (s', l)) : Facts s s' k (if g then .merge m else .isFull m) l := by
  unfold walked at h
  cases g with
  | true =>
    rw [if_pos rfl] at h
    cases h
    exact Facts.on s.fs _ _ hr rfl (by simp) (.inl rfl)
  | false =>
    rw [if_neg (by simp)] at h
    cases h
    refine Facts.done [] _ hr (by simp) ⟨?_, ?_, ?_, ?_⟩
    · intro i hi x; simp [progress, Ne.symm hi]
    · simp [progress]
    · intro i hi x; rfl
    · intro op h; cases h

theorem close_quiet (k : Nat) (m : Multipart) (found : List (UInt16 × Bytes)) (o : Obs) (ho : o ∈ closeParts k m found) :
    (∀ i x, progress i x o = x) ∧ (∀ i x, hear i x o = x) ∧ opOf o = none := by
  simp only [closeParts, List.mem_map] at ho
  obtain ⟨p, -, rfl⟩ := ho
  exact ⟨fun _ _ => rfl, fun _ _ => rfl, rfl⟩

theorem wrote_done {s : State} {k : Nat} {m : Multipart} {seq : UInt16} {data : Bytes} {o : Outcome} (hr : s.reader k = none) :
    Facts s (s.goto k none) k (.write m seq data) [.wrote k m seq data o] := by
  refine Facts.done [] _ hr (by simp) ⟨?_, ?_, ?_, ?_⟩
  · intro i hi x; simp [progress, Ne.symm hi]
  · simp [progress]
  · intro i hi x; rfl
  · intro op h; cases h; exact .inl ⟨m, seq, data, o, rfl, rfl⟩

theorem merged_done {s : State} {k : Nat} {m : Multipart} {found : List (UInt16 × Bytes)} {o : Outcome} (hr : s.reader k = none) (ho : o ≠ .ok) :
    Facts s (s.goto k none) k (.merge m) (closeParts k m found ++ [.merged k m o]) := by
  refine Facts.done _ _ hr (close_quiet k m found) ⟨?_, ?_, ?_, ?_⟩
  · intro i hi x; simp [progress, Ne.symm hi]
  · simp [progress, ho]
  · intro i hi x; simp [hear, Ne.symm hi]
  · intro op h; cases h; exact .inr ⟨m, o, rfl, rfl⟩

theorem advance_facts {s s' : State} {k : Nat} {a : Answer} {j : Job} {l : List Obs} (hj : s.job k = some j) (hr : s.reader k = none)
    (h : s.advance k a j = .ok (s', l)) : Facts s s' k j.call l := by
  have same : s = s' ∧ [] = l → Facts s s' k j.call l := by
    rintro ⟨rfl, rfl⟩
    exact Facts.same hj hr
  have quiet : ∀ o : Obs, o ∈ ([] : List Obs) → (∀ i x, progress i x o = x) ∧ (∀ i x, hear i x o = x) ∧ opOf o = none := by simp
  have opens : ∀ f : File, ∀ o ∈ [Obs.opened k f], (∀ i x, progress i x o = x) ∧ (∀ i x, hear i x o = x) ∧ opOf o = none := by
    intro f o ho
    simp only [List.mem_singleton] at ho
    subst ho
    exact ⟨fun _ _ => rfl, fun _ _ => rfl, rfl⟩
  have closes : ∀ f : File, (∀ i x, progress i x (.closed k f) = x) ∧ (∀ i x, hear i x (.closed k f) = x) ∧ opOf (.closed k f) = none :=
    fun f => ⟨fun _ _ => rfl, fun _ _ => rfl, rfl⟩
  cases j with
  | mkdir m seq data =>
    cases a <;> simp only [State.advance, Res.ok.injEq, Prod.mk.injEq] at h <;> try exact same h
    · obtain ⟨rfl, rfl⟩ := h
      exact Facts.on _ _ _ hr rfl quiet (.inr (.inl ⟨m, seq, data, rfl, .inl rfl⟩))
    · obtain ⟨rfl, rfl⟩ := h
      exact wrote_done hr
  | create m seq data =>
    cases a <;> simp only [State.advance, Res.ok.injEq, Prod.mk.injEq] at h <;> try exact same h
    · obtain ⟨rfl, rfl⟩ := h
      exact Facts.on _ _ _ hr rfl (opens _) (.inr (.inl ⟨m, seq, data, rfl, .inr ⟨_, rfl⟩⟩))
    · obtain ⟨rfl, rfl⟩ := h
      exact wrote_done hr
  | put m seq data done =>
    by_cases hd : data.length ≤ done
    · cases a <;> simp only [State.advance, hd, if_true, Res.ok.injEq, Prod.mk.injEq] at h <;> obtain ⟨rfl, rfl⟩ := h <;>
        exact Facts.on s.fs _ _ hr rfl quiet (.inl rfl)
    · cases a <;> simp only [State.advance, hd, if_false, Res.ok.injEq, Prod.mk.injEq] at h <;> try exact same h
      · obtain ⟨rfl, rfl⟩ := h
        exact Facts.on s.fs _ _ hr rfl quiet (.inl rfl)
      · obtain ⟨rfl, rfl⟩ := h
        exact Facts.on _ _ _ hr rfl quiet (.inr (.inl ⟨m, seq, data, rfl, .inr ⟨_, rfl⟩⟩))
  | shut m seq data done ok =>
    cases a <;> simp only [State.advance, Res.ok.injEq, Prod.mk.injEq] at h <;> try exact same h
    · obtain ⟨rfl, rfl⟩ := h
      exact (wrote_done hr).prepend _ (closes _)
    · obtain ⟨rfl, rfl⟩ := h
      exact (wrote_done hr).prepend _ (closes _)
  | stat m g =>
    cases a <;> simp only [State.advance, Res.ok.injEq, Prod.mk.injEq, reduceCtorEq] at h <;> try exact same h
    split at h
    · cases h
    · cases h
      exact Facts.on s.fs _ _ hr rfl quiet (.inl rfl)
  | list m g before =>
    cases a <;> simp only [State.advance, Res.ok.injEq, Prod.mk.injEq] at h <;> try exact same h
    · obtain ⟨rfl, rfl⟩ := h
      exact (walked_facts hr rfl).prepend _ ⟨fun _ _ => rfl, fun _ _ => rfl, rfl⟩
    · split at h
      · cases h
        exact Facts.on s.fs _ _ hr rfl quiet (.inl rfl)
      · cases h
        exact same ⟨rfl, rfl⟩
  | visit m g todo found =>
    cases todo with
    | nil =>
      simp only [State.advance, Res.ok.injEq] at h
      exact walked_facts hr h
    | cons n todo =>
      cases a <;> simp only [State.advance, Res.ok.injEq, Prod.mk.injEq, reduceCtorEq] at h <;> try exact same h
      split at h
      · cases h
        exact Facts.on s.fs _ _ hr rfl quiet (.inl rfl)
      · split at h
        · cases h
          rename_i hg
          exact Facts.on s.fs _ _ hr (by simp [Job.call, hg]) quiet (.inl rfl)
        · cases h
          exact Facts.on s.fs _ _ hr rfl quiet (.inl rfl)
  | openPart m seq n todo found =>
    cases a <;> simp only [State.advance, Res.ok.injEq, Prod.mk.injEq] at h <;> try exact same h
    · obtain ⟨rfl, rfl⟩ := h
      exact Facts.on s.fs _ _ hr rfl (opens _) (.inl rfl)
    · obtain ⟨rfl, rfl⟩ := h
      exact merged_done hr (by simp)
  | createFull m found =>
    cases a <;> simp only [State.advance, Res.ok.injEq, Prod.mk.injEq] at h <;> try exact same h
    · obtain ⟨rfl, rfl⟩ := h
      exact Facts.on _ _ _ hr rfl (opens _) (.inr (.inr ⟨m, _, rfl, rfl⟩))
    · obtain ⟨rfl, rfl⟩ := h
      exact merged_done hr (by simp)
  | copy m found todo pos out =>
    cases todo with
    | nil =>
      simp only [State.advance, Res.ok.injEq, Prod.mk.injEq] at h
      obtain ⟨rfl, rfl⟩ := h
      exact Facts.on s.fs _ _ hr rfl quiet (.inl rfl)
    | cons p todo =>
      obtain ⟨seq, n⟩ := p
      cases a <;> simp only [State.advance, Res.ok.injEq, Prod.mk.injEq] at h <;> try exact same h
      · obtain ⟨rfl, rfl⟩ := h
        exact (merged_done hr (by simp)).prepend _ (closes _)
      · split at h
        · cases h
          exact Facts.on s.fs _ _ hr rfl quiet (.inl rfl)
        · cases h
          exact Facts.on _ _ _ hr rfl quiet (.inr (.inr ⟨m, _, rfl, rfl⟩))
  | reopen m found out =>
    cases a <;> simp only [State.advance, Res.ok.injEq, Prod.mk.injEq] at h <;> try exact same h
    · obtain ⟨rfl, rfl⟩ := h
      have base : Facts s ((s.goto k none).setReader k (some (m, 0))) k (.merge m) (closeParts k m found ++ [.merged k m .ok]) := by
        refine ⟨?_, ?_, ?_, ?_, ?_, ?_, ?_, ?_, .inl rfl⟩
        · intro i hi; simp [State.goto, State.setReader, hi]
        · intro i hi; simp [State.goto, State.setReader, hi]
        · intro i hi x; rw [List.foldl_append, closeParts_progress]; simp [progress]
        · rw [List.foldl_append, closeParts_progress]; simp [progress, State.doing, State.goto, State.setReader]
        · right; simp [State.doing, State.goto, State.setReader]
        · intro h; simp [State.goto, State.setReader] at h
        · intro i hi x; rw [List.foldl_append, closeParts_hear]; simp [hear, Ne.symm hi]
        · intro op hop
          unfold opsOf at hop
          rw [List.filterMap_append] at hop
          have := closeParts_ops k m found
          unfold opsOf at this
          rw [this] at hop
          simp [opOf] at hop
          subst hop
          exact .inr ⟨m, .ok, rfl, rfl⟩
      exact (base.prepend _ (closes _)).prepend _ ⟨fun _ _ => rfl, fun _ _ => rfl, rfl⟩
    · obtain ⟨rfl, rfl⟩ := h
      exact (merged_done hr (by simp)).prepend _ (closes _)

end Verif.Files
