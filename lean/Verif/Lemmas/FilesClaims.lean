import Verif.Lemmas.FilesOpen
/-! # Overlapping file operations: who begins what, and what can panic -/

namespace Verif.Files

open Spec

theorem progress_some {k : Nat} {x : Option Call} {o : Obs} {c : Call} (h : progress k x o = some c) : x = some c ∨ o = .began k c := by
  cases o <;> simp only [progress] at h <;> try exact .inl h
  all_goals
    split at h
    · rename_i hk
      cases h
      try (subst hk; exact .inr rfl)
    · exact .inl h

theorem progress_fold {k : Nat} {l : List Obs} {x : Option Call} {c : Call} (h : l.foldl (progress k) x = some c) : x = some c ∨ .began k c ∈ l := by
  induction l generalizing x with
  | nil => exact .inl h
  | cons o l ih =>
    rw [List.foldl_cons] at h
    rcases ih h with h1 | h1
    · rcases progress_some h1 with h2 | h2
      · exact .inl h2
      · exact .inr (by simp [h2])
    · exact .inr (by simp [h1])

/-- A call in progress has begun. -/
theorem inProgress_began {k : Nat} {log : List Obs} {c : Call} (h : inProgress k log = some c) : .began k c ∈ log :=
  (progress_fold h).resolve_left (by simp)

theorem advance_opened {s s' : State} {k i : Nat} {a : Answer} {j : Job} {l : List Obs} (h : s.advance k a j = .ok (s', l)) (hi : i ≠ k) (f : File) :
    .opened i f ∉ l := by
  cases j with
  | mkdir m seq data => cases a <;> simp only [State.advance] at h <;> cases h <;> simp
  | create m seq data => cases a <;> simp only [State.advance] at h <;> cases h <;> simp [hi]
  | put m seq data done =>
    simp only [State.advance] at h
    split at h
    · cases h; simp
    · cases a <;> cases h <;> simp
  | shut m seq data done b => cases a <;> simp only [State.advance] at h <;> cases h <;> simp
  | stat m g =>
    cases a <;> simp only [State.advance] at h
    · split at h <;> cases h; simp
    all_goals cases h
    all_goals simp
  | list m g before =>
    cases a <;> simp only [State.advance] at h
    · cases h; simp
    · cases h; cases g <;> simp [walked]
    · cases h; simp
    · split at h <;> cases h <;> simp
  | visit m g todo found =>
    cases todo with
    | nil => simp only [State.advance, Res.ok.injEq] at h; cases g <;> cases h <;> simp
    | cons n todo =>
      cases a <;> simp only [State.advance] at h
      · split at h
        · cases h; simp
        · split at h <;> cases h <;> simp
      all_goals cases h
      all_goals simp
  | openPart m seq n todo found => cases a <;> simp only [State.advance] at h <;> cases h <;> simp [closeParts, hi]
  | createFull m found => cases a <;> simp only [State.advance] at h <;> cases h <;> simp [closeParts, hi]
  | copy m found todo pos out =>
    cases todo with
    | nil => simp only [State.advance] at h; cases h; simp
    | cons p todo =>
      cases a <;> simp only [State.advance] at h
      · cases h; simp
      · cases h; simp [closeParts]
      · split at h <;> cases h <;> simp
      · cases h; simp
  | reopen m found out => cases a <;> simp only [State.advance] at h <;> cases h <;> simp [closeParts, hi]

theorem advance_no_began {s s' : State} {k i : Nat} {a : Answer} {j : Job} {l : List Obs} {c : Call} (h : s.advance k a j = .ok (s', l)) :
    .began i c ∉ l := by
  cases j with
  | mkdir m seq data => cases a <;> simp only [State.advance] at h <;> cases h <;> simp
  | create m seq data => cases a <;> simp only [State.advance] at h <;> cases h <;> simp
  | put m seq data done =>
    simp only [State.advance] at h
    split at h
    · cases h; simp
    · cases a <;> cases h <;> simp
  | shut m seq data done b => cases a <;> simp only [State.advance] at h <;> cases h <;> simp
  | stat m g =>
    cases a <;> simp only [State.advance] at h
    · split at h <;> cases h; simp
    all_goals cases h
    all_goals simp
  | list m g before =>
    cases a <;> simp only [State.advance] at h
    · cases h; simp
    · cases h; cases g <;> simp [walked]
    · cases h; simp
    · split at h <;> cases h <;> simp
  | visit m g todo found =>
    cases todo with
    | nil => simp only [State.advance, Res.ok.injEq] at h; cases g <;> cases h <;> simp
    | cons n todo =>
      cases a <;> simp only [State.advance] at h
      · split at h
        · cases h; simp
        · split at h <;> cases h <;> simp
      all_goals cases h
      all_goals simp
  | openPart m seq n todo found => cases a <;> simp only [State.advance] at h <;> cases h <;> simp [closeParts]
  | createFull m found => cases a <;> simp only [State.advance] at h <;> cases h <;> simp [closeParts]
  | copy m found todo pos out =>
    cases todo with
    | nil => simp only [State.advance] at h; cases h; simp
    | cons p todo =>
      cases a <;> simp only [State.advance] at h
      · cases h; simp
      · cases h; simp [closeParts]
      · split at h <;> cases h <;> simp
      · cases h; simp
  | reopen m found out => cases a <;> simp only [State.advance] at h <;> cases h <;> simp [closeParts]

/-- A goroutine begins a call only when it is in none. -/
theorem began_free {s t : State} {evs : List Event} {log0 log l1 l2 : List Obs} {k : Nat} {c : Call} (hb0 : Basic s log0) (hr : s.run evs = .ok (t, log))
    (h : log = l1 ++ .began k c :: l2) : inProgress k (log0 ++ l1) = none := by
  obtain ⟨evs1, ev, s1, s2, la, r, lb, h1, h2, rfl⟩ := run_split hr h
  have hb := hb0.run h1
  cases ev with
  | call i c' =>
    simp only [State.step] at h2
    split at h2
    · rename_i hj hrd
      rw [Res.ok.injEq, Prod.mk.injEq] at h2
      obtain ⟨rfl, heq⟩ := split_singleton h2.2
      cases heq
      rw [List.append_nil, hb.prog]
      simp [State.doing, hj, hrd]
    · rw [Res.ok.injEq, Prod.mk.injEq] at h2
      have := h2.2
      simp at this
  | step i a =>
    simp only [State.step] at h2
    split at h2
    · exact absurd (by simp) (advance_no_began (i := k) (c := c) h2)
    · rw [Res.ok.injEq, Prod.mk.injEq] at h2
      have := h2.2
      simp at this
  | read i n =>
    simp only [State.step] at h2
    split at h2
    · split at h2
      · rw [Res.ok.injEq, Prod.mk.injEq] at h2
        have := (split_singleton h2.2).2
        cases this
      · rw [Res.ok.injEq, Prod.mk.injEq] at h2
        have := (split_singleton h2.2).2
        cases this
    · rw [Res.ok.injEq, Prod.mk.injEq] at h2
      have := h2.2
      simp at this
  | release i =>
    simp only [State.step] at h2
    split at h2
    · rw [Res.ok.injEq, Prod.mk.injEq] at h2
      have : Obs.began k c ∈ r ++ .began k c :: lb := by simp
      rw [← h2.2] at this
      simp at this
    · rw [Res.ok.injEq, Prod.mk.injEq] at h2
      have := h2.2
      simp at this

/-- Only an error of `Lstat`, or a missing directory, makes a call panic. -/
theorem advance_panic {s : State} {k : Nat} {a : Answer} {j : Job} (h : s.advance k a j = .panic) :
    (∀ m sq d, j.call ≠ .write m sq d) ∧ (a = .fail ∨ s.fs (callUpload j.call).icc = none) := by
  cases j with
  | mkdir m seq data => cases a <;> simp only [State.advance] at h <;> cases h
  | create m seq data => cases a <;> simp only [State.advance] at h <;> cases h
  | put m seq data done =>
    simp only [State.advance] at h
    split at h
    · cases h
    · cases a <;> cases h
  | shut m seq data done b => cases a <;> simp only [State.advance] at h <;> cases h
  | stat m g =>
    cases a <;> simp only [State.advance] at h
    · split at h <;> cases h
      rename_i hn
      cases g <;> exact ⟨by simp [Job.call], .inr hn⟩
    · cases g <;> exact ⟨by simp [Job.call], .inl rfl⟩
    all_goals cases h
  | list m g before =>
    cases a <;> simp only [State.advance] at h
    · cases h
    · cases h
    · cases h
    · split at h <;> cases h
  | visit m g todo found =>
    cases todo with
    | nil => simp only [State.advance] at h; cases h
    | cons n todo =>
      cases a <;> simp only [State.advance] at h
      · split at h
        · cases h
        · split at h <;> cases h
      · cases g <;> exact ⟨by simp [Job.call], .inl rfl⟩
      all_goals cases h
  | openPart m seq n todo found => cases a <;> simp only [State.advance] at h <;> cases h
  | createFull m found => cases a <;> simp only [State.advance] at h <;> cases h
  | copy m found todo pos out =>
    cases todo with
    | nil => simp only [State.advance] at h; cases h
    | cons p todo =>
      cases a <;> simp only [State.advance] at h
      · cases h
      · cases h
      · split at h <;> cases h
      · cases h
  | reopen m found out => cases a <;> simp only [State.advance] at h <;> cases h

instance (c c' : Call) : Decidable (Conflict c c') := by
  cases c <;> cases c' <;> unfold Conflict <;> infer_instance

/-- A call that begins does not get in the way of a call of the goroutines `ks`. -/
def clear (u : Upload) (ks : List Nat) (l1 : List Obs) : Obs → Bool
  | .began _ c => callUpload c ≠ u || ks.all fun k => match inProgress k l1 with
    | some c' => callUpload c' ≠ u || !(decide (Conflict c c'))
    | none => true
  | _ => true

/-- `clear` for all observations of a log that has begun with `l1`. -/
def clearAll (u : Upload) (ks : List Nat) : List Obs → List Obs → Bool
  | _, [] => true
  | l1, o :: l => clear u ks l1 o && clearAll u ks (l1 ++ [o]) l

/-- The goroutine of a call that begins. -/
def starter : Obs → Option Nat
  | .began k _ => some k
  | _ => none

/-- A way to check `InTurn` for a concrete log. -/
theorem inTurn_check {u : Upload} {log : List Obs} (h : clearAll u (log.filterMap starter) [] log = true) : InTurn u log := by
  have main : ∀ (l l1 : List Obs) (ks : List Nat), clearAll u ks l1 l = true → ∀ a o b, l = a ++ o :: b → clear u ks (l1 ++ a) o = true := by
    intro l
    induction l with
    | nil => intro l1 ks _ a o b hl; simp at hl
    | cons x l ih =>
      intro l1 ks hc a o b hl
      rw [clearAll, Bool.and_eq_true] at hc
      cases a with
      | nil =>
        rw [List.nil_append, List.cons.injEq] at hl
        rw [List.append_nil, ← hl.1]
        exact hc.1
      | cons y a =>
        rw [List.cons_append, List.cons.injEq] at hl
        have := ih (l1 ++ [x]) ks hc.2 a o b hl.2
        rw [hl.1] at this
        simpa using this
  intro l1 k c l2 hl hu k' c' hp hu' hconf
  have hmem : k' ∈ log.filterMap starter := by
    rw [List.mem_filterMap]
    exact ⟨.began k' c', by rw [hl]; exact List.mem_append_left _ (inProgress_began hp), rfl⟩
  have := main log [] _ h l1 _ l2 hl
  rw [List.nil_append, clear, Bool.or_eq_true] at this
  rcases this with this | this
  · simp [hu] at this
  · rw [List.all_eq_true] at this
    have := this k' hmem
    rw [hp] at this
    simp [hu', hconf] at this

/-- What is observed in a schedule, from the beginning. -/
def observed (evs : List Event) : Option (List Obs) :=
  match State.run {} evs with
  | .ok (_, l) => some l
  | _ => none

theorem of_observed {evs : List Event} {log : List Obs} (h : observed evs = some log) : ∃ s, State.run {} evs = .ok (s, log) := by
  unfold observed at h
  split at h
  · rename_i s l hs
    cases h
    exact ⟨s, hs⟩
  · cases h

end Verif.Files
