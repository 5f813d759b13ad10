import Verif.Spec.Server
import Verif.Lemmas.TimerRun
/-! # Lemmas about the server: the life of one session, and the timer -/

namespace Verif.Server
open Handler Spec Timer

/-- The session an observation is about. -/
def about : Obs → Option Nat
  | .accepted k | .registered k | .restart k _ | .cancelled k | .armed k | .attached k | .left k | .closing k | .deleted k | .removed k
  | .closeHandler k | .closeDone k | .timeout k => some k
  | .ticked _ _ => none

/-- The observations about session `k`. -/
def only (k : Nat) (log : List Obs) : List Obs := log.filter fun o => about o = some k

theorem only_append (k : Nat) (a b : List Obs) : only k (a ++ b) = only k a ++ only k b := List.filter_append ..

theorem only_all {k : Nat} {l : List Obs} (h : ∀ o ∈ l, about o = some k) : only k l = l := by
  unfold only; rw [List.filter_eq_self]; simpa using h

theorem only_none {k j : Nat} {l : List Obs} (h : ∀ o ∈ l, about o = some j) (hk : k ≠ j) : only k l = [] := by
  unfold only; rw [List.filter_eq_nil_iff]
  intro o ho; simp [h o ho]; exact fun e => hk e.symm

theorem mem_only {k : Nat} {o : Obs} {l : List Obs} (h : about o = some k) : o ∈ only k l ↔ o ∈ l := by
  simp [only, h]

theorem close_about {k : Nat} {x : Sess} : ∀ o ∈ (x.close k).2, about o = some k := by
  intro o ho; unfold Sess.close at ho; split at ho <;> simp at ho; subst ho; rfl

theorem call_recovered (u : UserCode) : recovered u.call = .ok () := by cases u <;> rfl

theorem step_about {k : Nat} {x x' : Sess} {m : Move} {o : List Obs} (h : x.step k m = some (x', o)) : ∀ a ∈ o, about a = some k := by
  cases m <;> simp only [Sess.step, call_recovered] at h
  case close =>
    simp only [Option.some.injEq] at h
    intro a ha; rw [← show (x.close k).2 = o from by rw [h]] at ha; exact close_about a ha
  case leave =>
    split at h
    · simp only [Option.some.injEq, Prod.mk.injEq] at h
      obtain ⟨_, rfl⟩ := h
      intro a ha
      rcases List.mem_append.1 ha with ha | ha
      · exact close_about a ha
      · simp at ha; subst ha; rfl
    · simp at h
  all_goals
    repeat' split at h
    all_goals first
      | (simp at h; done)
      | (simp only [Option.some.injEq, Prod.mk.injEq] at h; obtain ⟨_, rfl⟩ := h; simp [about])

/-- The life of one session: its state and what was observed of it. -/
inductive Life (k : Nat) : Option Sess → List Obs → Prop where
  | none : Life k none []
  | accept : Life k (some {}) [.accepted k]
  | move {x x' : Sess} {l o : List Obs} {m : Move} : Life k (some x) l → x.step k m = some (x', o) → Life k (some x') (l ++ o)
  | timeout {x : Sess} {l : List Obs} : Life k (some x) l → Life k (some (x.close k).1) (l ++ .timeout k :: (x.close k).2)

/-- What the log of a session says about its state. -/
structure Facts (k : Nat) (x : Sess) (l : List Obs) : Prop where
  accepted : l.count (.accepted k) = 1
  registered : .registered k ∈ l ↔ x.place ≠ .accepted
  closing : .closing k ∈ l ↔ x.closed = true
  closed : x.closed = true ↔ x.closer ≠ .idle
  attached : .attached k ∈ l ↔ x.attached = true
  placed : x.attached = true → x.place = .looping ∨ x.place = .ended ∨ x.place = .updating false ∨ x.place = .updating true
  callback : x.closer = .deleting ∨ x.closer = .removing ∨ x.closer = .handling ∨ x.closer = .done → x.attached = true
  deleted : .deleted k ∈ l ↔ x.closer = .removing ∨ x.closer = .handling ∨ x.closer = .done
  removed : .removed k ∈ l ↔ x.closer = .handling ∨ x.closer = .done
  handled : l.count (.closeHandler k) = if x.closer = .done then 1 else 0
  done : .closeDone k ∈ l ↔ x.closer = .done ∨ x.closer = .skipped
  left : .left k ∈ l ↔ x.place = .ended
  leftClosed : x.place = .ended → x.closed = true
  inMap : x.inMap = true ↔ x.place ≠ .accepted ∧ x.closer ≠ .removing ∧ x.closer ≠ .handling ∧ x.closer ≠ .done
  inTime : AttachedInTime k l → x.closer ≠ .skipped
  closings : l.count (.closing k) = if x.closed then 1 else 0
  restarts : ∀ n, .restart k n ∈ l → x.place ≠ .accepted
  ends : ∀ a b, l = a ++ .left k :: b → .armed k ∉ b
  last : ∀ a b, l = a ++ .closeHandler k :: b → .closing k ∉ b

theorem inTime_append {k : Nat} {l o : List Obs} (h : AttachedInTime k (l ++ o)) : AttachedInTime k l ∨ .closing k ∈ o := by
  obtain ⟨l1, l2, he, hm⟩ := h
  rcases List.append_eq_append_iff.1 he with ⟨a, h1, h2⟩ | ⟨a, h1, h2⟩
  · exact .inr (h2 ▸ by simp)
  · cases a with
    | nil => simp at h2; exact .inr (h2 ▸ by simp)
    | cons b a =>
      simp at h2; obtain ⟨rfl, _⟩ := h2
      exact .inl ⟨l1, a, h1, hm⟩

theorem inTime_attached {k : Nat} {l : List Obs} (h : AttachedInTime k l) : .attached k ∈ l := by
  obtain ⟨l1, l2, rfl, hm⟩ := h; simp [hm]

theorem ends_append {x y : Obs} {l o : List Obs} (h : ∀ a b, l = a ++ x :: b → y ∉ b) (h1 : y ∈ o → x ∉ l)
    (h2 : y ∈ o → x ∉ o) : ∀ a b, l ++ o = a ++ x :: b → y ∉ b := by
  intro a b he hb
  rcases List.append_eq_append_iff.1 he with ⟨c, h3, h4⟩ | ⟨c, h3, h4⟩
  · have hm : y ∈ o := by rw [h4]; simp [hb]
    exact h2 hm (by rw [h4]; simp)
  · cases c with
    | nil =>
      simp at h4
      have hm : y ∈ o := by rw [← h4]; simp [hb]
      exact h2 hm (by rw [← h4]; simp)
    | cons d c =>
      simp at h4; obtain ⟨rfl, rfl⟩ := h4
      rcases List.mem_append.1 hb with hb | hb
      · exact h a c h3 hb
      · exact h1 hb (by rw [h3]; simp)

theorem facts_close {k : Nat} {x : Sess} {l : List Obs} (h : Facts k x l) : Facts k (x.close k).1 (l ++ (x.close k).2) := by
  unfold Sess.close
  split
  · simpa using h
  · rename_i hc
    have hi : x.closer = .idle := by
      have := h.closed; simp [hc] at this; exact this
    obtain ⟨h1, h2, h3, h4, h5, h6, h7, h8, h9, h10, h11, h12, h13, h14, h15, h16, h17, h18, h19⟩ := h
    have he := @ends_append _ _ l [.closing k] h18 (by simp) (by simp)
    have he' := @ends_append _ _ l [.closing k] h19 (by simp only [hi] at h10; simpa [List.count_eq_zero] using h10) (by simp)
    constructor <;> first | exact he | exact he' | (simp; exact h17) | (simp_all [List.count_append]; done)

/-- Observations that say nothing about the facts. -/
theorem facts_other {k : Nat} {x : Sess} {l : List Obs} {o : Obs} (h : Facts k x l)
    (ho : o = .timeout k) : Facts k x (l ++ [o]) := by
  have ht : AttachedInTime k (l ++ [o]) → AttachedInTime k l := by
    intro ht
    rcases inTime_append ht with ht | ht
    · exact ht
    · subst ho; simp at ht
  obtain ⟨h1, h2, h3, h4, h5, h6, h7, h8, h9, h10, h11, h12, h13, h14, h15, h16, h17, h18, h19⟩ := h
  have he := @ends_append _ _ l [o] h18 (by subst ho; simp) (by subst ho; simp)
  have he' := @ends_append _ _ l [o] h19 (by subst ho; simp) (by subst ho; simp)
  subst ho
  constructor <;> first | exact fun h => h15 (ht h) | exact he | exact he' | (simp [List.count_append]; assumption) | assumption

set_option maxHeartbeats 2000000 in
theorem facts_step {k : Nat} {x x' : Sess} {l o : List Obs} {m : Move} (h : Facts k x l) (hm : x.step k m = some (x', o)) : Facts k x' (l ++ o) := by
  have hcb := @inTime_append k l o
  cases m <;> simp only [Sess.step, call_recovered] at hm
  case close =>
    clear hcb
    simp only [Option.some.injEq] at hm
    have := facts_close h
    rw [hm] at this; exact this
  case leave =>
    split at hm
    · rename_i hp
      simp only [Option.some.injEq, Prod.mk.injEq] at hm
      obtain ⟨rfl, rfl⟩ := hm
      have hc := facts_close h
      have hcl : (x.close k).1.closed = true := by unfold Sess.close; split <;> simp_all
      have hpl : (x.close k).1.place = .looping := by unfold Sess.close; split <;> simp_all
      rw [← List.append_assoc]
      generalize l ++ (x.close k).2 = l' at *
      generalize (x.close k).1 = y at *
      have ht : AttachedInTime k (l' ++ [.left k]) → AttachedInTime k l' := by
        intro ht
        rcases inTime_append ht with ht | ht
        · exact ht
        · simp at ht
      clear h hcb
      obtain ⟨h1, h2, h3, h4, h5, h6, h7, h8, h9, h10, h11, h12, h13, h14, h15, h16, h17, h18, h19⟩ := hc
      have he := @ends_append _ _ l' [.left k] h18 (by simp) (by simp)
      have he' := @ends_append _ _ l' [.left k] h19 (by simp) (by simp)
      constructor <;> first | exact he | exact he' | (simp [List.count_append]; done) | (simp [List.count_append] <;> grind)
    · simp at hm
  all_goals
    repeat' split at hm
    all_goals first
      | (simp at hm; done)
      | skip
  all_goals
    simp only [Option.some.injEq, Prod.mk.injEq] at hm
    obtain ⟨rfl, rfl⟩ := hm
    have ha : AttachedInTime k l → .attached k ∈ l := inTime_attached
    obtain ⟨h1, h2, h3, h4, h5, h6, h7, h8, h9, h10, h11, h12, h13, h14, h15, h16, h17, h18, h19⟩ := h
    constructor <;> first
      | exact ends_append h18 (by simp_all) (by simp)
      | exact ends_append h19 (by simp) (by simp)
      | (simp [List.count_append]; done)
      | (simp [List.count_append] <;> grind)

theorem facts_accept (k : Nat) : Facts k {} [.accepted k] := by
  constructor <;> first | (simp; done) | skip
  all_goals
    intro a b h
    cases a <;> simp at h

theorem life_facts {k : Nat} {ox : Option Sess} {l : List Obs} (h : Life k ox l) :
    match ox with
    | none => l = []
    | some x => Facts k x l := by
  induction h with
  | none => rfl
  | accept => exact facts_accept k
  | move _ hm ih => exact facts_step ih hm
  | timeout _ ih =>
    have := facts_close (facts_other ih rfl)
    rw [List.append_assoc] at this; exact this

end Verif.Server
