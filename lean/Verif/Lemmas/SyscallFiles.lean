import Verif.Lemmas.FilesClaims
import Verif.Spec.Syscall
/-! # Lemmas: what a system call of a call on files may observe -/

namespace Verif.Files
open Spec

/-- The call goes on: nothing it observes is a result, or about reading a merged file, or a call that begins. -/
def Ongoing : Obs → Prop
  | .opened _ _ | .closed _ _ | .unlisted _ _ => True
  | _ => False

/-- What a system call of goroutine `k` in call `c` observes: maybe files that are opened and closed, and then maybe the result of the call. -/
inductive Outcomes (s' : State) (k : Nat) (c : Call) : List Obs → Prop where
  | on {l : List Obs} : (∀ o ∈ l, Ongoing o) → s'.doing k = some c → Outcomes s' k c l
  | wrote {l : List Obs} {m : Multipart} {sq : UInt16} {d : Bytes} (o : Outcome) : c = .write m sq d → (∀ o ∈ l, Ongoing o) → s'.doing k = none →
      Outcomes s' k c (l ++ [.wrote k m sq d o])
  | checked {l : List Obs} {m : Multipart} (b : Bool) : c = .isFull m → (∀ o ∈ l, Ongoing o) → s'.doing k = none → Outcomes s' k c (l ++ [.checked k m b])
  | failed {l : List Obs} {m : Multipart} (o : Outcome) : c = .merge m → o ≠ .ok → (∀ o ∈ l, Ongoing o) → s'.doing k = none →
      Outcomes s' k c (l ++ [.merged k m o])
  | merged {l : List Obs} {m : Multipart} : c = .merge m → (∀ o ∈ l, Ongoing o) → s'.reader k = some (m, 0) → Outcomes s' k c (l ++ [.merged k m .ok])

theorem closeParts_ongoing (k : Nat) (m : Multipart) (found : List (UInt16 × Bytes)) : ∀ o ∈ closeParts k m found, Ongoing o := by
  intro o ho
  obtain ⟨p, -, rfl⟩ := List.mem_map.1 ho
  trivial

theorem doing_goto {s : State} {k : Nat} (j : Option Job) (hr : s.reader k = none) : (s.goto k j).doing k = j.map Job.call := by
  cases j <;> simp [State.doing, State.goto, hr]

theorem walked_outcomes {s s' : State} {k : Nat} {m : Multipart} {g : Bool} {found : List (UInt16 × Bytes)} {l : List Obs} (hr : s.reader k = none)
    (h : walked s k m g found = (s', l)) : Outcomes s' k (if g then .merge m else .isFull m) l := by
  unfold walked at h
  cases g with
  | true =>
    cases h
    exact .on (by simp) (doing_goto _ hr)
  | false =>
    cases h
    exact .checked (l := []) _ rfl (by simp) (doing_goto _ hr)

theorem Outcomes.prepend {s' : State} {k : Nat} {c : Call} {l : List Obs} (h : Outcomes s' k c l) {o : Obs} (ho : Ongoing o) : Outcomes s' k c (o :: l) := by
  have more : ∀ {l : List Obs}, (∀ o ∈ l, Ongoing o) → ∀ o' ∈ o :: l, Ongoing o' := by
    intro l hl o' ho'
    rcases List.mem_cons.1 ho' with rfl | h'
    · exact ho
    · exact hl o' h'
  cases h with
  | on h1 h2 => exact .on (more h1) h2
  | wrote o h1 h2 h3 => exact .wrote o h1 (more h2) h3
  | checked b h1 h2 h3 => exact .checked b h1 (more h2) h3
  | failed o h1 h2 h3 h4 => exact .failed o h1 h2 (more h3) h4
  | merged h1 h2 h3 => exact .merged h1 (more h2) h3

theorem advance_outcomes {s s' : State} {k : Nat} {a : Answer} {j : Job} {l : List Obs} (hj : s.job k = some j) (hr : s.reader k = none)
    (h : s.advance k a j = .ok (s', l)) : Outcomes s' k j.call l := by
  have same : s = s' ∧ [] = l → Outcomes s' k j.call l := by
    rintro ⟨rfl, rfl⟩
    exact .on (by simp) (by simp [State.doing, hj])
  have on : ∀ (fs : FS) (j' : Job) (l : List Obs), j'.call = j.call → (∀ o ∈ l, Ongoing o) → Outcomes ({ s with fs := fs }.goto k (some j')) k j.call l := by
    intro fs j' l h1 h2
    refine .on h2 ?_
    rw [doing_goto _ (by exact hr)]
    simp [h1]
  have gone : (s.goto k none).doing k = none := doing_goto none hr
  cases j with
  | mkdir m seq data =>
    cases a <;> simp only [State.advance, Res.ok.injEq, Prod.mk.injEq] at h <;> try exact same h
    · obtain ⟨rfl, rfl⟩ := h
      exact on _ _ _ rfl (by simp)
    · obtain ⟨rfl, rfl⟩ := h
      exact .wrote (l := []) _ rfl (by simp) gone
  | create m seq data =>
    cases a <;> simp only [State.advance, Res.ok.injEq, Prod.mk.injEq] at h <;> try exact same h
    · obtain ⟨rfl, rfl⟩ := h
      exact on _ _ _ rfl (by simp [Ongoing])
    · obtain ⟨rfl, rfl⟩ := h
      exact .wrote (l := []) _ rfl (by simp) gone
  | put m seq data done =>
    by_cases hd : data.length ≤ done
    · cases a <;> simp only [State.advance, hd, if_true, Res.ok.injEq, Prod.mk.injEq] at h <;> obtain ⟨rfl, rfl⟩ := h <;> exact on s.fs _ _ rfl (by simp)
    · cases a <;> simp only [State.advance, hd, if_false, Res.ok.injEq, Prod.mk.injEq] at h <;> try exact same h
      · obtain ⟨rfl, rfl⟩ := h
        exact on s.fs _ _ rfl (by simp)
      · obtain ⟨rfl, rfl⟩ := h
        exact on _ _ _ rfl (by simp)
  | shut m seq data done ok =>
    cases a <;> simp only [State.advance, Res.ok.injEq, Prod.mk.injEq] at h <;> try exact same h
    all_goals
      obtain ⟨rfl, rfl⟩ := h
      exact .wrote (l := [_]) _ rfl (by simp [Ongoing]) gone
  | stat m g =>
    cases a <;> simp only [State.advance] at h <;> try (rw [Res.ok.injEq, Prod.mk.injEq] at h; exact same h)
    · split at h
      · cases h
      · rw [Res.ok.injEq, Prod.mk.injEq] at h
        obtain ⟨rfl, rfl⟩ := h
        exact on s.fs _ _ rfl (by simp)
    · cases h
  | list m g before =>
    cases a <;> simp only [State.advance] at h <;> try (rw [Res.ok.injEq, Prod.mk.injEq] at h; exact same h)
    · cases hw : walked s k m g [] with
      | mk s1 l1 =>
        rw [hw] at h
        simp only [Res.ok.injEq, Prod.mk.injEq] at h
        obtain ⟨rfl, rfl⟩ := h
        exact (walked_outcomes hr hw).prepend trivial
    · split at h
      · rw [Res.ok.injEq, Prod.mk.injEq] at h
        obtain ⟨rfl, rfl⟩ := h
        exact on s.fs _ _ rfl (by simp)
      · rw [Res.ok.injEq, Prod.mk.injEq] at h
        exact same h
  | visit m g todo found =>
    cases todo with
    | nil =>
      simp only [State.advance, Res.ok.injEq] at h
      exact walked_outcomes hr h
    | cons n todo =>
      cases a <;> simp only [State.advance] at h <;> try (rw [Res.ok.injEq, Prod.mk.injEq] at h; exact same h)
      · split at h
        · rw [Res.ok.injEq, Prod.mk.injEq] at h
          obtain ⟨rfl, rfl⟩ := h
          exact on s.fs _ _ rfl (by simp)
        · cases g with
          | true =>
            simp only [if_true, Res.ok.injEq, Prod.mk.injEq] at h
            obtain ⟨rfl, rfl⟩ := h
            exact on s.fs _ _ rfl (by simp)
          | false =>
            simp only [Bool.false_eq_true, if_false, Res.ok.injEq, Prod.mk.injEq] at h
            obtain ⟨rfl, rfl⟩ := h
            exact on s.fs _ _ rfl (by simp)
      · cases h
  | openPart m seq n todo found =>
    cases a <;> simp only [State.advance, Res.ok.injEq, Prod.mk.injEq] at h <;> try exact same h
    · obtain ⟨rfl, rfl⟩ := h
      exact on s.fs _ _ rfl (by simp [Ongoing])
    · obtain ⟨rfl, rfl⟩ := h
      exact .failed _ rfl (by simp) (closeParts_ongoing k m found) gone
  | createFull m found =>
    cases a <;> simp only [State.advance, Res.ok.injEq, Prod.mk.injEq] at h <;> try exact same h
    · obtain ⟨rfl, rfl⟩ := h
      exact on _ _ _ rfl (by simp [Ongoing])
    · obtain ⟨rfl, rfl⟩ := h
      exact .failed _ rfl (by simp) (closeParts_ongoing k m found) gone
  | copy m found todo pos out =>
    cases todo with
    | nil =>
      simp only [State.advance, Res.ok.injEq, Prod.mk.injEq] at h
      obtain ⟨rfl, rfl⟩ := h
      exact on s.fs _ _ rfl (by simp)
    | cons p todo =>
      obtain ⟨sq, n⟩ := p
      cases a <;> simp only [State.advance, Res.ok.injEq, Prod.mk.injEq] at h <;> try exact same h
      · obtain ⟨rfl, rfl⟩ := h
        exact (Outcomes.failed _ rfl (by simp) (closeParts_ongoing k m found) gone).prepend trivial
      · split at h
        · rw [Res.ok.injEq, Prod.mk.injEq] at h
          obtain ⟨rfl, rfl⟩ := h
          exact on s.fs _ _ rfl (by simp)
        · rw [Res.ok.injEq, Prod.mk.injEq] at h
          obtain ⟨rfl, rfl⟩ := h
          exact on _ _ _ rfl (by simp)
  | reopen m found out =>
    cases a <;> simp only [State.advance, Res.ok.injEq, Prod.mk.injEq] at h <;> try exact same h
    · obtain ⟨rfl, rfl⟩ := h
      exact ((Outcomes.merged rfl (closeParts_ongoing k m found) (by simp [State.setReader])).prepend (o := .closed k (fullFile m)) trivial).prepend
        (o := .opened k (fullFile m)) trivial
    · obtain ⟨rfl, rfl⟩ := h
      exact (Outcomes.failed _ rfl (by simp) (closeParts_ongoing k m found) gone).prepend trivial

end Verif.Files
