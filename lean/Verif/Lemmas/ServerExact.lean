import Verif.Spec.ServerExact
import Verif.Lemmas.ServerTicker
/-! # Lemmas about the server: which closed sessions are forgotten -/

namespace Verif.Server
open Handler Spec

theorem beforeEnd_append {k : Nat} {l o : List Obs} (h : .closeDone k ∉ o) : AttachedBeforeEnd k (l ++ o) ↔ AttachedBeforeEnd k l := by
  constructor
  · rintro ⟨l1, l2, he, hm⟩
    rcases List.append_eq_append_iff.1 he with ⟨a, h1, h2⟩ | ⟨a, h1, h2⟩
    · exact absurd (h2 ▸ by simp) h
    · cases a with
      | nil => simp at h2; exact absurd (h2 ▸ by simp) h
      | cons b a =>
        simp at h2; obtain ⟨rfl, _⟩ := h2
        exact ⟨l1, a, h1, hm⟩
  · rintro ⟨l1, l2, rfl, hm⟩
    exact ⟨l1, l2 ++ o, by simp, hm⟩

theorem beforeEnd_last {k : Nat} {l : List Obs} (h : .closeDone k ∉ l) : AttachedBeforeEnd k (l ++ [.closeDone k]) ↔ .attached k ∈ l := by
  constructor
  · rintro ⟨l1, l2, he, hm⟩
    rcases List.append_eq_append_iff.1 he with ⟨a, h1, h2⟩ | ⟨a, h1, h2⟩
    · cases a with
      | nil => simp at h1; rw [← h1]; exact hm
      | cons c a => have := congrArg List.length h2; simp at this
    · cases a with
      | nil => simp at h1; rw [h1]; exact hm
      | cons c a =>
        simp at h2
        obtain ⟨rfl, _⟩ := h2
        exact absurd (h1 ▸ by simp) h
  · exact fun hm => ⟨l, [], rfl, hm⟩

theorem close_kept {k : Nat} {x : Sess} {l : List Obs} (hf : Facts k x l) : ((x.close k).1.closer = .done ↔ x.closer = .done) ∧ .closeDone k ∉ (x.close k).2 := by
  unfold Sess.close
  split
  · simp
  · next hc =>
    have hi : x.closer = .idle := by
      have := hf.closed; simp [hc] at this; exact this
    simp [hi]

/-- A session is forgotten exactly if its close callback was in place when its closing goroutine had come to its end. -/
theorem life_beforeEnd {k : Nat} {ox : Option Sess} {l : List Obs} (h : Life k ox l) : ∀ x, ox = some x → (AttachedBeforeEnd k l ↔ x.closer = .done) := by
  induction h with
  | none => simp
  | accept =>
    intro x e
    cases e
    constructor
    · rintro ⟨l1, l2, he, hm⟩
      cases l1 <;> simp at he hm
    · simp
  | @move x x' l o m hl hm ih =>
    intro y e
    cases e
    have hf : Facts k x l := life_facts hl
    have ih := ih x rfl
    have key : (.closeDone k ∉ o ∧ (x'.closer = .done ↔ x.closer = .done)) ∨ (.closeDone k ∉ l ∧ ∃ o', .closeDone k ∉ o' ∧ .attached k ∉ o' ∧ o = o' ++ [.closeDone k] ∧
        (x'.closer = .done ↔ .attached k ∈ l)) := by
      have hd := hf.done
      have ha := hf.attached
      have hcb := hf.callback
      cases m <;> simp only [Sess.step, call_recovered] at hm
      case close =>
        simp only [Option.some.injEq] at hm
        have := close_kept hf
        rw [hm] at this
        exact .inl ⟨this.2, this.1⟩
      case leave =>
        split at hm
        · simp only [Option.some.injEq, Prod.mk.injEq] at hm
          obtain ⟨rfl, rfl⟩ := hm
          have := close_kept hf
          exact .inl ⟨by simp [this.2], this.1⟩
        · simp at hm
      case callbacks =>
        split at hm
        · next hc =>
          split at hm
          · simp only [Option.some.injEq, Prod.mk.injEq] at hm
            obtain ⟨rfl, rfl⟩ := hm
            exact .inl (by simp [hc])
          · next hna =>
            simp only [Option.some.injEq, Prod.mk.injEq] at hm
            obtain ⟨rfl, rfl⟩ := hm
            exact .inr ⟨by rw [hd]; simp [hc], [], by simp, by simp, rfl, by rw [ha]; simp [hna]⟩
        · simp at hm
      case handler u =>
        split at hm
        · next hc =>
          simp only [Option.some.injEq, Prod.mk.injEq] at hm
          obtain ⟨rfl, rfl⟩ := hm
          exact .inr ⟨by rw [hd]; simp [hc], [.closeHandler k], by simp, by simp, rfl, by rw [ha]; simp [hcb (by simp [hc])]⟩
        · simp at hm
      all_goals
        repeat' split at hm
        all_goals first
          | (simp at hm; done)
          | skip
      all_goals
        simp only [Option.some.injEq, Prod.mk.injEq] at hm
        obtain ⟨rfl, rfl⟩ := hm
        left
        simp_all
    rcases key with ⟨h1, h2⟩ | ⟨h1, o', h2, h3, rfl, h4⟩
    · rw [beforeEnd_append h1, h2, ih]
    · rw [← List.append_assoc, beforeEnd_last (by simp [h1, h2]), h4]
      simp [h3]
  | @timeout x l hl ih =>
    intro y e
    cases e
    have hf : Facts k x l := life_facts hl
    have := close_kept hf
    rw [beforeEnd_append (by simp [this.2]), this.1, ih x rfl]

theorem beforeEnd_only {k : Nat} {l : List Obs} : AttachedBeforeEnd k (only k l) ↔ AttachedBeforeEnd k l := by
  constructor
  · rintro ⟨l1, l2, he, hm⟩
    induction l generalizing l1 with
    | nil => simp [only] at he
    | cons a l ih =>
      by_cases ha : about a = some k
      · have e : only k (a :: l) = a :: only k l := by simp [only, ha]
        rw [e] at he
        cases l1 with
        | nil => cases hm
        | cons b l1 =>
          simp only [List.cons_append, List.cons.injEq] at he
          obtain ⟨rfl, he⟩ := he
          by_cases hb : a = .attached k
          · have : Obs.closeDone k ∈ l := (mem_only (k := k) rfl).1 (by rw [he]; simp)
            obtain ⟨p, q, rfl⟩ := List.append_of_mem this
            exact ⟨a :: p, q, rfl, by simp [hb]⟩
          · obtain ⟨p, q, rfl, hp⟩ := ih l1 he (by simpa [Ne.symm hb] using hm)
            exact ⟨a :: p, q, rfl, by simp [hp]⟩
      · have e : only k (a :: l) = only k l := by simp [only, ha]
        rw [e] at he
        obtain ⟨p, q, rfl, hp⟩ := ih l1 he hm
        exact ⟨a :: p, q, rfl, by simp [hp]⟩
  · rintro ⟨l1, l2, rfl, hm⟩
    exact ⟨only k l1, only k l2, by simp [only_append, only, about], (mem_only rfl).2 hm⟩

end Verif.Server
