import Verif.Lemmas.Session
/-! # The number of a message is handed out during the call that sends it -/

namespace Verif.Session
open Spec

variable {E : Type}

/-- The number was handed out to goroutine `i`, and since then nothing was observed of it. -/
def Latest (i : Nat) (serial : UInt16) (o : List (Obs E)) : Prop :=
  ∃ a b, o = a ++ .allocated i serial :: b ∧ ∀ x ∈ b, whose x ≠ some i

theorem Latest.more {i : Nat} {serial : UInt16} {o y : List (Obs E)} (h : Latest i serial o) (hy : ∀ x ∈ y, whose x ≠ some i) : Latest i serial (o ++ y) := by
  obtain ⟨a, b, rfl, hb⟩ := h
  refine ⟨a, b ++ y, by simp, ?_⟩
  intro x hx
  rcases List.mem_append.mp hx with hx | hx
  · exact hb x hx
  · exact hy x hx

/-- What holds of the calls of goroutine `i` that began after the observations start. -/
structure Own (i : Nat) (s : State E) (o : List (Obs E)) : Prop where
  built : ∀ c icc serial, s.place i = some (.built c icc serial) → Latest i serial o
  pushed : ∀ a b c m, o = a ++ .pushed i c m :: b → Latest i m.header.serial a

theorem pushed_more {i : Nat} {o y : List (Obs E)} (h : ∀ a b c m, o = a ++ .pushed i c m :: b → Latest i m.header.serial a)
    (hy : ∀ a b c m, y = a ++ .pushed i c m :: b → Latest i m.header.serial (o ++ a)) (a b : List (Obs E)) (c : Call E) (m : Message E)
    (he : o ++ y = a ++ .pushed i c m :: b) : Latest i m.header.serial a := by
  rcases List.append_eq_append_iff.mp he with ⟨d, h1, h2⟩ | ⟨d, h1, h2⟩
  · rw [h1]; exact hy d b c m h2
  · cases d with
    | nil =>
      rw [List.nil_append] at h2
      have := hy [] b c m h2.symm
      rwa [List.append_nil, h1, List.append_nil] at this
    | cons z d =>
      simp only [List.cons_append, List.cons.injEq] at h2
      obtain ⟨rfl, -⟩ := h2
      exact h a d c m h1

theorem no_pushed {i : Nat} {o y : List (Obs E)} (hy : ∀ x ∈ y, whose x ≠ some i) (a b : List (Obs E)) (c : Call E) (m : Message E)
    (he : y = a ++ .pushed i c m :: b) : Latest i m.header.serial (o ++ a) :=
  absurd rfl (hy (.pushed i c m) (by rw [he]; simp))

theorem step_other (C : BodyCodec E) (i : Nat) (s : State E) (ev : Event E) (h : actor ev ≠ some i) :
    (s.step C ev).1.place i = s.place i ∧ ∀ x ∈ (s.step C ev).2, whose x ≠ some i := by
  have key := place_others (C := C) i [ev] s (by simpa using h)
  refine ⟨key, ?_⟩
  cases ev <;> simp only [actor, ne_eq, Option.some.injEq] at h <;> simp only [State.step] <;> repeat' split
  all_goals simp [whose, h]

theorem Own.step (C : BodyCodec E) {i : Nat} {s : State E} {o : List (Obs E)} (h : Own i s o) (ev : Event E) :
    Own i (s.step C ev).1 (o ++ (s.step C ev).2) := by
  by_cases hi : actor ev = some i
  · obtain ⟨h1, h2⟩ := h
    have same : Own i s (o ++ []) := by rw [List.append_nil]; exact ⟨h1, h2⟩
    have quiet : ∀ (p : Option (Place E)) (s' : State E), s'.place = goto s.place i p → (∀ c icc serial, p ≠ some (.built c icc serial)) →
        ∀ y : List (Obs E), (∀ a b c m, y ≠ a ++ .pushed i c m :: b) → Own i s' (o ++ y) := by
      intro p s' hs hp y hy
      refine ⟨?_, pushed_more h2 fun a b c m he => absurd he (hy a b c m)⟩
      intro c icc serial hb
      rw [hs] at hb
      simp only [goto, if_true] at hb
      exact absurd hb (hp c icc serial)
    cases ev <;> simp only [actor, Option.some.injEq, reduceCtorEq] at hi <;> subst hi
    case start c =>
      simp only [State.step]
      split
      · exact same
      · exact quiet _ _ rfl (by simp) [] (by simp)
      · exact same
    case loadIcc =>
      simp only [State.step]
      split
      · exact quiet _ _ rfl (by simp) [] (by simp)
      · exact same
    case loadNext =>
      simp only [State.step]
      split
      · exact quiet _ _ rfl (by simp) [] (by simp)
      · exact same
    case cas =>
      simp only [State.step]
      split
      · split
        · refine ⟨?_, pushed_more h2 ?_⟩
          · intro c icc serial hb
            simp only [goto, if_true, Option.some.injEq, Place.built.injEq] at hb
            obtain ⟨-, -, rfl⟩ := hb
            exact ⟨o, [], rfl, by simp⟩
          · intro a b c m he
            cases a <;> simp at he
        · exact quiet _ _ rfl (by simp) [] (by simp)
      · exact same
    case push ok =>
      simp only [State.step]
      split
      · rename_i c icc serial hb
        have hl := h1 c icc serial hb
        split
        · split
          · refine ⟨by intro c icc serial hb; simp [goto] at hb, pushed_more h2 ?_⟩
            intro a b c m he
            match a, he with
            | [], he =>
              simp only [List.nil_append, List.cons.injEq, Obs.pushed.injEq] at he
              obtain ⟨⟨-, -, rfl⟩, -⟩ := he
              rw [List.append_nil]; exact hl
            | [_], he => simp at he
            | _ :: _ :: _, he => simp at he
          · refine ⟨by intro c icc serial hb; simp [goto] at hb, pushed_more h2 ?_⟩
            intro a b c m he
            match a, he with
            | [], he =>
              simp only [List.nil_append, List.cons.injEq, Obs.pushed.injEq] at he
              obtain ⟨⟨-, -, rfl⟩, -⟩ := he
              rw [List.append_nil]; exact hl
            | _ :: _, he => simp at he
          · exact same
        · refine quiet none _ rfl (by simp) _ ?_
          intro a b c m he
          cases a <;> simp at he
      · exact same
    case add =>
      simp only [State.step]
      split
      · split
        · refine quiet none _ rfl (by simp) _ ?_
          intro a b c m he
          cases a <;> simp at he
        · exact same
      · exact same
  · obtain ⟨k1, k2⟩ := step_other C i s ev hi
    refine ⟨?_, pushed_more h.pushed (no_pushed k2)⟩
    intro c icc serial hb
    rw [k1] at hb
    exact (h.built c icc serial hb).more k2

theorem Own.run (C : BodyCodec E) {i : Nat} (evs : List (Event E)) : ∀ {s : State E} {o : List (Obs E)}, Own i s o →
    Own i (s.run C evs).1 (o ++ (s.run C evs).2) := by
  induction evs with
  | nil => intro s o h; simpa [State.run] using h
  | cons ev evs ih =>
    intro s o h
    have := ih (h.step C ev)
    simpa [State.run, List.append_assoc] using this

theorem own_run (C : BodyCodec E) (i : Nat) (s : State E) (hs : s.place i = none) (evs : List (Event E)) : Own i (s.run C evs).1 (s.run C evs).2 := by
  have := Own.run C evs (i := i) (s := s) (o := []) ⟨by simp [hs], by simp⟩
  simpa using this

end Verif.Session
