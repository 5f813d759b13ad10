import Verif.Spec.Addressed
import Verif.Lemmas.Promised
/-! # Lemmas on whom the messages of a session are addressed to -/

namespace Verif.Converse
open Session Handler Spec

variable {σ : Type} {P : Program σ}

theorem served_cons (e : Ev) (x : List Ev) : served (e :: x) = (serves e || served x) := rfl

theorem served_append (x y : List Ev) : served (x ++ y) = (served x || served y) := List.any_append

/-- The messages are addressed to the terminal `i` as soon as a message was served (`d`: before these events), and to number 0 until then. -/
def Addressed (i : UInt64) : Bool → List Ev → Prop
  | _, [] => True
  | d, e :: l => (∀ m, e = .sent m ∨ e = .refused m → m.header.iccID = if d then i else 0) ∧ Addressed i (d || serves e) l

theorem addressed_other {i : UInt64} {d : Bool} {e : Ev} {l : List Ev} (h1 : ∀ m, e ≠ .sent m) (h2 : ∀ m, e ≠ .refused m) (h : Addressed i (d || serves e) l) :
    Addressed i d (e :: l) :=
  ⟨fun m hm => hm.elim (fun h => absurd h (h1 m)) fun h => absurd h (h2 m), h⟩

theorem addressed_sent {i : UInt64} {d : Bool} {m : Message Entity} {l : List Ev} (hi : m.header.iccID = if d then i else 0) (h : Addressed i d l) :
    Addressed i d (.sent m :: l) :=
  ⟨fun m' hm => (by rcases hm with hm | hm <;> cases hm; exact hi), by simpa [serves] using h⟩

theorem addressed_refused {i : UInt64} {d : Bool} {m : Message Entity} {l : List Ev} (hi : m.header.iccID = if d then i else 0) (h : Addressed i d l) :
    Addressed i d (.refused m :: l) :=
  ⟨fun m' hm => (by rcases hm with hm | hm <;> cases hm; exact hi), by simpa [serves] using h⟩

theorem addressed_append {i : UInt64} {d : Bool} {x y : List Ev} (h1 : Addressed i d x) (h2 : Addressed i (d || served x) y) : Addressed i d (x ++ y) := by
  induction x generalizing d with
  | nil => simpa [served] using h2
  | cons e x ih =>
    rw [served_cons, ← Bool.or_assoc] at h2
    exact ⟨h1.1, ih h1.2 h2⟩

theorem performs_addressed {i icc : UInt64} {n n' : Nat} {t t' : Table} {c : Code σ} {x : List Ev} {u : σ} (h : Performs icc n t c x n' t' u)
    {d : Bool} (hi : icc = if d then i else 0) : Addressed i d x ∧ served x = false := by
  induction h with
  | returns => exact ⟨trivial, rfl⟩
  | panics => exact ⟨trivial, rfl⟩
  | sent _ ih => exact ⟨addressed_sent hi ih.1, ih.2⟩
  | refused _ ih => exact ⟨addressed_refused hi ih.1, ih.2⟩
  | requested _ ih => exact ⟨addressed_sent hi (addressed_other (by simp) (by simp) (by simpa [serves] using ih.1)), ih.2⟩
  | requestRefused _ ih => exact ⟨addressed_refused hi ih.1, ih.2⟩

theorem learned_to {i : UInt64} {d : Bool} {k : Knows σ} {m : Message Entity} (hi : k.icc = if d then i else 0) (hm : m.header.iccID = i) : (k.learn m).icc = i := by
  rw [learned_icc]
  unfold terminalAfter
  split
  · rename_i h0
    rw [hi]
    rw [h0] at hm
    subst hm
    simp
  · exact hm

theorem noted_addressed {i : UInt64} {d : Bool} {k k' : Knows σ} {m : Message Entity} {x : List Ev} (h : Noted P k m x k') (hi : k.icc = if d then i else 0)
    (hm : m.header.iccID = i) : Addressed i d x ∧ k'.icc = i := by
  cases h with
  | ran _ _ hc =>
    have := performs_addressed (i := i) (d := true) hc (by simpa using learned_to hi hm)
    exact ⟨addressed_other (by simp) (by simp) (by simpa [serves] using this.1), learned_to hi hm⟩
  | none => exact ⟨trivial, learned_to hi hm⟩

theorem dispatched_addressed {i : UInt64} (d : Bool) {k k' : Knows σ} {m : Message Entity} {x : List Ev} (h : Dispatched P k m x k') (hi : k.icc = i) :
    Addressed i d x ∧ k'.icc = i ∧ served x = true := by
  cases h with
  | handled _ hc =>
    have := performs_addressed (i := i) (d := true) hc (by simpa using hi)
    exact ⟨addressed_other (by simp) (by simp) (by simpa [serves] using this.1), hi, rfl⟩
  | unhandled => exact ⟨addressed_other (by simp) (by simp) trivial, hi, rfl⟩

theorem replied_addressed {i : UInt64} {d : Bool} {k k' : Knows σ} {m : Message Entity} {r : UInt8} {x : List Ev} (h : Replied k m r x k')
    (hi : k.icc = if d then i else 0) : Addressed i d x ∧ (k'.icc = if d then i else 0) ∧ served x = false := by
  cases h
  · exact ⟨addressed_other (by simp) (by simp) (by simpa [serves] using (addressed_sent hi trivial : Addressed i d [_])), hi, rfl⟩
  · exact ⟨addressed_other (by simp) (by simp) (by simpa [serves] using (addressed_refused hi trivial : Addressed i d [_])), hi, rfl⟩

theorem turn_addressed {auto : Bool} {i : UInt64} {d : Bool} {k k' : Knows σ} {m : Message Entity} {o : Outcome × Outcome} {x : List Ev}
    (h : Turn auto P k m o x k') (hi : k.icc = if d then i else 0) (hm : m.header.iccID = i) :
    Addressed i d x ∧ k'.icc = if d || served x then i else 0 := by
  cases h with
  | unsupported _ hr =>
    obtain ⟨r1, r2, r3⟩ := replied_addressed hr hi
    exact ⟨r1, by rw [r3, Bool.or_false]; exact r2⟩
  | @ordinary x1 x2 _ _ _ _ hn hd =>
    obtain ⟨n1, n2⟩ := noted_addressed hn hi hm
    obtain ⟨d1, d2, d3⟩ := dispatched_addressed (d || served x1) hd n2
    refine ⟨addressed_append n1 d1, ?_⟩
    rw [served_append, d3, Bool.or_true, Bool.or_true, d2]
    rfl
  | lost _ _ hr =>
    obtain ⟨r1, r2, r3⟩ := replied_addressed (i := i) (d := d) hr hi
    refine ⟨addressed_other (by simp) (by simp) (by simpa [serves] using r1), ?_⟩
    rw [served_cons, r3, Bool.or_false]
    simpa [serves] using r2
  | stored _ _ hr =>
    obtain ⟨r1, r2, r3⟩ := replied_addressed (i := i) (d := d) hr hi
    refine ⟨addressed_other (by simp) (by simp) (by simpa [serves] using r1), ?_⟩
    rw [served_cons, r3, Bool.or_false]
    simpa [serves] using r2
  | unmerged _ _ hr =>
    obtain ⟨r1, r2, r3⟩ := replied_addressed (i := i) (d := d) hr hi
    refine ⟨addressed_other (by simp) (by simp) ?_, ?_⟩
    · refine addressed_append (by simpa [serves] using r1) ?_
      exact addressed_other (by simp) (by simp) trivial
    · rw [served_cons, served_append, r3]
      simpa [serves, served] using r2
  | @merged _ _ _ _ _ _ y1 _ _ _ _ _ _ _ hr _ _ _ hn hd =>
    obtain ⟨r1, r2, r3⟩ := replied_addressed (i := i) (d := d) hr hi
    obtain ⟨n1, n2⟩ := noted_addressed (d := d) hn r2 hm
    obtain ⟨d1, d2, d3⟩ := dispatched_addressed (d || served y1) hd n2
    constructor
    · refine addressed_other (by simp) (by simp) (addressed_append (by simpa [serves] using r1) ?_)
      rw [r3, Bool.or_false]
      exact addressed_other (by simp) (by simp) (by simpa [serves] using addressed_append n1 d1)
    · rw [served_cons, served_append, served_cons, served_append, d3, d2]
      simp

theorem talk_addressed {auto : Bool} {i : UInt64} {d : Bool} {k k' : Knows σ} {ms : List (Message Entity × Outcome × Outcome)} {log : List Ev}
    (h : Talk auto P k ms log k') (hi : k.icc = if d then i else 0) (hm : ∀ x ∈ ms, x.1.header.iccID = i) : Addressed i d log := by
  induction h generalizing d with
  | nil => trivial
  | cons ht _ ih =>
    obtain ⟨t1, t2⟩ := turn_addressed ht hi (hm _ List.mem_cons_self)
    refine addressed_other (by simp) (by simp) ?_
    rw [show serves (.received _) = false from rfl, Bool.or_false]
    exact addressed_append t1 (ih t2 fun x hx => hm x (List.mem_cons_of_mem _ hx))

theorem addressed_split {i : UInt64} {d : Bool} {log before : List Ev} {m : Message Entity} (h : Addressed i d log) (hs : HandedAfter log before m) :
    m.header.iccID = if d || served before then i else 0 := by
  obtain ⟨rest, hs⟩ := hs
  induction before generalizing d log with
  | nil =>
    rcases hs with rfl | rfl
    · simpa [served] using h.1 m (.inl rfl)
    · simpa [served] using h.1 m (.inr rfl)
  | cons e before ih =>
    rw [served_cons, ← Bool.or_assoc]
    rcases hs with rfl | rfl
    · exact ih h.2 (.inl rfl)
    · exact ih h.2 (.inr rfl)

end Verif.Converse
