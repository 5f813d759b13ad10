import Verif.Lemmas.Converse
/-! # Lemmas on the course of a session: requests, answers and numbers -/

namespace Verif.Converse
open Session Handler Spec

variable {σ : Type}

/-- What matters for the requests. -/
def acts (x : List Ev) : List Act :=
  x.filterMap fun
    | .requested r => some (.requested r)
    | .ran cb m => some (.callback cb m)
    | _ => none

theorem acts_append (x y : List Ev) : acts (x ++ y) = acts x ++ acts y := List.filterMap_append

theorem acts_cons_skip (a : Ev) (x : List Ev) (h : acts [a] = []) : acts (a :: x) = acts x := by
  rw [show a :: x = [a] ++ x from rfl, acts_append, h, List.nil_append]

theorem performs_acts {icc : UInt64} {n n' : Nat} {t t' : Table} {c : Code σ} {x : List Ev} {u : σ} (h : Performs icc n t c x n' t' u) :
    AnswerSteps t (acts x) t' := by
  induction h with
  | returns => exact .nil _
  | panics => exact .nil _
  | sent _ ih => exact ih
  | refused _ ih => exact ih
  | requested _ ih => exact AnswerSteps.append (AnswerSteps.one (a := .requested ⟨_, _, _⟩) rfl) ih
  | requestRefused _ ih => exact ih

theorem noted_acts {P : Program σ} {k k' : Knows σ} {m : Message Entity} {x : List Ev} (h : Noted P k m x k') : AnswerSteps k.table (acts x) k'.table := by
  cases h with
  | ran ha hw hc =>
    obtain ⟨e, h1, h2, h3⟩ := ha
    exact AnswerSteps.append (AnswerSteps.one (a := .callback _ m) ⟨e, _, _, h1, h2, h3, hw, rfl⟩) (performs_acts hc)
  | none h =>
    rw [(learn_fields k m).2.1]
    exact .nil _

theorem dispatched_acts {P : Program σ} {k k' : Knows σ} {m : Message Entity} {x : List Ev} (h : Dispatched P k m x k') :
    AnswerSteps k.table (acts x) k'.table := by
  cases h with
  | handled hh hc =>
    rw [acts_cons_skip _ _ rfl]
    exact performs_acts hc
  | unhandled hh => exact .nil _

theorem replied_acts {k k' : Knows σ} {m : Message Entity} {r : UInt8} {x : List Ev} (h : Replied k m r x k') : acts x = [] ∧ k'.table = k.table := by
  cases h <;> exact ⟨rfl, rfl⟩

theorem turn_acts {auto : Bool} {P : Program σ} {k k' : Knows σ} {m : Message Entity} {o : Outcome × Outcome} {x : List Ev}
    (h : Turn auto P k m o x k') : AnswerSteps k.table (acts x) k'.table := by
  cases h with
  | unsupported hb hr =>
    rw [(replied_acts hr).1, (replied_acts hr).2]
    exact .nil _
  | ordinary hb hp hn hd =>
    rw [acts_append]
    exact AnswerSteps.append (noted_acts hn) (dispatched_acts hd)
  | lost hp ho hr =>
    rw [acts_cons_skip _ _ rfl, (replied_acts hr).1, (replied_acts hr).2]
    exact .nil _
  | stored hp ho hr hm =>
    rw [acts_cons_skip _ _ rfl, (replied_acts hr).1, (replied_acts hr).2]
    exact .nil _
  | unmerged hp ho hr hm hf =>
    rw [acts_cons_skip _ _ rfl, acts_append, (replied_acts hr).1]
    simp only [(replied_acts hr).2]
    exact .nil _
  | merged hp hb ho hr hm hf hc hn hd =>
    rw [acts_cons_skip _ _ rfl, acts_append, (replied_acts hr).1, acts_cons_skip _ _ rfl, acts_append, List.nil_append]
    have := noted_acts hn
    simp only [(replied_acts hr).2] at this
    exact AnswerSteps.append this (dispatched_acts hd)

theorem talk_acts {auto : Bool} {P : Program σ} {k k' : Knows σ} {ms : List (Message Entity × Outcome × Outcome)} {log : List Ev}
    (h : Talk auto P k ms log k') : AnswerSteps k.table (acts log) k'.table := by
  induction h with
  | nil => exact .nil _
  | cons ht _ ih =>
    rw [acts_cons_skip _ _ rfl, acts_append]
    exact AnswerSteps.append (turn_acts ht) ih

/-! ## Numbers -/

theorem attempted_append (x y : List Ev) : attempted (x ++ y) = attempted x ++ attempted y := List.filterMap_append

/-- The messages in the log are numbered from `lo` to `hi`, as are the requests. -/
structure Within (lo hi : Nat) (x : List Ev) : Prop where
  le : lo ≤ hi
  serials : (attempted x).map (fun m => m.header.serial) = (List.range' lo (hi - lo)).map serialOf
  mem : ∀ r, .requested r ∈ x → ∃ i, lo ≤ i ∧ i < hi ∧ r.serial = serialOf i
  pairs : x.Pairwise fun a b => ∀ r r', a = .requested r → b = .requested r' → ∃ i j, lo ≤ i ∧ i < j ∧ j < hi ∧ r.serial = serialOf i ∧ r'.serial = serialOf j

theorem Within.nil (n : Nat) : Within n n [] := ⟨Nat.le_refl _, by simp [attempted], by simp, .nil⟩

theorem Within.append {a b c : Nat} {x y : List Ev} (h1 : Within a b x) (h2 : Within b c y) : Within a c (x ++ y) := by
  obtain ⟨l1, s1, m1, p1⟩ := h1
  obtain ⟨l2, s2, m2, p2⟩ := h2
  refine ⟨Nat.le_trans l1 l2, ?_, ?_, ?_⟩
  · rw [attempted_append, List.map_append, s1, s2, ← List.map_append]
    congr 1
    rw [show c - a = (b - a) + (c - b) by omega, ← List.range'_append_1]
    congr 2
    omega
  · intro r hr
    rcases List.mem_append.1 hr with hr | hr
    · obtain ⟨i, h1, h2, h3⟩ := m1 r hr
      exact ⟨i, h1, by omega, h3⟩
    · obtain ⟨i, h1, h2, h3⟩ := m2 r hr
      exact ⟨i, by omega, h2, h3⟩
  · rw [List.pairwise_append]
    refine ⟨p1.imp ?_, p2.imp ?_, ?_⟩
    · intro a' b' h r r' e1 e2
      obtain ⟨i, j, h1, h2, h3, h4⟩ := h r r' e1 e2
      exact ⟨i, j, h1, h2, by omega, h4⟩
    · intro a' b' h r r' e1 e2
      obtain ⟨i, j, h1, h2, h3, h4⟩ := h r r' e1 e2
      exact ⟨i, j, by omega, h2, h3, h4⟩
    · intro a' ha b' hb r r' e1 e2
      subst e1 e2
      obtain ⟨i, h1, h2, h3⟩ := m1 r ha
      obtain ⟨j, h4, h5, h6⟩ := m2 r' hb
      exact ⟨i, j, h1, by omega, h5, h3, h6⟩

theorem Within.other {n : Nat} {a : Ev} (h : attempted [a] = []) (hr : ∀ r, a ≠ .requested r) : Within n n [a] :=
  ⟨Nat.le_refl _, by simp [h], fun r hm => absurd (by simpa using hm) (Ne.symm (hr r)), by simp⟩

theorem Within.cons {n hi : Nat} {a : Ev} {x : List Ev} (h : Within n hi x) (hg : attempted [a] = []) (hr : ∀ r, a ≠ .requested r) : Within n hi (a :: x) :=
  (Within.other hg hr).append h

theorem within_sent (icc : UInt64) (n : Nat) (e : Entity) : Within n (n + 1) [.sent (outgoing icc n e)] :=
  ⟨by omega, by simp [attempted, outgoing], by simp, by simp⟩

theorem within_refused (icc : UInt64) (n : Nat) (e : Entity) : Within n (n + 1) [.refused (outgoing icc n e)] :=
  ⟨by omega, by simp [attempted, outgoing], by simp, by simp⟩

theorem within_request (icc : UInt64) (n : Nat) (e : Entity) (cb : Nat) :
    Within n (n + 1) [.sent (outgoing icc n e), .requested ⟨e.msgID, serialOf n, cb⟩] :=
  ⟨by omega, by simp [attempted, outgoing], by
    intro r hr
    simp only [List.mem_cons, reduceCtorEq, List.not_mem_nil, or_false, false_or, Ev.requested.injEq] at hr
    subst hr
    exact ⟨n, by omega, by omega, rfl⟩, by simp⟩

theorem performs_within {icc : UInt64} {n n' : Nat} {t t' : Table} {c : Code σ} {x : List Ev} {u : σ} (h : Performs icc n t c x n' t' u) :
    Within n n' x := by
  induction h with
  | returns => exact .nil _
  | panics => exact .nil _
  | sent _ ih => exact (within_sent _ _ _).append ih
  | refused _ ih => exact (within_refused _ _ _).append ih
  | requested _ ih => exact (within_request _ _ _ _).append ih
  | requestRefused _ ih => exact (within_refused _ _ _).append ih

theorem noted_within {P : Program σ} {k k' : Knows σ} {m : Message Entity} {x : List Ev} (h : Noted P k m x k') : Within k.count k'.count x := by
  cases h with
  | ran ha hw hc => exact (performs_within hc).cons rfl (by simp)
  | none h =>
    rw [(learn_fields k m).1]
    exact .nil _

theorem dispatched_within {P : Program σ} {k k' : Knows σ} {m : Message Entity} {x : List Ev} (h : Dispatched P k m x k') :
    Within k.count k'.count x := by
  cases h with
  | handled hh hc => exact (performs_within hc).cons rfl (by simp)
  | unhandled hh => exact .other rfl (by simp)

theorem replied_within {k k' : Knows σ} {m : Message Entity} {r : UInt8} {x : List Ev} (h : Replied k m r x k') : Within k.count k'.count x := by
  cases h with
  | sent => exact (within_sent _ _ _).cons rfl (by simp)
  | refused => exact (within_refused _ _ _).cons rfl (by simp)

theorem turn_within {auto : Bool} {P : Program σ} {k k' : Knows σ} {m : Message Entity} {o : Outcome × Outcome} {x : List Ev}
    (h : Turn auto P k m o x k') : Within k.count k'.count x := by
  cases h with
  | unsupported hb hr => exact replied_within hr
  | ordinary hb hp hn hd => exact (noted_within hn).append (dispatched_within hd)
  | lost hp ho hr => exact (replied_within hr).cons rfl (by simp)
  | stored hp ho hr hm => exact (replied_within hr).cons rfl (by simp)
  | unmerged hp ho hr hm hf => exact ((replied_within hr).append (.other rfl (by simp))).cons rfl (by simp)
  | merged hp hb ho hr hm hf hc hn hd =>
    exact ((replied_within hr).append (((noted_within hn).append (dispatched_within hd)).cons rfl (by simp))).cons rfl (by simp)

theorem talk_within {auto : Bool} {P : Program σ} {k k' : Knows σ} {ms : List (Message Entity × Outcome × Outcome)} {log : List Ev}
    (h : Talk auto P k ms log k') : Within k.count k'.count log := by
  induction h with
  | nil => exact .nil _
  | cons ht _ ih => exact ((turn_within ht).append ih).cons rfl (by simp)

/-! ## The messages sent -/

/-- Every message given to the connection is one of the session's: no property bits, no packet information, and its body's id. -/
def Plain (m : Message Entity) : Prop := ∃ e icc n, m = outgoing icc n e

theorem performs_plain {icc : UInt64} {n n' : Nat} {t t' : Table} {c : Code σ} {x : List Ev} {u : σ} (h : Performs icc n t c x n' t' u) :
    ∀ m ∈ attempted x, ∃ e j, m = outgoing icc j e := by
  have go : ∀ (n : Nat) (e : Entity) (x : List Ev), (∀ m ∈ attempted x, ∃ e j, m = outgoing icc j e) →
      ∀ m ∈ outgoing icc n e :: attempted x, ∃ e j, m = outgoing icc j e := by
    intro n e x ih m hm
    rcases List.mem_cons.1 hm with rfl | hm
    · exact ⟨e, n, rfl⟩
    · exact ih m hm
  induction h with
  | returns => simp [attempted]
  | panics => simp [attempted]
  | sent _ ih => exact go _ _ _ ih
  | refused _ ih => exact go _ _ _ ih
  | requested _ ih => exact go _ _ _ ih
  | requestRefused _ ih => exact go _ _ _ ih

theorem noted_plain {P : Program σ} {k k' : Knows σ} {m : Message Entity} {x : List Ev} (h : Noted P k m x k') : ∀ m ∈ attempted x, Plain m := by
  intro y hy
  cases h with
  | ran ha hw hc =>
    obtain ⟨e, j, h⟩ := performs_plain hc y hy
    exact ⟨e, _, j, h⟩
  | none h => simp [attempted] at hy

theorem dispatched_plain {P : Program σ} {k k' : Knows σ} {m : Message Entity} {x : List Ev} (h : Dispatched P k m x k') : ∀ m ∈ attempted x, Plain m := by
  intro y hy
  cases h with
  | handled hh hc =>
    obtain ⟨e, j, h⟩ := performs_plain hc y hy
    exact ⟨e, _, j, h⟩
  | unhandled hh => simp [attempted] at hy

theorem replied_plain {k k' : Knows σ} {m : Message Entity} {r : UInt8} {x : List Ev} (h : Replied k m r x k') : ∀ m ∈ attempted x, Plain m := by
  intro y hy
  cases h <;> (simp [attempted] at hy; exact ⟨_, _, _, hy⟩)

theorem attempted_cons_skip (a : Ev) (x : List Ev) (h : attempted [a] = []) : attempted (a :: x) = attempted x := by
  rw [show a :: x = [a] ++ x from rfl, attempted_append, h, List.nil_append]

theorem turn_plain {auto : Bool} {P : Program σ} {k k' : Knows σ} {m : Message Entity} {o : Outcome × Outcome} {x : List Ev}
    (h : Turn auto P k m o x k') : ∀ m ∈ attempted x, Plain m := by
  intro y hy
  cases h with
  | unsupported hb hr => exact replied_plain hr y hy
  | ordinary hb hp hn hd =>
    rw [attempted_append] at hy
    rcases List.mem_append.1 hy with hy | hy
    · exact noted_plain hn y hy
    · exact dispatched_plain hd y hy
  | lost hp ho hr => exact replied_plain hr y hy
  | stored hp ho hr hm => exact replied_plain hr y hy
  | unmerged hp ho hr hm hf =>
    rw [attempted_cons_skip _ _ rfl, attempted_append, attempted_cons_skip _ _ rfl] at hy
    exact replied_plain hr y (by simpa [attempted] using hy)
  | merged hp hb ho hr hm hf hc hn hd =>
    rw [attempted_cons_skip _ _ rfl, attempted_append, attempted_cons_skip _ _ rfl, attempted_append] at hy
    rcases List.mem_append.1 hy with hy | hy
    · exact replied_plain hr y hy
    · rcases List.mem_append.1 hy with hy | hy
      · exact noted_plain hn y hy
      · exact dispatched_plain hd y hy

theorem talk_plain {auto : Bool} {P : Program σ} {k k' : Knows σ} {ms : List (Message Entity × Outcome × Outcome)} {log : List Ev}
    (h : Talk auto P k ms log k') : ∀ m ∈ attempted log, Plain m := by
  induction h with
  | nil => simp [attempted]
  | cons ht _ ih =>
    intro y hy
    rw [attempted_cons_skip _ _ rfl, attempted_append] at hy
    rcases List.mem_append.1 hy with hy | hy
    · exact turn_plain ht y hy
    · exact ih y hy

theorem sentIn_attempted (x : List Ev) : ∀ m ∈ sentIn x, m ∈ attempted x := by
  intro m hm
  unfold sentIn at hm
  obtain ⟨a, ha, hm⟩ := List.mem_filterMap.1 hm
  cases a <;> simp at hm
  subst hm
  exact List.mem_filterMap.2 ⟨_, ha, rfl⟩

theorem run_append (auto : Bool) (P : Program σ) (s : State σ) (ms ms' : List (Message Entity × Outcome × Outcome)) :
    s.run auto P (ms ++ ms') = (s.run auto P ms).bind fun r => (r.1.run auto P ms').bind fun q => .ok (q.1, r.2 ++ q.2) := by
  induction ms generalizing s with
  | nil =>
    show s.run auto P ms' = (s.run auto P ms').bind fun q => .ok (q.1, [] ++ q.2)
    cases s.run auto P ms' <;> rfl
  | cons m ms ih =>
    obtain ⟨m, o⟩ := m
    simp only [List.cons_append, State.run]
    cases s.process auto P o m with
    | err e => rfl
    | panic => rfl
    | ok x =>
      simp only [Res.ok_bind, ih]
      show ((x.1.run auto P ms).bind _).bind _ = ((x.1.run auto P ms).bind _).bind _
      cases x.1.run auto P ms with
      | err e => rfl
      | panic => rfl
      | ok y =>
        simp only [Res.bind]
        cases y.1.run auto P ms' with
        | err e => rfl
        | panic => rfl
        | ok z => simp [Res.bind]

end Verif.Converse
