import Verif.Spec.Requests
import Verif.Lemmas.HandlerRun
import Verif.Lemmas.Session
import Verif.Lemmas.Encode
/-! # Lemmas on requests and their answers -/

namespace Verif
open Handler Session Spec

namespace Handler

/-! ## The receive loop -/

theorem AnswerSteps.append {t t' t'' : Table} {a b : List Act} (h1 : AnswerSteps t a t') (h2 : AnswerSteps t' b t'') : AnswerSteps t (a ++ b) t'' := by
  induction h2 with
  | nil => simpa using h1
  | snoc _ h ih => rw [← List.append_assoc]; exact .snoc ih h

theorem AnswerSteps.one {t t' : Table} {a : Act} (h : AnswerStep t a t') : AnswerSteps t [a] t' := AnswerSteps.snoc (.nil t) h

theorem AnswerSteps.snoc_inv {t t'' : Table} {log : List Act} {a : Act} (h : AnswerSteps t (log ++ [a]) t'') :
    ∃ t', AnswerSteps t log t' ∧ AnswerStep t' a t'' := by
  generalize hl : log ++ [a] = l at h
  cases h with
  | nil => simp at hl
  | snoc h1 h2 =>
    obtain ⟨rfl, he⟩ := List.append_inj' hl rfl
    simp at he
    subst he
    exact ⟨_, h1, h2⟩

theorem AnswerSteps.append_inv {t t'' : Table} (a b : List Act) (h : AnswerSteps t (a ++ b) t'') :
    ∃ t', AnswerSteps t a t' ∧ AnswerSteps t' b t'' := by
  induction b using snoc_induction generalizing t'' with
  | nil => exact ⟨t'', by simpa using h, .nil _⟩
  | snoc b o ih =>
    rw [← List.append_assoc] at h
    obtain ⟨t1, h1, h2⟩ := AnswerSteps.snoc_inv h
    obtain ⟨t2, h3, h4⟩ := ih h1
    exact ⟨t2, h3, .snoc h4 h2⟩

/-- A message the model reads a serial number from is an answer with this number. -/
theorem answered_of_replySerial {m : Message Entity} {serial : UInt16} (h : replySerial m = .ok serial) (h0 : serial ≠ 0) :
    ∃ e, m.body = .val e ∧ answered e = some serial := by
  unfold replySerial at h
  cases hb : m.body with
  | val e =>
    refine ⟨e, rfl, ?_⟩
    rw [hb] at h
    repeat' split at h
    all_goals first
      | (injection h with h; exact absurd h.symm h0)
      | (rename_i he; cases he; injection h with h; rw [← h]; rfl)
      | exact absurd h (by simp)
  | nil => rw [hb] at h; repeat' split at h
           all_goals first | contradiction | (injection h with h; exact absurd h.symm h0)
  | nilPtr i => rw [hb] at h; repeat' split at h
                all_goals first | contradiction | (injection h with h; exact absurd h.symm h0)

theorem tr_agree {s s' : Loop} {x : List Act} (h : Tr s x s') (t : Table) (ht : Agree t s.requests) :
    ∃ t', AnswerSteps t x t' ∧ Agree t' s'.requests := by
  induction h generalizing t with
  | nil s => exact ⟨t, .nil t, ht⟩
  | icc s i => exact ⟨t, .nil t, ht⟩
  | requested s r => exact ⟨_, AnswerSteps.one (a := .requested r) rfl, ht.add r⟩
  | callback s serial r rest m h hs h0 =>
    obtain ⟨h1, h2⟩ := takeRequest_some serial s.requests rest r h
    obtain ⟨h3, h4⟩ := ht.take h2
    obtain ⟨e, b1, b2⟩ := answered_of_replySerial hs h0
    exact ⟨_, AnswerSteps.one ⟨e, serial, r.msgID, b1, b2, h0, by rw [h3, h1], rfl⟩, h4⟩
  | trans _ _ ih1 ih2 =>
    obtain ⟨t1, a1, b1⟩ := ih1 t ht
    obtain ⟨t2, a2, b2⟩ := ih2 t1 b1
    exact ⟨t2, AnswerSteps.append a1 a2, b2⟩
  | handle s h m hh => exact ⟨t, AnswerSteps.snoc (AnswerSteps.one (a := .touch) rfl) (a := .handle h m) rfl, ht⟩
  | _ => exact ⟨t, AnswerSteps.snoc (.nil t) rfl, ht⟩

/-- Whatever is pending was requested. -/
theorem steps_requested {t : Table} {log : List Act} (h : AnswerSteps (fun _ => none) log t) (id s : UInt16) (cb : Nat)
    (ht : t id = some (s, cb)) : .requested ⟨id, s, cb⟩ ∈ log := by
  generalize h0 : (fun _ => none : Table) = t0 at h
  induction h generalizing id s cb with
  | nil => subst h0; simp at ht
  | snoc h1 h2 ih =>
    rename_i t' t'' log a
    have keep : t' id = some (s, cb) → .requested ⟨id, s, cb⟩ ∈ log ++ [a] := fun hx => List.mem_append_left _ (ih id s cb hx)
    cases a with
    | requested r =>
      simp only [AnswerStep] at h2
      rw [h2, Table.put] at ht
      split at ht
      · rename_i he
        simp only [Option.some.injEq, Prod.mk.injEq] at ht
        obtain ⟨rfl, rfl⟩ := ht
        subst he
        simp
      · exact keep ht
    | callback cb' m =>
      obtain ⟨e, s', id', -, -, -, -, h2⟩ := h2
      rw [h2, Table.put] at ht
      split at ht
      · simp at ht
      · exact keep ht
    | _ => exact keep (by rw [← h2]; exact ht)

/-- A pending request stays pending until it is replaced or answered. -/
theorem steps_keep {t t' : Table} {log : List Act} (h : AnswerSteps t log t') (id s : UInt16) (cb : Nat) (ht : t id = some (s, cb))
    (hnew : ∀ r, .requested r ∈ log → r.msgID ≠ id) (hans : ∀ cb' m e, .callback cb' m ∈ log → m.body = .val e → answered e ≠ some s) :
    t' id = some (s, cb) := by
  induction h with
  | nil => exact ht
  | snoc h1 h2 ih =>
    rename_i t' t'' log a
    have hk := ih (fun r hr => hnew r (List.mem_append_left _ hr)) (fun cb' m e hm => hans cb' m e (List.mem_append_left _ hm))
    cases a with
    | requested r =>
      simp only [AnswerStep] at h2
      rw [h2, Table.put, if_neg]
      · exact hk
      · exact fun he => hnew r (by simp) he.symm
    | callback cb' m =>
      obtain ⟨e, s', id', b1, b2, -, b4, h2⟩ := h2
      rw [h2, Table.put]
      split
      · rename_i he
        subst he
        rw [hk] at b4
        simp only [Option.some.injEq, Prod.mk.injEq] at b4
        obtain ⟨rfl, -⟩ := b4
        exact absurd b2 (hans cb' m e (by simp) b1)
      · exact hk
    | _ => rw [h2]; exact hk

/-- A request that waits is the only one in the table with its serial number. -/
theorem waiting_table {log : List Act} {t : Table} (h : AnswerSteps (fun _ => none) log t) {r : Pending} (hw : AwaitsAnswer r log) :
    t r.msgID = some (r.serial, r.callback) ∧ ∀ id cb, t id = some (r.serial, cb) → id = r.msgID ∧ cb = r.callback := by
  obtain ⟨l1, l2, rfl, w1, w2, w3⟩ := hw
  obtain ⟨t1, h1, h2⟩ := AnswerSteps.append_inv _ _ h
  obtain ⟨t2, h3, h4⟩ := AnswerSteps.append_inv [.requested r] l2 h2
  obtain ⟨t0, h5, h6⟩ := AnswerSteps.snoc_inv (log := []) h3
  have hk : t r.msgID = some (r.serial, r.callback) := by
    refine steps_keep h4 _ _ _ ?_ w1 w3
    rw [show t2 = _ from h6, Table.put, if_pos rfl]
  refine ⟨hk, ?_⟩
  intro id cb hid
  have hm := steps_requested h id r.serial cb hid
  simp only [List.mem_append, List.mem_cons] at hm
  rcases hm with hm | hm | hm
  · exact absurd rfl (w2 ⟨id, r.serial, cb⟩ (List.mem_append_left _ hm))
  · injection hm with hm
    rw [← hm]
    exact ⟨rfl, rfl⟩
  · exact absurd rfl (w2 ⟨id, r.serial, cb⟩ (List.mem_append_right _ hm))

/-- An answer to a request that waits runs its callback first of all. -/
theorem answer_runs (auto : Bool) (s : Loop) (t : Table) (ht : Agree t s.requests) (hrun : s.running = true) (r : Pending) (h0 : r.serial ≠ 0)
    (h1 : t r.msgID = some (r.serial, r.callback)) (h2 : ∀ id cb, t id = some (r.serial, cb) → id = r.msgID ∧ cb = r.callback)
    (m : Message Entity) (e : Entity) (hm : Delivered m) (hb : m.body = .val e) (he : answered e = some r.serial) (a : Around) :
    ∃ s' rest, s.step auto (.receive (.ok m) a) = .ok (s', .callback r.callback m :: rest) := by
  have hid := hm.type e hb
  have hser : replySerial m = .ok r.serial := by rw [replySerial_val hb hid, he]; rfl
  obtain ⟨s1, x1, d1, -, -, -, -, -⟩ := deliver_spec s a m e hb hid
  have hdel : ∃ s' rest, s.deliver a m = .ok (s', .callback r.callback m :: rest) := by
    unfold Loop.deliver Loop.message at d1 ⊢
    rw [hser] at d1 ⊢
    simp only [Res.ok_bind, if_neg h0] at d1 ⊢
    have hreq : (if m.header.iccID > 0 then { s with icc := m.header.iccID } else s).requests = s.requests := by split <;> rfl
    rw [hreq] at d1 ⊢
    cases htk : takeRequest r.serial s.requests with
    | none => exact absurd rfl (takeRequest_none _ _ htk _ ((ht.mem _ _ _).1 h1))
    | some q =>
      obtain ⟨r', rest⟩ := q
      obtain ⟨q1, q2⟩ := takeRequest_some _ _ _ _ htk
      obtain ⟨q3, -⟩ := ht.take q2
      rw [q1] at q3
      obtain ⟨-, q4⟩ := h2 _ _ q3
      rw [htk] at d1
      simp only [call_recovered, Res.ok_bind] at d1 ⊢
      obtain ⟨⟨s3, x4⟩, e1, e2⟩ := Res.bind_ok d1
      rw [e1, q4]
      exact ⟨_, _, rfl⟩
  show ∃ s' rest, (if s.running then s.process auto a m else .ok (s, [])) = _
  rw [if_pos hrun]
  unfold Loop.process
  rw [hb]
  simp only
  split
  · exact hdel
  · cases e <;> first | exact hdel | simp [answered] at he

end Handler

namespace Session

variable {E : Type} (C : BodyCodec E)

/-! ## Messages with the same serial number -/

/-- The observation is that a message of goroutine `i` with the serial number was accepted for sending. -/
def isPushed (i : Nat) (serial : UInt16) : Obs E → Bool
  | .pushed j _ m => j == i && m.header.serial == serial
  | _ => false

/-- The goroutine has the serial number for a message that was not yet accepted for sending. -/
def holding (serial : UInt16) : Option (Place E) → Nat
  | some (.built _ _ s) => if s = serial then 1 else 0
  | _ => 0

theorem pushed_run_from (s0 : State E) (h0 : SessionAtRest s0) (i : Nat) (serial : UInt16) (evs : List (Event E)) :
    holding serial ((s0.run C evs).1.place i) + (s0.run C evs).2.countP (isPushed i serial) ≤
      (s0.run C evs).2.countP (isAllocated i serial) := by
  induction evs using snoc_induction with
  | nil => simp [State.run, h0.1, holding]
  | snoc evs ev ih =>
    rw [run_snoc]
    generalize s0.run C evs = r at ih
    obtain ⟨s, log⟩ := r
    simp only at ih ⊢
    have same : ∀ (s' : State E) (os : List (Obs E)), holding serial (s'.place i) ≤ holding serial (s.place i) → os.countP (isPushed i serial) = 0 →
        holding serial (s'.place i) + (log ++ os).countP (isPushed i serial) ≤ (log ++ os).countP (isAllocated i serial) := by
      intro s' os h1 h2
      rw [List.countP_append, List.countP_append, h2]
      omega
    have moved : ∀ (j : Nat) (x : Option (Place E)), holding serial x = 0 → ∀ s' : State E, s'.place = goto s.place j x →
        holding serial (s'.place i) ≤ holding serial (s.place i) := by
      intro j x h s' h'
      rw [h', goto]
      split
      · rw [h]; exact Nat.zero_le _
      · exact Nat.le_refl _
    have pushing : ∀ (j : Nat) (c : Call E) (icc : UInt64) (sn id : UInt16) (x : Option (Place E)) (os : List (Obs E)) (s' : State E),
        s.place j = some (.built c icc sn) → holding serial x = 0 → os.countP (isPushed i serial) = 0 → os.countP (isAllocated i serial) = 0 →
        s'.place = goto s.place j x →
        holding serial (s'.place i) + (log ++ .pushed j c (buildMessage id c.body icc sn) :: os).countP (isPushed i serial) ≤
          (log ++ .pushed j c (buildMessage id c.body icc sn) :: os).countP (isAllocated i serial) := by
      intro j c icc sn id x os s' hp hx h1 h2 h'
      rw [List.countP_append, List.countP_append, List.countP_cons, List.countP_cons, h1, h2, h', goto]
      simp only [isPushed, isAllocated, buildMessage, Bool.false_eq_true, if_false]
      by_cases hj : i = j
      · subst hj
        rw [hp] at ih
        simp only [holding] at ih
        rw [if_pos rfl, hx]
        by_cases hs : sn = serial
        · simp [hs] at ih ⊢; omega
        · simp [hs] at ih ⊢; omega
      · have : (j == i) = false := by simpa using fun h => hj h.symm
        rw [if_neg hj]
        simp only [this, Bool.false_and, Bool.false_eq_true, if_false]
        omega
    cases ev with
    | start j c =>
      simp only [State.step]
      split
      · exact same _ _ (Nat.le_refl _) rfl
      · exact same _ _ (moved j _ rfl _ rfl) rfl
      · exact same _ _ (Nat.le_refl _) rfl
    | loadIcc j =>
      simp only [State.step]
      split
      · exact same _ _ (moved j _ rfl _ rfl) rfl
      · exact same _ _ (Nat.le_refl _) rfl
    | loadNext j =>
      simp only [State.step]
      split
      · exact same _ _ (moved j _ rfl _ rfl) rfl
      · exact same _ _ (Nat.le_refl _) rfl
    | cas j =>
      simp only [State.step]
      split
      · rename_i c icc seen hp
        split
        · rw [List.countP_append, List.countP_append]
          simp only [List.countP_cons, List.countP_nil, isPushed, isAllocated, goto, Bool.false_eq_true, if_false]
          by_cases hj : i = j
          · subst hj
            rw [hp] at ih
            simp only [holding] at ih
            by_cases hs : (successor seen).toUInt16 = serial
            · simp [holding, hs]; omega
            · simp [holding, hs]; omega
          · rw [if_neg hj]
            omega
        · exact same _ _ (moved j _ rfl _ rfl) rfl
      · exact same _ _ (Nat.le_refl _) rfl
    | push j accepted =>
      simp only [State.step]
      split
      · rename_i c icc sn hp
        split
        · split
          · exact pushing j c icc sn _ none _ _ hp rfl rfl rfl rfl
          · exact pushing j c icc sn _ (some (.sent c sn)) [] _ hp rfl rfl rfl rfl
          · exact same _ _ (Nat.le_refl _) rfl
        · exact same _ _ (moved j _ rfl _ rfl) rfl
      · exact same _ _ (Nat.le_refl _) rfl
    | add j =>
      simp only [State.step]
      split
      · split
        · exact same _ _ (moved j _ rfl _ rfl) rfl
        · exact same _ _ (Nat.le_refl _) rfl
      · exact same _ _ (Nat.le_refl _) rfl
    | learn icc => simp only [State.step]; split <;> exact same _ _ (Nat.le_refl _) rfl
    | answer sn =>
      simp only [State.step]
      split
      · exact same _ _ (Nat.le_refl _) rfl
      · split <;> exact same _ _ (Nat.le_refl _) rfl

theorem pushed_run (i : Nat) (serial : UInt16) (evs : List (Event E)) :
    holding serial ((({} : State E).run C evs).1.place i) + (({} : State E).run C evs).2.countP (isPushed i serial) ≤
      (({} : State E).run C evs).2.countP (isAllocated i serial) :=
  pushed_run_from C {} SessionAtRest.init i serial evs

theorem two_le_countP {α : Type} (p : α → Bool) (l : List α) (a b : α) (ha : a ∈ l) (hb : b ∈ l) (hab : a ≠ b) (pa : p a = true) (pb : p b = true) :
    2 ≤ l.countP p := by
  induction l with
  | nil => simp at ha
  | cons x l ih =>
    rw [List.countP_cons]
    by_cases hx : a = x
    · subst hx
      have hb' : b ∈ l := by
        rcases List.mem_cons.1 hb with h | h
        · exact absurd h.symm hab
        · exact h
      have : 0 < l.countP p := List.countP_pos_iff.2 ⟨b, hb', pb⟩
      rw [if_pos pa]; omega
    · have ha' : a ∈ l := by
        rcases List.mem_cons.1 ha with h | h
        · exact absurd h hx
        · exact h
      by_cases hx' : b = x
      · subst hx'
        have : 0 < l.countP p := List.countP_pos_iff.2 ⟨a, ha', pa⟩
        rw [if_pos pb]; omega
      · have hb' : b ∈ l := by
          rcases List.mem_cons.1 hb with h | h
          · exact absurd h hx'
          · exact h
        have := ih ha' hb'
        omega

theorem pushed_once_from (s0 : State E) (h0 : SessionAtRest s0) (evs : List (Event E)) (hnd : (allocations (s0.run C evs).2).Nodup) (i j : Nat) (c c' : Call E) (m m' : Message E)
    (h1 : .pushed i c m ∈ (s0.run C evs).2) (h2 : .pushed j c' m' ∈ (s0.run C evs).2)
    (hs : m.header.serial = m'.header.serial) : i = j ∧ c = c' ∧ m = m' := by
  have hle := List.nodup_iff_count.1 hnd m.header.serial
  by_cases hij : i = j
  · subst hij
    by_cases he : (.pushed i c m : Obs E) = .pushed i c' m'
    · injection he with _ hc hm; exact ⟨rfl, hc, hm⟩
    · exfalso
      have k1 := pushed_run_from C s0 h0 i m.header.serial evs
      have k2 := count_allocated_le i m.header.serial (s0.run C evs).2
      have k3 := two_le_countP (isPushed i m.header.serial) _ _ _ h1 h2 he (by simp [isPushed]) (by simp [isPushed, hs])
      omega
  · exfalso
    have k1 := pushed_run_from C s0 h0 i m.header.serial evs
    have k1' := pushed_run_from C s0 h0 j m.header.serial evs
    have k2 := count_allocated_two i j hij m.header.serial (s0.run C evs).2
    have k3 : 0 < (s0.run C evs).2.countP (isPushed i m.header.serial) := List.countP_pos_iff.2 ⟨_, h1, by simp [isPushed]⟩
    have k4 : 0 < (s0.run C evs).2.countP (isPushed j m.header.serial) := List.countP_pos_iff.2 ⟨_, h2, by simp [isPushed, hs]⟩
    omega

/-- Among the first 255 messages no two have the same serial number. -/
theorem pushed_once (evs : List (Event E)) (h : (allocations (({} : State E).run C evs).2).length ≤ 255) (i j : Nat) (c c' : Call E) (m m' : Message E)
    (h1 : .pushed i c m ∈ (({} : State E).run C evs).2) (h2 : .pushed j c' m' ∈ (({} : State E).run C evs).2)
    (hs : m.header.serial = m'.header.serial) : i = j ∧ c = c' ∧ m = m' :=
  pushed_once_from C {} SessionAtRest.init evs (by rw [(numbered_run C evs).allocs]; exact nodup_serials _ h) i j c c' m m' h1 h2 hs

end Session
end Verif
