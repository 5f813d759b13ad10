import Verif.Lemmas.SessionOrder
import Verif.Spec.Requests
/-! # Sessions in which numbers are handed out only while they are not in use -/

namespace Verif.Session
open Spec

variable {E : Type}

/-- The number that a goroutine has. -/
def heldNumber : Option (Place E) → Option UInt16
  | some (.built _ _ n) => some n
  | some (.sent _ n) => some n
  | _ => none

/-- The goroutine got the number and has not returned. -/
def Underway (i : Nat) (n : UInt16) (log : List (Obs E)) : Prop :=
  ∃ a b, log = a ++ .allocated i n :: b ∧ ∀ o ∈ b, ∀ c r, o ≠ .returned i c r

theorem Underway.more {i : Nat} {n : UInt16} {log y : List (Obs E)} (h : Underway i n log) (hy : ∀ o ∈ y, ∀ c r, o ≠ .returned i c r) :
    Underway i n (log ++ y) := by
  obtain ⟨a, b, rfl, hb⟩ := h
  refine ⟨a, b ++ y, by simp, fun o ho => ?_⟩
  rcases List.mem_append.1 ho with ho | ho
  · exact hb o ho
  · exact hy o ho

theorem waits_more {msgID : E → UInt16} {log y : List (Obs E)} {id n : UInt16} {cb : Nat} (h : RequestWaits msgID log id n cb)
    (h1 : ∀ o ∈ y, ∀ s' cb', ¬ Registered msgID o id s' cb') (h2 : ∀ o ∈ y, ∀ cb', o ≠ .ran cb' n) : RequestWaits msgID (log ++ y) id n cb := by
  obtain ⟨l1, o, l2, rfl, hr, a, b⟩ := h
  refine ⟨l1, o, l2 ++ y, by simp, hr, fun o' ho => ?_, fun o' ho => ?_⟩
  · rcases List.mem_append.1 ho with ho | ho
    · exact a o' ho
    · exact h1 o' ho
  · rcases List.mem_append.1 ho with ho | ho
    · exact b o' ho
    · exact h2 o' ho

theorem lastWith_snoc (n : UInt16) (log : List (Obs E)) (o : Obs E) :
    lastWith n (log ++ [o]) = match o with | .pushed _ c m => if m.header.serial = n then some c else lastWith n log | _ => lastWith n log := by
  unfold lastWith
  rw [List.foldl_append]
  rfl

theorem lastWith_skip (n : UInt16) (log y : List (Obs E)) (hy : ∀ o ∈ y, ∀ i c m, o = .pushed i c m → m.header.serial ≠ n) :
    lastWith n (log ++ y) = lastWith n log := by
  induction y using snoc_induction with
  | nil => simp
  | snoc y o ih =>
    rw [← List.append_assoc, lastWith_snoc, ih fun o' ho => hy o' (List.mem_append_left _ ho)]
    split
    · next i c m => rw [if_neg (hy _ (by simp) i c m rfl)]
    · rfl

/-- What holds as long as numbers are handed out only while they are not in use. -/
structure FreshInv (msgID : E → UInt16) (s : State E) (log : List (Obs E)) : Prop where
  underway : ∀ i n, heldNumber (s.place i) = some n → Underway i n log
  sent : ∀ i c n, s.place i = some (.sent c n) → lastWith n log = some c
  waits : ∀ r ∈ s.requests, RequestWaits msgID log r.msgID r.serial r.callback
  last : ∀ r ∈ s.requests, ∃ c, lastWith r.serial log = some c ∧ c.callback = some r.callback
  ids : (s.requests.map Pending.msgID).Nodup
  two : ∀ i j n, heldNumber (s.place i) = some n → heldNumber (s.place j) = some n → i = j
  one : ∀ i n, heldNumber (s.place i) = some n → ∀ r ∈ s.requests, r.serial ≠ n
  serials : ∀ r ∈ s.requests, ∀ r' ∈ s.requests, r.serial = r'.serial → r = r'
  ran : ∀ l1 cb n l2, log = l1 ++ .ran cb n :: l2 → ∃ c, lastWith n l1 = some c ∧ c.callback = some cb

theorem ran_more {log y : List (Obs E)} (h : ∀ l1 cb n l2, log = l1 ++ .ran cb n :: l2 → ∃ c, lastWith n l1 = some c ∧ c.callback = some cb)
    (hy : ∀ o ∈ y, ∀ cb n, o ≠ .ran cb n) (l1 : List (Obs E)) (cb : Nat) (n : UInt16) (l2 : List (Obs E)) (he : log ++ y = l1 ++ .ran cb n :: l2) :
    ∃ c, lastWith n l1 = some c ∧ c.callback = some cb := by
  rcases List.append_eq_append_iff.mp he with ⟨d, h1, h2⟩ | ⟨d, h1, h2⟩
  · exact absurd rfl (hy _ (by rw [h2]; simp) cb n)
  · cases d with
    | nil => exact absurd rfl (hy _ (by rw [List.nil_append] at h2; rw [← h2]; simp) cb n)
    | cons z d =>
      simp only [List.cons_append, List.cons.injEq] at h2
      obtain ⟨rfl, -⟩ := h2
      exact h l1 cb n d h1

theorem goto_cases {p : Nat → Option (Place E)} {i j : Nat} {x : Option (Place E)} : (j = i ∧ goto p i x j = x) ∨ (j ≠ i ∧ goto p i x j = p j) := by
  by_cases h : j = i
  · exact .inl ⟨h, by simp [goto, h]⟩
  · exact .inr ⟨h, by simp [goto, h]⟩

variable (C : BodyCodec E)

/-- A goroutine moves to a place where it has no number, and what is observed does not concern the others. -/
theorem FreshInv.leave {msgID : E → UInt16} {s s' : State E} {log y : List (Obs E)} (h : FreshInv msgID s log) {i : Nat} {x : Option (Place E)}
    (hp : s'.place = goto s.place i x) (hr : s'.requests = s.requests) (hx : heldNumber x = none)
    (hother : ∀ o ∈ y, ∀ j c r, o = .returned j c r → j = i ∧ (c.callback = none ∨ r = none))
    (hpush : ∀ o ∈ y, ∀ j c m, o = .pushed j c m → heldNumber (s.place i) = some m.header.serial)
    (hran : ∀ o ∈ y, ∀ cb n, o ≠ .ran cb n) : FreshInv msgID s' (log ++ y) := by
  have hnum : ∀ j n, heldNumber (s'.place j) = some n → j ≠ i ∧ heldNumber (s.place j) = some n := by
    intro j n hj
    rw [hp] at hj
    rcases goto_cases (p := s.place) (i := i) (j := j) (x := x) with ⟨-, e⟩ | ⟨hne, e⟩
    · rw [e, hx] at hj; cases hj
    · rw [e] at hj; exact ⟨hne, hj⟩
  have hreg : ∀ o ∈ y, ∀ id s' cb', ¬ Registered msgID o id s' cb' := by
    rintro o ho id s' cb' ⟨j, c, rfl, hc, -⟩
    rcases (hother _ ho j c _ rfl).2 with h' | h'
    · rw [hc] at h'; cases h'
    · cases h'
  refine ⟨fun j n hj => ?_, fun j c n hj => ?_, fun r hm => ?_, fun r hm => ?_, by rw [hr]; exact h.ids, fun j k n hj hk => ?_, fun j n hj => ?_, ?_,
    ran_more h.ran hran⟩
  · obtain ⟨hne, hj⟩ := hnum j n hj
    exact (h.underway j n hj).more fun o ho c r e => hne (hother o ho j c r e).1
  · have hj' : heldNumber (s'.place j) = some n := by rw [hj]; rfl
    obtain ⟨hne, hj'⟩ := hnum j n hj'
    rw [lastWith_skip]
    · refine h.sent j c n ?_
      rw [hp] at hj
      rcases goto_cases (p := s.place) (i := i) (j := j) (x := x) with ⟨e, -⟩ | ⟨-, e⟩
      · exact absurd e hne
      · rw [e] at hj; exact hj
    · intro o ho k c' m e hn
      exact hne (h.two j i n hj' (by rw [hpush o ho k c' m e, hn]))
  · rw [hr] at hm
    exact waits_more (h.waits r hm) (fun o ho => hreg o ho _) fun o ho cb' => hran o ho cb' _
  · rw [hr] at hm
    rw [lastWith_skip]
    · exact h.last r hm
    · intro o ho k c' m e hn
      exact h.one i _ (hpush o ho k c' m e) r hm hn.symm
  · exact h.two j k n (hnum j n hj).2 (hnum k n hk).2
  · rw [hr]; exact h.one j n (hnum j n hj).2
  · rw [hr]; exact h.serials

theorem FreshInv.step {s : State E} {log : List (Obs E)} (h : FreshInv C.msgID s log) (ev : Event E)
    (hfree : NumbersFree C.msgID (log ++ (s.step C ev).2)) : FreshInv C.msgID (s.step C ev).1 (log ++ (s.step C ev).2) := by
  have same : FreshInv C.msgID s (log ++ []) := by rw [List.append_nil]; exact h
  have quiet : ∀ (i : Nat) (x : Option (Place E)) (s' : State E), s'.place = goto s.place i x → s'.requests = s.requests → heldNumber x = none →
      FreshInv C.msgID s' (log ++ []) := fun i x s' h1 h2 h3 => h.leave h1 h2 h3 (by simp) (by simp) (by simp)
  cases ev with
  | start i c =>
    simp only [State.step]
    split
    · exact same
    · exact quiet i _ _ rfl rfl rfl
    · exact same
  | loadIcc i =>
    simp only [State.step]
    split
    · exact quiet i _ _ rfl rfl rfl
    · exact same
  | loadNext i =>
    simp only [State.step]
    split
    · exact quiet i _ _ rfl rfl rfl
    · exact same
  | cas i =>
    simp only [State.step] at hfree ⊢
    split
    · next c icc seen hpl =>
      rw [hpl] at hfree
      simp only [] at hfree
      split
      · next hs =>
        rw [if_pos hs] at hfree
        have hnot := hfree log i _ [] rfl
        have hnone : ∀ j n, heldNumber (s.place j) = some n → n ≠ (successor seen).toUInt16 := by
          rintro j n hj rfl
          obtain ⟨a, b, e1, e2⟩ := h.underway j _ hj
          exact hnot (.inl ⟨j, a, b, e1, e2⟩)
        have hreq : ∀ r ∈ s.requests, r.serial ≠ (successor seen).toUInt16 := by
          intro r hr e
          exact hnot (.inr ⟨r.msgID, r.callback, e ▸ h.waits r hr⟩)
        have hnum : ∀ j n, heldNumber (goto s.place i (some (.built c icc (successor seen).toUInt16)) j) = some n →
            (j = i ∧ n = (successor seen).toUInt16) ∨ (j ≠ i ∧ heldNumber (s.place j) = some n) := by
          intro j n hj
          rcases goto_cases (p := s.place) (i := i) (j := j) (x := some (.built c icc (successor seen).toUInt16)) with ⟨e1, e⟩ | ⟨hne, e⟩
          · rw [e] at hj
            simp only [heldNumber, Option.some.injEq] at hj
            exact .inl ⟨e1, hj.symm⟩
          · rw [e] at hj; exact .inr ⟨hne, hj⟩
        have hskip : ∀ n, lastWith n (log ++ [.allocated i (successor seen).toUInt16]) = lastWith n log :=
          fun n => lastWith_skip _ _ _ (by simp)
        refine ⟨fun j n hj => ?_, fun j c' n hj => ?_, fun r hm => ?_, fun r hm => ?_, h.ids, fun j k n hj hk => ?_, fun j n hj r hr => ?_, h.serials,
          ran_more h.ran (by simp)⟩
        · rcases hnum j n hj with ⟨rfl, rfl⟩ | ⟨-, hj⟩
          · exact ⟨log, [], rfl, by simp⟩
          · exact (h.underway j n hj).more (by simp)
        · rw [hskip]
          rcases goto_cases (p := s.place) (i := i) (j := j) (x := some (.built c icc (successor seen).toUInt16)) with ⟨e1, e⟩ | ⟨hne, e⟩
          · simp only [e] at hj; cases hj
          · simp only [e] at hj; exact h.sent j c' n hj
        · refine waits_more (h.waits r hm) ?_ (by simp)
          intro o ho s' cb' ⟨k, c, e, _⟩
          simp only [List.mem_singleton] at ho
          rw [ho] at e; cases e
        · rw [hskip]; exact h.last r hm
        · rcases hnum j n hj with ⟨rfl, rfl⟩ | ⟨hj0, hj⟩
          · rcases hnum k _ hk with ⟨rfl, -⟩ | ⟨-, hk⟩
            · rfl
            · exact absurd rfl (hnone k _ hk)
          · rcases hnum k n hk with ⟨rfl, rfl⟩ | ⟨-, hk⟩
            · exact absurd rfl (hnone j _ (by assumption))
            · exact h.two j k n hj hk
        · rcases hnum j n hj with ⟨rfl, rfl⟩ | ⟨-, hj⟩
          · exact hreq r hr
          · exact h.one j n hj r hr
      · exact quiet i _ _ rfl rfl rfl
    · exact same
  | push i ok =>
    simp only [State.step] at hfree ⊢
    split
    · next c icc n hpl =>
      have hn : heldNumber (s.place i) = some n := by rw [hpl]; rfl
      split
      · split
        · next id _ hc =>
          refine h.leave (i := i) (x := none) rfl rfl rfl ?_ ?_ (by simp)
          · intro o ho j c' r e
            subst e
            simp only [List.mem_cons, List.not_mem_nil, or_false, reduceCtorEq, false_or, Obs.returned.injEq] at ho
            exact ⟨ho.1, .inl (by rw [ho.2.1]; exact hc)⟩
          · intro o ho j c' m e
            subst e
            simp only [List.mem_cons, List.not_mem_nil, or_false, reduceCtorEq, Obs.pushed.injEq] at ho
            rw [hn, ho.2.2]; rfl
        · next id cb _ hc =>
          have hnum : ∀ j k, heldNumber (goto s.place i (some (.sent c n)) j) = some k → heldNumber (s.place j) = some k := by
            intro j k hj
            rcases goto_cases (p := s.place) (i := i) (j := j) (x := some (.sent c n)) with ⟨rfl, e⟩ | ⟨hne, e⟩
            · rw [e] at hj; rw [hn]; exact hj
            · rw [e] at hj; exact hj
          have hskip : ∀ k, k ≠ n → lastWith k (log ++ [.pushed i c (buildMessage id c.body icc n)]) = lastWith k log := by
            intro k hk
            refine lastWith_skip _ _ _ ?_
            intro o ho j c' m e
            simp only [List.mem_singleton] at ho
            rw [ho] at e
            cases e
            exact fun e => hk e.symm
          refine ⟨fun j k hj => (h.underway j k (hnum j k hj)).more (by simp), fun j c' k hj => ?_, fun r hm => ?_, fun r hm => ?_, h.ids,
            fun j k m hj hk => h.two j k m (hnum j m hj) (hnum k m hk), fun j k hj => h.one j k (hnum j k hj), h.serials, ran_more h.ran (by simp)⟩
          · rcases goto_cases (p := s.place) (i := i) (j := j) (x := some (.sent c n)) with ⟨rfl, e⟩ | ⟨hne, e⟩
            · simp only [e] at hj
              cases hj
              rw [lastWith_snoc]
              simp [buildMessage]
            · simp only [e] at hj
              rw [hskip]
              · exact h.sent j c' k hj
              · rintro rfl
                exact hne (h.two j i k (by rw [hj]; rfl) hn)
          · refine waits_more (h.waits r hm) ?_ (by simp)
            intro o ho s' cb' ⟨k, c, e, _⟩
            simp only [List.mem_singleton] at ho
            rw [ho] at e; cases e
          · rw [hskip _ (h.one i n hn r hm)]; exact h.last r hm
        · exact same
      · refine h.leave (i := i) (x := none) rfl rfl rfl ?_ (by simp) (by simp)
        intro o ho j c' r e
        subst e
        simp only [List.mem_singleton, Obs.returned.injEq] at ho
        exact ⟨ho.1, .inr ho.2.2⟩
    · exact same
  | add i =>
    simp only [State.step] at hfree ⊢
    split
    · next c n hpl =>
      have hn : heldNumber (s.place i) = some n := by rw [hpl]; rfl
      split
      · next id cb hid hc =>
        have hid' : idOf C.msgID c.body = some id := by
          rw [bodyMsgID_idOf] at hid
          split at hid
          · next id' e => cases hid; exact e
          · cases hid
        have hnum : ∀ j k, heldNumber (goto s.place i none j) = some k → j ≠ i ∧ heldNumber (s.place j) = some k := by
          intro j k hj
          rcases goto_cases (p := s.place) (i := i) (j := j) (x := none) with ⟨rfl, e⟩ | ⟨hne, e⟩
          · rw [e] at hj; cases hj
          · rw [e] at hj; exact ⟨hne, hj⟩
        have hskip : ∀ k, lastWith k (log ++ [.returned i c (some n)]) = lastWith k log := fun k => lastWith_skip _ _ _ (by simp)
        have hmem := mem_addRequest ⟨id, n, cb⟩ s.requests h.ids
        refine ⟨fun j k hj => ?_, fun j c' k hj => ?_, fun r hm => ?_, fun r hm => ?_, nodup_addRequest _ _ h.ids,
          fun j k m hj hk => h.two j k m (hnum j m hj).2 (hnum k m hk).2, fun j k hj r hr => ?_, fun r hr r' hr' e => ?_, ran_more h.ran (by simp)⟩
        · obtain ⟨hne, hj⟩ := hnum j k hj
          refine (h.underway j k hj).more ?_
          intro o ho c' r e
          simp only [List.mem_singleton] at ho
          rw [ho] at e; cases e
          exact hne rfl
        · rw [hskip]
          rcases goto_cases (p := s.place) (i := i) (j := j) (x := none) with ⟨rfl, e⟩ | ⟨hne, e⟩
          · simp only [e] at hj; cases hj
          · simp only [e] at hj; exact h.sent j c' k hj
        · rcases (hmem r).1 hm with rfl | ⟨hm, hne⟩
          · exact ⟨log, _, [], rfl, ⟨i, c, rfl, hc, hid'⟩, by simp, by simp⟩
          · refine waits_more (h.waits r hm) ?_ (by simp)
            intro o ho s' cb' ⟨k, c', e, _, e'⟩
            simp only [List.mem_singleton] at ho
            rw [ho] at e; cases e
            rw [hid'] at e'
            exact hne (Option.some.inj e').symm
        · rw [hskip]
          rcases (hmem r).1 hm with rfl | ⟨hm, hne⟩
          · exact ⟨c, h.sent i c n hpl, hc⟩
          · exact h.last r hm
        · obtain ⟨hne, hj⟩ := hnum j k hj
          rcases (hmem r).1 hr with rfl | ⟨hr, _⟩
          · rintro rfl
            exact hne (h.two j i _ hj hn)
          · exact h.one j k hj r hr
        · rcases (hmem r).1 hr with rfl | ⟨hr, _⟩
          · rcases (hmem r').1 hr' with rfl | ⟨hr', _⟩
            · rfl
            · exact absurd e.symm (h.one i n hn r' hr')
          · rcases (hmem r').1 hr' with rfl | ⟨hr', _⟩
            · exact absurd e (h.one i n hn r hr)
            · exact h.serials r hr r' hr' e
      · exact same
    · exact same
  | learn icc =>
    simp only [State.step]
    split
    · exact ⟨by simpa using h.underway, by simpa using h.sent, by simpa using h.waits, by simpa using h.last, h.ids, h.two, h.one, h.serials,
        by simpa using h.ran⟩
    · exact same
  | answer n =>
    simp only [State.step] at hfree ⊢
    have ignored : FreshInv C.msgID s (log ++ [.ignored n]) := by
      have hskip : ∀ k, lastWith k (log ++ [.ignored n]) = lastWith k log := fun k => lastWith_skip _ _ _ (by simp)
      refine ⟨fun j k hj => (h.underway j k hj).more (by simp), fun j c k hj => by rw [hskip]; exact h.sent j c k hj,
        fun r hr => waits_more (h.waits r hr) ?_ (by simp), fun r hr => by rw [hskip]; exact h.last r hr, h.ids, h.two, h.one, h.serials, ran_more h.ran (by simp)⟩
      intro o ho s' cb' ⟨k, c, e, _⟩
      simp only [List.mem_singleton] at ho
      rw [ho] at e; cases e
    split
    · exact ignored
    · split
      · exact ignored
      · next r rest ht =>
        obtain ⟨hs, hperm⟩ := takeRequest_some _ _ _ _ ht
        have hsub : ∀ x ∈ rest, x ∈ s.requests := fun x hx => hperm.mem_iff.2 (List.mem_cons_of_mem _ hx)
        have hr : r ∈ s.requests := hperm.mem_iff.2 (List.mem_cons_self ..)
        have hids : ((r :: rest).map Pending.msgID).Nodup := (hperm.map Pending.msgID).nodup_iff.1 h.ids
        have hother : ∀ x ∈ rest, x.serial ≠ n := by
          intro x hx e
          have he := h.serials x (hsub x hx) r hr (by rw [e, hs])
          subst he
          simp only [List.map_cons, List.nodup_cons] at hids
          exact hids.1 (List.mem_map.2 ⟨x, hx, rfl⟩)
        have hskip : ∀ k, lastWith k (log ++ [.ran r.callback n]) = lastWith k log := fun k => lastWith_skip _ _ _ (by simp)
        refine ⟨fun j k hj => (h.underway j k hj).more (by simp), fun j c k hj => by rw [hskip]; exact h.sent j c k hj,
          fun x hx => waits_more (h.waits x (hsub x hx)) ?_ ?_, fun x hx => by rw [hskip]; exact h.last x (hsub x hx), ?_, h.two,
          fun j k hj x hx => h.one j k hj x (hsub x hx), fun x hx y hy => h.serials x (hsub x hx) y (hsub y hy), ?_⟩
        · intro o ho s' cb' ⟨k, c, e, _⟩
          simp only [List.mem_singleton] at ho
          rw [ho] at e; cases e
        · intro o ho cb' e
          simp only [List.mem_singleton] at ho
          rw [ho] at e
          cases e
          exact hother x hx rfl
        · simp only [List.map_cons, List.nodup_cons] at hids
          exact hids.2
        · intro l1 cb k l2 he
          rcases List.append_eq_append_iff.mp he with ⟨d, h1, h2⟩ | ⟨d, h1, h2⟩
          · cases d with
            | nil =>
              simp only [List.nil_append, List.cons.injEq, Obs.ran.injEq] at h2
              rw [List.append_nil] at h1
              obtain ⟨⟨rfl, rfl⟩, -⟩ := h2
              rw [h1, ← hs]
              exact h.last r hr
            | cons z d => simp at h2
          · cases d with
            | nil =>
              simp only [List.nil_append, List.cons.injEq, Obs.ran.injEq] at h2
              rw [List.append_nil] at h1
              obtain ⟨⟨rfl, rfl⟩, -⟩ := h2
              rw [← h1, ← hs]
              exact h.last r hr
            | cons z d =>
              simp only [List.cons_append, List.cons.injEq] at h2
              obtain ⟨rfl, -⟩ := h2
              exact h.ran l1 cb k d h1

theorem free_init {msgID : E → UInt16} {a b : List (Obs E)} (h : NumbersFree msgID (a ++ b)) : NumbersFree msgID a := by
  rintro l1 i n l2 rfl
  exact h l1 i n (l2 ++ b) (by simp)

theorem freshInv_run (evs : List (Event E)) (hfree : NumbersFree C.msgID (({} : State E).run C evs).2) :
    FreshInv C.msgID (({} : State E).run C evs).1 (({} : State E).run C evs).2 := by
  induction evs using snoc_induction with
  | nil =>
    refine ⟨?_, ?_, ?_, ?_, ?_, ?_, ?_, ?_, ?_⟩ <;> simp [State.run, heldNumber]
  | snoc evs ev ih =>
    rw [run_snoc] at hfree ⊢
    exact (ih (free_init hfree)).step C ev hfree

theorem underway_append {i : Nat} {n : UInt16} {log y : List (Obs E)} (h : Underway i n (log ++ y)) :
    (Underway i n log ∧ ∀ o ∈ y, ∀ c r, o ≠ .returned i c r) ∨ Underway i n y := by
  obtain ⟨a, b, e, hb⟩ := h
  rcases List.append_eq_append_iff.mp e with ⟨d, h1, h2⟩ | ⟨d, h1, h2⟩
  · exact .inr ⟨d, b, h2, hb⟩
  · cases d with
    | nil => exact .inr ⟨[], b, by rw [List.nil_append] at h2; exact h2.symm, hb⟩
    | cons z d =>
      simp only [List.cons_append, List.cons.injEq] at h2
      obtain ⟨rfl, rfl⟩ := h2
      exact .inl ⟨⟨a, d, h1, fun o ho => hb o (List.mem_append_left _ ho)⟩, fun o ho => hb o (List.mem_append_right _ ho)⟩

theorem underway_none {i : Nat} {n : UInt16} {y : List (Obs E)} (hy : ∀ o ∈ y, o ≠ .allocated i n) : ¬ Underway i n y := by
  rintro ⟨a, b, rfl, -⟩
  exact hy (.allocated i n) (by simp) rfl

/-- Who got a number and has not returned has it. -/
theorem held_run (evs : List (Event E)) (i : Nat) (n : UInt16) (h : Underway i n (({} : State E).run C evs).2) :
    heldNumber ((({} : State E).run C evs).1.place i) = some n := by
  induction evs using snoc_induction generalizing n with
  | nil => obtain ⟨a, b, e, -⟩ := h; simp [State.run] at e
  | snoc evs ev ih =>
    rw [run_snoc] at h ⊢
    simp only [] at h ⊢
    generalize (({} : State E).run C evs).1 = s at ih h ⊢
    generalize (({} : State E).run C evs).2 = log at ih h ⊢
    have idle : ∀ (p : Option (Place E)) m, s.place i = p → heldNumber p = none → ¬ Underway i m log := by
      intro p m hp hn hu
      have := ih m hu
      rw [hp, hn] at this
      cases this
    by_cases hi : actor ev = some i
    · cases ev <;> simp only [actor, Option.some.injEq, reduceCtorEq] at hi <;> subst hi
      case start c =>
        revert h
        simp only [State.step]
        split <;> intro h
        · next hp _ => rw [List.append_nil] at h; exact ih n h
        · next hp _ => rw [List.append_nil] at h; exact absurd h (idle _ n hp rfl)
        · rw [List.append_nil] at h; exact ih n h
      case loadIcc =>
        revert h
        simp only [State.step]
        split <;> intro h
        · next hp => rw [List.append_nil] at h; exact absurd h (idle _ n hp rfl)
        · rw [List.append_nil] at h; exact ih n h
      case loadNext =>
        revert h
        simp only [State.step]
        split <;> intro h
        · next hp => rw [List.append_nil] at h; exact absurd h (idle _ n hp rfl)
        · rw [List.append_nil] at h; exact ih n h
      case cas =>
        revert h
        simp only [State.step]
        split
        · next hp =>
          split <;> intro h
          · rcases underway_append h with ⟨h, -⟩ | ⟨a, b, e, -⟩
            · exact absurd h (idle _ n hp rfl)
            · cases a with
              | nil =>
                simp only [List.nil_append, List.cons.injEq, Obs.allocated.injEq] at e
                simp [goto, heldNumber, e.1.2]
              | cons z a => simp at e
          · rw [List.append_nil] at h; exact absurd h (idle _ n hp rfl)
        · intro h
          rw [List.append_nil] at h; exact ih n h
      case push ok =>
        revert h
        simp only [State.step]
        split
        · next c icc m hp =>
          split
          · split <;> intro h
            · rcases underway_append h with ⟨-, h⟩ | h
              · exact absurd rfl (h (.returned _ c (some m)) (by simp) c (some m))
              · exact absurd h (underway_none (by simp))
            · rcases underway_append h with ⟨h, -⟩ | h
              · have := ih n h
                rw [hp] at this
                simpa [goto, heldNumber] using this
              · exact absurd h (underway_none (by simp))
            · rw [List.append_nil] at h; exact ih n h
          · intro h
            rcases underway_append h with ⟨-, h⟩ | h
            · exact absurd rfl (h (.returned _ c none) (by simp) c none)
            · exact absurd h (underway_none (by simp))
        · intro h
          rw [List.append_nil] at h; exact ih n h
      case add =>
        revert h
        simp only [State.step]
        split
        · next c m hp =>
          split <;> intro h
          · rcases underway_append h with ⟨-, h⟩ | h
            · exact absurd rfl (h (.returned _ c (some m)) (by simp) c (some m))
            · exact absurd h (underway_none (by simp))
          · rw [List.append_nil] at h; exact ih n h
        · intro h
          rw [List.append_nil] at h; exact ih n h
    · obtain ⟨h1, h2⟩ := step_other C i s ev hi
      rw [h1]
      rcases underway_append h with ⟨h, -⟩ | h
      · exact ih n h
      · exact absurd h (underway_none fun o ho e => h2 o ho (by rw [e]; rfl))

/-- A request that waits is in the table. -/
theorem waits_mem (evs : List (Event E)) {id n : UInt16} {cb : Nat} (h : RequestWaits C.msgID (({} : State E).run C evs).2 id n cb) :
    (⟨id, n, cb⟩ : Pending) ∈ (({} : State E).run C evs).1.requests := by
  obtain ⟨t, h1, h2⟩ := run_agree C evs
  obtain ⟨l1, o, l2, m1, ⟨i, c, rfl, hc, hid⟩, m3, m4⟩ := h
  refine (h2.mem id n cb).1 ?_
  rw [m1] at h1
  obtain ⟨t1, _, a2⟩ := steps_append_inv l1 _ h1
  obtain ⟨t2, b1, b2⟩ := steps_append_inv [.returned i c (some n)] l2 a2
  have b1 := steps_one_inv b1
  simp only [Table.Step, hc, hid] at b1
  refine steps_keep b2 id n cb ?_ m3 m4
  rw [b1, Table.put, if_pos rfl]

/-- No number is handed out that somebody has: to be checked on the states. -/
def freeRun (C : BodyCodec E) (ids : List Nat) (s : State E) : List (Event E) → Bool
  | [] => true
  | ev :: evs =>
    ((s.step C ev).2.all fun
      | .allocated _ n => (ids.all fun j => heldNumber (s.place j) != some n) && (s.requests.all fun r => r.serial != n)
      | _ => true) && freeRun C ids (s.step C ev).1 evs

theorem allocated_alone (s : State E) (ev : Event E) {a b : List (Obs E)} {i : Nat} {n : UInt16} (h : (s.step C ev).2 = a ++ .allocated i n :: b) :
    a = [] := by
  revert h
  cases ev <;> simp only [State.step] <;> repeat' split
  all_goals intro h
  all_goals first
    | (cases a <;> simp at h; done)
    | (match a, h with
       | [], _ => rfl
       | [_], h => simp at h
       | _ :: _ :: _, h => simp at h)

theorem free_snoc (evs : List (Event E)) (ev : Event E) (h0 : NumbersFree C.msgID (({} : State E).run C evs).2)
    (h : ∀ i n, .allocated i n ∈ ((({} : State E).run C evs).1.step C ev).2 → ¬ NumberInUse C.msgID (({} : State E).run C evs).2 n) :
    NumbersFree C.msgID (({} : State E).run C (evs ++ [ev])).2 := by
  rw [run_snoc]
  intro l1 i n l2 e
  simp only [] at e
  rcases List.append_eq_append_iff.mp e with ⟨d, e1, e2⟩ | ⟨d, e1, e2⟩
  · have hd := allocated_alone C _ ev e2
    subst hd
    rw [List.append_nil] at e1
    rw [e1]
    exact h i n (by rw [e2]; simp)
  · cases d with
    | nil =>
      rw [List.nil_append] at e2
      rw [List.append_nil] at e1
      rw [← e1]
      exact h i n (by rw [← e2]; simp)
    | cons z d =>
      simp only [List.cons_append, List.cons.injEq] at e2
      obtain ⟨rfl, -⟩ := e2
      exact h0 l1 i n d e1

theorem free_of_run (ids : List Nat) (evs0 evs : List (Event E)) (hids : ∀ ev ∈ evs0 ++ evs, ∀ i, actor ev = some i → i ∈ ids)
    (h0 : NumbersFree C.msgID (({} : State E).run C evs0).2) (h : freeRun C ids (({} : State E).run C evs0).1 evs = true) :
    NumbersFree C.msgID (({} : State E).run C (evs0 ++ evs)).2 := by
  induction evs generalizing evs0 with
  | nil => simpa using h0
  | cons ev evs ih =>
    simp only [freeRun, Bool.and_eq_true] at h
    have := ih (evs0 ++ [ev]) (by simpa using hids) ?_ (by rw [run_snoc]; exact h.2)
    · simpa using this
    · refine free_snoc C evs0 ev h0 fun i n hm => ?_
      have hall := List.all_eq_true.1 h.1 _ hm
      simp only [Bool.and_eq_true, List.all_eq_true, bne_iff_ne, ne_eq] at hall
      rintro (⟨j, a, b, f1, f2⟩ | ⟨id, cb, hw⟩)
      · have hj := held_run C evs0 j n ⟨a, b, f1, f2⟩
        by_cases hm : j ∈ ids
        · exact hall.1 j hm hj
        · rw [place_others (C := C) j evs0 {} (fun ev' hev hc => hm (hids ev' (by simp [hev]) j hc))] at hj
          cases hj
      · exact hall.2 _ (waits_mem C evs0 hw) rfl

end Verif.Session
