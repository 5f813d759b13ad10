import Verif.Spec.Session
/-! # Lemmas about the session model -/

namespace Verif.Session
open Spec

variable {E : Type}

/-! ## The request table -/

theorem mem_addRequest (r : Pending) (xs : List Pending) (h : (xs.map Pending.msgID).Nodup) (x : Pending) :
    x ∈ addRequest r xs ↔ x = r ∨ (x ∈ xs ∧ x.msgID ≠ r.msgID) := by
  induction xs with
  | nil => simp [addRequest]
  | cons y ys ih =>
    rw [List.map_cons, List.nodup_cons] at h
    rw [addRequest]
    split
    · rename_i he
      simp only [List.mem_cons]
      constructor
      · rintro (rfl | hx)
        · exact .inl rfl
        · refine .inr ⟨.inr hx, fun hc => h.1 ?_⟩
          rw [he, ← hc]
          exact List.mem_map_of_mem hx
      · rintro (rfl | ⟨rfl | hx, hc⟩)
        · exact .inl rfl
        · exact absurd he hc
        · exact .inr hx
    · rename_i he
      simp only [List.mem_cons, ih h.2]
      constructor
      · rintro (rfl | rfl | ⟨hx, hc⟩)
        · exact .inr ⟨.inl rfl, he⟩
        · exact .inl rfl
        · exact .inr ⟨.inr hx, hc⟩
      · rintro (rfl | ⟨rfl | hx, hc⟩)
        · exact .inr (.inl rfl)
        · exact .inl rfl
        · exact .inr (.inr ⟨hx, hc⟩)

theorem nodup_addRequest (r : Pending) (xs : List Pending) (h : (xs.map Pending.msgID).Nodup) : ((addRequest r xs).map Pending.msgID).Nodup := by
  induction xs with
  | nil => simp [addRequest]
  | cons y ys ih =>
    rw [List.map_cons, List.nodup_cons] at h
    rw [addRequest]
    split
    · rename_i he
      rw [List.map_cons, List.nodup_cons, ← he]
      exact h
    · rename_i he
      rw [List.map_cons, List.nodup_cons]
      refine ⟨?_, ih h.2⟩
      intro hm
      obtain ⟨z, hz, hid⟩ := List.mem_map.1 hm
      rcases (mem_addRequest r ys h.2 z).1 hz with rfl | ⟨hz, _⟩
      · exact he hid.symm
      · exact h.1 (hid ▸ List.mem_map_of_mem hz)

/-- Putting the last element in place of the i-th removes the i-th. -/
theorem swapRemove_perm {α : Type} (xs : List α) (i : Nat) (x last : α) (h : xs[i]? = some x) (hl : xs.getLast? = some last) :
    xs.Perm (x :: (xs.set i last).dropLast) := by
  obtain ⟨ys, rfl⟩ : ∃ ys, xs = ys ++ [last] := by
    have hne : xs ≠ [] := by rintro rfl; simp at hl
    refine ⟨xs.dropLast, ?_⟩
    rw [List.getLast?_eq_some_getLast hne] at hl
    rw [← Option.some.inj hl]
    exact (List.dropLast_concat_getLast hne).symm
  have hi : i < (ys ++ [last]).length := by
    rcases Nat.lt_or_ge i (ys ++ [last]).length with hi | hi
    · exact hi
    · rw [List.getElem?_eq_none hi] at h; simp at h
  rw [List.length_append, List.length_singleton] at hi
  rcases Nat.lt_or_ge i ys.length with hlt | hge
  · rw [List.set_append_left _ _ hlt, List.dropLast_concat]
    rw [List.getElem?_append_left hlt] at h
    have hys : ys = ys.take i ++ x :: ys.drop (i + 1) := by
      rw [List.getElem?_eq_getElem hlt] at h
      rw [← Option.some.inj h, ← List.drop_eq_getElem_cons hlt, List.take_append_drop]
    have hset : ys.set i last = ys.take i ++ last :: ys.drop (i + 1) := by
      rw [List.set_eq_take_append_cons_drop, if_pos hlt]
    rw [hset]
    conv => lhs; rw [hys]
    refine (List.perm_append_comm).trans ?_
    simp only [List.singleton_append]
    refine (List.Perm.cons last List.perm_middle).trans ?_
    refine (List.Perm.swap x last _).trans ?_
    exact List.Perm.cons x List.perm_middle.symm
  · have : i = ys.length := by omega
    subst this
    simp at h
    subst h
    simp

theorem takeRequest_some (s : UInt16) (xs rest : List Pending) (r : Pending) (h : takeRequest s xs = some (r, rest)) :
    r.serial = s ∧ xs.Perm (r :: rest) := by
  unfold takeRequest at h
  split at h
  · simp at h
  · rename_i i hi
    split at h
    · rename_i item last h1 h2
      simp only [Option.some.injEq, Prod.mk.injEq] at h
      obtain ⟨rfl, rfl⟩ := h
      refine ⟨?_, swapRemove_perm xs i item last h1 h2⟩
      rw [List.findIdx?_eq_some_iff_getElem] at hi
      obtain ⟨hlt, hp, _⟩ := hi
      rw [List.getElem?_eq_getElem hlt] at h1
      obtain rfl := Option.some.inj h1
      simpa using hp
    · simp at h

theorem takeRequest_none (s : UInt16) (xs : List Pending) (h : takeRequest s xs = none) : ∀ x ∈ xs, x.serial ≠ s := by
  unfold takeRequest at h
  split at h
  · rename_i hi
    intro x hx
    have := List.findIdx?_eq_none_iff.1 hi x hx
    simpa using this
  · rename_i i hi
    rw [List.findIdx?_eq_some_iff_getElem] at hi
    obtain ⟨hlt, _, _⟩ := hi
    have hne : xs ≠ [] := by rintro rfl; simp at hlt
    rw [List.getElem?_eq_getElem hlt, List.getLast?_eq_some_getLast hne] at h
    simp at h

/-- The table and the list agree. -/
structure Agree (t : Table) (xs : List Pending) : Prop where
  nodup : (xs.map Pending.msgID).Nodup
  mem : ∀ id s cb, t id = some (s, cb) ↔ (⟨id, s, cb⟩ : Pending) ∈ xs

theorem Agree.add {t : Table} {xs : List Pending} (h : Agree t xs) (r : Pending) : Agree (t.put r.msgID (some (r.serial, r.callback))) (addRequest r xs) := by
  refine ⟨nodup_addRequest r xs h.nodup, fun id s cb => ?_⟩
  rw [mem_addRequest r xs h.nodup, Table.put]
  split
  · rename_i he
    subst he
    constructor
    · intro hx
      simp only [Option.some.injEq, Prod.mk.injEq] at hx
      exact .inl (by rw [← hx.1, ← hx.2])
    · rintro (hx | ⟨_, hx⟩)
      · rw [← hx]
      · exact absurd rfl hx
  · rename_i he
    rw [h.mem]
    constructor
    · exact fun hx => .inr ⟨hx, he⟩
    · rintro (hx | ⟨hx, _⟩)
      · exact absurd (by rw [← hx]) he
      · exact hx

theorem Agree.take {t : Table} {xs rest : List Pending} {r : Pending} (h : Agree t xs) (hp : xs.Perm (r :: rest)) :
    t r.msgID = some (r.serial, r.callback) ∧ Agree (t.put r.msgID none) rest := by
  have hr : r ∈ xs := hp.mem_iff.2 List.mem_cons_self
  have hn : ((r :: rest).map Pending.msgID).Nodup := (hp.map _).nodup_iff.1 h.nodup
  rw [List.map_cons, List.nodup_cons] at hn
  refine ⟨(h.mem _ _ _).2 hr, hn.2, fun id s cb => ?_⟩
  rw [Table.put]
  split
  · rename_i he
    subst he
    constructor
    · intro hx; simp at hx
    · intro hx
      exact absurd (List.mem_map_of_mem (f := Pending.msgID) hx) hn.1
  · rename_i he
    rw [h.mem, hp.mem_iff, List.mem_cons]
    constructor
    · rintro (hx | hx)
      · exact absurd (by rw [← hx]) he
      · exact hx
    · exact .inr

/-! ## Runs -/

variable (C : BodyCodec E)

theorem run_append (s : State E) (a b : List (Event E)) :
    s.run C (a ++ b) = (((s.run C a).1.run C b).1, (s.run C a).2 ++ ((s.run C a).1.run C b).2) := by
  induction a generalizing s with
  | nil => simp [State.run]
  | cons ev a ih => simp [State.run, ih, List.append_assoc]

theorem run_snoc (s : State E) (evs : List (Event E)) (ev : Event E) :
    s.run C (evs ++ [ev]) = (((s.run C evs).1.step C ev).1, (s.run C evs).2 ++ ((s.run C evs).1.step C ev).2) := by
  rw [run_append]
  simp [State.run]

/-- Induction over schedules, extending at the end. -/
theorem snoc_induction {α : Type} {P : List α → Prop} (nil : P []) (snoc : ∀ xs x, P xs → P (xs ++ [x])) (xs : List α) : P xs := by
  have : ∀ n (xs : List α), xs.length = n → P xs := by
    intro n
    induction n with
    | zero => intro xs h; rw [List.eq_nil_of_length_eq_zero h]; exact nil
    | succ n ih =>
      intro xs h
      have hne : xs ≠ [] := by rintro rfl; simp at h
      rw [← List.dropLast_concat_getLast hne]
      exact snoc _ _ (ih _ (by rw [List.length_dropLast, h]; rfl))
  exact this _ xs rfl

theorem bodyMsgID_idOf (b : Body E) : Message.bodyMsgID C b = match idOf C.msgID b with | some id => .ok id | none => .panic := by
  cases b <;> rfl

/-! ## Serial numbers -/

/-- What a counter value stands for after `n` allocations. -/
def counter (n : Nat) : UInt32 := if n = 0 then 0 else UInt32.ofNat ((n - 1) % 255 + 1)

theorem counter_toNat (n : Nat) : (counter n).toNat = if n = 0 then 0 else (n - 1) % 255 + 1 := by
  unfold counter
  split
  · rfl
  · rw [UInt32.toNat_ofNat_of_lt']
    simp only [UInt32.size]
    omega

theorem successor_counter (n : Nat) : successor (counter n) = counter (n + 1) := by
  apply UInt32.toNat_inj.1
  have h1 := counter_toNat n
  have h2 := counter_toNat (n + 1)
  simp only [Nat.add_one_ne_zero, if_false, Nat.add_sub_cancel] at h2
  rw [h2]
  unfold successor
  split
  · rename_i he
    have : (counter n).toNat = 255 := by rw [he]; rfl
    rw [this] at h1
    show 1 = _
    split at h1 <;> omega
  · rename_i he
    have hne : (counter n).toNat ≠ 255 := fun h => he (UInt32.toNat_inj.1 h)
    rw [UInt32.toNat_add, h1]
    rw [h1] at hne
    show ((if n = 0 then 0 else (n - 1) % 255 + 1) + 1) % 2 ^ 32 = n % 255 + 1
    by_cases hn : n = 0
    · subst hn; rfl
    · simp only [hn, if_false] at hne ⊢
      omega

theorem counter_serial (n : Nat) : (counter (n + 1)).toUInt16 = serialOf n := by
  apply UInt16.toNat_inj.1
  rw [UInt32.toNat_toUInt16, counter_toNat, serialOf, UInt16.toNat_ofNat']
  simp only [Nat.add_one_ne_zero, if_false, Nat.add_sub_cancel]

theorem serialOf_toNat (n : Nat) : (serialOf n).toNat = n % 255 + 1 := by
  rw [serialOf, UInt16.toNat_ofNat_of_lt']
  simp only [UInt16.size]
  omega

theorem allocations_append (a b : List (Obs E)) : allocations (a ++ b) = allocations a ++ allocations b := List.filterMap_append

/-- The invariant of serial numbers. -/
structure Numbered (s : State E) (log : List (Obs E)) : Prop where
  next : s.next = counter (allocations log).length
  allocs : allocations log = (List.range (allocations log).length).map serialOf

theorem numbered_run (evs : List (Event E)) : Numbered (({} : State E).run C evs).1 (({} : State E).run C evs).2 := by
  induction evs using snoc_induction with
  | nil => exact ⟨rfl, rfl⟩
  | snoc evs ev ih =>
    rw [run_snoc]
    generalize ({} : State E).run C evs = r at ih
    obtain ⟨s, log⟩ := r
    have same : ∀ (s' : State E) (os : List (Obs E)), s'.next = s.next → allocations os = [] → Numbered s' (log ++ os) := by
      intro s' os h1 h2
      have : allocations (log ++ os) = allocations log := by rw [allocations_append, h2, List.append_nil]
      exact ⟨by rw [this, h1]; exact ih.next, by rw [this]; exact ih.allocs⟩
    cases ev with
    | start i c =>
      simp only [State.step]
      split <;> exact same _ _ rfl rfl
    | loadIcc i =>
      simp only [State.step]
      split <;> exact same _ _ rfl rfl
    | loadNext i =>
      simp only [State.step]
      split <;> exact same _ _ rfl rfl
    | cas i =>
      simp only [State.step]
      split
      · rename_i c icc seen hp
        split
        · rename_i he
          have hal : allocations (log ++ [Obs.allocated i (successor seen).toUInt16]) = allocations log ++ [serialOf (allocations log).length] := by
            rw [allocations_append]
            congr 1
            show [(successor seen).toUInt16] = _
            have hn : s.next = counter (allocations log).length := ih.next
            rw [← he, hn, successor_counter, counter_serial]
          have hlen : (allocations (log ++ [Obs.allocated i (successor seen).toUInt16])).length = (allocations log).length + 1 := by
            rw [hal]; simp
          refine ⟨?_, ?_⟩
          · rw [hlen]
            show successor seen = _
            have hn : s.next = counter (allocations log).length := ih.next
            rw [← he, hn, successor_counter]
          · rw [hlen, hal, List.range_succ, List.map_append, ← ih.allocs]
            rfl
        · exact same _ _ rfl rfl
      · exact same _ _ rfl rfl
    | push i accepted =>
      simp only [State.step]
      split
      · split
        · split <;> exact same _ _ rfl rfl
        · exact same _ _ rfl rfl
      · exact same _ _ rfl rfl
    | add i =>
      simp only [State.step]
      split
      · split <;> exact same _ _ rfl rfl
      · exact same _ _ rfl rfl
    | learn icc =>
      simp only [State.step]
      split <;> exact same _ _ rfl rfl
    | answer serial =>
      simp only [State.step]
      split
      · exact same _ _ rfl rfl
      · split <;> exact same _ _ rfl rfl

/-! ## Pending requests -/

theorem steps_append {msgID : E → UInt16} {t t' t'' : Table} {a b : List (Obs E)} (h1 : Table.Steps msgID t a t') (h2 : Table.Steps msgID t' b t'') :
    Table.Steps msgID t (a ++ b) t'' := by
  induction h2 with
  | nil => simpa using h1
  | snoc _ hs ih => rw [← List.append_assoc]; exact .snoc ih hs

/-- One observation. -/
theorem Steps.one {msgID : E → UInt16} {t t' : Table} {o : Obs E} (h : t.Step msgID o t') : Table.Steps msgID t [o] t' := by
  have := Table.Steps.snoc (.nil t) h
  simpa using this

/-- One step of the model is matched by the table. -/
theorem step_agree (s : State E) (ev : Event E) (t : Table) (h : Agree t s.requests) :
    ∃ t', Table.Steps C.msgID t (s.step C ev).2 t' ∧ Agree t' (s.step C ev).1.requests := by
  have nothing : ∀ (s' : State E), s'.requests = s.requests → ∃ t', Table.Steps C.msgID t [] t' ∧ Agree t' s'.requests :=
    fun s' he => ⟨t, .nil t, by rw [he]; exact h⟩
  cases ev with
  | start i c => simp only [State.step]; split <;> exact nothing _ rfl
  | loadIcc i => simp only [State.step]; split <;> exact nothing _ rfl
  | loadNext i => simp only [State.step]; split <;> exact nothing _ rfl
  | cas i =>
    simp only [State.step]
    split
    · split
      · exact ⟨t, Steps.one rfl, h⟩
      · exact nothing _ rfl
    · exact nothing _ rfl
  | push i accepted =>
    simp only [State.step]
    split
    · split
      · split
        · rename_i hc
          refine ⟨t, Table.Steps.snoc (log := [_]) (Steps.one rfl) ?_, h⟩
          simp [Table.Step, hc]
        · exact ⟨t, Steps.one rfl, h⟩
        · exact nothing _ rfl
      · exact ⟨t, Steps.one rfl, h⟩
    · exact nothing _ rfl
  | add i =>
    simp only [State.step]
    split
    · rename_i c serial hp
      cases hid : idOf C.msgID c.body with
      | none => rw [bodyMsgID_idOf, hid]; exact nothing _ rfl
      | some id =>
        rw [bodyMsgID_idOf, hid]
        cases hc : c.callback with
        | none => exact nothing _ rfl
        | some cb =>
          refine ⟨t.put id (some (serial, cb)), Steps.one ?_, h.add ⟨id, serial, cb⟩⟩
          simp [Table.Step, hc, hid]
    · exact nothing _ rfl
  | learn icc => simp only [State.step]; split <;> exact nothing _ rfl
  | answer serial =>
    simp only [State.step]
    split
    · rename_i hz
      exact ⟨t, Steps.one ⟨.inl hz, rfl⟩, h⟩
    · rename_i hz
      cases ht : takeRequest serial s.requests with
      | none =>
        refine ⟨t, Steps.one ⟨.inr fun id cb hx => ?_, rfl⟩, h⟩
        exact takeRequest_none serial _ ht _ ((h.mem _ _ _).1 hx) rfl
      | some r =>
        obtain ⟨r, rest⟩ := r
        obtain ⟨h1, h2⟩ := takeRequest_some serial _ _ _ ht
        obtain ⟨h3, h4⟩ := h.take h2
        exact ⟨_, Steps.one ⟨hz, r.msgID, by rw [h3, h1], rfl⟩, h4⟩

theorem SessionAtRest.init : SessionAtRest ({} : State E) := ⟨fun _ => rfl, rfl⟩

theorem run_agree_from (s0 : State E) (h0 : SessionAtRest s0) (evs : List (Event E)) :
    ∃ t, Table.Steps C.msgID (fun _ => none) (s0.run C evs).2 t ∧ Agree t (s0.run C evs).1.requests := by
  induction evs using snoc_induction with
  | nil => exact ⟨_, .nil _, by simp [State.run, h0.2], by simp [State.run, h0.2]⟩
  | snoc evs ev ih =>
    obtain ⟨t, h1, h2⟩ := ih
    obtain ⟨t', h3, h4⟩ := step_agree C _ ev t h2
    rw [run_snoc]
    exact ⟨t', steps_append h1 h3, h4⟩

theorem run_agree (evs : List (Event E)) :
    ∃ t, Table.Steps C.msgID (fun _ => none) (({} : State E).run C evs).2 t ∧ Agree t (({} : State E).run C evs).1.requests :=
  run_agree_from C {} SessionAtRest.init evs

/-! ## Where things come from -/

/-- The invariant of messages, calls and callbacks. -/
structure Traced (s : State E) (log : List (Obs E)) : Prop where
  built : ∀ i c icc serial, s.place i = some (.built c icc serial) → .allocated i serial ∈ log
  sent : ∀ i c serial, s.place i = some (.sent c serial) → ∃ m, .pushed i c m ∈ log ∧ m.header.serial = serial
  pushed : ∀ i c m, .pushed i c m ∈ log → .allocated i m.header.serial ∈ log ∧
    ∃ id icc, idOf C.msgID c.body = some id ∧ m = buildMessage id c.body icc m.header.serial
  returned : ∀ i c serial, .returned i c (some serial) ∈ log → ∃ m, .pushed i c m ∈ log ∧ m.header.serial = serial
  requests : ∀ r ∈ s.requests, ∃ i c, .returned i c (some r.serial) ∈ log ∧ c.callback = some r.callback ∧ idOf C.msgID c.body = some r.msgID
  ran : ∀ cb serial, .ran cb serial ∈ log → ∃ i c, .returned i c (some serial) ∈ log ∧ c.callback = some cb

theorem traced_run_from (s0 : State E) (h0 : SessionAtRest s0) (evs : List (Event E)) : Traced C (s0.run C evs).1 (s0.run C evs).2 := by
  induction evs using snoc_induction with
  | nil => constructor <;> simp [State.run, h0.1, h0.2]
  | snoc evs ev ih =>
    rw [run_snoc]
    generalize s0.run C evs = r at ih
    obtain ⟨s, log⟩ := r
    simp only at ih ⊢
    -- steps that only move a goroutine to a place that needs nothing
    have quiet : ∀ (s' : State E), (∀ r ∈ s'.requests, r ∈ s.requests) →
        (∀ i c icc serial, s'.place i = some (.built c icc serial) → s.place i = some (.built c icc serial)) →
        (∀ i c serial, s'.place i = some (.sent c serial) → s.place i = some (.sent c serial)) → Traced C s' (log ++ []) := by
      intro s' h1 h2 h3
      rw [List.append_nil]
      exact ⟨fun i c icc serial hx => ih.built i c icc serial (h2 _ _ _ _ hx), fun i c serial hx => ih.sent i c serial (h3 _ _ _ hx),
        ih.pushed, ih.returned, fun r hr => ih.requests r (h1 r hr), ih.ran⟩
    have moved : ∀ (i : Nat) (x : Option (Place E)), (∀ c icc serial, x ≠ some (.built c icc serial)) → (∀ c serial, x ≠ some (.sent c serial)) →
        Traced C { s with place := goto s.place i x } (log ++ []) := by
      intro i x h1 h2
      refine quiet _ (fun r hr => hr) ?_ ?_
      · intro j c icc serial hj
        simp only [goto] at hj
        split at hj
        · exact absurd hj (h1 _ _ _)
        · exact hj
      · intro j c serial hj
        simp only [goto] at hj
        split at hj
        · exact absurd hj (h2 _ _)
        · exact hj
    have still : Traced C s (log ++ []) := by rw [List.append_nil]; exact ih
    cases ev with
    | start i c =>
      simp only [State.step]
      split
      · exact still
      · exact moved _ _ (by simp) (by simp)
      · exact still
    | loadIcc i =>
      simp only [State.step]
      split
      · exact moved _ _ (by simp) (by simp)
      · exact still
    | loadNext i =>
      simp only [State.step]
      split
      · exact moved _ _ (by simp) (by simp)
      · exact still
    | cas i =>
      simp only [State.step]
      split
      · split
        · refine ⟨?_, ?_, ?_, ?_, ?_, ?_⟩
          · intro j c icc serial hj
            simp only [goto] at hj
            split at hj
            · rename_i he
              simp at hj
              simp [he, hj.2.2]
            · exact List.mem_append_left _ (ih.built _ _ _ _ hj)
          · intro j c serial hj
            simp only [goto] at hj
            split at hj
            · simp at hj
            · obtain ⟨m, h1, h2⟩ := ih.sent _ _ _ hj
              exact ⟨m, List.mem_append_left _ h1, h2⟩
          · intro j c m hm
            simp at hm
            obtain ⟨h1, h2⟩ := ih.pushed _ _ _ hm
            exact ⟨List.mem_append_left _ h1, h2⟩
          · intro j c serial hm
            simp at hm
            obtain ⟨m, h1, h2⟩ := ih.returned _ _ _ hm
            exact ⟨m, List.mem_append_left _ h1, h2⟩
          · intro r hr
            obtain ⟨j, c, h1, h2⟩ := ih.requests r hr
            exact ⟨j, c, List.mem_append_left _ h1, h2⟩
          · intro cb serial hm
            simp at hm
            obtain ⟨j, c, h1, h2⟩ := ih.ran _ _ hm
            exact ⟨j, c, List.mem_append_left _ h1, h2⟩
        · exact moved _ _ (by simp) (by simp)
      · exact still
    | push i accepted =>
      simp only [State.step]
      split
      · rename_i c icc serial hp
        have hal := ih.built _ _ _ _ hp
        split
        · cases hid : idOf C.msgID c.body with
          | none => rw [bodyMsgID_idOf, hid]; simpa using still
          | some id =>
            rw [bodyMsgID_idOf, hid]
            have hserial : (buildMessage id c.body icc serial).header.serial = serial := rfl
            have main : ∀ (x : Option (Place E)) (os : List (Obs E)), (x = none ∧ os = [.returned i c (some serial)] ∨ x = some (.sent c serial) ∧ os = []) →
                Traced C { s with place := goto s.place i x } (log ++ (.pushed i c (buildMessage id c.body icc serial) :: os)) := by
              intro x os hx
              have hcases : ∀ o, o ∈ log ++ (.pushed i c (buildMessage id c.body icc serial) :: os) →
                  o ∈ log ∨ o = .pushed i c (buildMessage id c.body icc serial) ∨ o = .returned i c (some serial) := by
                intro o ho
                rcases hx with ⟨_, rfl⟩ | ⟨_, rfl⟩ <;> simp at ho <;> rcases ho with ho | ho <;> simp [ho]
              have hnew : Obs.pushed i c (buildMessage id c.body icc serial) ∈ log ++ (.pushed i c (buildMessage id c.body icc serial) :: os) := by simp
              refine ⟨?_, ?_, ?_, ?_, ?_, ?_⟩
              · intro j c' icc' serial' hj
                simp only [goto] at hj
                split at hj
                · rcases hx with ⟨rfl, _⟩ | ⟨rfl, _⟩ <;> simp at hj
                · exact List.mem_append_left _ (ih.built _ _ _ _ hj)
              · intro j c' serial' hj
                simp only [goto] at hj
                split at hj
                · rename_i he
                  rcases hx with ⟨rfl, _⟩ | ⟨rfl, _⟩
                  · simp at hj
                  · simp at hj
                    obtain ⟨rfl, rfl⟩ := hj
                    subst he
                    exact ⟨_, hnew, hserial⟩
                · obtain ⟨m, h1, h2⟩ := ih.sent _ _ _ hj
                  exact ⟨m, List.mem_append_left _ h1, h2⟩
              · intro j c' m hm
                rcases hcases _ hm with hm | hm | hm
                · obtain ⟨h1, h2⟩ := ih.pushed _ _ _ hm
                  exact ⟨List.mem_append_left _ h1, h2⟩
                · simp only [Obs.pushed.injEq] at hm
                  obtain ⟨rfl, rfl, rfl⟩ := hm
                  exact ⟨List.mem_append_left _ hal, id, icc, hid, rfl⟩
                · simp at hm
              · intro j c' serial' hm
                rcases hcases _ hm with hm | hm | hm
                · obtain ⟨m, h1, h2⟩ := ih.returned _ _ _ hm
                  exact ⟨m, List.mem_append_left _ h1, h2⟩
                · simp at hm
                · simp at hm
                  obtain ⟨rfl, rfl, rfl⟩ := hm
                  exact ⟨_, hnew, hserial⟩
              · intro r hr
                obtain ⟨j, c', h1, h2⟩ := ih.requests r hr
                exact ⟨j, c', List.mem_append_left _ h1, h2⟩
              · intro cb serial' hm
                rcases hcases _ hm with hm | hm | hm
                · obtain ⟨j, c', h1, h2⟩ := ih.ran _ _ hm
                  exact ⟨j, c', List.mem_append_left _ h1, h2⟩
                · simp at hm
                · simp at hm
            cases hc : c.callback with
            | none => exact main none _ (.inl ⟨rfl, rfl⟩)
            | some cb => exact main _ [] (.inr ⟨rfl, rfl⟩)
        · have := moved i none (by simp) (by simp)
          rw [List.append_nil] at this
          refine ⟨?_, ?_, ?_, ?_, ?_, ?_⟩
          · exact fun j c' icc' serial' hj => List.mem_append_left _ (this.built _ _ _ _ hj)
          · intro j c' serial' hj
            obtain ⟨m, h1, h2⟩ := this.sent _ _ _ hj
            exact ⟨m, List.mem_append_left _ h1, h2⟩
          · intro j c' m hm
            simp at hm
            obtain ⟨h1, h2⟩ := ih.pushed _ _ _ hm
            exact ⟨List.mem_append_left _ h1, h2⟩
          · intro j c' serial' hm
            simp at hm
            obtain ⟨m, h1, h2⟩ := ih.returned _ _ _ hm
            exact ⟨m, List.mem_append_left _ h1, h2⟩
          · intro r hr
            obtain ⟨j, c', h1, h2⟩ := ih.requests r hr
            exact ⟨j, c', List.mem_append_left _ h1, h2⟩
          · intro cb serial' hm
            simp at hm
            obtain ⟨j, c', h1, h2⟩ := ih.ran _ _ hm
            exact ⟨j, c', List.mem_append_left _ h1, h2⟩
      · exact still
    | add i =>
      simp only [State.step]
      split
      · rename_i c serial hp
        cases hid : idOf C.msgID c.body with
        | none => rw [bodyMsgID_idOf, hid]; simpa using still
        | some id =>
          rw [bodyMsgID_idOf, hid]
          cases hc : c.callback with
          | none => simpa using still
          | some cb =>
            have hm := moved i none (by simp) (by simp)
            rw [List.append_nil] at hm
            refine ⟨?_, ?_, ?_, ?_, ?_, ?_⟩
            · exact fun j c' icc' serial' hj => List.mem_append_left _ (hm.built _ _ _ _ hj)
            · intro j c' serial' hj
              obtain ⟨m, h1, h2⟩ := hm.sent _ _ _ hj
              exact ⟨m, List.mem_append_left _ h1, h2⟩
            · intro j c' m hm
              simp at hm
              obtain ⟨h1, h2⟩ := ih.pushed _ _ _ hm
              exact ⟨List.mem_append_left _ h1, h2⟩
            · intro j c' serial' hm
              simp at hm
              rcases hm with hm | ⟨rfl, rfl, rfl⟩
              · obtain ⟨m, h1, h2⟩ := ih.returned _ _ _ hm
                exact ⟨m, List.mem_append_left _ h1, h2⟩
              · obtain ⟨m, h1, h2⟩ := ih.sent _ _ _ hp
                exact ⟨m, List.mem_append_left _ h1, h2⟩
            · intro r hr
              have hr' : r = ⟨id, serial, cb⟩ ∨ r ∈ s.requests := by
                have : ∀ xs, r ∈ addRequest ⟨id, serial, cb⟩ xs → r = ⟨id, serial, cb⟩ ∨ r ∈ xs := by
                  intro xs
                  induction xs with
                  | nil => intro h; simp [addRequest] at h; exact .inl h
                  | cons x xs ih' =>
                    intro h
                    rw [addRequest] at h
                    split at h
                    · rcases List.mem_cons.1 h with h | h
                      · exact .inl h
                      · exact .inr (List.mem_cons_of_mem _ h)
                    · rcases List.mem_cons.1 h with h | h
                      · exact .inr (by simp [h])
                      · rcases ih' h with h | h
                        · exact .inl h
                        · exact .inr (List.mem_cons_of_mem _ h)
                exact this _ hr
              rcases hr' with rfl | hr'
              · exact ⟨i, c, by simp, hc, hid⟩
              · obtain ⟨j, c', h1, h2⟩ := ih.requests r hr'
                exact ⟨j, c', List.mem_append_left _ h1, h2⟩
            · intro cb' serial' hm
              simp at hm
              obtain ⟨j, c', h1, h2⟩ := ih.ran _ _ hm
              exact ⟨j, c', List.mem_append_left _ h1, h2⟩
      · exact still
    | learn icc =>
      simp only [State.step]
      split
      · exact quiet _ (fun r hr => hr) (fun _ _ _ _ h => h) (fun _ _ _ h => h)
      · exact still
    | answer serial =>
      have ignored : Traced C s (log ++ [.ignored serial]) := by
        refine ⟨?_, ?_, ?_, ?_, ?_, ?_⟩
        · exact fun j c' icc' serial' hj => List.mem_append_left _ (ih.built _ _ _ _ hj)
        · intro j c' serial' hj
          obtain ⟨m, h1, h2⟩ := ih.sent _ _ _ hj
          exact ⟨m, List.mem_append_left _ h1, h2⟩
        · intro j c' m hm
          simp at hm
          obtain ⟨h1, h2⟩ := ih.pushed _ _ _ hm
          exact ⟨List.mem_append_left _ h1, h2⟩
        · intro j c' serial' hm
          simp at hm
          obtain ⟨m, h1, h2⟩ := ih.returned _ _ _ hm
          exact ⟨m, List.mem_append_left _ h1, h2⟩
        · intro r hr
          obtain ⟨j, c', h1, h2⟩ := ih.requests r hr
          exact ⟨j, c', List.mem_append_left _ h1, h2⟩
        · intro cb serial' hm
          simp at hm
          obtain ⟨j, c', h1, h2⟩ := ih.ran _ _ hm
          exact ⟨j, c', List.mem_append_left _ h1, h2⟩
      simp only [State.step]
      split
      · exact ignored
      · split
        · exact ignored
        · rename_i r rest ht
          obtain ⟨hs, hperm⟩ := takeRequest_some serial _ _ _ ht
          refine ⟨?_, ?_, ?_, ?_, ?_, ?_⟩
          · exact fun j c' icc' serial' hj => List.mem_append_left _ (ih.built _ _ _ _ hj)
          · intro j c' serial' hj
            obtain ⟨m, h1, h2⟩ := ih.sent _ _ _ hj
            exact ⟨m, List.mem_append_left _ h1, h2⟩
          · intro j c' m hm
            simp at hm
            obtain ⟨h1, h2⟩ := ih.pushed _ _ _ hm
            exact ⟨List.mem_append_left _ h1, h2⟩
          · intro j c' serial' hm
            simp at hm
            obtain ⟨m, h1, h2⟩ := ih.returned _ _ _ hm
            exact ⟨m, List.mem_append_left _ h1, h2⟩
          · intro r' hr
            obtain ⟨j, c', h1, h2⟩ := ih.requests r' (hperm.mem_iff.2 (List.mem_cons_of_mem _ hr))
            exact ⟨j, c', List.mem_append_left _ h1, h2⟩
          · intro cb serial' hm
            simp at hm
            rcases hm with hm | ⟨rfl, rfl⟩
            · obtain ⟨j, c', h1, h2⟩ := ih.ran _ _ hm
              exact ⟨j, c', List.mem_append_left _ h1, h2⟩
            · obtain ⟨j, c', h1, h2, _⟩ := ih.requests r (hperm.mem_iff.2 List.mem_cons_self)
              exact ⟨j, c', List.mem_append_left _ (hs ▸ h1), h2⟩

theorem traced_run (evs : List (Event E)) : Traced C (({} : State E).run C evs).1 (({} : State E).run C evs).2 :=
  traced_run_from C {} SessionAtRest.init evs

/-! ## Counting runs of a callback -/

theorem countP_addRequest (p : Pending → Bool) (r : Pending) (xs : List Pending) :
    (addRequest r xs).countP p ≤ xs.countP p + (if p r then 1 else 0) := by
  induction xs with
  | nil => simp [addRequest, List.countP_cons]
  | cons x xs ih =>
    rw [addRequest]
    split
    · rw [List.countP_cons, List.countP_cons]; omega
    · rw [List.countP_cons, List.countP_cons]; omega

theorem count_run (cb : Nat) (evs : List (Event E)) :
    (({} : State E).run C evs).1.requests.countP (fun r => r.callback == cb) + (({} : State E).run C evs).2.countP (runs cb) ≤
      (({} : State E).run C evs).2.countP (registers cb) := by
  induction evs using snoc_induction with
  | nil => simp [State.run]
  | snoc evs ev ih =>
    rw [run_snoc]
    generalize ({} : State E).run C evs = r at ih
    obtain ⟨s, log⟩ := r
    simp only at ih ⊢
    have same : ∀ (s' : State E) (os : List (Obs E)), s'.requests = s.requests → os.countP (runs cb) = 0 →
        s'.requests.countP (fun r => r.callback == cb) + (log ++ os).countP (runs cb) ≤ (log ++ os).countP (registers cb) := by
      intro s' os h1 h2
      rw [h1, List.countP_append, List.countP_append, h2]
      omega
    cases ev with
    | start i c => simp only [State.step]; split <;> exact same _ _ rfl rfl
    | loadIcc i => simp only [State.step]; split <;> exact same _ _ rfl rfl
    | loadNext i => simp only [State.step]; split <;> exact same _ _ rfl rfl
    | cas i =>
      simp only [State.step]
      split
      · split <;> exact same _ _ rfl rfl
      · exact same _ _ rfl rfl
    | push i accepted =>
      simp only [State.step]
      split
      · split
        · split <;> exact same _ _ rfl rfl
        · exact same _ _ rfl rfl
      · exact same _ _ rfl rfl
    | add i =>
      simp only [State.step]
      split
      · rename_i c serial hp
        split
        · rename_i id cb' _ hc
          have := countP_addRequest (fun r => r.callback == cb) ⟨id, serial, cb'⟩ s.requests
          rw [List.countP_append, List.countP_append]
          refine Nat.le_trans (Nat.add_le_add_right this _) ?_
          simp only [List.countP_cons, List.countP_nil, runs, registers, hc]
          have hb : (cb' == cb) = (some cb' == some cb) := by rfl
          rw [← hb]
          simp only [Bool.false_eq_true, if_false]
          omega
        · exact same _ _ rfl rfl
      · exact same _ _ rfl rfl
    | learn icc => simp only [State.step]; split <;> exact same _ _ rfl rfl
    | answer serial =>
      simp only [State.step]
      split
      · exact same _ _ rfl rfl
      · split
        · exact same _ _ rfl rfl
        · rename_i r rest ht
          obtain ⟨hs, hperm⟩ := takeRequest_some serial _ _ _ ht
          rw [hperm.countP_eq, List.countP_cons] at ih
          rw [List.countP_append, List.countP_append]
          simp only [List.countP_cons, List.countP_nil, runs, registers, Bool.false_eq_true, if_false]
          by_cases hr : r.callback = cb
          · simp only [hr, beq_self_eq_true, if_true] at ih ⊢; omega
          · have : (r.callback == cb) = false := by simpa using hr
            simp only [this, Bool.false_eq_true, if_false] at ih ⊢; omega

/-! ## Serial numbers are used once -/

/-- The observation is that goroutine `i` was given the serial number. -/
def isAllocated (i : Nat) (serial : UInt16) : Obs E → Bool
  | .allocated j s => j == i && s == serial
  | _ => false

/-- The observation is that a call of goroutine `i` returned the serial number. -/
def isReturned (i : Nat) (serial : UInt16) : Obs E → Bool
  | .returned j _ (some s) => j == i && s == serial
  | _ => false

/-- The goroutine is in a call that has the serial number. -/
def inFlight (serial : UInt16) : Option (Place E) → Nat
  | some (.built _ _ s) => if s = serial then 1 else 0
  | some (.sent _ s) => if s = serial then 1 else 0
  | _ => 0

theorem paid_run_from (s0 : State E) (h0 : SessionAtRest s0) (i : Nat) (serial : UInt16) (evs : List (Event E)) :
    inFlight serial ((s0.run C evs).1.place i) + (s0.run C evs).2.countP (isReturned i serial) ≤
      (s0.run C evs).2.countP (isAllocated i serial) := by
  induction evs using snoc_induction with
  | nil => simp [State.run, inFlight, h0.1]
  | snoc evs ev ih =>
    rw [run_snoc]
    generalize s0.run C evs = r at ih
    obtain ⟨s, log⟩ := r
    simp only at ih ⊢
    have same : ∀ (s' : State E) (os : List (Obs E)), inFlight serial (s'.place i) ≤ inFlight serial (s.place i) → os.countP (isReturned i serial) = 0 →
        inFlight serial (s'.place i) + (log ++ os).countP (isReturned i serial) ≤ (log ++ os).countP (isAllocated i serial) := by
      intro s' os h1 h2
      rw [List.countP_append, List.countP_append, h2]
      omega
    have moved : ∀ (j : Nat) (x : Option (Place E)), inFlight serial x = 0 → ∀ s' : State E, s'.place = goto s.place j x →
        inFlight serial (s'.place i) ≤ inFlight serial (s.place i) := by
      intro j x h s' h'
      rw [h', goto]
      split
      · rw [h]; exact Nat.zero_le _
      · exact Nat.le_refl _
    cases ev with
    | start j c =>
      simp only [State.step]
      split
      · exact same _ _ (Nat.le_refl _) rfl
      · exact same _ _ (moved j _ rfl _ rfl) rfl
      · exact same _ _ (Nat.le_refl _) rfl
    | loadIcc j =>
      simp only [State.step]
      split
      · exact same _ _ (moved j _ rfl _ rfl) rfl
      · exact same _ _ (Nat.le_refl _) rfl
    | loadNext j =>
      simp only [State.step]
      split
      · exact same _ _ (moved j _ rfl _ rfl) rfl
      · exact same _ _ (Nat.le_refl _) rfl
    | cas j =>
      simp only [State.step]
      split
      · rename_i c icc seen hp
        split
        · rw [List.countP_append, List.countP_append]
          simp only [List.countP_cons, List.countP_nil, isReturned, isAllocated, goto, Bool.false_eq_true, if_false]
          by_cases hj : i = j
          · subst hj
            rw [hp] at ih
            simp only [inFlight] at ih
            by_cases hs : (successor seen).toUInt16 = serial
            · simp [inFlight, hs]; omega
            · simp [inFlight, hs]; omega
          · rw [if_neg hj]
            omega
        · exact same _ _ (moved j _ rfl _ rfl) rfl
      · exact same _ _ (Nat.le_refl _) rfl
    | push j accepted =>
      simp only [State.step]
      split
      · rename_i c icc sn hp
        split
        · split
          · rw [List.countP_append, List.countP_append]
            simp only [List.countP_cons, List.countP_nil, isReturned, isAllocated, goto, Bool.false_eq_true, if_false]
            by_cases hj : i = j
            · subst hj
              rw [hp] at ih
              simp only [inFlight] at ih
              by_cases hs : sn = serial
              · simp [inFlight, hs] at ih ⊢; omega
              · simp [inFlight, hs] at ih ⊢; omega
            · have : (j == i) = false := by simpa using fun h => hj h.symm
              rw [if_neg hj]
              simp only [this, Bool.false_and, Bool.false_eq_true, if_false]
              omega
          · rw [List.countP_append, List.countP_append]
            simp only [List.countP_cons, List.countP_nil, isReturned, isAllocated, goto, Bool.false_eq_true, if_false]
            by_cases hj : i = j
            · subst hj
              rw [hp] at ih
              simp only [inFlight] at ih
              simp only [if_true, inFlight]
              omega
            · rw [if_neg hj]
              omega
          · exact same _ _ (Nat.le_refl _) rfl
        · exact same _ _ (moved j _ rfl _ rfl) rfl
      · exact same _ _ (Nat.le_refl _) rfl
    | add j =>
      simp only [State.step]
      split
      · rename_i c sn hp
        split
        · rw [List.countP_append, List.countP_append]
          simp only [List.countP_cons, List.countP_nil, isReturned, isAllocated, goto, Bool.false_eq_true, if_false]
          by_cases hj : i = j
          · subst hj
            rw [hp] at ih
            simp only [inFlight] at ih
            by_cases hs : sn = serial
            · simp [inFlight, hs] at ih ⊢; omega
            · simp [inFlight, hs] at ih ⊢; omega
          · have : (j == i) = false := by simpa using fun h => hj h.symm
            rw [if_neg hj]
            simp only [this, Bool.false_and, Bool.false_eq_true, if_false]
            omega
        · exact same _ _ (Nat.le_refl _) rfl
      · exact same _ _ (Nat.le_refl _) rfl
    | learn icc => simp only [State.step]; split <;> exact same _ _ (Nat.le_refl _) rfl
    | answer sn =>
      simp only [State.step]
      split
      · exact same _ _ (Nat.le_refl _) rfl
      · split <;> exact same _ _ (Nat.le_refl _) rfl

theorem paid_run (i : Nat) (serial : UInt16) (evs : List (Event E)) :
    inFlight serial ((({} : State E).run C evs).1.place i) + (({} : State E).run C evs).2.countP (isReturned i serial) ≤
      (({} : State E).run C evs).2.countP (isAllocated i serial) :=
  paid_run_from C {} SessionAtRest.init i serial evs

theorem count_allocated_le (i : Nat) (serial : UInt16) (log : List (Obs E)) : log.countP (isAllocated i serial) ≤ (allocations log).count serial := by
  induction log with
  | nil => simp [allocations]
  | cons o log ih =>
    cases o with
    | allocated j s =>
      have : allocations (.allocated j s :: log) = s :: allocations log := rfl
      rw [this, List.countP_cons, List.count_cons]
      simp only [isAllocated]
      by_cases hs : s = serial
      · subst hs
        by_cases hj : j = i
        · simp only [hj, beq_self_eq_true, Bool.and_self, if_true]; omega
        · have : (j == i) = false := by simpa using hj
          simp only [this, beq_self_eq_true, Bool.false_and, if_true, Bool.false_eq_true, if_false]; omega
      · have : (s == serial) = false := by simpa using hs
        simp only [this, Bool.and_false, Bool.false_eq_true, if_false]; omega
    | pushed j c m => exact ih
    | returned j c r => exact ih
    | ran cb s => exact ih
    | ignored s => exact ih

theorem count_allocated_two (i j : Nat) (hij : i ≠ j) (serial : UInt16) (log : List (Obs E)) :
    log.countP (isAllocated i serial) + log.countP (isAllocated j serial) ≤ (allocations log).count serial := by
  induction log with
  | nil => simp [allocations]
  | cons o log ih =>
    cases o with
    | allocated k s =>
      have : allocations (.allocated k s :: log) = s :: allocations log := rfl
      rw [this, List.countP_cons, List.countP_cons, List.count_cons]
      simp only [isAllocated]
      by_cases hs : s = serial
      · subst hs
        simp only [beq_self_eq_true, Bool.and_true, if_true]
        by_cases h1 : k = i
        · subst h1
          have : (k == j) = false := by simpa using hij
          simp only [this, beq_self_eq_true, if_true, Bool.false_eq_true, if_false]; omega
        · have : (k == i) = false := by simpa using h1
          simp only [this, Bool.false_eq_true, if_false]
          split <;> omega
      · have : (s == serial) = false := by simpa using hs
        simp only [this, Bool.and_false, Bool.false_eq_true, if_false]; omega
    | pushed k c m => exact ih
    | returned k c r => exact ih
    | ran cb s => exact ih
    | ignored s => exact ih

theorem nodup_serials (n : Nat) (h : n ≤ 255) : ((List.range n).map serialOf).Nodup := by
  rw [List.Nodup, List.pairwise_map]
  refine List.Pairwise.imp_of_mem ?_ (List.pairwise_lt_range (n := n))
  intro i j hi hj hij he
  rw [List.mem_range] at hi hj
  have := congrArg UInt16.toNat he
  rw [serialOf_toNat, serialOf_toNat] at this
  omega

theorem nodup_serials_from (k n : Nat) (h : n - k ≤ 255) : (((List.range n).map serialOf).drop k).Nodup := by
  rw [← List.map_drop, List.Nodup, List.pairwise_map]
  refine List.Pairwise.imp_of_mem ?_ ((List.pairwise_lt_range (n := n)).sublist (List.drop_sublist k _))
  intro i j hi hj hij he
  have bounds : ∀ x ∈ (List.range n).drop k, k ≤ x ∧ x < n := by
    intro x hx
    obtain ⟨m, hm, rfl⟩ := List.mem_iff_getElem.1 hx
    rw [List.getElem_drop, List.getElem_range]
    rw [List.length_drop, List.length_range] at hm
    omega
  have hi := bounds i hi
  have hj := bounds j hj
  have := congrArg UInt16.toNat he
  rw [serialOf_toNat, serialOf_toNat] at this
  omega

/-- 255 serial numbers handed out one after the other are different, whatever went before. -/
theorem nodup_since (evs0 evs : List (Event E)) (h : (allocations ((({} : State E).run C evs0).1.run C evs).2).length ≤ 255) :
    (allocations ((({} : State E).run C evs0).1.run C evs).2).Nodup := by
  have hn := (numbered_run C (evs0 ++ evs)).allocs
  rw [run_append] at hn
  simp only [allocations_append] at hn
  have hd : allocations ((({} : State E).run C evs0).1.run C evs).2 =
      (allocations (({} : State E).run C evs0).2 ++ allocations ((({} : State E).run C evs0).1.run C evs).2).drop
        (allocations (({} : State E).run C evs0).2).length := by rw [List.drop_left]
  rw [hd, hn]
  refine nodup_serials_from _ _ ?_
  rw [List.length_append]
  omega

theorem returned_once_from (s0 : State E) (h0 : SessionAtRest s0) (evs : List (Event E)) (hnd : (allocations (s0.run C evs).2).Nodup) (l1 l2 : List (Obs E)) (i j : Nat)
    (c c' : Call E) (serial : UInt16) (hlog : (s0.run C evs).2 = l1 ++ .returned i c (some serial) :: l2) :
    .returned j c' (some serial) ∉ l1 ++ l2 := by
  intro hm
  have hle : (allocations (s0.run C evs).2).count serial ≤ 1 := List.nodup_iff_count.1 hnd serial
  by_cases hij : i = j
  · subst hij
    have h1 := paid_run_from C s0 h0 i serial evs
    have h2 := count_allocated_le i serial (s0.run C evs).2
    have h3 : 2 ≤ (s0.run C evs).2.countP (isReturned i serial) := by
      rw [hlog, List.countP_append, List.countP_cons]
      have : 1 ≤ (l1 ++ l2).countP (isReturned i serial) := List.countP_pos_iff.2 ⟨_, hm, by simp [isReturned]⟩
      rw [List.countP_append] at this
      simp only [isReturned, beq_self_eq_true, Bool.and_self, if_true]
      omega
    omega
  · have h1 := paid_run_from C s0 h0 i serial evs
    have h1' := paid_run_from C s0 h0 j serial evs
    have h2 := count_allocated_two i j hij serial (s0.run C evs).2
    have h3 : 1 ≤ (s0.run C evs).2.countP (isReturned i serial) :=
      List.countP_pos_iff.2 ⟨.returned i c (some serial), by rw [hlog]; simp, by simp [isReturned]⟩
    have h4 : 1 ≤ (s0.run C evs).2.countP (isReturned j serial) := by
      refine List.countP_pos_iff.2 ⟨.returned j c' (some serial), ?_, by simp [isReturned]⟩
      rw [hlog]
      rcases List.mem_append.1 hm with hm | hm
      · exact List.mem_append_left _ hm
      · exact List.mem_append_right _ (List.mem_cons_of_mem _ hm)
    omega

/-- In the first 255 messages of a session no serial number is returned twice. -/
theorem returned_once (evs : List (Event E)) (h : (allocations (({} : State E).run C evs).2).length ≤ 255) (l1 l2 : List (Obs E)) (i j : Nat)
    (c c' : Call E) (serial : UInt16) (hlog : (({} : State E).run C evs).2 = l1 ++ .returned i c (some serial) :: l2) :
    .returned j c' (some serial) ∉ l1 ++ l2 :=
  returned_once_from C {} SessionAtRest.init evs (by rw [(numbered_run C evs).allocs]; exact nodup_serials _ h) l1 l2 i j c c' serial hlog

/-! ## Following a table through a log -/

theorem steps_snoc_inv {msgID : E → UInt16} {t t'' : Table} {log : List (Obs E)} {o : Obs E} (h : Table.Steps msgID t (log ++ [o]) t'') :
    ∃ t', Table.Steps msgID t log t' ∧ t'.Step msgID o t'' := by
  generalize hl : log ++ [o] = l at h
  cases h with
  | nil => simp at hl
  | snoc h1 h2 =>
    obtain ⟨rfl, he⟩ := List.append_inj' hl rfl
    simp at he
    subst he
    exact ⟨_, h1, h2⟩

theorem steps_append_inv {msgID : E → UInt16} {t t'' : Table} (a b : List (Obs E)) (h : Table.Steps msgID t (a ++ b) t'') :
    ∃ t', Table.Steps msgID t a t' ∧ Table.Steps msgID t' b t'' := by
  induction b using snoc_induction generalizing t'' with
  | nil => exact ⟨t'', by simpa using h, .nil _⟩
  | snoc b o ih =>
    rw [← List.append_assoc] at h
    obtain ⟨t1, h1, h2⟩ := steps_snoc_inv h
    obtain ⟨t2, h3, h4⟩ := ih h1
    exact ⟨t2, h3, .snoc h4 h2⟩

theorem steps_one_inv {msgID : E → UInt16} {t t' : Table} {o : Obs E} (h : Table.Steps msgID t [o] t') : t.Step msgID o t' := by
  obtain ⟨t1, h1, h2⟩ := steps_snoc_inv (log := []) h
  generalize hl : ([] : List (Obs E)) = l at h1
  cases h1 with
  | nil => exact h2
  | snoc => simp at hl

/-- Whatever is pending was registered. -/
theorem steps_registered {msgID : E → UInt16} {t : Table} {log : List (Obs E)} (h : Table.Steps msgID (fun _ => none) log t) (id s : UInt16) (cb : Nat)
    (ht : t id = some (s, cb)) : ∃ o ∈ log, Registered msgID o id s cb := by
  generalize h0 : (fun _ => none : Table) = t0 at h
  induction h generalizing id s cb with
  | nil => subst h0; simp at ht
  | snoc h1 h2 ih =>
    rename_i t' t'' log o
    have keep : t' id = some (s, cb) → ∃ o' ∈ log ++ [o], Registered msgID o' id s cb := by
      intro hx
      obtain ⟨o', m1, m2⟩ := ih id s cb hx
      exact ⟨o', List.mem_append_left _ m1, m2⟩
    cases o with
    | allocated i s' => exact keep (by rw [← h2]; exact ht)
    | pushed i c m => exact keep (by rw [← h2]; exact ht)
    | returned i c r =>
      cases r with
      | none => exact keep (by rw [← h2]; exact ht)
      | some s' =>
        simp only [Table.Step] at h2
        split at h2
        · rename_i cb' id' hc hid
          rw [h2, Table.put] at ht
          split at ht
          · rename_i he
            subst he
            simp only [Option.some.injEq, Prod.mk.injEq] at ht
            obtain ⟨rfl, rfl⟩ := ht
            exact ⟨_, List.mem_append_right _ List.mem_cons_self, i, c, rfl, hc, hid⟩
          · exact keep ht
        · exact keep (by rw [← h2]; exact ht)
    | ran cb' s' =>
      obtain ⟨_, id', _, h4⟩ := h2
      rw [h4, Table.put] at ht
      split at ht
      · simp at ht
      · exact keep ht
    | ignored s' =>
      obtain ⟨_, h4⟩ := h2
      exact keep (by rw [← h4]; exact ht)

/-- A pending request stays pending until it is replaced or an answer with its serial number comes. -/
theorem steps_keep {msgID : E → UInt16} {t t' : Table} {log : List (Obs E)} (h : Table.Steps msgID t log t') (id s : UInt16) (cb : Nat)
    (ht : t id = some (s, cb)) (hnew : ∀ o ∈ log, ∀ s' cb', ¬ Registered msgID o id s' cb') (hans : ∀ o ∈ log, ∀ cb', o ≠ .ran cb' s) :
    t' id = some (s, cb) := by
  induction h with
  | nil => exact ht
  | snoc h1 h2 ih =>
    rename_i t' t'' log o
    have hk := ih (fun o ho => hnew o (List.mem_append_left _ ho)) (fun o ho => hans o (List.mem_append_left _ ho))
    have hno := hnew o (List.mem_append_right _ List.mem_cons_self)
    have hna := hans o (List.mem_append_right _ List.mem_cons_self)
    cases o with
    | allocated i s' => rw [h2]; exact hk
    | pushed i c m => rw [h2]; exact hk
    | returned i c r =>
      cases r with
      | none => rw [h2]; exact hk
      | some s' =>
        simp only [Table.Step] at h2
        split at h2
        · rename_i cb' id' hc hid
          rw [h2, Table.put]
          split
          · rename_i he
            subst he
            exact absurd ⟨i, c, rfl, hc, hid⟩ (hno s' cb')
          · exact hk
        · rw [h2]; exact hk
    | ran cb' s' =>
      obtain ⟨_, id', h3, h4⟩ := h2
      rw [h4, Table.put]
      split
      · rename_i he
        subst he
        rw [hk] at h3
        simp only [Option.some.injEq, Prod.mk.injEq] at h3
        exact absurd (by rw [h3.1]) (hna cb')
      · exact hk
    | ignored s' =>
      obtain ⟨_, h4⟩ := h2
      rw [h4]; exact hk

/-- Whatever is pending was registered last for its message id, and an answer with its number has since run only the callback of another request. -/
theorem steps_last {msgID : E → UInt16} {t : Table} {log : List (Obs E)} (h : Table.Steps msgID (fun _ => none) log t) (id s : UInt16) (cb : Nat)
    (ht : t id = some (s, cb)) : ∃ l1 o l2, log = l1 ++ o :: l2 ∧ Registered msgID o id s cb ∧ (∀ o' ∈ l2, ∀ s' cb', ¬ Registered msgID o' id s' cb') ∧
      ∀ o' ∈ l2, ∀ cb', o' = .ran cb' s → ∃ id', id' ≠ id ∧ ∃ o'' ∈ log, Registered msgID o'' id' s cb' := by
  generalize h0 : (fun _ => none : Table) = t0 at h
  induction h generalizing id s cb with
  | nil => subst h0; simp at ht
  | snoc h1 h2 ih =>
    rename_i t' t'' log o
    subst h0
    have keep : t' id = some (s, cb) → (∀ s' cb', ¬ Registered msgID o id s' cb') →
        (∀ cb', o = .ran cb' s → ∃ id', id' ≠ id ∧ ∃ o'' ∈ log, Registered msgID o'' id' s cb') →
        ∃ l1 o' l2, log ++ [o] = l1 ++ o' :: l2 ∧ Registered msgID o' id s cb ∧ (∀ o' ∈ l2, ∀ s' cb', ¬ Registered msgID o' id s' cb') ∧
          ∀ o' ∈ l2, ∀ cb', o' = .ran cb' s → ∃ id', id' ≠ id ∧ ∃ o'' ∈ log ++ [o], Registered msgID o'' id' s cb' := by
      intro hx hreg hran
      obtain ⟨l1, o', l2, m1, m2, m3, m4⟩ := ih id s cb hx
      refine ⟨l1, o', l2 ++ [o], by rw [m1]; simp, m2, ?_, ?_⟩
      · intro o'' ho
        rcases List.mem_append.1 ho with ho | ho
        · exact m3 o'' ho
        · rw [List.mem_singleton.1 ho]; exact hreg
      · intro o'' ho cb' he
        rcases List.mem_append.1 ho with ho | ho
        · obtain ⟨id', n1, o3, n2, n3⟩ := m4 o'' ho cb' he
          exact ⟨id', n1, o3, List.mem_append_left _ n2, n3⟩
        · rw [List.mem_singleton.1 ho] at he
          obtain ⟨id', n1, o3, n2, n3⟩ := hran cb' he
          exact ⟨id', n1, o3, List.mem_append_left _ n2, n3⟩
    have nreg : (∀ i c s', o ≠ .returned i c (some s')) → ∀ s' cb', ¬ Registered msgID o id s' cb' := by
      rintro hne s' cb' ⟨i, c, rfl, _⟩
      exact hne i c s' rfl
    cases o with
    | allocated i s' => exact keep (by rw [← h2]; exact ht) (nreg (by simp)) (by simp)
    | pushed i c m => exact keep (by rw [← h2]; exact ht) (nreg (by simp)) (by simp)
    | returned i c r =>
      cases r with
      | none => exact keep (by rw [← h2]; exact ht) (nreg (by simp)) (by simp)
      | some s' =>
        simp only [Table.Step] at h2
        split at h2
        · rename_i cb' id' hc hid
          rw [h2, Table.put] at ht
          split at ht
          · rename_i he
            subst he
            simp only [Option.some.injEq, Prod.mk.injEq] at ht
            obtain ⟨rfl, rfl⟩ := ht
            exact ⟨log, _, [], rfl, ⟨i, c, rfl, hc, hid⟩, by simp, by simp⟩
          · rename_i he
            refine keep ht ?_ (by simp)
            rintro s2 cb2 ⟨i2, c2, he2, hc2, hid2⟩
            cases he2
            rw [hid] at hid2
            exact he (Option.some.inj hid2).symm
        · rename_i hno
          refine keep (by rw [← h2]; exact ht) ?_ (by simp)
          rintro s2 cb2 ⟨i2, c2, he2, hc2, hid2⟩
          cases he2
          exact hno _ _ hc2 hid2
    | ran cb' s' =>
      obtain ⟨_, id', h3, h4⟩ := h2
      rw [h4, Table.put] at ht
      split at ht
      · simp at ht
      · rename_i hne
        refine keep ht (nreg (by simp)) ?_
        intro cb2 he
        cases he
        exact ⟨id', fun h => hne h.symm, steps_registered h1 id' s cb' h3⟩
    | ignored s' =>
      obtain ⟨_, h4⟩ := h2
      exact keep (by rw [← h4]; exact ht) (nreg (by simp)) (by simp)

/-! ## One goroutine among others -/

/-- A goroutine that is idle stays idle, and one in a call stays where it is, while only others take steps. -/
theorem place_others (i : Nat) (evs : List (Event E)) (s : State E) (h : ∀ ev ∈ evs, actor ev ≠ some i) :
    (s.run C evs).1.place i = s.place i := by
  induction evs generalizing s with
  | nil => rfl
  | cons ev evs ih =>
    rw [State.run]
    have h1 : ((s.step C ev).1).place i = s.place i := by
      have hev := h ev List.mem_cons_self
      have move : ∀ (j : Nat) (x : Option (Place E)), some j ≠ some i → goto s.place j x i = s.place i := by
        intro j x hj
        rw [goto, if_neg]
        rintro rfl
        exact hj rfl
      cases ev with
      | start j c => simp only [State.step]; split <;> first | rfl | exact move j _ hev
      | loadIcc j => simp only [State.step]; split <;> first | rfl | exact move j _ hev
      | loadNext j => simp only [State.step]; split <;> first | rfl | exact move j _ hev
      | cas j =>
        simp only [State.step]
        split
        · split <;> exact move j _ hev
        · rfl
      | push j a =>
        simp only [State.step]
        split
        · split
          · split <;> first | rfl | exact move j _ hev
          · exact move j _ hev
        · rfl
      | add j =>
        simp only [State.step]
        split
        · split <;> first | rfl | exact move j _ hev
        · rfl
      | learn icc => simp only [State.step]; split <;> rfl
      | answer s' =>
        simp only [State.step]
        split
        · rfl
        · split <;> rfl
    rw [← h1]
    exact ih _ fun ev hm => h ev (List.mem_cons_of_mem _ hm)

theorem icc_run (evs : List (Event E)) (s : State E) : (s.run C evs).1.icc = lastLearned s.icc evs := by
  induction evs generalizing s with
  | nil => rfl
  | cons ev evs ih =>
    rw [State.run]
    show ((s.step C ev).1.run C evs).1.icc = _
    rw [ih]
    cases ev with
    | start j c => simp only [State.step, lastLearned]; split <;> rfl
    | loadIcc j => simp only [State.step, lastLearned]; split <;> rfl
    | loadNext j => simp only [State.step, lastLearned]; split <;> rfl
    | cas j =>
      simp only [State.step, lastLearned]
      split
      · split <;> rfl
      · rfl
    | push j a =>
      simp only [State.step, lastLearned]
      split
      · split
        · split <;> rfl
        · rfl
      · rfl
    | add j =>
      simp only [State.step, lastLearned]
      split
      · split <;> rfl
      · rfl
    | learn icc =>
      simp only [State.step, lastLearned]
      by_cases h : icc = 0
      · subst h; rfl
      · have : icc > 0 := by
          have : icc.toNat ≠ 0 := fun h' => h (UInt64.toNat_inj.1 h')
          exact UInt64.lt_iff_toNat_lt.2 (by show 0 < icc.toNat; omega)
        rw [if_pos this, if_neg h]
    | answer s' =>
      simp only [State.step, lastLearned]
      split
      · rfl
      · split <;> rfl

/-- While goroutine `i` allocates its number, it holds the call and the terminal number, and ends up with a number handed out to it. -/
theorem place_numbering (i : Nat) (c : Call E) (icc : UInt64) (evs : List (Event E)) (s : State E)
    (hev : ∀ ev ∈ evs, actor ev = some i → ev = .loadNext i ∨ ev = .cas i)
    (h : s.place i = some (.numbering c icc) ∨ (∃ seen, s.place i = some (.loaded c icc seen))) :
    let r := s.run C evs
    r.1.place i = some (.numbering c icc) ∨ (∃ seen, r.1.place i = some (.loaded c icc seen)) ∨
      ∃ serial, r.1.place i = some (.built c icc serial) ∧ .allocated i serial ∈ r.2 := by
  induction evs using snoc_induction with
  | nil =>
    rcases h with h | h
    · exact .inl h
    · exact .inr (.inl h)
  | snoc evs ev ih =>
    have ih := ih fun ev hm => hev ev (List.mem_append_left _ hm)
    have hlast := hev ev (List.mem_append_right _ List.mem_cons_self)
    simp only at ih ⊢
    rw [run_snoc]
    by_cases ha : actor ev = some i
    · rcases hlast ha with rfl | rfl
      · rcases ih with ih | ⟨seen, ih⟩ | ⟨serial, ih, hm⟩
        · refine .inr (.inl ⟨(s.run C evs).1.next, ?_⟩)
          simp only [State.step, ih, goto, if_true]
        · refine .inr (.inl ⟨seen, ?_⟩)
          simp only [State.step, ih]
        · refine .inr (.inr ⟨serial, ?_, List.mem_append_left _ hm⟩)
          simp only [State.step, ih]
      · rcases ih with ih | ⟨seen, ih⟩ | ⟨serial, ih, hm⟩
        · refine .inl ?_
          simp only [State.step, ih]
        · by_cases hn : (s.run C evs).1.next = seen
          · refine .inr (.inr ⟨(successor seen).toUInt16, ?_, ?_⟩)
            · simp only [State.step, ih, hn, if_true, goto]
            · simp [State.step, ih, hn]
          · refine .inl ?_
            simp only [State.step, ih, hn, if_false, goto, if_true]
        · refine .inr (.inr ⟨serial, ?_, List.mem_append_left _ hm⟩)
          simp only [State.step, ih]
    · have hsame : ((s.run C evs).1.step C ev).1.place i = (s.run C evs).1.place i := by
        have := place_others C i [ev] (s.run C evs).1 (by simpa using ha)
        simpa [State.run] using this
      simp only [hsame]
      rcases ih with ih | ih | ⟨serial, ih, hm⟩
      · exact .inl ih
      · exact .inr (.inl ih)
      · exact .inr (.inr ⟨serial, ih, List.mem_append_left _ hm⟩)

/-! ## Calls that do not overlap -/

/-- At most one goroutine is inside a call; a number handed out and not yet used is the latest. -/
structure Alone (s : State E) (o : List (Obs E)) : Prop where
  one : ∀ i j, s.place i ≠ none → s.place j ≠ none → i = j
  sent : ((messages o).map (·.header.serial)).Sublist (allocations o)
  unused : ∀ i c icc sn, s.place i = some (.built c icc sn) →
    ∃ a, allocations o = a ++ [sn] ∧ ((messages o).map (·.header.serial)).Sublist a

theorem messages_append (a b : List (Obs E)) : messages (a ++ b) = messages a ++ messages b := by simp [messages, List.filterMap_append]

theorem allocations_append' (a b : List (Obs E)) : allocations (a ++ b) = allocations a ++ allocations b := by
  simp [allocations, List.filterMap_append]

theorem Alone.step (C : BodyCodec E) {s : State E} {o : List (Obs E)} (h : Alone s o) (ev : Event E)
    (hev : match ev with | .start i _ => ∀ j, j ≠ i → s.place j = none | _ => True) :
    Alone (s.step C ev).1 (o ++ (s.step C ev).2) := by
  obtain ⟨h1, h2, h3⟩ := h
  have same : Alone s (o ++ []) := by rw [List.append_nil]; exact ⟨h1, h2, h3⟩
  -- goroutine `i`, which is inside a call, moves
  have move : ∀ (i : Nat) (p : Option (Place E)) (s' : State E) (o' : List (Obs E)), s.place i ≠ none → s'.place = goto s.place i p →
      ((messages (o ++ o')).map (·.header.serial)).Sublist (allocations (o ++ o')) →
      (∀ c icc sn, p = some (.built c icc sn) → ∃ a, allocations (o ++ o') = a ++ [sn] ∧ ((messages (o ++ o')).map (·.header.serial)).Sublist a) →
      Alone s' (o ++ o') := by
    intro i p s' o' hi hs' hsub hb
    have other : ∀ j, j ≠ i → s'.place j = none := by
      intro j hj
      rw [hs', goto, if_neg hj]
      apply Decidable.byContradiction
      intro hn
      exact hj (h1 j i hn hi)
    refine ⟨?_, hsub, ?_⟩
    · intro a b ha hb'
      have ea : a = i := Decidable.byContradiction fun e => ha (other a e)
      have eb : b = i := Decidable.byContradiction fun e => hb' (other b e)
      rw [ea, eb]
    · intro a c icc sn ha
      have ea : a = i := Decidable.byContradiction fun e => by rw [other a e] at ha; simp at ha
      subst ea
      rw [hs', goto, if_pos rfl] at ha
      exact hb c icc sn ha
  have plain : ((messages (o ++ [])).map (·.header.serial)).Sublist (allocations (o ++ [])) := by rw [List.append_nil]; exact h2
  have only : ∀ {l : List (Obs E)}, messages l = [] → allocations l = [] →
      ((messages (o ++ l)).map (·.header.serial)).Sublist (allocations (o ++ l)) := by
    intro l a b
    rw [messages_append, allocations_append', a, b, List.append_nil, List.append_nil]
    exact h2
  have keep : ∀ (s' : State E) (l : List (Obs E)), s'.place = s.place → messages l = [] → allocations l = [] → Alone s' (o ++ l) := by
    intro s' l hs' a b
    refine ⟨by rw [hs']; exact h1, only a b, ?_⟩
    rw [hs', messages_append, allocations_append', a, b, List.append_nil, List.append_nil]
    exact h3
  cases ev with
  | start i c =>
    simp only [State.step]
    split
    · exact same
    · rename_i hp hb
      have : ∀ j, s.place j = none := by
        intro j
        by_cases hj : j = i
        · rw [hj]; exact hp
        · exact hev j hj
      rw [List.append_nil]
      refine ⟨?_, h2, ?_⟩
      · intro a b ha hb'
        have ea : a = i := Decidable.byContradiction fun e => ha (by simp only [goto, if_neg e]; exact this a)
        have eb : b = i := Decidable.byContradiction fun e => hb' (by simp only [goto, if_neg e]; exact this b)
        rw [ea, eb]
      · intro a c' icc sn ha
        simp only [goto] at ha
        split at ha
        · simp at ha
        · rw [this a] at ha; simp at ha
    · exact same
  | loadIcc i =>
    simp only [State.step]
    split
    · rename_i c hp
      exact move i _ _ [] (by rw [hp]; simp) rfl plain (by simp)
    · exact same
  | loadNext i =>
    simp only [State.step]
    split
    · rename_i c icc hp
      exact move i _ _ [] (by rw [hp]; simp) rfl plain (by simp)
    · exact same
  | cas i =>
    simp only [State.step]
    split
    · rename_i c icc seen hp
      split
      · refine move i _ _ _ (by rw [hp]; simp) rfl ?_ ?_
        · rw [messages_append, allocations_append']
          simp only [messages, List.filterMap_cons, List.filterMap_nil, List.append_nil]
          exact h2.trans (List.sublist_append_left _ _)
        · intro c' icc' sn hx
          simp only [Option.some.injEq, Place.built.injEq] at hx
          obtain ⟨-, -, rfl⟩ := hx
          refine ⟨allocations o, by rw [allocations_append']; rfl, ?_⟩
          rw [messages_append]
          simpa [messages] using h2
      · exact move i _ _ [] (by rw [hp]; simp) rfl plain (by simp)
    · exact same
  | push i accepted =>
    simp only [State.step]
    split
    · rename_i c icc serial hp
      obtain ⟨a, ha1, ha2⟩ := h3 i c icc serial hp
      split
      · have sub : ∀ (l : List (Obs E)) (id : UInt16), messages l = [buildMessage id c.body icc serial] → allocations l = [] →
            ((messages (o ++ l)).map (·.header.serial)).Sublist (allocations (o ++ l)) := by
          intro l id e1 e2
          rw [messages_append, allocations_append', e1, e2, List.append_nil, ha1, List.map_append]
          exact ha2.append (List.Sublist.refl _)
        split
        · exact move i _ _ _ (by rw [hp]; simp) rfl (sub _ _ rfl rfl) (by simp)
        · exact move i _ _ _ (by rw [hp]; simp) rfl (sub _ _ rfl rfl) (by simp)
        · exact same
      · exact move i _ _ _ (by rw [hp]; simp) rfl (only rfl rfl) (by simp)
    · exact same
  | add i =>
    simp only [State.step]
    split
    · rename_i c serial hp
      split
      · exact move i _ _ _ (by rw [hp]; simp) rfl (only rfl rfl) (by simp)
      · exact same
    · exact same
  | learn icc =>
    simp only [State.step]
    split
    · exact keep _ _ rfl rfl rfl
    · exact same
  | answer serial =>
    simp only [State.step]
    split
    · exact keep _ _ rfl rfl rfl
    · split
      · exact keep _ _ rfl rfl rfl
      · exact keep _ _ rfl rfl rfl

theorem Alone.run (C : BodyCodec E) (evs : List (Event E)) : ∀ {s : State E} {o : List (Obs E)}, Alone s o → OneAtATime C s evs →
    Alone (s.run C evs).1 (o ++ (s.run C evs).2) := by
  induction evs with
  | nil => intro s o h _; simpa [State.run] using h
  | cons ev evs ih =>
    intro s o h hc
    have := ih (h.step C ev hc.1) hc.2
    simpa [State.run, List.append_assoc] using this

theorem alone_run (C : BodyCodec E) (evs : List (Event E)) (h : OneAtATime C {} evs) :
    Alone (({} : State E).run C evs).1 (({} : State E).run C evs).2 := by
  have h0 : Alone ({} : State E) [] := ⟨fun i j hi => absurd rfl hi, List.Sublist.slnil, by simp⟩
  have := h0.run C evs h
  rwa [List.nil_append] at this

end Verif.Session
