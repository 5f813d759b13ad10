import Verif.Lemmas.Timer
import Verif.Spec.Timer
/-! # Histories of the timer refine the specifications -/

namespace Verif.Timer

open Spec

variable {K : Type} [DecidableEq K]

/-- The queue holds at most one element per key, the mapped one. -/
structure Seq (t : Timer K) : Prop extends Inv t where
  uniq : ∀ e ∈ t.q.items, t.mapper e.key = some e

/-- The deadlines the timer stands for. -/
def view (t : Timer K) : Countdown K := { period := t.seconds, deadline := fun k => (t.mapper k).map (·.expire) }

theorem seq_new (s : Int) : Seq (Timer.new s : Timer K) := ⟨inv_new s, by simp [Timer.new]⟩

theorem removeSection_seq (t : Timer K) (k : K) (h : Seq t) :
    ∃ t', t.removeSection k = .ok t' ∧ Seq t' ∧ view t' = (view t).put k none := by
  obtain ⟨t', r1, r2, r3, r4, r5, r6⟩ := removeSection_spec t k h.toInv
  refine ⟨t', r1, ⟨r2, ?_⟩, ?_⟩
  · intro e he
    obtain ⟨h1, h2⟩ := (r5 e).1 he
    have hu := h.uniq e h1
    rw [r6]
    unfold unmap
    rw [if_neg (fun hk => h2 (by rw [← hk]; exact hu))]
    exact hu
  · unfold view Countdown.put
    rw [r3, r6]
    congr 1
    funext x
    unfold unmap
    simp only
    split <;> rfl

theorem pushSection_seq (t : Timer K) (k : K) (d : Int) (h : Seq t) (hk : t.mapper k = none) :
    ∃ t', t.pushSection k d = .ok t' ∧ Seq t' ∧ view t' = (view t).put k (some d) := by
  obtain ⟨t', r1, r2, r3, r4, r5, r6⟩ := pushSection_spec t k d h.toInv
  refine ⟨t', r1, ⟨r2, ?_⟩, ?_⟩
  · intro e he
    rw [r6]
    rcases (r5 e).1 he with h' | rfl
    · have hu := h.uniq e h'
      simp only
      rw [if_neg (fun hx => by rw [hx, hk] at hu; simp at hu)]
      exact hu
    · simp
  · unfold view Countdown.put
    rw [r3, r6]
    congr 1
    funext x
    simp only
    split <;> rfl

theorem tick_seq (t : Timer K) (now : Int) (h : Seq t) :
    ∃ t' fired, t.tick now = .ok (t', fired) ∧ Seq t' ∧ Countdown.Tick (view t) now fired (view t') := by
  obtain ⟨t', fired, r1, r2, r3, r4, r5, r6, r7, r8, r9⟩ := tick_spec now t h.toInv
  refine ⟨t', _, r1, ⟨r2, ?_⟩, ?_⟩
  · intro e he
    obtain ⟨h1, h2⟩ := (r8 e).1 he
    have hu := h.uniq e h1
    rw [r9, if_neg]
    · exact hu
    · intro hm
      obtain ⟨e', m1, m2⟩ := List.mem_map.1 hm
      obtain ⟨h3, h4⟩ := (r7 e').1 m1
      have := h.uniq e' h3
      rw [m2, hu] at this
      obtain rfl := Option.some.inj this
      omega
  · have hkey : ∀ e ∈ fired, (view t).deadline e.key = some e.expire := by
      intro e he
      unfold view
      simp only
      rw [h.uniq e ((r7 e).1 he).1]
      rfl
    refine ⟨?_, ?_, ?_, r3, ?_⟩
    · intro k
      constructor
      · intro hm
        obtain ⟨e, m1, rfl⟩ := List.mem_map.1 hm
        exact ⟨e.expire, hkey e m1, ((r7 e).1 m1).2⟩
      · rintro ⟨d, h1, h2⟩
        unfold view at h1
        simp only at h1
        cases hm : t.mapper k with
        | none => rw [hm] at h1; simp at h1
        | some e =>
          rw [hm] at h1
          simp at h1
          have := h.map k e hm
          exact List.mem_map.2 ⟨e, (r7 e).2 ⟨this.1, by omega⟩, this.2⟩
    · unfold List.Nodup at r5 ⊢
      rw [List.pairwise_map]
      refine List.Pairwise.imp_of_mem ?_ r5
      intro a b ha hb hne hk
      have h1 := h.uniq a ((r7 a).1 ha).1
      have h2 := h.uniq b ((r7 b).1 hb).1
      rw [hk, h2] at h1
      exact hne (Option.some.inj h1).symm
    · rw [List.pairwise_map]
      refine List.Pairwise.imp_of_mem ?_ r6
      intro a b ha hb hle da db h1 h2
      rw [hkey a ha] at h1
      rw [hkey b hb] at h2
      have := Option.some.inj h1
      have := Option.some.inj h2
      omega
    · intro k
      unfold view
      simp only
      rw [r9 k]
      split <;> rfl

theorem setExpiration_view (t : Timer K) (s : Int) : view (t.setExpiration s) = (view t).setPeriod s := by
  unfold setExpiration Countdown.setPeriod
  split <;> rfl

theorem setExpiration_seq (t : Timer K) (s : Int) (h : Seq t) : Seq (t.setExpiration s) := by
  unfold setExpiration
  split
  · exact ⟨⟨h.ok, h.map, h.fresh⟩, h.uniq⟩
  · exact h

theorem setExpiration_inv (t : Timer K) (s : Int) (h : Inv t) : Inv (t.setExpiration s) := by
  unfold setExpiration
  split
  · exact ⟨h.ok, h.map, h.fresh⟩
  · exact h

theorem view_none {t : Timer K} {k : K} (h : (view t).deadline k = none) : t.mapper k = none := by
  unfold view at h
  simpa using h

theorem put_self (s : Countdown K) (k : K) (d : Option Int) : (s.put k d).deadline k = d := by simp [Countdown.put]

theorem put_put (s : Countdown K) (k : K) (d d' : Option Int) : (s.put k d).put k d' = s.put k d' := by
  unfold Countdown.put
  congr 1
  funext x
  simp only
  split <;> rfl

theorem deadline_dueAt (now p : Int) : deadline now p = dueAt now p := by
  unfold deadline dueAt Int.bmod
  simp only
  split <;> omega

/-- The deadline of clocks and periods whose sum fits 64 bits. -/
theorem dueAt_fits {now p : Int} (h1 : -2 ^ 63 ≤ now + p) (h2 : now + p < 2 ^ 63) : dueAt now p = now + p := by
  rw [← deadline_dueAt]
  unfold deadline
  omega

theorem update_seq (t : Timer K) (now : Int) (k : K) (h : Seq t) :
    ∃ t', t.update now k = .ok t' ∧ Seq t' ∧ view t' = (view t).put k (some (dueAt now (view t).period)) := by
  obtain ⟨t1, a1, a2, a3⟩ := removeSection_seq t k h
  obtain ⟨t2, b1, b2, b3⟩ := pushSection_seq t1 k (deadline now t.seconds) a2 (view_none (by rw [a3, put_self]))
  refine ⟨t2, ?_, b2, ?_⟩
  · unfold update; rw [a1]; exact b1
  · rw [b3, a3, put_put, deadline_dueAt]; rfl

theorem apply_seq (t : Timer K) (op : Op K) (h : Seq t) :
    ∃ t' f, t.apply op = .ok (t', f) ∧ Seq t' ∧ Countdown.Step (view t) op f (view t') := by
  cases op with
  | update now k =>
    obtain ⟨t', a1, a2, a3⟩ := update_seq t now k h
    exact ⟨t', [], by simp [apply, a1], a2, rfl, a3⟩
  | remove k =>
    obtain ⟨t', a1, a2, a3⟩ := removeSection_seq t k h
    exact ⟨t', [], by simp [apply, a1], a2, rfl, a3⟩
  | setExpiration s => exact ⟨t.setExpiration s, [], rfl, setExpiration_seq t s h, rfl, setExpiration_view t s⟩
  | tick now =>
    obtain ⟨t', f, a1, a2, a3⟩ := tick_seq t now h
    exact ⟨t', f, a1, a2, a3⟩

theorem run_seq (ops : List (Op K)) (t : Timer K) (h : Seq t) :
    ∃ t' fs, t.run ops = .ok (t', fs) ∧ Seq t' ∧ Countdown.Behaves (view t) ops fs := by
  induction ops generalizing t with
  | nil => exact ⟨t, [], rfl, h, rfl⟩
  | cons op ops ih =>
    obtain ⟨t1, f, a1, a2, a3⟩ := apply_seq t op h
    obtain ⟨t2, fs, b1, b2, b3⟩ := ih t1 a2
    exact ⟨t2, f :: fs, by simp [run, a1, b1], b2, _, a3, b3⟩

/-! Schedules with one updater per key. -/

/-- What holds between the steps of a schedule with one updater per key. -/
structure Owned (owner : K → Nat) (c : Threads K) : Prop where
  seq : Seq c.timer
  built : ∀ i k d, c.place i = some (.built k d) → i = owner k
  erased : ∀ i k d, c.place i = some (.erased k d) → i = owner k ∧ c.timer.mapper k = none

/-- The specification state of a schedule. -/
def Threads.view (c : Threads K) : Shared K := { c := Timer.view c.timer, place := c.place }

theorem mapper_of_view {t : Timer K} {k : K} : t.mapper k = none ↔ (Timer.view t).deadline k = none := by
  unfold Timer.view; simp

theorem step_owned (owner : K → Nat) (c : Threads K) (ev : Event K) (h : Owned owner c)
    (hev : ∀ i k now, ev = .begin i k now → i = owner k) :
    ∃ c' f, c.step ev = .ok (c', f) ∧ Owned owner c' ∧ Shared.Step c.view ev f c'.view := by
  cases ev with
  | begin i k now =>
    have hi := hev i k now rfl
    cases hp : c.place i with
    | none =>
      refine ⟨{ c with place := goto c.place i (some (.built k (deadline now c.timer.seconds))) }, [], by simp [Threads.step, hp], ⟨h.seq, ?_, ?_⟩, rfl, ?_⟩
      · intro j k' d' hj
        simp only [goto] at hj
        split at hj
        · rename_i hji
          simp at hj
          rw [← hj.1, hji]; exact hi
        · exact h.built j k' d' hj
      · intro j k' d' hj
        simp only [goto] at hj
        split at hj
        · simp at hj
        · exact h.erased j k' d' hj
      · simp only [Threads.view, hp]
        rw [deadline_dueAt]; rfl
    | some x =>
      refine ⟨c, [], by simp [Threads.step, hp], h, rfl, ?_⟩
      simp only [Threads.view, hp]
  | erase i =>
    have other : (∀ k d, c.place i ≠ some (.built k d)) → ∃ c' f, c.step (.erase i) = .ok (c', f) ∧ Owned owner c' ∧
        Shared.Step c.view (.erase i) f c'.view := by
      intro hne
      refine ⟨c, [], ?_, h, rfl, ?_⟩
      · unfold Threads.step; split <;> first | rfl | simp_all
      · simp only [Threads.view] <;> split <;> simp_all
    cases hp : c.place i with
    | none => exact other (by simp [hp])
    | some x =>
      cases x with
      | erased k d => exact other (by simp [hp])
      | built k d =>
        obtain ⟨t', a1, a2, a3⟩ := removeSection_seq c.timer k h.seq
        have hmap : ∀ x, (x = k ∨ c.timer.mapper x = none) → t'.mapper x = none := by
          intro x hx
          rw [mapper_of_view, a3]
          unfold Countdown.put
          simp only
          split
          · rfl
          · rename_i hne
            rcases hx with hx | hx
            · exact absurd hx hne
            · exact mapper_of_view.1 hx
        refine ⟨{ timer := t', place := goto c.place i (some (.erased k d)) }, [], by simp [Threads.step, hp, a1], ⟨a2, ?_, ?_⟩, rfl, ?_⟩
        · intro j k' d' hj
          simp only [goto] at hj
          split at hj
          · simp at hj
          · exact h.built j k' d' hj
        · intro j k' d' hj
          simp only [goto] at hj
          split at hj
          · rename_i hji
            simp at hj
            obtain ⟨rfl, rfl⟩ := hj
            rw [hji]
            exact ⟨h.built i _ _ hp, hmap _ (.inl rfl)⟩
          · have := h.erased j k' d' hj
            exact ⟨this.1, hmap _ (.inr this.2)⟩
        · simp only [Threads.view, hp, a3]
          rfl
  | insert i =>
    have other : (∀ k d, c.place i ≠ some (.erased k d)) → ∃ c' f, c.step (.insert i) = .ok (c', f) ∧ Owned owner c' ∧
        Shared.Step c.view (.insert i) f c'.view := by
      intro hne
      refine ⟨c, [], ?_, h, rfl, ?_⟩
      · unfold Threads.step; split <;> first | rfl | simp_all
      · simp only [Threads.view] <;> split <;> simp_all
    cases hp : c.place i with
    | none => exact other (by simp [hp])
    | some x =>
      cases x with
      | built k d => exact other (by simp [hp])
      | erased k d =>
        have hk := h.erased i k d hp
        obtain ⟨t', a1, a2, a3⟩ := pushSection_seq c.timer k d h.seq hk.2
        refine ⟨{ timer := t', place := goto c.place i none }, [], by simp [Threads.step, hp, a1], ⟨a2, ?_, ?_⟩, rfl, ?_⟩
        · intro j k' d' hj
          simp only [goto] at hj
          split at hj
          · simp at hj
          · exact h.built j k' d' hj
        · intro j k' d' hj
          simp only [goto] at hj
          split at hj
          · simp at hj
          · rename_i hne
            have := h.erased j k' d' hj
            refine ⟨this.1, ?_⟩
            rw [mapper_of_view, a3]
            unfold Countdown.put
            simp only
            rw [if_neg]
            · exact mapper_of_view.1 this.2
            · rintro rfl
              exact hne (this.1.trans hk.1.symm)
        · simp only [Threads.view, hp, a3]
          rfl
  | remove k =>
    obtain ⟨t', a1, a2, a3⟩ := removeSection_seq c.timer k h.seq
    refine ⟨{ c with timer := t' }, [], by simp [Threads.step, a1], ⟨a2, h.built, ?_⟩, rfl, by simp [Threads.view, a3]⟩
    intro j k' d' hj
    have := h.erased j k' d' hj
    refine ⟨this.1, ?_⟩
    simp only
    rw [mapper_of_view, a3]
    unfold Countdown.put
    simp only
    split
    · rfl
    · exact mapper_of_view.1 this.2
  | setExpiration s =>
    refine ⟨_, [], rfl, ⟨setExpiration_seq _ _ h.seq, h.built, ?_⟩, rfl, by simp [Threads.view, setExpiration_view]⟩
    intro j k' d' hj
    have := h.erased j k' d' hj
    refine ⟨this.1, ?_⟩
    simp only [setExpiration]
    split <;> exact this.2
  | tick now =>
    obtain ⟨t', f, a1, a2, a3⟩ := tick_seq c.timer now h.seq
    refine ⟨{ c with timer := t' }, f, by simp [Threads.step, a1], ⟨a2, h.built, ?_⟩, rfl, a3⟩
    intro j k' d' hj
    have := h.erased j k' d' hj
    refine ⟨this.1, ?_⟩
    simp only
    rw [mapper_of_view, a3.rest]
    split
    · rfl
    · exact mapper_of_view.1 this.2

theorem run_owned (owner : K → Nat) (evs : List (Event K)) (c : Threads K) (h : Owned owner c)
    (hev : ∀ i k now, Event.begin i k now ∈ evs → i = owner k) :
    ∃ c' fs, c.run evs = .ok (c', fs) ∧ Shared.Behaves c.view evs fs := by
  induction evs generalizing c with
  | nil => exact ⟨c, [], rfl, rfl⟩
  | cons ev evs ih =>
    obtain ⟨c1, f, a1, a2, a3⟩ := step_owned owner c ev h (fun i k now he => hev i k now (by simp [he]))
    obtain ⟨c2, fs, b1, b2⟩ := ih c1 a2 (fun i k now he => hev i k now (by simp [he]))
    exact ⟨c2, f :: fs, by simp [Threads.run, a1, b1], _, a3, b2⟩

/-! Arbitrary schedules. -/

/-- The specification state `s` describes the timer and its goroutines. -/
structure Bagged (s : Bag K) (c : Threads K) : Prop where
  inv : Inv c.timer
  period : s.period = c.timer.seconds
  live : ∀ i k d, s.live i = some (k, d) ↔ (⟨i, k, d⟩ : Entry K) ∈ c.timer.q.items
  latest : ∀ k, s.latest k = (c.timer.mapper k).map (·.id)
  count : s.count = c.timer.next
  place : s.place = c.place

theorem Inv.same_id {t : Timer K} (h : Inv t) {a b : Entry K} (ha : a ∈ t.q.items) (hb : b ∈ t.q.items) (hid : a.id = b.id) : a = b := by
  obtain ⟨i, hi⟩ := List.mem_iff_getElem?.1 ha
  obtain ⟨j, hj⟩ := List.mem_iff_getElem?.1 hb
  exact (Queue.idx_inj h.ok.idx hi hj hid).2

theorem bagged_cancel (s : Bag K) (c : Threads K) (k : K) (h : Bagged s c) :
    ∃ t', c.timer.removeSection k = .ok t' ∧ Bagged (s.cancel k) { c with timer := t' } := by
  obtain ⟨t', r1, r2, r3, r4, r5, r6⟩ := removeSection_spec c.timer k h.inv
  refine ⟨t', r1, r2, by simp [Bag.cancel, h.period, r3], ?_, ?_, by simp [Bag.cancel, h.count, r4], h.place⟩
  · intro i k' d
    simp only [Bag.cancel]
    rw [r5, ← h.live i k' d]
    constructor
    · intro hs
      split at hs
      · simp at hs
      · rename_i hne
        refine ⟨hs, ?_⟩
        intro hm
        rw [h.latest, hm] at hne
        exact hne rfl
    · rintro ⟨hs, hm⟩
      rw [if_neg]
      · exact hs
      · intro hl
        rw [h.latest] at hl
        cases hmk : c.timer.mapper k with
        | none => rw [hmk] at hl; simp at hl
        | some e =>
          rw [hmk] at hl
          simp at hl
          have := h.inv.same_id (h.inv.map k e hmk).1 ((h.live i k' d).1 hs) hl
          exact hm (by rw [hmk, this])
  · intro x
    simp only [Bag.cancel, r6, unmap]
    split
    · rfl
    · exact h.latest x

theorem bagged_start (s : Bag K) (c : Threads K) (k : K) (d : Int) (h : Bagged s c) :
    ∃ t', c.timer.pushSection k d = .ok t' ∧ Bagged (s.start k d) { c with timer := t' } := by
  obtain ⟨t', r1, r2, r3, r4, r5, r6⟩ := pushSection_spec c.timer k d h.inv
  refine ⟨t', r1, r2, by simp [Bag.start, h.period, r3], ?_, ?_, by simp [Bag.start, h.count, r4], h.place⟩
  · intro i k' d'
    simp only [Bag.start]
    rw [r5, ← h.live i k' d', h.count]
    split
    · rename_i hi
      subst hi
      constructor
      · intro hs; simp at hs; right; simp [hs]
      · rintro (hs | hs)
        · have := h.inv.fresh _ ((h.live _ k' d').1 hs)
          simp at this
        · simp at hs; simp [hs]
    · rename_i hi
      constructor
      · exact .inl
      · rintro (hs | hs)
        · exact hs
        · simp at hs; exact absurd hs.1 hi
  · intro x
    simp only [Bag.start, r6]
    split
    · simp [h.count]
    · exact h.latest x

theorem bagged_tick (s : Bag K) (c : Threads K) (now : Int) (h : Bagged s c) :
    ∃ t' f s' ended, c.timer.tick now = .ok (t', f) ∧ Bag.Tick s now f s' ended ∧ Bagged s' { c with timer := t' } := by
  obtain ⟨t', fired, r1, r2, r3, r4, r5, r6, r7, r8, r9⟩ := tick_spec now c.timer h.inv
  have hids : ∀ i, i ∈ ((fired.map fun e => (e.id, e.key, e.expire)).map fun e => e.1) ↔ ∃ e ∈ fired, e.id = i := by
    intro i; simp
  refine ⟨t', _, { s with live := fun i => if i ∈ ((fired.map fun e => (e.id, e.key, e.expire)).map fun e => e.1) then none else s.live i
                          latest := fun k => if k ∈ fired.map Entry.key then none else s.latest k },
    fired.map fun e => (e.id, e.key, e.expire), r1, ⟨?_, ?_, ?_, ?_, fun _ => rfl, fun _ => rfl, rfl, rfl, rfl⟩,
    ⟨r2, by simp [h.period, r3], ?_, ?_, by simp [h.count, r4], h.place⟩⟩
  · simp [List.map_map, Function.comp_def]
  · intro i k d
    rw [h.live, List.mem_map]
    constructor
    · rintro ⟨e, m1, m2⟩
      simp at m2
      obtain ⟨rfl, rfl, rfl⟩ := m2
      exact (r7 e).1 m1
    · intro hm
      exact ⟨_, (r7 _).2 hm, rfl⟩
  · rw [List.map_map]
    unfold List.Nodup at r5 ⊢
    rw [List.pairwise_map]
    refine List.Pairwise.imp_of_mem ?_ r5
    intro a b ha hb hne hid
    exact hne (h.inv.same_id ((r7 a).1 ha).1 ((r7 b).1 hb).1 hid)
  · rw [List.pairwise_map]
    exact r6
  · intro i k d
    simp only
    rw [r8, ← h.live i k d]
    show _ ↔ _ ∧ now < d
    split
    · rename_i hi
      obtain ⟨e, m1, m2⟩ := (hids i).1 hi
      constructor
      · simp
      · rintro ⟨hs, hd⟩
        have := h.inv.same_id ((r7 e).1 m1).1 ((h.live i k d).1 hs) m2
        have h2 := ((r7 e).1 m1).2
        rw [this] at h2
        simp only at h2
        omega
    · rename_i hi
      constructor
      · intro hs
        refine ⟨hs, ?_⟩
        apply Classical.byContradiction
        intro hd
        exact hi ((hids i).2 ⟨⟨i, k, d⟩, (r7 _).2 ⟨(h.live i k d).1 hs, by show d ≤ now; omega⟩, rfl⟩)
      · exact fun hs => hs.1
  · intro k
    simp only
    rw [r9]
    split
    · rfl
    · exact h.latest k

theorem step_bagged (s : Bag K) (c : Threads K) (ev : Event K) (h : Bagged s c) :
    ∃ c' f s', c.step ev = .ok (c', f) ∧ Bagged s' c' ∧ Bag.Step s ev f s' := by
  cases ev with
  | begin i k now =>
    cases hp : c.place i with
    | none =>
      exact ⟨{ c with place := goto c.place i (some (.built k (deadline now c.timer.seconds))) }, [], { s with place := fun j => if j = i then some (.built k (dueAt now s.period)) else s.place j },
        by simp [Threads.step, hp], ⟨h.inv, h.period, h.live, h.latest, h.count, by simp [h.place, h.period, goto, deadline_dueAt]; rfl⟩, rfl,
        by simp [h.place, hp]⟩
    | some x => exact ⟨c, [], s, by simp [Threads.step, hp], h, rfl, by simp [h.place, hp]⟩
  | erase i =>
    have other : (∀ k d, c.place i ≠ some (.built k d)) → ∃ c' f s', c.step (.erase i) = .ok (c', f) ∧ Bagged s' c' ∧
        Bag.Step s (.erase i) f s' := by
      intro hne
      refine ⟨c, [], s, ?_, h, rfl, ?_⟩
      · unfold Threads.step; split <;> first | rfl | simp_all
      · rw [h.place]; split <;> simp_all
    cases hp : c.place i with
    | none => exact other (by simp [hp])
    | some x =>
      cases x with
      | erased k d => exact other (by simp [hp])
      | built k d =>
        obtain ⟨t', a1, a2⟩ := bagged_cancel s c k h
        exact ⟨{ timer := t', place := goto c.place i (some (.erased k d)) }, [], { s.cancel k with place := fun j => if j = i then some (.erased k d) else s.place j },
          by simp [Threads.step, hp, a1], ⟨a2.inv, a2.period, a2.live, a2.latest, a2.count, by simp [h.place, goto]; rfl⟩, rfl,
          by simp [h.place, hp]⟩
  | insert i =>
    have other : (∀ k d, c.place i ≠ some (.erased k d)) → ∃ c' f s', c.step (.insert i) = .ok (c', f) ∧ Bagged s' c' ∧
        Bag.Step s (.insert i) f s' := by
      intro hne
      refine ⟨c, [], s, ?_, h, rfl, ?_⟩
      · unfold Threads.step; split <;> first | rfl | simp_all
      · rw [h.place]; split <;> simp_all
    cases hp : c.place i with
    | none => exact other (by simp [hp])
    | some x =>
      cases x with
      | built k d => exact other (by simp [hp])
      | erased k d =>
        obtain ⟨t', a1, a2⟩ := bagged_start s c k d h
        exact ⟨{ timer := t', place := goto c.place i none }, [], { s.start k d with place := fun j => if j = i then none else s.place j },
          by simp [Threads.step, hp, a1], ⟨a2.inv, a2.period, a2.live, a2.latest, a2.count, by simp [h.place, goto]; rfl⟩, rfl,
          by simp [h.place, hp]⟩
  | remove k =>
    obtain ⟨t', a1, a2⟩ := bagged_cancel s c k h
    exact ⟨{ c with timer := t' }, [], s.cancel k, by simp [Threads.step, a1], a2, rfl, rfl⟩
  | setExpiration p =>
    refine ⟨_, [], if p > 0 then { s with period := p } else s, rfl, ?_, rfl, rfl⟩
    have hi := setExpiration_inv c.timer p h.inv
    unfold setExpiration at hi ⊢
    split at hi
    · rename_i hp
      simp only [hp, if_true]
      exact ⟨hi, rfl, h.live, h.latest, h.count, h.place⟩
    · rename_i hp
      simp only [hp, if_false]
      exact h
  | tick now =>
    obtain ⟨t', f, s', ended, a1, a2, a3⟩ := bagged_tick s c now h
    exact ⟨{ c with timer := t' }, f, s', by simp [Threads.step, a1], a3, ended, a2⟩

theorem run_bagged (evs : List (Event K)) (s : Bag K) (c : Threads K) (h : Bagged s c) :
    ∃ c' fs, c.run evs = .ok (c', fs) ∧ Bag.Behaves s evs fs := by
  induction evs generalizing c s with
  | nil => exact ⟨c, [], rfl, rfl⟩
  | cons ev evs ih =>
    obtain ⟨c1, f, s1, a1, a2, a3⟩ := step_bagged s c ev h
    obtain ⟨c2, fs, b1, b2⟩ := ih s1 c1 a2
    exact ⟨c2, f :: fs, by simp [Threads.run, a1, b1], _, a3, b2⟩

theorem bagged_new (p : Int) : Bagged ({ period := p } : Bag K) { timer := Timer.new p } :=
  ⟨inv_new p, rfl, by simp [Timer.new], by simp [Timer.new], rfl, rfl⟩

end Verif.Timer
