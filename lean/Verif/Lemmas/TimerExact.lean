import Verif.Lemmas.TimerRun
/-! # Schedules in which no `Update` is disturbed by another one of its key -/

namespace Verif.Timer
open Spec

variable {K : Type} [DecidableEq K]

theorem nodup_map_inj {α β : Type} (f : α → β) (l : List α) (h : (l.map f).Nodup) : ∀ a ∈ l, ∀ b ∈ l, f a = f b → a = b := by
  induction l with
  | nil => simp
  | cons x l ih =>
    simp only [List.map_cons, List.nodup_cons, List.mem_map, not_exists, not_and] at h
    intro a ha b hb e
    rcases List.mem_cons.1 ha with rfl | ha <;> rcases List.mem_cons.1 hb with rfl | hb
    · rfl
    · exact absurd e.symm (h.1 b hb)
    · exact absurd e (h.1 a ‹_›)
    · exact ih h.2 a ha b hb e

/-- Numbers are given out in turn, and a key remembers a countdown of its own that runs. -/
structure BagOK (b : Bag K) : Prop where
  below : ∀ id k d, b.live id = some (k, d) → id < b.count
  latest : ∀ k id, b.latest k = some id → ∃ d, b.live id = some (k, d)

/-- The deadlines are those of the remembered countdowns. -/
structure BagShows (b : Bag K) (t : Shared K) : Prop where
  place : t.place = b.place
  period : t.c.period = b.period
  deadline : ∀ k d, t.c.deadline k = some d ↔ ∃ id, b.latest k = some id ∧ b.live id = some (k, d)

/-- The marks agree. -/
structure BagMarks (b : Bag K) (m : Marks K) : Prop where
  place : ∀ i, m.place i = (b.place i).map fun | .built k _ => (k, false) | .erased k _ => (k, true)
  running : ∀ k, m.running k = (b.latest k).isSome

/-- A countdown runs that its key does not remember. -/
def Stray (b : Bag K) : Prop := ∃ id k d, b.live id = some (k, d) ∧ b.latest k ≠ some id

theorem BagOK.cancel {b : Bag K} (h : BagOK b) (k : K) : BagOK (b.cancel k) := by
  refine ⟨fun id k' d e => ?_, fun k' id e => ?_⟩
  · simp only [Bag.cancel] at e
    split at e
    · cases e
    · exact h.below id k' d e
  · simp only [Bag.cancel] at e ⊢
    split at e
    · cases e
    · next hne =>
      obtain ⟨d, hd⟩ := h.latest k' id e
      refine ⟨d, ?_⟩
      rw [if_neg, hd]
      intro e'
      obtain ⟨d', hd'⟩ := h.latest k id e'
      rw [hd] at hd'
      cases hd'
      exact hne rfl

theorem BagOK.start {b : Bag K} (h : BagOK b) (k : K) (d : Int) : BagOK (b.start k d) := by
  refine ⟨fun id k' d' e => ?_, fun k' id e => ?_⟩
  · simp only [Bag.start] at e ⊢
    split at e
    · next hi => omega
    · have := h.below id k' d' e; omega
  · simp only [Bag.start] at e ⊢
    split at e
    · next hk =>
      cases e
      subst hk
      exact ⟨d, by simp⟩
    · obtain ⟨d', hd⟩ := h.latest k' id e
      have := h.below id k' d' hd
      exact ⟨d', by rw [if_neg (by omega), hd]⟩

theorem BagOK.tick {b b' : Bag K} (h : BagOK b) {now : Int} {fired : List K} {ended : List (Nat × K × Int)} (ht : Bag.Tick b now fired b' ended) : BagOK b' := by
  refine ⟨fun id k d e => ?_, fun k id e => ?_⟩
  · rw [ht.live] at e
    split at e
    · cases e
    · rw [ht.same.2.1]; exact h.below id k d e
  · rw [ht.latest] at e
    split at e
    · cases e
    · next hk =>
      obtain ⟨d, hd⟩ := h.latest k id e
      refine ⟨d, ?_⟩
      rw [ht.live, if_neg, hd]
      intro hm
      obtain ⟨⟨i, k', d'⟩, hm', rfl⟩ := List.mem_map.1 hm
      have := ((ht.exact _ _ _).1 hm').1
      rw [hd] at this
      cases this
      exact hk (by rw [ht.keys]; exact List.mem_map.2 ⟨_, hm', rfl⟩)

theorem bag_next {b b' : Bag K} {m : Marks K} {ev : Event K} {f : List K} (h : BagOK b) (hm : BagMarks b m) (hs : Bag.Step b ev f b') :
    BagOK b' ∧ BagMarks b' (m.next ev f) := by
  cases ev with
  | begin i k now =>
    obtain ⟨-, rfl⟩ := hs
    have hp := hm.place i
    cases e : b.place i with
    | none =>
      rw [e] at hp
      simp only [Option.map_none] at hp
      refine ⟨⟨h.below, h.latest⟩, ?_, ?_⟩ <;> simp only [Marks.next, hp]
      · intro j
        by_cases hj : j = i
        · simp [hj]
        · simpa [hj] using hm.place j
      · exact hm.running
    | some x =>
      rw [e] at hp
      refine ⟨h, ?_⟩
      simp only [Marks.next, hp, Option.map_some]
      exact hm
  | erase i =>
    obtain ⟨-, rfl⟩ := hs
    have hp := hm.place i
    cases e : b.place i with
    | none =>
      rw [e] at hp
      simp only [Option.map_none] at hp
      exact ⟨h, by simp only [Marks.next, hp]; exact hm⟩
    | some x =>
      rw [e] at hp
      cases x with
      | erased k d =>
        simp only [Option.map_some] at hp
        exact ⟨h, by simp only [Marks.next, hp]; exact hm⟩
      | built k d =>
        simp only [Option.map_some] at hp
        have hc := h.cancel k
        refine ⟨⟨hc.below, hc.latest⟩, ?_, ?_⟩ <;> simp only [Marks.next, hp]
        · intro j
          by_cases hj : j = i
          · simp [hj]
          · simpa [hj] using hm.place j
        · intro x
          simp only [Bag.cancel]
          split
          · rfl
          · exact hm.running x
  | insert i =>
    obtain ⟨-, rfl⟩ := hs
    have hp := hm.place i
    cases e : b.place i with
    | none =>
      rw [e] at hp
      simp only [Option.map_none] at hp
      exact ⟨h, by simp only [Marks.next, hp]; exact hm⟩
    | some x =>
      rw [e] at hp
      cases x with
      | built k d =>
        simp only [Option.map_some] at hp
        exact ⟨h, by simp only [Marks.next, hp]; exact hm⟩
      | erased k d =>
        simp only [Option.map_some] at hp
        have hc := h.start k d
        refine ⟨⟨hc.below, hc.latest⟩, ?_, ?_⟩ <;> simp only [Marks.next, hp]
        · intro j
          by_cases hj : j = i
          · simp [hj]
          · simpa [hj] using hm.place j
        · intro x
          simp only [Bag.start]
          split
          · rfl
          · exact hm.running x
  | remove k =>
    obtain ⟨-, rfl⟩ := hs
    refine ⟨h.cancel k, hm.place, fun x => ?_⟩
    simp only [Marks.next, Bag.cancel]
    split
    · rfl
    · exact hm.running x
  | setExpiration p =>
    obtain ⟨-, rfl⟩ := hs
    simp only [Marks.next]
    split
    · exact ⟨⟨h.below, h.latest⟩, hm.place, hm.running⟩
    · exact ⟨h, hm⟩
  | tick now =>
    obtain ⟨ended, ht⟩ := hs
    refine ⟨h.tick ht, fun i => ?_, fun x => ?_⟩
    · simp only [Marks.next]
      rw [ht.same.2.2]; exact hm.place i
    · simp only [Marks.next]
      rw [ht.latest]
      split
      · rfl
      · exact hm.running x

theorem BagShows.cancel {b : Bag K} {c : Countdown K} (hok : BagOK b) (h : ∀ k d, c.deadline k = some d ↔ ∃ id, b.latest k = some id ∧ b.live id = some (k, d)) (k : K) :
    ∀ x d, (c.put k none).deadline x = some d ↔ ∃ id, (b.cancel k).latest x = some id ∧ (b.cancel k).live id = some (x, d) := by
  intro x d
  simp only [Countdown.put, Bag.cancel]
  by_cases hx : x = k
  · simp [hx]
  · rw [if_neg hx, if_neg hx, h]
    constructor
    · rintro ⟨id, h1, h2⟩
      refine ⟨id, h1, ?_⟩
      rw [if_neg, h2]
      intro e
      obtain ⟨d', hd'⟩ := hok.latest k id e
      rw [h2] at hd'
      cases hd'
      exact hx rfl
    · rintro ⟨id, h1, h2⟩
      split at h2
      · cases h2
      · exact ⟨id, h1, h2⟩

theorem BagShows.start {b : Bag K} {c : Countdown K} (hok : BagOK b) (h : ∀ k d, c.deadline k = some d ↔ ∃ id, b.latest k = some id ∧ b.live id = some (k, d)) (k : K)
    (d : Int) :
    ∀ x y, (c.put k (some d)).deadline x = some y ↔ ∃ id, (b.start k d).latest x = some id ∧ (b.start k d).live id = some (x, y) := by
  intro x y
  simp only [Countdown.put, Bag.start]
  by_cases hx : x = k
  · subst hx
    simp
  · rw [if_neg hx, if_neg hx, h]
    constructor
    · rintro ⟨id, h1, h2⟩
      have := hok.below id x y h2
      exact ⟨id, h1, by rw [if_neg (by omega), h2]⟩
    · rintro ⟨id, h1, h2⟩
      obtain ⟨d', hd'⟩ := hok.latest x id h1
      have := hok.below id x d' hd'
      rw [if_neg (by omega)] at h2
      exact ⟨id, h1, h2⟩

theorem BagShows.tick {b b' : Bag K} {c c' : Countdown K} {now : Int} {fired : List K} {ended : List (Nat × K × Int)} (hok : BagOK b)
    (h : ∀ k d, c.deadline k = some d ↔ ∃ id, b.latest k = some id ∧ b.live id = some (k, d)) (ht : Bag.Tick b now fired b' ended)
    (hr : ∀ k, c'.deadline k = if k ∈ fired then none else c.deadline k) :
    ∀ k d, c'.deadline k = some d ↔ ∃ id, b'.latest k = some id ∧ b'.live id = some (k, d) := by
  intro k d
  rw [hr, ht.latest]
  by_cases hk : k ∈ fired
  · simp [hk]
  · rw [if_neg hk, if_neg hk, h]
    constructor
    · rintro ⟨id, h1, h2⟩
      refine ⟨id, h1, ?_⟩
      rw [ht.live, if_neg, h2]
      intro hm
      obtain ⟨⟨i, k', d'⟩, hm', rfl⟩ := List.mem_map.1 hm
      have := ((ht.exact _ _ _).1 hm').1
      rw [h2] at this
      cases this
      exact hk (by rw [ht.keys]; exact List.mem_map.2 ⟨_, hm', rfl⟩)
    · rintro ⟨id, h1, h2⟩
      rw [ht.live] at h2
      split at h2
      · cases h2
      · exact ⟨id, h1, h2⟩

/-- If no countdown runs that its key does not remember, and none comes to do so, a step is right. -/
theorem undisturbed_step {b b' : Bag K} {t : Shared K} {m : Marks K} {ev : Event K} {f : List K} (hok : BagOK b) (hsh : BagShows b t) (hm : BagMarks b m)
    (hno : ¬ Stray b) (hs : Bag.Step b ev f b') (hu : ∀ i k, ev = .insert i → m.place i = some (k, true) → m.running k = false) :
    ∃ t', Shared.Step t ev f t' ∧ BagShows b' t' ∧ ¬ Stray b' := by
  have hall : ∀ id k d, b.live id = some (k, d) → b.latest k = some id := fun id k d hl => Decidable.byContradiction fun hn => hno ⟨id, k, d, hl, hn⟩
  cases ev with
  | begin i k now =>
    obtain ⟨rfl, rfl⟩ := hs
    refine ⟨_, ⟨rfl, rfl⟩, ?_, ?_⟩
    · rw [hsh.place]
      cases b.place i with
      | none => exact ⟨by simp only [hsh.place, hsh.period], hsh.period, hsh.deadline⟩
      | some x => exact hsh
    · cases b.place i <;> exact hno
  | erase i =>
    obtain ⟨rfl, rfl⟩ := hs
    refine ⟨_, ⟨rfl, rfl⟩, ?_⟩
    rw [hsh.place]
    cases e : b.place i with
    | none => exact ⟨hsh, hno⟩
    | some x =>
      cases x with
      | erased k d => exact ⟨hsh, hno⟩
      | built k d =>
        refine ⟨⟨by simp only [hsh.place], hsh.period, BagShows.cancel hok hsh.deadline k⟩, ?_⟩
        rintro ⟨id, k', d', h1, h2⟩
        simp only [Bag.cancel] at h1 h2
        split at h1
        · cases h1
        · next hne =>
          have := hall id k' d' h1
          split at h2
          · next hk => subst hk; exact hne this
          · exact h2 this
  | insert i =>
    obtain ⟨rfl, rfl⟩ := hs
    refine ⟨_, ⟨rfl, rfl⟩, ?_⟩
    rw [hsh.place]
    cases e : b.place i with
    | none => exact ⟨hsh, hno⟩
    | some x =>
      cases x with
      | built k d => exact ⟨hsh, hno⟩
      | erased k d =>
        refine ⟨⟨by simp only [hsh.place], hsh.period, BagShows.start hok hsh.deadline k d⟩, ?_⟩
        have hr := hu i k rfl (by rw [hm.place, e]; rfl)
        rw [hm.running] at hr
        rintro ⟨id, k', d', h1, h2⟩
        simp only [Bag.start] at h1 h2
        split at h1
        · next hi =>
          cases h1
          simp [hi] at h2
        · have := hall id k' d' h1
          split at h2
          · next hk => subst hk; rw [this] at hr; cases hr
          · exact h2 this
  | remove k =>
    obtain ⟨rfl, rfl⟩ := hs
    refine ⟨_, ⟨rfl, rfl⟩, ⟨hsh.place, hsh.period, BagShows.cancel hok hsh.deadline k⟩, ?_⟩
    rintro ⟨id, k', d', h1, h2⟩
    simp only [Bag.cancel] at h1 h2
    split at h1
    · cases h1
    · next hne =>
      have := hall id k' d' h1
      split at h2
      · next hk => subst hk; exact hne this
      · exact h2 this
  | setExpiration p =>
    obtain ⟨rfl, rfl⟩ := hs
    refine ⟨_, ⟨rfl, rfl⟩, ?_⟩
    unfold Countdown.setPeriod
    split
    · exact ⟨⟨hsh.place, rfl, hsh.deadline⟩, hno⟩
    · exact ⟨hsh, hno⟩
  | tick now =>
    obtain ⟨ended, ht⟩ := hs
    have hr : ∀ k, ({ t.c with deadline := fun k => if k ∈ f then none else t.c.deadline k } : Countdown K).deadline k =
      if k ∈ f then none else t.c.deadline k := fun _ => rfl
    have hdue : ∀ id k d, (id, k, d) ∈ ended → t.c.deadline k = some d := by
      intro id k d hm
      have := ((ht.exact id k d).1 hm).1
      exact (hsh.deadline k d).2 ⟨id, hall id k d this, this⟩
    refine ⟨{ t with c := { t.c with deadline := fun k => if k ∈ f then none else t.c.deadline k } }, ⟨rfl, ?_⟩,
      ⟨by rw [ht.same.2.2]; exact hsh.place, by rw [ht.same.1]; exact hsh.period, BagShows.tick hok hsh.deadline ht hr⟩, ?_⟩
    · refine ⟨fun k => ?_, ?_, ?_, rfl, hr⟩
      · constructor
        · intro hk
          rw [ht.keys] at hk
          obtain ⟨⟨id, k', d⟩, hm, rfl⟩ := List.mem_map.1 hk
          exact ⟨d, hdue id k' d hm, ((ht.exact _ _ _).1 hm).2⟩
        · rintro ⟨d, hd, hle⟩
          obtain ⟨id, -, h2⟩ := (hsh.deadline k d).1 hd
          rw [ht.keys]
          exact List.mem_map.2 ⟨(id, k, d), (ht.exact id k d).2 ⟨h2, hle⟩, rfl⟩
      · rw [ht.keys]
        have hids := ht.once
        rw [List.Nodup, List.pairwise_map] at hids ⊢
        refine hids.imp_of_mem ?_
        rintro ⟨i, k, d⟩ ⟨j, k', d'⟩ hi hj hne rfl
        have h1 := hall i k d ((ht.exact _ _ _).1 hi).1
        have h2 := hall j k d' ((ht.exact _ _ _).1 hj).1
        rw [h1] at h2
        exact hne (Option.some.inj h2)
      · rw [ht.keys, List.pairwise_map]
        refine ht.ordered.imp_of_mem ?_
        rintro ⟨i, k, d⟩ ⟨j, k', d'⟩ hi hj hle da db ha hb
        rw [hdue i k d hi] at ha
        rw [hdue j k' d' hj] at hb
        cases ha
        cases hb
        exact hle
    · rintro ⟨id, k, d, h1, h2⟩
      rw [ht.live] at h1
      split at h1
      · cases h1
      · next hne =>
        have hl := hall id k d h1
        rw [ht.latest] at h2
        split at h2
        · next hk =>
          rw [ht.keys] at hk
          obtain ⟨⟨j, k', d'⟩, hm, rfl⟩ := List.mem_map.1 hk
          have := hall j k' d' ((ht.exact _ _ _).1 hm).1
          rw [hl] at this
          cases this
          exact hne (List.mem_map.2 ⟨_, hm, rfl⟩)
        · exact h2 hl

theorem undisturbed_behaves {evs : List (Event K)} {fs : List (List K)} {b : Bag K} {t : Shared K} {m : Marks K} (hok : BagOK b) (hsh : BagShows b t)
    (hm : BagMarks b m) (hno : ¬ Stray b) (hb : Bag.Behaves b evs fs) (hu : UpdatesApart m evs fs) : Shared.Behaves t evs fs := by
  induction evs generalizing fs b t m with
  | nil => exact hb
  | cons ev evs ih =>
    cases fs with
    | nil => exact hb
    | cons f fs =>
      obtain ⟨b', h1, h2⟩ := hb
      obtain ⟨hu1, hu2⟩ := hu
      obtain ⟨t', h3, h4, h5⟩ := undisturbed_step hok hsh hm hno h1 hu1
      obtain ⟨h6, h7⟩ := bag_next hok hm h1
      exact ⟨t', h3, ih h6 h4 h7 h5 h2 hu2⟩

/-- A countdown that its key does not remember does not fire as long as the timer is right. -/
theorem orphan_fires {b b' : Bag K} {t : Shared K} {c' : Countdown K} {now : Int} {f : List K} {ended : List (Nat × K × Int)} (hsh : BagShows b t)
    (ht : Bag.Tick b now f b' ended) (hc : Countdown.Tick t.c now f c') {id : Nat} {k : K} {d : Int} (hl : b.live id = some (k, d))
    (hn : b.latest k ≠ some id) : (id, k, d) ∉ ended := by
  intro hm
  have hk : k ∈ f := by rw [ht.keys]; exact List.mem_map.2 ⟨_, hm, rfl⟩
  obtain ⟨d2, h1, h2⟩ := (hc.exact k).1 hk
  obtain ⟨id2, h3, h4⟩ := (hsh.deadline k d2).1 h1
  have hm2 : (id2, k, d2) ∈ ended := (ht.exact _ _ _).2 ⟨h4, h2⟩
  have honce := hc.once
  rw [ht.keys] at honce
  have := nodup_map_inj _ _ honce _ hm _ hm2 rfl
  cases this
  exact hn h3

theorem orphan_step {b b' : Bag K} {t t' : Shared K} {ev : Event K} {f : List K} (hok : BagOK b) (hsh : BagShows b t)
    (hs : Bag.Step b ev f b') (ht : Shared.Step t ev f t') : BagShows b' t' ∧ (Stray b → Stray b') := by
  have hcancel : ∀ (k : K), Stray b → Stray (b.cancel k) := by
    rintro k ⟨id, k', d, h1, h2⟩
    refine ⟨id, k', d, ?_, ?_⟩
    · simp only [Bag.cancel]
      rw [if_neg, h1]
      intro e
      obtain ⟨d', hd'⟩ := hok.latest k id e
      rw [h1] at hd'
      cases hd'
      exact h2 e
    · simp only [Bag.cancel]
      split
      · simp
      · exact h2
  cases ev with
  | begin i k now =>
    obtain ⟨rfl, rfl⟩ := hs
    obtain ⟨-, rfl⟩ := ht
    rw [hsh.place]
    cases b.place i with
    | none => exact ⟨⟨by simp only [hsh.place, hsh.period], hsh.period, hsh.deadline⟩, id⟩
    | some x => exact ⟨hsh, id⟩
  | erase i =>
    obtain ⟨rfl, rfl⟩ := hs
    obtain ⟨-, rfl⟩ := ht
    rw [hsh.place]
    cases e : b.place i with
    | none => exact ⟨hsh, id⟩
    | some x =>
      cases x with
      | erased k d => exact ⟨hsh, id⟩
      | built k d => exact ⟨⟨by simp only [hsh.place], hsh.period, BagShows.cancel hok hsh.deadline k⟩, hcancel k⟩
  | insert i =>
    obtain ⟨rfl, rfl⟩ := hs
    obtain ⟨-, rfl⟩ := ht
    rw [hsh.place]
    cases e : b.place i with
    | none => exact ⟨hsh, id⟩
    | some x =>
      cases x with
      | built k d => exact ⟨hsh, id⟩
      | erased k d =>
        refine ⟨⟨by simp only [hsh.place], hsh.period, BagShows.start hok hsh.deadline k d⟩, ?_⟩
        rintro ⟨id, k', d', h1, h2⟩
        have := hok.below id k' d' h1
        refine ⟨id, k', d', ?_, ?_⟩
        · simp only [Bag.start]
          rw [if_neg (by omega), h1]
        · simp only [Bag.start]
          split
          · simp only [ne_eq, Option.some.injEq]; omega
          · exact h2
  | remove k =>
    obtain ⟨rfl, rfl⟩ := hs
    obtain ⟨-, rfl⟩ := ht
    exact ⟨⟨hsh.place, hsh.period, BagShows.cancel hok hsh.deadline k⟩, hcancel k⟩
  | setExpiration p =>
    obtain ⟨rfl, rfl⟩ := hs
    obtain ⟨-, rfl⟩ := ht
    unfold Countdown.setPeriod
    split
    · exact ⟨⟨hsh.place, rfl, hsh.deadline⟩, id⟩
    · exact ⟨hsh, id⟩
  | tick now =>
    obtain ⟨ended, hs⟩ := hs
    obtain ⟨hp, ht⟩ := ht
    refine ⟨⟨by rw [hs.same.2.2, hp]; exact hsh.place, by rw [hs.same.1, ht.period]; exact hsh.period, BagShows.tick hok hsh.deadline hs ht.rest⟩, ?_⟩
    rintro ⟨id, k, d, h1, h2⟩
    refine ⟨id, k, d, ?_, ?_⟩
    · rw [hs.live, if_neg, h1]
      intro hm
      obtain ⟨⟨i, k', d'⟩, hm', rfl⟩ := List.mem_map.1 hm
      have := ((hs.exact _ _ _).1 hm').1
      rw [h1] at this
      cases this
      exact orphan_fires hsh hs ht h1 h2 hm'
    · rw [hs.latest]
      split
      · simp
      · exact h2

/-- An `Update` that is disturbed leaves a countdown that its key does not remember. -/
theorem orphan_made {b b' : Bag K} {m : Marks K} {f : List K} {i : Nat} {k : K} (hok : BagOK b) (hm : BagMarks b m) (hs : Bag.Step b (.insert i) f b')
    (hp : m.place i = some (k, true)) (hr : m.running k = true) : Stray b' := by
  obtain ⟨-, rfl⟩ := hs
  rw [hm.place] at hp
  rw [hm.running] at hr
  cases e : b.place i with
  | none => rw [e] at hp; cases hp
  | some x =>
    rw [e] at hp
    cases x with
    | built k' d => simp at hp
    | erased k' d =>
      simp only [Option.map_some, Option.some.injEq, Prod.mk.injEq, and_true] at hp
      subst hp
      cases hl : b.latest k' with
      | none => rw [hl] at hr; cases hr
      | some id =>
        obtain ⟨d', hd'⟩ := hok.latest k' id hl
        have := hok.below id k' d' hd'
        refine ⟨id, k', d', ?_, ?_⟩
        · simp only [Bag.start]
          rw [if_neg (by omega), hd']
        · simp only [Bag.start, if_true, ne_eq, Option.some.injEq]
          omega

theorem bag_step_unique {b b1 b2 : Bag K} {ev : Event K} {f : List K} (h1 : Bag.Step b ev f b1) (h2 : Bag.Step b ev f b2) : b1 = b2 := by
  cases ev with
  | tick now =>
    obtain ⟨e1, h1⟩ := h1
    obtain ⟨e2, h2⟩ := h2
    have hl : ∀ id, b1.live id = b2.live id := by
      intro id
      rw [h1.live, h2.live]
      have : id ∈ e1.map (·.1) ↔ id ∈ e2.map (·.1) := by
        simp only [List.mem_map, Prod.exists]
        constructor
        · rintro ⟨i, k, d, hm, rfl⟩; exact ⟨i, k, d, (h2.exact _ _ _).2 ((h1.exact _ _ _).1 hm), rfl⟩
        · rintro ⟨i, k, d, hm, rfl⟩; exact ⟨i, k, d, (h1.exact _ _ _).2 ((h2.exact _ _ _).1 hm), rfl⟩
      simp only [this]
    have ha : b1.latest = b2.latest := funext fun k => by rw [h1.latest, h2.latest]
    obtain ⟨p1, c1, q1⟩ := h1.same
    obtain ⟨p2, c2, q2⟩ := h2.same
    cases b1
    cases b2
    simp only at *
    simp [p1, p2, c1, c2, q1, q2, ha, funext hl]
  | _ => exact h1.2.trans h2.2.symm

theorem shared_step_unique {b b1 b2 : Shared K} {ev : Event K} {f : List K} (h1 : Shared.Step b ev f b1) (h2 : Shared.Step b ev f b2) : b1 = b2 := by
  cases ev with
  | tick now =>
    obtain ⟨p1, h1⟩ := h1
    obtain ⟨p2, h2⟩ := h2
    have ha : b1.c.deadline = b2.c.deadline := funext fun k => by rw [h1.rest, h2.rest]
    have hp : b1.c.period = b2.c.period := by rw [h1.period, h2.period]
    cases b1 with | mk c1 q1 =>
    cases b2 with | mk c2 q2 =>
    cases c1
    cases c2
    simp only at *
    simp [p1, p2, ha, hp]
  | _ => exact h1.2.trans h2.2.symm

/-- With such a countdown, or after a disturbed `Update`, some tick at the end is wrong. -/
theorem disturbed_wrong {evs : List (Event K)} {fs : List (List K)} {b : Bag K} {t : Shared K} {m : Marks K} (hok : BagOK b) (hsh : BagShows b t)
    (hm : BagMarks b m) (hb : Bag.Behaves b evs fs) (ht : Shared.Behaves t evs fs) (hw : Stray b ∨ ¬ UpdatesApart m evs fs) :
    ∃ n, ∀ f, Bag.Behaves b (evs ++ [.tick n]) (fs ++ [f]) → ¬ Shared.Behaves t (evs ++ [.tick n]) (fs ++ [f]) := by
  induction evs generalizing fs b t m with
  | nil =>
    obtain rfl : fs = [] := hb
    rcases hw with ⟨id, k, d, h1, h2⟩ | hw
    · refine ⟨d, ?_⟩
      rintro f ⟨b', ⟨ended, hs⟩, -⟩ ⟨t', ⟨-, ht⟩, -⟩
      exact orphan_fires hsh hs ht h1 h2 ((hs.exact _ _ _).2 ⟨h1, Int.le_refl _⟩)
    · exact absurd trivial hw
  | cons ev evs ih =>
    cases fs with
    | nil => exact hb.elim
    | cons f fs =>
      obtain ⟨b', h1, h2⟩ := hb
      obtain ⟨t', h3, h4⟩ := ht
      obtain ⟨h5, h6⟩ := orphan_step hok hsh h1 h3
      obtain ⟨h7, h8⟩ := bag_next hok hm h1
      have hw' : Stray b' ∨ ¬ UpdatesApart (m.next ev f) evs fs := by
        rcases hw with hw | hw
        · exact .inl (h6 hw)
        · by_cases hu : UpdatesApart (m.next ev f) evs fs
          · left
            have : ¬ ∀ i k, ev = .insert i → m.place i = some (k, true) → m.running k = false := fun h => hw ⟨h, hu⟩
            obtain ⟨i, hi⟩ := Classical.not_forall.1 this
            obtain ⟨k, hk⟩ := Classical.not_forall.1 hi
            obtain ⟨he, hk⟩ := Classical.not_imp.1 hk
            obtain ⟨hp, hr⟩ := Classical.not_imp.1 hk
            subst he
            exact orphan_made hok hm h1 hp (by simpa using hr)
          · exact .inr hu
      obtain ⟨n, hn⟩ := ih h7 h5 h8 h2 h4 hw'
      refine ⟨n, fun g hB hT => ?_⟩
      obtain ⟨b2, hB1, hB2⟩ := hB
      obtain ⟨t2, hT1, hT2⟩ := hT
      rw [bag_step_unique hB1 h1] at hB2
      rw [shared_step_unique hT1 h3] at hT2
      exact hn g hB2 hT2

theorem bag_length (evs : List (Event K)) (s : Bag K) (fs : List (List K)) (h : Bag.Behaves s evs fs) : fs.length = evs.length := by
  induction evs generalizing s fs with
  | nil => obtain rfl : fs = [] := h; rfl
  | cons ev evs ih =>
    cases fs with
    | nil => exact h.elim
    | cons f fs =>
      obtain ⟨s', _, h'⟩ := h
      simp [ih s' fs h']

theorem shared_prefix (evs : List (Event K)) (fs : List (List K)) (more : List (Event K)) (rest : List (List K)) (t : Shared K)
    (h : Shared.Behaves t (evs ++ more) (fs ++ rest)) (hl : fs.length = evs.length) : Shared.Behaves t evs fs := by
  induction evs generalizing t fs with
  | nil =>
    cases fs with
    | nil => rfl
    | cons _ _ => simp at hl
  | cons ev evs ih =>
    cases fs with
    | nil => simp at hl
    | cons f fs =>
      obtain ⟨t', h1, h2⟩ := h
      exact ⟨t', h1, ih fs t' h2 (by simpa using hl)⟩

theorem apart_tick (evs : List (Event K)) (fs : List (List K)) (m : Marks K) (n : Int) (g : List K) (hl : fs.length = evs.length)
    (h : UpdatesApart m evs fs) : UpdatesApart m (evs ++ [.tick n]) (fs ++ [g]) := by
  induction evs generalizing m fs with
  | nil =>
    cases fs with
    | nil => exact ⟨by simp, trivial⟩
    | cons _ _ => simp at hl
  | cons ev evs ih =>
    cases fs with
    | nil => simp at hl
    | cons f fs => exact ⟨h.1, ih fs _ (by simpa using hl) h.2⟩

end Verif.Timer
