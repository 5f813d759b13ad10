import Verif.Lemmas.TimerRun
/-! # The countdown timer (C34, C35) -/

namespace Verif

open Timer Spec

variable {K : Type} [DecidableEq K]

/-- The fired keys of a run. -/
def firedKeys {α : Type} : Res (α × List (List K)) → List (List K)
  | .ok (_, fs) => fs
  | _ => []

/-- C34. Every sequential history of calls and ticks of a new timer completes without panic, and at every tick it fires exactly the
keys whose deadline has come, each once, earlier deadlines first. -/
theorem C34_refines (p : Int) (ops : List (Op K)) :
    ∃ t fs, (Timer.new p : Timer K).run ops = .ok (t, fs) ∧ Countdown.Behaves { period := p } ops fs := by
  obtain ⟨t, fs, h1, _, h3⟩ := run_seq ops (Timer.new p) (seq_new p)
  exact ⟨t, fs, h1, h3⟩

theorem run_append (a b : List (Op K)) (t t1 t2 : Timer K) (fs gs : List (List K)) (h1 : t.run a = .ok (t1, fs)) (h2 : t1.run b = .ok (t2, gs)) :
    t.run (a ++ b) = .ok (t2, fs ++ gs) := by
  induction a generalizing t fs with
  | nil => simp [Timer.run] at h1; obtain ⟨rfl, rfl⟩ := h1; simpa using h2
  | cons op a ih =>
    simp only [Timer.run, List.cons_append] at h1 ⊢
    cases h : t.apply op with
    | panic => simp [h] at h1
    | err e => simp [h] at h1
    | ok r =>
      obtain ⟨t', f⟩ := r
      simp only [h, Res.ok_bind] at h1 ⊢
      cases h' : t'.run a with
      | panic => simp [h'] at h1
      | err e => simp [h'] at h1
      | ok r =>
        obtain ⟨t'', fs'⟩ := r
        simp [h'] at h1
        obtain ⟨rfl, rfl⟩ := h1
        rw [ih t' _ h']
        simp

theorem run_length (a : List (Op K)) (s : Countdown K) (fs : List (List K)) (h : Countdown.Behaves s a fs) : fs.length = a.length := by
  induction a generalizing s fs with
  | nil => rw [Countdown.Behaves] at h; simp [h]
  | cons op a ih =>
    cases fs with
    | nil => exact h.elim
    | cons f fs =>
      obtain ⟨s', _, h'⟩ := h
      simp [ih s' fs h']

/-- A key without deadline does not fire and gets no deadline until it is updated. -/
theorem idle_key (k : K) (mid : List (Op K)) (s : Countdown K) (gs : List (List K)) (h : Countdown.Behaves s mid gs) (hk : s.deadline k = none)
    (hmid : ∀ now, Op.update now k ∉ mid) : ∀ g ∈ gs, k ∉ g := by
  induction mid generalizing s gs with
  | nil => rw [Countdown.Behaves] at h; simp [h]
  | cons op mid ih =>
    cases gs with
    | nil => exact h.elim
    | cons g gs =>
      obtain ⟨s', h1, h2⟩ := h
      have hm : ∀ now, Op.update now k ∉ mid := fun now hx => hmid now (by simp [hx])
      have main : k ∉ g ∧ s'.deadline k = none := by
        cases op with
        | update now k' =>
          obtain ⟨rfl, rfl⟩ := h1
          refine ⟨by simp, ?_⟩
          have : k ≠ k' := by rintro rfl; exact hmid now (by simp)
          simp [Countdown.put, this, hk]
        | remove k' =>
          obtain ⟨rfl, rfl⟩ := h1
          exact ⟨by simp, by simp [Countdown.put, hk]⟩
        | setExpiration p =>
          obtain ⟨rfl, rfl⟩ := h1
          refine ⟨by simp, ?_⟩
          unfold Countdown.setPeriod
          split <;> exact hk
        | tick now =>
          have hg : k ∉ g := by
            intro hx
            obtain ⟨d, h, _⟩ := (h1.exact k).1 hx
            rw [hk] at h; simp at h
          exact ⟨hg, by rw [h1.rest, if_neg hg, hk]⟩
      intro g' hg'
      rcases List.mem_cons.1 hg' with rfl | hg'
      · exact main.1
      · exact ih s' gs h2 main.2 hm g' hg'

/-- C34. After `Remove(k)` and until the next `Update(k)`, the key never fires. -/
theorem C34_removed_never_fires (p : Int) (pre mid : List (Op K)) (k : K) (hmid : ∀ now, Op.update now k ∉ mid) :
    ∃ t fs gs, (Timer.new p : Timer K).run (pre ++ .remove k :: mid) = .ok (t, fs ++ gs) ∧ fs.length = pre.length ∧ ∀ g ∈ gs, k ∉ g := by
  obtain ⟨t1, fs, a1, a2, a3⟩ := run_seq pre (Timer.new p) (seq_new p)
  obtain ⟨t2, b1, b2, b3⟩ := removeSection_seq t1 k a2
  obtain ⟨t3, gs, c1, c2, c3⟩ := run_seq mid t2 b2
  refine ⟨t3, fs, [] :: gs, run_append _ _ _ _ _ _ _ a1 ?_, run_length _ _ _ a3, ?_⟩
  · simp [Timer.run, Timer.apply, b1, c1]
  · intro g hg
    rcases List.mem_cons.1 hg with rfl | hg
    · simp
    · exact idle_key k mid _ gs c3 (by rw [b3, put_self]) hmid g hg

/-- The hypothesis is met by a history in which the removed key was due. -/
example : firedKeys ((Timer.new 10 : Timer String).run ([.update 0 "a", .update 1 "b"] ++ .remove "a" :: [.tick 10, .tick 11])) =
    [[], [], [], [], ["b"]] := by decide

theorem behaves_period (a : List (Op K)) (t t' : Timer K) (fs : List (List K)) (h : t.run a = .ok (t', fs)) (hs : Seq t) :
    (view t').period = periodAfter (view t).period a := by
  induction a generalizing t fs with
  | nil => simp [Timer.run] at h; rw [h.1]; rfl
  | cons op a ih =>
    obtain ⟨t1, f, a1, a2, a3⟩ := apply_seq t op hs
    simp only [Timer.run, a1, Res.ok_bind] at h
    cases h' : t1.run a with
    | panic => simp [h'] at h
    | err e => simp [h'] at h
    | ok r =>
      obtain ⟨t2, gs⟩ := r
      simp [h'] at h
      obtain ⟨rfl, rfl⟩ := h
      rw [ih t1 gs h' a2]
      cases op with
      | update now k => obtain ⟨_, h⟩ := a3; rw [h]; rfl
      | remove k => obtain ⟨_, h⟩ := a3; rw [h]; rfl
      | setExpiration s =>
        obtain ⟨_, h⟩ := a3
        rw [h]
        unfold Countdown.setPeriod
        rw [periodAfter]
        split <;> rfl
      | tick now => rw [a3.period]; rfl

/-- A key with a deadline keeps it until it is updated or removed or a tick at or after it. -/
theorem waiting_key (k : K) (d : Int) (mid : List (Op K)) (t t' : Timer K) (gs : List (List K)) (h : t.run mid = .ok (t', gs)) (hs : Seq t)
    (hk : (view t).deadline k = some d) (h1 : ∀ now, Op.update now k ∉ mid) (h2 : Op.remove k ∉ mid) (h3 : ∀ now, Op.tick now ∈ mid → now < d) :
    (∀ g ∈ gs, k ∉ g) ∧ (view t').deadline k = some d ∧ Seq t' := by
  induction mid generalizing t gs with
  | nil => simp [Timer.run] at h; obtain ⟨rfl, rfl⟩ := h; exact ⟨by simp, hk, hs⟩
  | cons op mid ih =>
    obtain ⟨t1, f, a1, a2, a3⟩ := apply_seq t op hs
    simp only [Timer.run, a1, Res.ok_bind] at h
    cases h' : t1.run mid with
    | panic => simp [h'] at h
    | err e => simp [h'] at h
    | ok r =>
      obtain ⟨t2, gs'⟩ := r
      simp [h'] at h
      obtain ⟨rfl, rfl⟩ := h
      have main : k ∉ f ∧ (view t1).deadline k = some d := by
        cases op with
        | update now k' =>
          obtain ⟨rfl, h⟩ := a3
          have : k ≠ k' := by rintro rfl; exact h1 now (by simp)
          exact ⟨by simp, by rw [h]; simp [Countdown.put, this, hk]⟩
        | remove k' =>
          obtain ⟨rfl, h⟩ := a3
          have : k ≠ k' := by rintro rfl; exact h2 (by simp)
          exact ⟨by simp, by rw [h]; simp [Countdown.put, this, hk]⟩
        | setExpiration p =>
          obtain ⟨rfl, h⟩ := a3
          refine ⟨by simp, ?_⟩
          rw [h]
          unfold Countdown.setPeriod
          split <;> exact hk
        | tick now =>
          have hlt := h3 now (by simp)
          have hg : k ∉ f := by
            intro hx
            obtain ⟨d', h, _⟩ := (a3.exact k).1 hx
            rw [hk] at h
            obtain rfl := Option.some.inj h
            omega
          exact ⟨hg, by rw [a3.rest, if_neg hg, hk]⟩
      obtain ⟨i1, i2, i3⟩ := ih t1 gs' h' a2 main.2 (fun now hx => h1 now (by simp [hx])) (fun hx => h2 (by simp [hx]))
        (fun now hx => h3 now (by simp [hx]))
      refine ⟨?_, i2, i3⟩
      intro g hg
      rcases List.mem_cons.1 hg with rfl | hg
      · exact main.1
      · exact i1 g hg

/-- C34. After `Update(k)` at time `now`, with no other call for `k` since, the key does not fire at ticks before its new deadline and
fires at the first tick at or after it, whatever earlier deadlines it had. Missing: sums of clock and period that do not fit 64 bits, see `C34_refuted`. -/
theorem C34_fires_at_new_deadline_partial (p : Int) (pre mid : List (Op K)) (k : K) (now n : Int)
    (hf : -2 ^ 63 ≤ now + periodAfter p pre ∧ now + periodAfter p pre < 2 ^ 63) (h1 : ∀ s, Op.update s k ∉ mid)
    (h2 : Op.remove k ∉ mid) (h3 : ∀ s, Op.tick s ∈ mid → s < now + periodAfter p pre) :
    ∃ t fs gs g, (Timer.new p : Timer K).run (pre ++ .update now k :: mid ++ [.tick n]) = .ok (t, fs ++ gs ++ [g]) ∧
      fs.length = pre.length ∧ (∀ g' ∈ gs, k ∉ g') ∧ (k ∈ g ↔ now + periodAfter p pre ≤ n) := by
  obtain ⟨t1, fs, a1, a2, a3⟩ := run_seq pre (Timer.new p) (seq_new p)
  obtain ⟨t2, b1, b2, b3⟩ := update_seq t1 now k a2
  obtain ⟨t3, gs, c1, c2, c3⟩ := run_seq mid t2 b2
  have hp := behaves_period pre _ _ _ a1 (seq_new p)
  have hd : (view t2).deadline k = some (now + periodAfter p pre) := by
    rw [b3, put_self, hp, ← dueAt_fits hf.1 hf.2]; rfl
  obtain ⟨w1, w2, w3⟩ := waiting_key k _ mid t2 t3 gs c1 b2 hd h1 h2 h3
  obtain ⟨t4, g, d1, d2, d3⟩ := tick_seq t3 n w3
  refine ⟨t4, fs, [] :: gs, g, ?_, run_length _ _ _ a3, ?_, ?_⟩
  · refine run_append _ _ _ t3 _ _ _ (run_append _ _ _ _ _ _ _ a1 ?_) ?_
    · simp [Timer.run, Timer.apply, b1, c1]
    · simp [Timer.run, Timer.apply, d1]
  · intro g' hg'
    rcases List.mem_cons.1 hg' with rfl | hg'
    · simp
    · exact w1 g' hg'
  · rw [d3.exact]
    constructor
    · rintro ⟨d, e1, e2⟩
      rw [w2] at e1
      obtain rfl := Option.some.inj e1
      exact e2
    · intro hle
      exact ⟨_, w2, hle⟩

/-- C34 is false of the code for huge periods: if the sum of the clock and of the period does not fit 64 bits, the key fires at the next tick, although
the period is not over. -/
theorem C34_refuted (p now n : Int) (k : K) (hp : p < 2 ^ 63) (ho : 2 ^ 63 ≤ now + p) (h64 : now < 2 ^ 63) (hn : now ≤ n) :
    ∃ t, (Timer.new p : Timer K).run [.update now k, .tick n] = .ok (t, [[], [k]]) := by
  have hd : dueAt now p ≤ n := by
    rw [← deadline_dueAt]
    unfold deadline
    omega
  obtain ⟨t1, b1, b2, b3⟩ := update_seq (Timer.new p) now k (seq_new p)
  obtain ⟨t2, g, d1, d2, d3⟩ := tick_seq t1 n b2
  refine ⟨t2, ?_⟩
  have hg : g = [k] := by
    have hm : ∀ x, x ∈ g ↔ x = k := by
      intro x
      rw [d3.exact, b3]
      by_cases hx : x = k
      · subst hx
        exact ⟨fun _ => rfl, fun _ => ⟨_, put_self _ _ _, hd⟩⟩
      · refine ⟨fun ⟨d, h, _⟩ => ?_, fun h => absurd h hx⟩
        simp [Countdown.put, hx, view, Timer.new] at h
    match g, d3.once, hm with
    | [], _, hm => exact absurd ((hm k).2 rfl) (by simp)
    | [x], _, hm => rw [(hm x).1 (by simp)]
    | x :: y :: g, hn, hm =>
      have h1 := (hm x).1 (by simp)
      have h2 := (hm y).1 (by simp)
      rw [List.nodup_cons] at hn
      exact absurd (by rw [h1, h2]; simp) hn.1
  simp [Timer.run, Timer.apply, b1, d1, hg]

/-- A period of 2^63 - 1 seconds, meant as "never": the key fires at once. -/
example : firedKeys ((Timer.new (2 ^ 63 - 1) : Timer String).run [.update 1600000000 "a", .tick 1600000000]) = [[], ["a"]] := by decide +kernel

/-- The hypotheses are met by a history in which the key is updated twice: it fires at the second deadline. -/
example : firedKeys ((Timer.new 10 : Timer String).run
      ([.update 0 "b", .update 0 "a", .setExpiration 20] ++ .update 5 "a" :: [.tick 10, .update 11 "c", .tick 24] ++ [.tick 31])) =
    [[], [], [], [], ["b"], [], [], ["a", "c"]] ∧
    periodAfter 10 ([.update 0 "b", .update 0 "a", .setExpiration 20] : List (Op String)) = 20 := by decide

/-- C35. If each key is updated by one goroutine only, as sessions do, then under every schedule of concurrent calls and ticks there is no
panic and every tick fires exactly the keys whose deadline has come, each once, earlier deadlines first. Missing for the full property:
several goroutines updating the same key, see `C35_refuted`. -/
theorem C35_one_updater_partial (p : Int) (evs : List (Event K)) (h : OneUpdater evs) :
    ∃ c fs, ({ timer := Timer.new p } : Threads K).run evs = .ok (c, fs) ∧ Shared.Behaves { c := { period := p } } evs fs := by
  obtain ⟨owner, ho⟩ := h
  exact run_owned owner evs { timer := Timer.new p } ⟨seq_new p, by simp, by simp⟩ ho

/-- The hypothesis is met by a schedule in which two goroutines, a `Remove` and ticks interleave. -/
example : OneUpdater ([.begin 1 "a" 0, .begin 2 "b" 1, .erase 2, .erase 1, .tick 3, .remove "a", .insert 2, .insert 1, .tick 10, .tick 11] :
      List (Event String)) ∧
    firedKeys (({ timer := Timer.new 10 } : Threads String).run
      [.begin 1 "a" 0, .begin 2 "b" 1, .erase 2, .erase 1, .tick 3, .remove "a", .insert 2, .insert 1, .tick 10, .tick 11]) =
    [[], [], [], [], [], [], [], [], ["a"], ["b"]] := by
  refine ⟨⟨fun k => if k = "a" then 1 else 2, ?_⟩, by decide⟩
  intro i k now h
  simp at h
  rcases h with ⟨rfl, rfl, _⟩ | ⟨rfl, rfl, _⟩ <;> rfl

/-- C35. Under every schedule, without any assumption on who updates what, no call panics, and the timer behaves as a bag of countdowns:
every completed `Update` starts one, every tick ends and fires exactly those whose deadline has come, each once, in the order of
their deadlines. -/
theorem C35_any_schedule (p : Int) (evs : List (Event K)) :
    ∃ c fs, ({ timer := Timer.new p } : Threads K).run evs = .ok (c, fs) ∧ Bag.Behaves { period := p } evs fs :=
  run_bagged evs _ _ (bagged_new p)

theorem asked_mono {p : Int} {evs : List (Event K)} {k : K} {d : Int} (ev : Event K) (h : Asked p evs k d) : Asked p (evs ++ [ev]) k d := by
  obtain ⟨pre, i, now, post, rfl, rfl⟩ := h
  exact ⟨pre, i, now, post ++ [ev], by simp, rfl⟩

theorem periodAfterEvents_append (p : Int) (evs : List (Event K)) (ev : Event K) :
    periodAfterEvents p (evs ++ [ev]) = periodAfterEvents (periodAfterEvents p evs) [ev] := by
  induction evs generalizing p with
  | nil => rfl
  | cons e evs ih => cases e <;> simp only [List.cons_append, periodAfterEvents, ih]

theorem bag_asked (p : Int) (n : Int) (k : K) (g : List K) (evs hist : List (Event K)) (s : Bag K) (fs : List (List K))
    (h : Bag.Behaves s (evs ++ [.tick n]) (fs ++ [g])) (hp : s.period = periodAfterEvents p hist)
    (hl : ∀ i k d, s.live i = some (k, d) → Asked p hist k d)
    (hb : ∀ i k d, s.place i = some (.built k d) ∨ s.place i = some (.erased k d) → Asked p hist k d) (hk : k ∈ g) :
    ∃ d, d ≤ n ∧ Asked p (hist ++ evs) k d := by
  induction evs generalizing hist s fs with
  | nil =>
    cases fs with
    | nil =>
      obtain ⟨s', ⟨ended, ht⟩, _⟩ := h
      rw [ht.keys] at hk
      obtain ⟨⟨i, k', d⟩, m1, m2⟩ := List.mem_map.1 hk
      simp only at m2
      subst m2
      have := (ht.exact i k' d).1 m1
      exact ⟨d, this.2, by simpa using hl i k' d this.1⟩
    | cons f fs =>
      obtain ⟨s', _, h2⟩ := h
      rw [Bag.Behaves] at h2
      simp at h2
  | cons ev evs ih =>
    cases fs with
    | nil =>
      obtain ⟨s', _, h2⟩ := h
      cases evs <;> exact h2.elim
    | cons f fs =>
      obtain ⟨s', h1, h2⟩ := h
      have hpe : periodAfterEvents p (hist ++ [ev]) = periodAfterEvents s.period [ev] := by rw [periodAfterEvents_append, hp]
      have conv : s'.period = periodAfterEvents p (hist ++ [ev]) →
          (∀ i k d, s'.live i = some (k, d) → Asked p (hist ++ [ev]) k d) →
          (∀ i k d, s'.place i = some (.built k d) ∨ s'.place i = some (.erased k d) → Asked p (hist ++ [ev]) k d) →
          ∃ d, d ≤ n ∧ Asked p (hist ++ ev :: evs) k d := by
        intro e1 e2 e3
        have := ih (hist ++ [ev]) s' fs h2 e1 e2 e3
        simpa using this
      have hl' : ∀ i k d, s.live i = some (k, d) → Asked p (hist ++ [ev]) k d := fun i k d hx => asked_mono ev (hl i k d hx)
      have hb' : ∀ i k d, s.place i = some (.built k d) ∨ s.place i = some (.erased k d) → Asked p (hist ++ [ev]) k d :=
        fun i k d hx => asked_mono ev (hb i k d hx)
      have cancel_live : ∀ x i k d, (s.cancel x).live i = some (k, d) → s.live i = some (k, d) := by
        intro x i k d hx
        simp only [Bag.cancel] at hx
        split at hx
        · simp at hx
        · exact hx
      cases ev with
      | begin i k' now =>
        obtain ⟨rfl, h1⟩ := h1
        cases hpl : s.place i with
        | none =>
          rw [hpl] at h1
          simp only at h1
          subst h1
          refine conv hpe.symm hl' ?_
          intro j k2 d hj
          simp only at hj
          split at hj
          · simp at hj
            obtain ⟨rfl, rfl⟩ := hj
            exact ⟨hist, i, now, [], rfl, by rw [hp]⟩
          · exact hb' j k2 d hj
        | some x =>
          rw [hpl] at h1
          simp only at h1
          subst h1
          exact conv hpe.symm hl' hb'
      | erase i =>
        obtain ⟨rfl, h1⟩ := h1
        split at h1
        · rename_i k' d' hpl
          subst h1
          refine conv hpe.symm (fun i k d hx => hl' i k d (cancel_live _ i k d hx)) ?_
          intro j k2 d hj
          simp only at hj
          split at hj
          · simp at hj
            obtain ⟨rfl, rfl⟩ := hj
            exact hb' i _ _ (.inl hpl)
          · exact hb' j k2 d hj
        · subst h1
          exact conv hpe.symm hl' hb'
      | insert i =>
        obtain ⟨rfl, h1⟩ := h1
        split at h1
        · rename_i k' d' hpl
          subst h1
          refine conv hpe.symm ?_ ?_
          · intro j k2 d hj
            simp only [Bag.start] at hj
            split at hj
            · simp at hj
              obtain ⟨rfl, rfl⟩ := hj
              exact hb' i _ _ (.inr hpl)
            · exact hl' j k2 d hj
          · intro j k2 d hj
            simp only at hj
            split at hj
            · simp at hj
            · exact hb' j k2 d hj
        · subst h1
          exact conv hpe.symm hl' hb'
      | remove k' =>
        obtain ⟨rfl, rfl⟩ := h1
        exact conv hpe.symm (fun i k d hx => hl' i k d (cancel_live _ i k d hx)) hb'
      | setExpiration q =>
        obtain ⟨rfl, rfl⟩ := h1
        refine conv ?_ ?_ ?_
        · rw [hpe]; simp only [periodAfterEvents]; split <;> rfl
        · split <;> exact hl'
        · split <;> exact hb'
      | tick now =>
        obtain ⟨ended, ht⟩ := h1
        refine conv ?_ ?_ ?_
        · rw [ht.same.1, hpe]; rfl
        · intro i k d hx
          rw [ht.live] at hx
          split at hx
          · simp at hx
          · exact hl' i k d hx
        · rw [ht.same.2.2]; exact hb'

/-- C35. Under every schedule a key fires at a tick only if some call `Update(k)` was made whose deadline has come. -/
theorem C35_never_early (p n : Int) (evs : List (Event K)) (k : K) :
    ∃ c fs g, ({ timer := Timer.new p } : Threads K).run (evs ++ [.tick n]) = .ok (c, fs ++ [g]) ∧
      (k ∈ g → ∃ d, d ≤ n ∧ Asked p evs k d) := by
  obtain ⟨c, fs, h1, h2⟩ := C35_any_schedule p (evs ++ [.tick n])
  have hne : fs ≠ [] := by
    rintro rfl
    cases evs <;> exact h2.elim
  obtain ⟨fs', g, rfl⟩ : ∃ fs' g, fs = fs' ++ [g] := ⟨fs.dropLast, fs.getLast hne, (List.dropLast_concat_getLast hne).symm⟩
  refine ⟨c, fs', g, h1, fun hk => ?_⟩
  have := bag_asked p n k g evs [] { period := p } fs' h2 rfl (by simp) (by simp) hk
  simpa using this

/-- The schedule in which two goroutines update the same key at times 0 and 10 and both remove before either inserts. -/
def overlapping : List (Event String) :=
  [.begin 1 "a" 0, .begin 2 "a" 10, .erase 1, .erase 2, .insert 1, .insert 2, .tick 10]

/-- C35 fails when calls `Update` for one key overlap: with period 10 the key fires at time 10 although the update at time 10, which was the
last to complete, moved its deadline to 20. -/
theorem C35_refuted : ¬ ∀ (p : Int) (evs : List (Event String)),
    ∃ c fs, ({ timer := Timer.new p } : Threads String).run evs = .ok (c, fs) ∧ Shared.Behaves { c := { period := p } } evs fs := by
  intro h
  obtain ⟨c, fs, h1, h2⟩ := h 10 overlapping
  have hf : fs = [[], [], [], [], [], [], ["a"]] := by
    have : firedKeys (({ timer := Timer.new 10 } : Threads String).run overlapping) = [[], [], [], [], [], [], ["a"]] := by decide
    rw [h1] at this
    exact this
  subst hf
  obtain ⟨s1, ⟨_, rfl⟩, s2, ⟨_, rfl⟩, s3, ⟨_, rfl⟩, s4, ⟨_, rfl⟩, s5, ⟨_, rfl⟩, s6, ⟨_, rfl⟩, s7, ⟨_, ht⟩, _⟩ := h2
  have := (ht.exact "a").1 (by simp)
  simp [Countdown.put, dueAt] at this

end Verif
