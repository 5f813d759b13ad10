import Verif.Spec.Zone
import Verif.Lemmas.BcdTime
import Verif.Lemmas.Numbers
/-! # Lemmas: looking up offsets, and `time.Date` -/

namespace Verif

open Spec

/-! ## The search -/

/-- Instants on the same side of every change have the same result. -/
theorem lookupFrom_congr {cs : List (Int × Int)} {t t' : Int} : ∀ {st : Option Int} {o : Int},
    (∀ c ∈ cs, t < c.1 ↔ t' < c.1) → lookupFrom st o cs t = lookupFrom st o cs t' := by
  induction cs with
  | nil => intros; rfl
  | cons c cs ih =>
    intro st o h
    have h0 := h c (by simp)
    have ht := @ih (some c.1) c.2 (fun d hd => h d (by simp [hd]))
    unfold lookupFrom
    by_cases hc : t < c.1
    · rw [if_pos hc, if_pos (h0.1 hc)]
    · rw [if_neg hc, if_neg (fun h => hc (h0.2 h)), ht]

/-- What the search finds, for changes in order. -/
theorem lookupFrom_facts {cs : List (Int × Int)} {t : Int} : ∀ {st : Option Int} {o : Int},
    cs.Pairwise (fun c c' => c.1 + 172800 ≤ c'.1) → (∀ s, st = some s → s ≤ t) →
    (∀ s, (lookupFrom st o cs t).2.1 = some s → s ≤ t ∧ (st = some s ∨ ∃ c ∈ cs, c.1 = s)) ∧
    (∀ e, (lookupFrom st o cs t).2.2 = some e → t < e ∧ (∃ c ∈ cs, c.1 = e) ∧ ∀ c ∈ cs, t < c.1 → e ≤ c.1) ∧
    ((lookupFrom st o cs t).2.2 = none → ∀ c ∈ cs, c.1 ≤ t) ∧
    (∀ c ∈ cs, c.1 ≤ t → ∃ s, (lookupFrom st o cs t).2.1 = some s ∧ c.1 ≤ s) := by
  induction cs with
  | nil =>
    intro st o _ hst
    unfold lookupFrom
    refine ⟨fun s hs => ⟨hst s hs, .inl hs⟩, by simp, by simp, by simp⟩
  | cons c cs ih =>
    intro st o hp hst
    rw [List.pairwise_cons] at hp
    unfold lookupFrom
    by_cases hc : t < c.1
    · rw [if_pos hc]
      have hall : ∀ d ∈ c :: cs, c.1 ≤ d.1 := by
        intro d hd
        rcases List.mem_cons.1 hd with rfl | hd
        · omega
        · have := hp.1 d hd; omega
      refine ⟨fun s hs => ⟨hst s hs, .inl hs⟩, ?_, by simp, ?_⟩
      · intro e he
        cases he
        exact ⟨hc, ⟨c, by simp, rfl⟩, fun d hd _ => hall d hd⟩
      · intro d hd hdt
        have := hall d hd
        omega
    · rw [if_neg hc]
      obtain ⟨i1, i2, i3, i4⟩ := @ih (some c.1) c.2 hp.2 (by intro s hs; cases hs; omega)
      refine ⟨?_, ?_, ?_, ?_⟩
      · intro s hs
        obtain ⟨j1, j2⟩ := i1 s hs
        refine ⟨j1, .inr ?_⟩
        rcases j2 with j2 | ⟨d, hd, rfl⟩
        · exact ⟨c, by simp, by cases j2; rfl⟩
        · exact ⟨d, by simp [hd], rfl⟩
      · intro e he
        obtain ⟨j1, ⟨d, hd, j2⟩, j3⟩ := i2 e he
        refine ⟨j1, ⟨d, by simp [hd], j2⟩, ?_⟩
        intro d' hd' hlt
        rcases List.mem_cons.1 hd' with rfl | hd'
        · omega
        · exact j3 d' hd' hlt
      · intro hn d hd
        rcases List.mem_cons.1 hd with rfl | hd
        · omega
        · exact i3 hn d hd
      · intro d hd hdt
        rcases List.mem_cons.1 hd with rfl | hd
        · -- the start is this change or a later one
          cases cs with
          | nil => exact ⟨d.1, rfl, by omega⟩
          | cons c' cs =>
            by_cases hc' : t < c'.1
            · exact ⟨d.1, by unfold lookupFrom; rw [if_pos hc'], by omega⟩
            · obtain ⟨s, hs, hle⟩ := i4 c' (by simp) (by omega)
              have := hp.1 c' (by simp)
              exact ⟨s, hs, by omega⟩
        · exact i4 d hd hdt

/-- The offset that is found is the one in force. -/
theorem lookupFrom_fst {cs : List (Int × Int)} {t : Int} : ∀ {st : Option Int} {o : Int},
    cs.Pairwise (fun c c' => c.1 + 172800 ≤ c'.1) →
    (lookupFrom st o cs t).1 = cs.foldl (fun o c => if c.1 ≤ t then c.2 else o) o := by
  induction cs with
  | nil => intros; rfl
  | cons c cs ih =>
    intro st o hp
    rw [List.pairwise_cons] at hp
    unfold lookupFrom
    rw [List.foldl_cons]
    by_cases hc : t < c.1
    · rw [if_pos hc, if_neg (by omega)]
      have : ∀ l : List (Int × Int), (∀ d ∈ l, t < d.1) → l.foldl (fun o c => if c.1 ≤ t then c.2 else o) o = o := by
        intro l
        induction l with
        | nil => intros; rfl
        | cons d l ih =>
          intro h
          rw [List.foldl_cons, if_neg (by have := h d (by simp); omega)]
          exact ih (fun d' hd' => h d' (by simp [hd']))
      exact (this cs (fun d hd => by have := hp.1 d hd; omega)).symm
    · rw [if_neg hc, if_pos (by omega)]
      exact ih hp.2

theorem lookupFrom_offset {cs : List (Int × Int)} {t : Int} : ∀ {st : Option Int} {o : Int},
    (lookupFrom st o cs t).1 = o ∨ ∃ c ∈ cs, (lookupFrom st o cs t).1 = c.2 := by
  induction cs with
  | nil => intros; exact .inl rfl
  | cons c cs ih =>
    intro st o
    unfold lookupFrom
    split
    · exact .inl rfl
    · rcases @ih (some c.1) c.2 with h | ⟨d, hd, h⟩
      · exact .inr ⟨c, by simp, h⟩
      · exact .inr ⟨d, by simp [hd], h⟩

/-! ## Ordinary zones -/

theorem offset_eq {z : Zone} (hz : Ordinary z) (t : Int) : z.offset t = inForce z t := lookupFrom_fst hz.2

theorem offset_bounds {z : Zone} (hz : Ordinary z) (t : Int) : -86400 < z.offset t ∧ z.offset t < 86400 := hz.1 _ lookupFrom_offset

/-- Two changes are the same or two days apart. -/
theorem changes_apart {z : Zone} (hz : Ordinary z) {c d : Int × Int} (hc : c ∈ z.changes) (hd : d ∈ z.changes) (h : c.1 < d.1) :
    c.1 + 172800 ≤ d.1 := by
  have : ∀ l : List (Int × Int), l.Pairwise (fun c c' => c.1 + 172800 ≤ c'.1) → c ∈ l → d ∈ l → c.1 + 172800 ≤ d.1 := by
    intro l
    induction l with
    | nil => intro _ h; simp at h
    | cons x l ih =>
      intro hp hc hd
      rw [List.pairwise_cons] at hp
      rcases List.mem_cons.1 hc with rfl | hc <;> rcases List.mem_cons.1 hd with rfl | hd
      · omega
      · exact hp.1 d hd
      · have := hp.1 c (by assumption); omega
      · exact ih hp.2 hc hd
  exact this _ hz.2 hc hd

/-- The offset is the same at instants with no change between them. -/
theorem offset_congr {z : Zone} {t t' : Int} (h : ∀ c ∈ z.changes, t < c.1 ↔ t' < c.1) : z.offset t = z.offset t' :=
  congrArg (·.1) (lookupFrom_congr h)

/-- Between instants with different offsets there is a change. -/
theorem change_between {z : Zone} {t t' : Int} (hlt : t < t') (h : z.offset t ≠ z.offset t') : ∃ c ∈ z.changes, t < c.1 ∧ c.1 ≤ t' := by
  refine Classical.byContradiction fun hn => h (offset_congr fun c hc => ⟨fun h1 => ?_, fun h1 => by omega⟩)
  refine Classical.byContradiction fun h2 => hn ⟨c, hc, h1, by omega⟩

/-- `time.Date` finds an instant that shows the reading, if there is one. -/
theorem date_shows {z : Zone} (hz : Ordinary z) (old : Bool) {t : Int} {u : Int} (ht : t + z.offset t = u) :
    z.date old u + z.offset (z.date old u) = u := by
  obtain ⟨f1, f2, f3, f4⟩ := lookupFrom_facts (t := u) (st := none) (o := z.first) hz.2 (by simp)
  rw [show lookupFrom none z.first z.changes u = z.lookup u from rfl] at f1 f2 f3 f4
  have hb := offset_bounds hz
  have hu := hb u
  have hbt := hb t
  -- the time of the offset found for `u`
  have inside : ∀ x, (∀ s, (z.lookup u).2.1 = some s → s ≤ x) → (∀ e, (z.lookup u).2.2 = some e → x < e) → z.offset x = z.offset u := by
    intro x h1 h2
    refine offset_congr fun c hc => ⟨fun h => ?_, fun h => ?_⟩
    · refine Classical.byContradiction fun hn => ?_
      obtain ⟨s, hs, hle⟩ := f4 c hc (by omega)
      have := h1 s hs
      omega
    · cases he : (z.lookup u).2.2 with
      | none => have := f3 he c hc; omega
      | some e =>
        have := (f2 e he).2.2 c hc h
        have := h2 e he
        omega
  have hself := inside u (fun s hs => (f1 s hs).1) (fun e he => (f2 e he).1)
  have hoff : z.offset u = (z.lookup u).1 := rfl
  -- the time before
  have before : ∀ s, (z.lookup u).2.1 = some s → ∀ x, s - 172800 ≤ x → x < s → z.offset x = z.offset (s - 1) := by
    intro s hs x h1 h2
    obtain ⟨_, g | ⟨c, hc, hcs⟩⟩ := f1 s hs
    · cases g
    refine offset_congr fun d hd => ⟨fun h => ?_, fun h => by omega⟩
    refine Classical.byContradiction fun hn => ?_
    have := changes_apart hz hd hc (by omega)
    omega
  -- the time after
  have after : ∀ e, (z.lookup u).2.2 = some e → ∀ x, e ≤ x → x < e + 172800 → z.offset x = z.offset e := by
    intro e he x h1 h2
    obtain ⟨_, ⟨c, hc, hce⟩, _⟩ := f2 e he
    refine offset_congr fun d hd => ⟨fun h => by omega, fun h => ?_⟩
    refine Classical.byContradiction fun hn => ?_
    have := changes_apart hz hc hd (by omega)
    omega
  have apart : ∀ s e, (z.lookup u).2.1 = some s → (z.lookup u).2.2 = some e → s + 172800 ≤ e := by
    intro s e hs he
    obtain ⟨k, g | ⟨c, hc, hcs⟩⟩ := f1 s hs
    · cases g
    obtain ⟨k', ⟨d, hd, hde⟩, _⟩ := f2 e he
    have := changes_apart hz hc hd (by omega)
    omega
  rw [hoff] at hu
  simp only [hoff] at inside
  generalize hlk : z.lookup u = l at *
  obtain ⟨o, start, stop⟩ := l
  unfold Zone.date
  rw [hlk]
  simp only at *
  by_cases h0 : o = 0
  · rw [if_pos h0, hoff, h0]; omega
  rw [if_neg h0]
  by_cases hbef : ∃ s, start = some s ∧ u - o < s
  · obtain ⟨s, rfl, hlt⟩ := hbef
    have hsu := (f1 s rfl).1
    -- `t` is in the time before
    have hts : t < s := by
      refine Classical.byContradiction fun hn => ?_
      have : z.offset t = o := by
        refine inside t (fun s' hs' => by cases hs'; omega) (fun e he => ?_)
        have := apart s e rfl he
        omega
      omega
    have e1 := before s rfl t (by omega) hts
    have e2 := before s rfl (u - o) (by omega) hlt
    have : u - z.offset (s - 1) = t := by omega
    have hd : decide (u - o < s) = true := by simp [hlt]
    cases old
    · simp only [Option.any_some, hd, Bool.true_or, if_true, e2, Bool.false_eq_true, if_false]
      rw [this]; exact ht
    · simp only [Option.any_some, hd, if_true, Option.getD_some]
      rw [this]; exact ht
  by_cases haft : ∃ e, stop = some e ∧ e ≤ u - o
  · obtain ⟨e, rfl, hle⟩ := haft
    have hue := (f2 e rfl).1
    have hte : e ≤ t := by
      refine Classical.byContradiction fun hn => ?_
      have : z.offset t = o := by
        refine inside t (fun s hs => ?_) (fun e' he' => by cases he'; omega)
        have := apart s e hs rfl
        omega
      omega
    have e1 := after e rfl t hte (by omega)
    have e2 := after e rfl (u - o) hle (by omega)
    have : u - z.offset e = t := by omega
    have hd : decide (e ≤ u - o) = true := by simp [hle]
    have hs : start.any (fun s => decide (u - o < s)) = false := by
      cases start with
      | none => rfl
      | some s => simp only [Option.any_some, decide_eq_false_iff_not]; exact fun h => hbef ⟨s, rfl, h⟩
    cases old
    · simp only [Option.any_some, hd, Bool.or_true, if_true, e2, Bool.false_eq_true, if_false]
      rw [this]; exact ht
    · simp only [Option.any_some, hd, hs, if_true, Bool.false_eq_true, if_false, Option.getD_some]
      rw [this]; exact ht
  · have hs : start.any (fun s => decide (u - o < s)) = false := by
      cases start with
      | none => rfl
      | some s => simp only [Option.any_some, decide_eq_false_iff_not]; exact fun h => hbef ⟨s, rfl, h⟩
    have he : stop.any (fun e => decide (e ≤ u - o)) = false := by
      cases stop with
      | none => rfl
      | some e => simp only [Option.any_some, decide_eq_false_iff_not]; exact fun h => haft ⟨e, rfl, h⟩
    have hin : z.offset (u - o) = o := inside (u - o)
      (fun s hs' => by subst hs'; exact Int.not_lt.1 fun h => hbef ⟨s, rfl, h⟩)
      (fun e he' => by subst he'; exact Int.not_le.1 fun h => haft ⟨e, rfl, h⟩)
    simp only [hs, he, Bool.or_false, Bool.false_eq_true, if_false, ite_self]
    rw [hin]; omega

/-- Three instants that show the same are not all different. -/
theorem shown_twice {z : Zone} (hz : Ordinary z) {a b c : Int} (h1 : a < b) (h2 : b < c) (e1 : a + z.offset a = b + z.offset b)
    (e2 : b + z.offset b = c + z.offset c) : False := by
  obtain ⟨x, hx, x1, x2⟩ := change_between (z := z) h1 (by omega)
  obtain ⟨y, hy, y1, y2⟩ := change_between (z := z) h2 (by omega)
  have := changes_apart hz hx hy (by omega)
  have := offset_bounds hz a
  have := offset_bounds hz c
  omega

end Verif
