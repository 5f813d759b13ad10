import Verif.Lemmas.Zone
import Verif.Props.Times
/-! # C90: times and dates in zones whose offset changes -/

namespace Verif

open Spec (unix2010 unix2100 inForce shown dayStart Ordinary Unambiguous SetBack SetForward newYork saoPaulo london)

/-! ## Helpers -/

/-- What is written depends on the reading only. -/
theorem toBCDTime_shift (tz t : Int) : toBCDTime tz t = toBCDTime 0 (t + tz) := by
  unfold toBCDTime civilOf
  simp only [Int.add_zero]

theorem fromBCDTimeIn_ok {old : Bool} {z : Zone} {b : Bytes} {u : Int} (h : fromBCDTime 0 b = .ok u) :
    fromBCDTimeIn old z b = .ok (z.date old u) := by
  unfold fromBCDTimeIn
  rw [h]
  rfl

theorem fromBCDTimeIn_inv {old : Bool} {z : Zone} {b : Bytes} {t : Int} (h : fromBCDTimeIn old z b = .ok t) :
    ∃ u, fromBCDTime 0 b = .ok u ∧ z.date old u = t := by
  unfold fromBCDTimeIn at h
  cases hr : fromBCDTime 0 b with
  | ok u => rw [hr] at h; exact ⟨u, rfl, Res.ok.inj h⟩
  | err e => rw [hr] at h; cases h
  | panic => rw [hr] at h; cases h

theorem shown_offset {z : Zone} (hz : Ordinary z) (t : Int) : shown z t = t + z.offset t := by
  unfold shown
  rw [offset_eq hz]

theorem toBCDTimeIn_shown {z : Zone} (hz : Ordinary z) (t : Int) : toBCDTimeIn z t = toBCDTime 0 (shown z t) := by
  unfold toBCDTimeIn
  rw [toBCDTime_shift, shown_offset hz]

/-- The instant found for a reading is within a day of the reading. -/
theorem date_near {z : Zone} (hz : Ordinary z) (old : Bool) (u : Int) : ∃ x, z.date old u = u - z.offset x ∨ z.date old u = u := by
  unfold Zone.date
  have hoff : z.offset u = (z.lookup u).1 := rfl
  generalize z.lookup u = l at hoff
  obtain ⟨o, start, stop⟩ := l
  simp only at hoff ⊢
  rw [← hoff]
  repeat' split
  all_goals first
    | exact ⟨0, .inr rfl⟩
    | exact ⟨_, .inl rfl⟩

/-! ## Times -/

/-- Without changes of the offset, the conversions are those of the rest of the model. -/
theorem C90_fixed (old : Bool) (tz t : Int) (b : Bytes) :
    toBCDTimeIn ⟨tz, []⟩ t = toBCDTime tz t ∧ fromBCDTimeIn old ⟨tz, []⟩ b = fromBCDTime tz b := by
  refine ⟨rfl, ?_⟩
  have hd : ∀ u : Int, Zone.date ⟨tz, []⟩ old u = u - tz := by
    intro u
    unfold Zone.date Zone.lookup
    simp only [lookupFrom, Option.any_none, Bool.or_false, Bool.false_eq_true, if_false, ite_self]
    split <;> omega
  have hi : ∀ c : Civil, instantOf 0 c - tz = instantOf tz c := fun c => by
    unfold instantOf
    show @HSub.hSub Int Int Int _ _ _ = _
    omega
  have hp : ∀ s : Bytes, (parse14 0 s >>= fun u => Res.ok (u - tz)) = parse14 tz s := by
    intro s
    unfold parse14
    simp only
    split
    · rfl
    · split
      · rfl
      · exact congrArg Res.ok (hi _)
  unfold fromBCDTimeIn fromBCDTime
  simp only [hd]
  split
  · rfl
  · exact hp _

/-- China: always eight hours ahead of UTC. -/
example : toBCDTimeIn ⟨28800, []⟩ 1633996800 = [0x21, 0x10, 0x12, 0x08, 0x00, 0x00] ∧
    fromBCDTimeIn true ⟨28800, []⟩ [0x21, 0x10, 0x12, 0x08, 0x00, 0x00] = .ok 1633996800 := by decide

/-- C90: which bytes are accepted as a time does not depend on the zone: those that show a time of the years 2010 to 2099. -/
theorem C90_accepts_iff (old : Bool) (z : Zone) (b : Bytes) :
    (∃ t, fromBCDTimeIn old z b = .ok t) ↔ ∃ u, unix2010 ≤ u ∧ u < unix2100 ∧ b = toBCDTime 0 u := by
  constructor
  · rintro ⟨t, h⟩
    obtain ⟨u, hu, _⟩ := fromBCDTimeIn_inv h
    obtain ⟨h1, h2, h3⟩ := (C22_accepts_iff 0 u b).1 hu
    exact ⟨u, by simpa using h1, by simpa using h2, h3⟩
  · rintro ⟨u, h1, h2, h3⟩
    exact ⟨_, fromBCDTimeIn_ok ((C22_accepts_iff 0 u b).2 ⟨by simpa using h1, by simpa using h2, h3⟩)⟩

/-- C90: in every zone, what is written for an instant of the years 2010 to 2099 is what the clock shows then, and it is read as an
instant at which the clock shows the same. -/
theorem C90_same_reading (old : Bool) (z : Zone) (hz : Ordinary z) (t : Int) (h1 : unix2010 ≤ shown z t) (h2 : shown z t < unix2100) :
    toBCDTimeIn z t = toBCDTime 0 (shown z t) ∧
      ∃ t', fromBCDTimeIn old z (toBCDTimeIn z t) = .ok t' ∧ shown z t' = shown z t := by
  have hw := toBCDTimeIn_shown hz t
  refine ⟨hw, z.date old (shown z t), ?_, ?_⟩
  · rw [hw]
    exact fromBCDTimeIn_ok ((C22_accepts_iff 0 _ _).2 ⟨by simpa using h1, by simpa using h2, rfl⟩)
  · rw [shown_offset hz (z.date old (shown z t))]
    exact date_shows hz old (shown_offset hz t).symm

/-- C90 for the instants whose reading the clock shows only once: they are read back as they were written. The property also asks
for the others, for which it is false (`C90_refuted`). -/
theorem C90_partial (old : Bool) (z : Zone) (hz : Ordinary z) (t : Int) (h1 : unix2010 ≤ shown z t) (h2 : shown z t < unix2100)
    (hu : Unambiguous z t) : fromBCDTimeIn old z (toBCDTimeIn z t) = .ok t := by
  obtain ⟨_, t', h, hs⟩ := C90_same_reading old z hz t h1 h2
  rw [h, hu t' hs]

/-- C90 exactly, for the others: of two instants at which the clock shows the same, exactly one is read back. -/
theorem C90_exact (old : Bool) (z : Zone) (hz : Ordinary z) (t t' : Int) (h1 : unix2010 ≤ shown z t) (h2 : shown z t < unix2100)
    (hne : t ≠ t') (hs : shown z t' = shown z t) :
    toBCDTimeIn z t = toBCDTimeIn z t' ∧
      (fromBCDTimeIn old z (toBCDTimeIn z t) = .ok t ↔ fromBCDTimeIn old z (toBCDTimeIn z t') ≠ .ok t') := by
  have hb : toBCDTimeIn z t = toBCDTimeIn z t' := by rw [toBCDTimeIn_shown hz, toBCDTimeIn_shown hz, hs]
  refine ⟨hb, ?_⟩
  obtain ⟨_, x, hx, hxs⟩ := C90_same_reading old z hz t h1 h2
  rw [← hb, hx]
  have hcase : x = t ∨ x = t' := by
    refine Classical.byContradiction fun hn => ?_
    have n1 : x ≠ t := fun h => hn (.inl h)
    have n2 : x ≠ t' := fun h => hn (.inr h)
    rw [shown_offset hz, shown_offset hz] at hs hxs
    rcases Int.lt_or_gt_of_ne hne with g | g <;> rcases Int.lt_or_gt_of_ne n1 with g1 | g1 <;> rcases Int.lt_or_gt_of_ne n2 with g2 | g2
    · exact shown_twice hz g1 g (by omega) (by omega)
    · omega
    · exact shown_twice hz g1 g2 (by omega) (by omega)
    · exact shown_twice hz g g2 (by omega) (by omega)
    · exact shown_twice hz g2 g (by omega) (by omega)
    · exact shown_twice hz g2 g1 (by omega) (by omega)
    · omega
    · exact shown_twice hz g g1 (by omega) (by omega)
  simp only [Res.ok.injEq, ne_eq]
  rcases hcase with rfl | rfl
  · exact ⟨fun _ => hne, fun _ => rfl⟩
  · exact ⟨fun h => absurd h.symm hne, fun h => absurd rfl h⟩

/-- C90 is false wherever clocks are set back between 2010 and 2099: the bytes written for some instant are read as another. -/
theorem C90_refuted (old : Bool) (z : Zone) (hz : Ordinary z) (w : Int) (hw : SetBack z w) (h1 : unix2010 ≤ shown z w)
    (h2 : shown z w < unix2100) :
    ∃ t t', t ≠ t' ∧ fromBCDTimeIn old z (toBCDTimeIn z t) = .ok t' ∧ toBCDTimeIn z t' = toBCDTimeIn z t := by
  have hb := hw
  unfold SetBack at hb
  rw [shown_offset hz, shown_offset hz] at hb
  obtain ⟨c, hc, c1, c2⟩ := change_between (z := z) (t := w - 1) (t' := w) (by omega) (by omega)
  have hcw : c.1 = w := by omega
  have b1 := offset_bounds hz w
  have b2 := offset_bounds hz (w - 1)
  -- the instant before the change at which the clock shows the same as at the change
  have ho : z.offset (w + z.offset w - z.offset (w - 1)) = z.offset (w - 1) := by
    refine offset_congr fun d hd => ⟨fun h => ?_, fun h => by omega⟩
    refine Classical.byContradiction fun hn => ?_
    have := changes_apart hz hd hc (by omega)
    omega
  have hs : shown z (w + z.offset w - z.offset (w - 1)) = shown z w := by
    rw [shown_offset hz, shown_offset hz, ho]
    omega
  obtain ⟨e1, e2⟩ := C90_exact old z hz w _ h1 h2 (by omega) hs
  obtain ⟨_, x, hx, hxs⟩ := C90_same_reading old z hz w h1 h2
  have hxb : toBCDTimeIn z x = toBCDTimeIn z w := by rw [toBCDTimeIn_shown hz, toBCDTimeIn_shown hz, hxs]
  by_cases h : x = w
  · have hne : w + z.offset w - z.offset (w - 1) ≠ w := by omega
    refine ⟨w + z.offset w - z.offset (w - 1), w, hne, ?_, e1⟩
    rw [← e1, hx, h]
  · exact ⟨w, x, fun h' => h h'.symm, hx, hxb⟩

/-- C90 is also false wherever clocks are set forward: some bytes are accepted as a time and written differently. -/
theorem C90_refuted_gap (old : Bool) (z : Zone) (hz : Ordinary z) (w : Int) (hw : SetForward z w)
    (h1 : unix2010 + 172800 ≤ shown z w) (h2 : shown z w < unix2100 - 172800) :
    ∃ b t, b = toBCDTime 0 (shown z w - 1) ∧ fromBCDTimeIn old z b = .ok t ∧ toBCDTimeIn z t ≠ b := by
  have h1' : (1262304000 : Int) + 172800 ≤ shown z w := h1
  have h2' : shown z w < 4102444800 - 172800 := h2
  have r1 : unix2010 ≤ shown z w - 1 := by show (1262304000 : Int) ≤ _; omega
  have r2 : shown z w - 1 < unix2100 := by show _ < (4102444800 : Int); omega
  refine ⟨_, z.date old (shown z w - 1), rfl, ?_, ?_⟩
  · exact fromBCDTimeIn_ok ((C22_accepts_iff 0 _ _).2 ⟨by simpa using r1, by simpa using r2, rfl⟩)
  intro he
  -- no instant shows this
  have hno : ∀ t, shown z t ≠ shown z w - 1 := by
    intro t ht
    unfold SetForward at hw
    rw [shown_offset hz, shown_offset hz] at hw ht
    obtain ⟨c, hc, c1, c2⟩ := change_between (z := z) (t := w - 1) (t' := w) (by omega) (by omega)
    have b1 := offset_bounds hz w
    have b2 := offset_bounds hz t
    by_cases hlt : t < w
    · have : z.offset t = z.offset (w - 1) := by
        refine offset_congr fun d hd => ⟨fun h => ?_, fun h => by omega⟩
        refine Classical.byContradiction fun hn => ?_
        have := changes_apart hz hd hc (by omega)
        omega
      omega
    · have : z.offset t = z.offset w := by
        refine offset_congr fun d hd => ⟨fun h => by omega, fun h => ?_⟩
        refine Classical.byContradiction fun hn => ?_
        have := changes_apart hz hc hd (by omega)
        omega
      omega
  rw [toBCDTimeIn_shown hz] at he
  refine hno (z.date old (shown z w - 1)) ?_
  -- both readings are in the years for which the bytes tell them apart
  obtain ⟨x, hx⟩ := date_near hz old (shown z w - 1)
  have bx := offset_bounds hz x
  have bd := offset_bounds hz (z.date old (shown z w - 1))
  have hsd := shown_offset hz (z.date old (shown z w - 1))
  generalize shown z (z.date old (shown z w - 1)) = s at he hsd
  have s1 : unix2010 ≤ s := by show (1262304000 : Int) ≤ _; omega
  have s2 : s < unix2100 := by show _ < (4102444800 : Int); omega
  have g1 := (C22_accepts_iff 0 s _).2 ⟨by simpa using s1, by simpa using s2, rfl⟩
  have g2 := (C22_accepts_iff 0 (shown z w - 1) _).2 ⟨by simpa using r1, by simpa using r2, rfl⟩
  rw [he, g2] at g1
  exact (Res.ok.inj g1).symm

theorem newYork_ordinary : Ordinary newYork := by
  refine ⟨?_, by unfold newYork; simp [List.pairwise_cons]⟩
  rintro o (rfl | ⟨c, hc, rfl⟩)
  · decide
  · simp only [newYork, List.mem_cons, List.not_mem_nil, or_false] at hc
    rcases hc with rfl | rfl | rfl <;> decide

/-- New York is such a zone: at 6:00 UTC on November 7, 2021 the clocks went from two to one o'clock, and on March 13, 2022 from two
to three. Half past one on November 7 is read as the first one; 02:30:00 on March 13 is read and written as 01:30:00. -/
example : SetBack newYork 1636264800 ∧ unix2010 ≤ shown newYork 1636264800 ∧ shown newYork 1636264800 < unix2100 ∧
    SetForward newYork 1647154800 ∧ unix2010 + 172800 ≤ shown newYork 1647154800 ∧ shown newYork 1647154800 < unix2100 - 172800 ∧
    toBCDTimeIn newYork 1636263000 = [0x21, 0x11, 0x07, 0x01, 0x30, 0x00] ∧ toBCDTimeIn newYork 1636266600 = [0x21, 0x11, 0x07, 0x01, 0x30, 0x00] ∧
    fromBCDTimeIn true newYork [0x21, 0x11, 0x07, 0x01, 0x30, 0x00] = .ok 1636263000 ∧
    fromBCDTimeIn false newYork [0x21, 0x11, 0x07, 0x01, 0x30, 0x00] = .ok 1636263000 ∧
    fromBCDTimeIn true newYork [0x22, 0x03, 0x13, 0x02, 0x30, 0x00] = .ok 1647153000 ∧
    toBCDTimeIn newYork 1647153000 = [0x22, 0x03, 0x13, 0x01, 0x30, 0x00] := by
  unfold SetBack SetForward
  decide

/-- In London the second of two equal readings is the one that is read. -/
example : toBCDTimeIn london 1635640200 = toBCDTimeIn london 1635643800 ∧
    fromBCDTimeIn true london (toBCDTimeIn london 1635640200) = .ok 1635643800 ∧
    fromBCDTimeIn false london (toBCDTimeIn london 1635640200) = .ok 1635643800 := by decide

/-- Noon on October 12, 2021 in New York is shown once. -/
example : fromBCDTimeIn true newYork (toBCDTimeIn newYork 1634054400) = .ok 1634054400 ∧ Unambiguous newYork 1634054400 := by
  refine ⟨by decide, ?_⟩
  intro t h
  rw [show shown newYork 1634054400 = 1634040000 by decide] at h
  unfold shown inForce newYork at h
  simp only [List.foldl_cons, List.foldl_nil] at h
  repeat' split at h
  all_goals omega

/-! ## Dates -/

theorem toBCDDateIn_dayStart {z : Zone} (hz : Ordinary z) (t : Int) : toBCDDateIn z t = stringToBCD (fmt8 (civilOf 0 (dayStart z t))) 4 := by
  unfold toBCDDateIn dayStart fmt8 civilOf
  rw [shown_offset hz]
  simp only
  have : (t + z.offset t - (t + z.offset t) % 86400 + 0) / 86400 = (t + z.offset t) / 86400 := by omega
  rw [this]

theorem fromBCDDateIn_ok {old : Bool} {z : Zone} {b : Bytes} {u : Int}
    (h : parse14 0 (bcdToString b ++ [48, 48, 48, 48, 48, 48]) = .ok u) : fromBCDDateIn old z b = .ok (z.date old u) := by
  unfold fromBCDDateIn
  rw [h]
  rfl

/-- C90 for dates: the date that a value shows in its own zone is written, and it is read, in a zone where that day has a midnight,
as an instant that shows this midnight, for which the same date is written. The property also asks for days that begin at one
o'clock, for which it is false (`C90_refuted_date`). -/
theorem C90_date_partial (old : Bool) (own z : Zone) (ho : Ordinary own) (hz : Ordinary z) (t : Int)
    (h1 : -30610224000 ≤ shown own t) (h2 : shown own t < 253402300800) (m : Int) (hm : shown z m = dayStart own t) :
    ∃ t', fromBCDDateIn old z (toBCDDateIn own t) = .ok t' ∧ shown z t' = dayStart own t ∧ toBCDDateIn z t' = toBCDDateIn own t := by
  have hd0 : dayStart own t % 86400 = 0 := by unfold dayStart; omega
  have hr1 : -30610224000 ≤ dayStart own t := by unfold dayStart; omega
  have hr2 : dayStart own t < 253402300800 := by unfold dayStart; omega
  have hrt := (date_round_trip { Sample.env with tz := 0 } (dayStart own t)
    ⟨by simpa using hd0, by simpa using hr1, by simpa using hr2⟩).2
  have hs : shown z (z.date old (dayStart own t)) = dayStart own t := by
    rw [shown_offset hz (z.date old (dayStart own t))]
    exact date_shows hz old (t := m) (by rw [← hm, shown_offset hz])
  refine ⟨z.date old (dayStart own t), ?_, hs, ?_⟩
  · rw [toBCDDateIn_dayStart ho]
    exact fromBCDDateIn_ok hrt
  · rw [toBCDDateIn_dayStart hz, toBCDDateIn_dayStart ho]
    have : dayStart z (z.date old (dayStart own t)) = dayStart own t := by
      show shown z _ - shown z _ % 86400 = _
      rw [hs]
      omega
    rw [this]

/-- A local midnight that the clock shows only once is read back as it was written. -/
theorem C90_date_read_back (old : Bool) (z : Zone) (hz : Ordinary z) (t : Int) (h1 : -30610224000 ≤ shown z t)
    (h2 : shown z t < 253402300800) (h0 : shown z t % 86400 = 0) (hu : Unambiguous z t) :
    fromBCDDateIn old z (toBCDDateIn z t) = .ok t := by
  have hd : dayStart z t = shown z t := by unfold dayStart; omega
  obtain ⟨t', h, hs, _⟩ := C90_date_partial old z z hz hz t h1 h2 t hd.symm
  rw [h, hu t' (by rw [hs, hd])]

/-- Midnight of October 12, 2021 in New York; and a value that is midnight in UTC on a server in New York, which is read as a later
instant of the same date. -/
example : shown newYork 1634011200 % 86400 = 0 ∧ fromBCDDateIn true newYork (toBCDDateIn newYork 1634011200) = .ok 1634011200 ∧
    toBCDDateIn ⟨0, []⟩ 1633996800 = [0x20, 0x21, 0x10, 0x12] ∧
    fromBCDDateIn true newYork [0x20, 0x21, 0x10, 0x12] = .ok 1634011200 := by decide

/-- C90 is false for dates where clocks are set forward at midnight: in São Paulo, November 4, 2018 is read as an instant of the day
before, and written as that. -/
theorem C90_refuted_date (old : Bool) : fromBCDDateIn old saoPaulo [0x20, 0x18, 0x11, 0x04] = .ok 1541296800 ∧
    toBCDDateIn saoPaulo 1541296800 = [0x20, 0x18, 0x11, 0x03] ∧ Ordinary saoPaulo := by
  refine ⟨by cases old <;> decide, by decide, ?_, by unfold saoPaulo; simp [List.pairwise_cons]⟩
  rintro o (rfl | ⟨c, hc, rfl⟩)
  · decide
  · simp only [saoPaulo, List.mem_cons, List.not_mem_nil, or_false] at hc
    rcases hc with rfl | rfl <;> decide

/-- C90 is false for dates of values in another zone: midnight in UTC comes back as midnight in China, eight hours earlier. -/
theorem C90_refuted_date_location (old : Bool) :
    fromBCDDateIn old ⟨28800, []⟩ (toBCDDateIn ⟨0, []⟩ 1633996800) = .ok (1633996800 - 28800) := by cases old <;> decide

end Verif
