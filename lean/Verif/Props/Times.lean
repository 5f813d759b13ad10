import Verif.Spec.Calendar
import Verif.Lemmas.BcdTime
import Verif.Lemmas.Reader
import Verif.Props.Sample
/-! # C22: timestamps, C23: CAN receive time -/

namespace Verif

open Spec (unix2000 unix2010 unix2100)

/-! ## C22 -/

/-- C22 for the years 2010 to 2099: six bytes are written, and they are read back as the same instant. The property
also asks for 2000 to 2009, where it is false (`C22_refuted`). -/
theorem C22_time_round_trip_partial (tz t : Int) (h1 : unix2010 ≤ t + tz) (h2 : t + tz < unix2100) :
    (toBCDTime tz t).length = 6 ∧ fromBCDTime tz (toBCDTime tz t) = .ok t := by
  have h1' : (1262304000 : Int) ≤ t + tz := h1
  have h2' : t + tz < 4102444800 := h2
  obtain ⟨hy1, hy2, hy3⟩ := civil_year tz t (by omega) h2'
  have hy := hy3.1 h1'
  obtain ⟨y, hyr⟩ : ∃ y : Nat, (civilOf tz t).year = y := ⟨(civilOf tz t).year.toNat, by omega⟩
  have hb := toBCDTime_groups tz t y hyr (by omega)
  obtain ⟨r1, r2, r3, r4, r5, r6, r7⟩ := civilOf_range tz t
  have hd31 : daysIn (civilOf tz t).month (civilOf tz t).year ≤ 31 := by
    unfold daysIn; split; (split <;> omega); (split <;> omega)
  have hs : bcdToString (toBCDTime tz t) = [y % 100, (civilOf tz t).month, (civilOf tz t).day, (civilOf tz t).hour,
      (civilOf tz t).minute, (civilOf tz t).second].flatMap pad2 := by
    rw [hb]
    refine bcdToString_groups _ _ (by omega) ?_ _
    intro m hm
    simp only [List.mem_cons, List.not_mem_nil, or_false] at hm
    omega
  have hlen : (toBCDTime tz t).length = 6 := by rw [hb]; rfl
  refine ⟨hlen, ?_⟩
  have h20 : ([50, 48] : Bytes) ++ bcdToString (toBCDTime tz t) = [20, y % 100, (civilOf tz t).month, (civilOf tz t).day,
      (civilOf tz t).hour, (civilOf tz t).minute, (civilOf tz t).second].flatMap pad2 := by
    rw [hs, List.flatMap_cons (x := 20), show pad2 20 = [50, 48] by decide]
  unfold fromBCDTime
  rw [if_neg (by omega), h20]
  have hyy : ((20 * 100 + y % 100 : Nat) : Int) = (civilOf tz t).year := by omega
  rw [parse14_groups tz 20 (y % 100) _ _ _ _ _ (by omega) (by omega) ⟨r1, r2⟩ (by rw [hyy]; exact ⟨r3, r4⟩) r5 r6 r7, hyy]
  have hi : instantOf tz (civilOf tz t) = t := instantOf_civilOf tz t
  generalize civilOf tz t = c at hi
  cases c
  exact congrArg Res.ok hi

/-- October 12, 2021, 23:59:58 in UTC+8 is in range. -/
example : unix2010 ≤ (1634054398 : Int) + 28800 ∧ (1634054398 : Int) + 28800 < unix2100 ∧
    toBCDTime 28800 1634054398 = [0x21, 0x10, 0x12, 0x23, 0x59, 0x58] := ⟨by decide, by decide, rfl⟩

/-- C22 is false of the code for every instant of the years 2000 to 2009: the leading zero of the year is lost, and
reading back fails. -/
theorem C22_refuted (tz t : Int) (h1 : unix2000 ≤ t + tz) (h2 : t + tz < unix2010) :
    ∃ e, fromBCDTime tz (toBCDTime tz t) = .err e := by
  have h1' : (946684800 : Int) ≤ t + tz := h1
  have h2' : t + tz < 1262304000 := h2
  obtain ⟨hy1, hy2, hy3⟩ := civil_year tz t h1' (by omega)
  have hy : ¬ (2010 ≤ (civilOf tz t).year) := fun hc => by have := hy3.2 hc; omega
  obtain ⟨y, hyr⟩ : ∃ y : Nat, (civilOf tz t).year = y := ⟨(civilOf tz t).year.toNat, by omega⟩
  have hb := toBCDTime_groups tz t y hyr (by omega)
  obtain ⟨r1, r2, r3, r4, r5, r6, r7⟩ := civilOf_range tz t
  have hd31 : daysIn (civilOf tz t).month (civilOf tz t).year ≤ 31 := by
    unfold daysIn; split; (split <;> omega); (split <;> omega)
  have hs : (bcdToString (toBCDTime tz t)).length < 2 * 6 := by
    rw [hb]
    refine bcdToString_groups_short _ _ (by omega) ?_ ⟨(civilOf tz t).month, by simp, by omega⟩
    intro m hm
    simp only [List.mem_cons, List.not_mem_nil, or_false] at hm
    omega
  have hlen : (toBCDTime tz t).length = 6 := by rw [hb]; rfl
  refine ⟨.timeParse, ?_⟩
  unfold fromBCDTime parse14
  rw [if_neg (by omega), if_pos (by left; simp; omega)]

/-- July 1, 2005 in UTC is such an instant. -/
example : unix2000 ≤ (1120176000 : Int) + 0 ∧ (1120176000 : Int) + 0 < unix2010 := by decide

theorem daysIn_eq_spec (y m : Nat) : daysIn m (y : Int) = Spec.monthLength y m := by
  have hl : isLeap (y : Int) = true ↔ Spec.leapYear y := by
    unfold isLeap Spec.leapYear
    simp
    omega
  unfold daysIn Spec.monthLength
  by_cases h2 : m = 2
  · subst h2
    simp only [if_true]
    by_cases h : Spec.leapYear y
    · rw [if_pos h, if_pos (hl.2 h)]
    · rw [if_neg h, if_neg (fun hc => h (hl.1 hc))]
  · rw [if_neg h2, if_neg h2]

/-- The dates of the model are those obtained by counting days from January 1, 2000. -/
theorem civilFromDays_dateAfter (n : Nat) :
    civilFromDays (10957 + n) = (((Spec.dateAfter n).year : Int), (Spec.dateAfter n).month, (Spec.dateAfter n).day) := by
  induction n with
  | zero => decide
  | succ n ih =>
    rw [show (10957 : Int) + ((n + 1 : Nat) : Int) = (10957 + n) + 1 by omega, civilFromDays_succ, ih]
    simp only [Spec.dateAfter, Spec.Date.next, daysIn_eq_spec]
    split
    · rfl
    · split <;> simp

/-- C22: the six bytes are year, month, day, hour, minute and second of local time, two decimal digits each. The
instant is given as a day and a second of the day counted from January 1, 2000, local time. -/
theorem C22_time_layout (tz : Int) (n s : Nat) (hn : n < 36525) (hs : s < 86400) :
    toBCDTime tz (unix2000 + 86400 * n + s - tz) =
      [Spec.bcdByte ((Spec.dateAfter n).year % 100), Spec.bcdByte (Spec.dateAfter n).month, Spec.bcdByte (Spec.dateAfter n).day,
       Spec.bcdByte (s / 3600), Spec.bcdByte (s / 60 % 60), Spec.bcdByte (s % 60)] := by
  have hu : unix2000 = 946684800 := rfl
  have hc := civilFromDays_dateAfter n
  obtain ⟨hy1, hy2, -⟩ := civil_year tz (unix2000 + 86400 * n + s - tz) (by omega) (by omega)
  obtain ⟨r1, r2, r3, r4, -⟩ := civilOf_range tz (unix2000 + 86400 * n + s - tz)
  have hd31 : daysIn (civilOf tz (unix2000 + 86400 * n + s - tz)).month (civilOf tz (unix2000 + 86400 * n + s - tz)).year ≤ 31 := by
    unfold daysIn; split; (split <;> omega); (split <;> omega)
  have hciv : civilOf tz (unix2000 + 86400 * n + s - tz) =
      ⟨(Spec.dateAfter n).year, (Spec.dateAfter n).month, (Spec.dateAfter n).day, s / 3600, s / 60 % 60, s % 60⟩ := by
    unfold civilOf
    have e1 : (unix2000 + 86400 * (n : Int) + s - tz + tz) / 86400 = 10957 + n := by omega
    have e2 : (unix2000 + 86400 * (n : Int) + s - tz + tz) % 86400 = s := by omega
    simp only [e1, e2, hc, Civil.mk.injEq, true_and]
    omega
  rw [hciv] at hy1 hy2 r1 r2 r3 r4 hd31
  simp only at hy1 hy2 r1 r2 r3 r4 hd31
  rw [toBCDTime_groups tz _ (Spec.dateAfter n).year (by rw [hciv]) (by omega), hciv]
  have hp : ∀ k, k < 100 → packTwo k = Spec.bcdByte k := by
    intro k hk
    unfold packTwo Spec.bcdByte
    congr 1
    omega
  simp only [List.map_cons, List.map_nil]
  rw [hp _ (by omega), hp _ (by omega), hp _ (by omega), hp _ (by omega), hp _ (by omega), hp _ (by omega)]

/-- Day 7955 is October 12, 2021. -/
example : (7955 : Nat) < 36525 ∧ civilFromDays (10957 + 7955) = (2021, 10, 12) := by decide

/-- C22: what is accepted as a time. Six bytes are read as an instant only if they are what is written for that instant, and this is a time of the years
2010 to 2099; all other bytes (other lengths, hexadecimal digits, months, days, hours, minutes and seconds that do not exist) are rejected. -/
theorem C22_accepts_iff (tz t : Int) (b : Bytes) :
    fromBCDTime tz b = .ok t ↔ unix2010 ≤ t + tz ∧ t + tz < unix2100 ∧ b = toBCDTime tz t := by
  constructor
  · intro h
    obtain ⟨yl, mo, d, ho, mi, s, rfl, g1, g2, hv, w1, w2, w3, rfl⟩ := fromBCDTime_groups h
    have hr := instantOf_range (tz := tz) (c := ⟨((20 * 100 + yl : Nat) : Int), mo, d, ho, mi, s⟩) (by simp only; omega) (by simp only; omega) hv w1 w2 w3
    have hc := civilOf_instantOf tz ⟨((20 * 100 + yl : Nat) : Int), mo, d, ho, mi, s⟩ hv w1 w2 w3
    refine ⟨hr.1, hr.2, ?_⟩
    rw [toBCDTime_groups tz _ (20 * 100 + yl) (by rw [hc]) (by omega), hc, show (20 * 100 + yl) % 100 = yl by omega]
  · rintro ⟨h1, h2, rfl⟩
    exact (C22_time_round_trip_partial tz t h1 h2).2

/-- C22 exactly: the instants that are read back as they were written are those of the years 2010 to 2099, local time. -/
theorem C22_exact (tz t : Int) : fromBCDTime tz (toBCDTime tz t) = .ok t ↔ unix2010 ≤ t + tz ∧ t + tz < unix2100 := by
  rw [C22_accepts_iff]
  simp

/-- February 29, 2024, 23:59:59 in UTC is accepted; February 29, 2023 and hour 24 are not. -/
example : fromBCDTime 0 [0x24, 0x02, 0x29, 0x23, 0x59, 0x59] = .ok 1709251199 ∧ fromBCDTime 0 [0x23, 0x02, 0x29, 0x23, 0x59, 0x59] = .err .timeParse ∧
    fromBCDTime 0 [0x24, 0x02, 0x29, 0x24, 0x00, 0x00] = .err .timeParse := by decide

/-! ## C23 -/

/-- Hour, minute, second and millisecond of a duration in nanoseconds. -/
def canGroups (d : Int) : List Nat :=
  [(d / 3600000000000 % 24).toNat, (d / 60000000000 % 60).toNat, (d / 1000000000 % 60).toNat,
   (d % 1000000000 / 1000000).toNat / 100, (d % 1000000000 / 1000000).toNat % 100]

theorem canTimeString_groups (d : Int) : canTimeString d = (canGroups d).flatMap pad2 := by
  unfold canTimeString canGroups
  rw [pad4_eq]
  simp [List.flatMap_cons, pad2_mod, List.append_assoc]

theorem canGroups_lt (d : Int) : ∀ m ∈ canGroups d, m < 100 := by
  intro m hm
  simp only [canGroups, List.mem_cons, List.not_mem_nil, or_false] at hm
  omega

theorem canBytes (d : Int) : putFixed (stringToBCD0 (canTimeString d)) 5 = (canGroups d).map packTwo := by
  rw [canTimeString_groups, stringToBCD0_groups]
  rfl

theorem encList_can (is : List CanItem) :
    encList (fun (i : CanItem) => .ok (i.id ++ i.data)) is = .ok (is.flatMap fun i => i.id ++ i.data) := by
  induction is with
  | nil => rfl
  | cons i is ih => simp [encList, ih]

theorem times_can (is : List CanItem) (h : ∀ i ∈ is, i.id.length = 4 ∧ i.data.length = 8) (rest : Bytes) :
    Rd.times is.length CanItem.decodeItem ((is.flatMap fun i => i.id ++ i.data) ++ rest) = .ok (is, rest) := by
  have := Rd.times_encList (enc := fun (i : CanItem) => .ok (i.id ++ i.data)) (item := CanItem.decodeItem) (norm := id)
    (xs := is) (rest := rest) ?_ (encList_can is)
  · simpa using this
  · intro i hi b hb s
    simp only [Res.ok.injEq] at hb
    subst hb
    unfold CanItem.decodeItem
    rw [List.append_assoc, Rd.bind_read_append _ _ _ _ (h i hi).1, Rd.bind_read_append _ _ _ _ (h i hi).2]
    rfl

theorem atoi0_pad2 {n : Nat} (h : n < 100) : atoi0 (pad2 n) = n := by
  unfold atoi0
  rw [if_pos pad2_all, digitsVal_pad2 h]

/-- C23 from one hour to 24 hours: the upload is encoded without change to the value, and decodes to the same
items and to the receive time cut to milliseconds. (The property also asks for the first hour and for exactly 24
hours, where it is false: `C23_refuted`.) -/
theorem C23_can_time_round_trip_partial (e : T0705) (h1 : 3600000000000 ≤ e.receiveTime) (h2 : e.receiveTime < 86400000000000)
    (hn : e.items.length < 65536) (hi : ∀ i ∈ e.items, i.id.length = 4 ∧ i.data.length = 8) (old : T0705) :
    ∃ b, T0705.encode e = .ok (b, e) ∧
      T0705.decode old b = .ok ({ e with receiveTime := e.receiveTime / 1000000 * 1000000 }, b.length) := by
  obtain ⟨d, items⟩ := e
  simp only at h1 h2 hn hi
  refine ⟨put16 (UInt16.ofNat items.length) ++ (canGroups d).map packTwo ++ items.flatMap fun i => i.id ++ i.data, ?_, ?_⟩
  · unfold T0705.encode
    simp only
    rw [if_neg (by omega : ¬ d > 86400000000000), encList_can, canBytes]
    rfl
  · unfold T0705.decode decodeMin
    rw [if_neg (by simp [canGroups]; omega)]
    unfold runDecode
    rw [List.append_assoc, Rd.bind_u16_put16, Rd.bind_read_append _ _ _ _ (by simp [canGroups])]
    have hg := canGroups_lt d
    have hs : bcdToString ((canGroups d).map packTwo) true = (canGroups d).flatMap pad2 := by
      refine bcdToString_groups_pad _ _ ?_ hg
      omega
    have hl : ((canGroups d).flatMap pad2).length = 10 := by rw [groups_length]; rfl
    simp only [hs]
    rw [if_neg (by simp [hl])]
    have s0 : slice ((canGroups d).flatMap pad2) 0 2 = .ok (pad2 (d / 3600000000000 % 24).toNat) := by
      rw [slice_ok _ _ _ (by omega) (by omega)]; simp [canGroups, pad2]
    have s1 : slice ((canGroups d).flatMap pad2) 2 4 = .ok (pad2 (d / 60000000000 % 60).toNat) := by
      rw [slice_ok _ _ _ (by omega) (by omega)]; simp [canGroups, pad2]
    have s2 : slice ((canGroups d).flatMap pad2) 4 6 = .ok (pad2 (d / 1000000000 % 60).toNat) := by
      rw [slice_ok _ _ _ (by omega) (by omega)]; simp [canGroups, pad2]
    have s3 : slice ((canGroups d).flatMap pad2) 6 10 = .ok (pad2 ((d % 1000000000 / 1000000).toNat / 100) ++ pad2 ((d % 1000000000 / 1000000).toNat % 100)) := by
      rw [slice_ok _ _ _ (by omega) (by omega)]; simp [canGroups, pad2]
    have hms : atoi0 (pad2 ((d % 1000000000 / 1000000).toNat / 100) ++ pad2 ((d % 1000000000 / 1000000).toNat % 100)) =
        (d % 1000000000 / 1000000).toNat := by
      unfold atoi0
      rw [if_pos (by rw [List.all_append, pad2_all, pad2_all]; rfl), digitsVal_append, digitsVal_pad2 (by omega), digitsVal_pad2 (by omega)]
      simp [pad2]
      omega
    have hitems := times_can items hi []
    rw [List.append_nil] at hitems
    have hcount : (UInt16.ofNat items.length).toNat = items.length := by simp; omega
    rw [s0, s1, s2, s3]
    simp only [Rd.bind_lift_ok]
    rw [hcount, Rd.bind_ok _ hitems, Rd.pure_apply, hms, atoi0_pad2 (by omega), atoi0_pad2 (by omega), atoi0_pad2 (by omega)]
    simp only [List.length_nil, Nat.sub_zero, Res.ok.injEq, Prod.mk.injEq, T0705.mk.injEq, and_true]
    omega

/-- A CAN upload at 12:34:56.789 with one item. -/
example : (3600000000000 : Int) ≤ 45296789000000 ∧ (45296789000000 : Int) < 86400000000000 ∧
    (T0705.encode ⟨45296789000000, [⟨[1, 2, 3, 4], [5, 6, 7, 8, 9, 10, 11, 12]⟩]⟩) =
      .ok ([0, 1, 0x12, 0x34, 0x56, 0x07, 0x89, 1, 2, 3, 4, 5, 6, 7, 8, 9, 10, 11, 12],
        ⟨45296789000000, [⟨[1, 2, 3, 4], [5, 6, 7, 8, 9, 10, 11, 12]⟩]⟩) := ⟨by decide, by decide, rfl⟩

/-- C23 is false of the code: an upload in the first hour of the day, or at 24 hours or more, is encoded to bytes
that cannot be decoded (the leading zero byte of the time is lost). -/
theorem C23_refuted (e : T0705) (h : (0 ≤ e.receiveTime ∧ e.receiveTime < 3600000000000) ∨ 86400000000000 ≤ e.receiveTime) (old : T0705) :
    ∃ b e', T0705.encode e = .ok (b, e') ∧ ∃ x, T0705.decode old b = .err x := by
  obtain ⟨d, items⟩ := e
  simp only at h
  generalize ht : (if d > 86400000000000 then 86400000000000 else d) = t
  have ht' : t / 3600000000000 % 24 = 0 := by split at ht <;> omega
  refine ⟨put16 (UInt16.ofNat items.length) ++ (canGroups t).map packTwo ++ items.flatMap fun i => i.id ++ i.data, ⟨t, items⟩, ?_, .other, ?_⟩
  · unfold T0705.encode
    simp only [ht]
    rw [encList_can, canBytes]
    rfl
  · unfold T0705.decode decodeMin
    rw [if_neg (by simp [canGroups]; omega)]
    unfold runDecode
    rw [List.append_assoc, Rd.bind_u16_put16, Rd.bind_read_append _ _ _ _ (by simp [canGroups])]
    have hle := bcdToString_length_le ((canGroups t).map packTwo) true
    have h0 : packTwo (t / 3600000000000 % 24).toNat = 0 := by rw [ht']; decide
    have hlt : (((canGroups t).map packTwo).dropWhile (· = 0)).length ≤ 4 := by
      simp only [canGroups, List.map_cons]
      rw [List.dropWhile_cons_of_pos (by simp [h0])]
      refine Nat.le_trans (length_dropWhile_le _ _) ?_
      simp
    rw [if_pos (by omega)]
    rfl

/-- C23 exactly: of the uploads received at any time from midnight on, those that come back with their time cut to milliseconds
are those received from one hour to below 24 hours. -/
theorem C23_exact (e : T0705) (h0 : 0 ≤ e.receiveTime) (hn : e.items.length < 65536)
    (hi : ∀ i ∈ e.items, i.id.length = 4 ∧ i.data.length = 8) (old : T0705) :
    (∃ b e', T0705.encode e = .ok (b, e') ∧
      T0705.decode old b = .ok ({ e with receiveTime := e.receiveTime / 1000000 * 1000000 }, b.length)) ↔
    3600000000000 ≤ e.receiveTime ∧ e.receiveTime < 86400000000000 := by
  constructor
  · rintro ⟨b, e', h1, h2⟩
    apply Decidable.byContradiction
    intro hc
    obtain ⟨b', e'', g1, x, g2⟩ := C23_refuted e (by omega) old
    rw [h1] at g1
    cases g1
    rw [h2] at g2
    cases g2
  · rintro ⟨h1, h2⟩
    obtain ⟨b, g1, g2⟩ := C23_can_time_round_trip_partial e h1 h2 hn hi old
    exact ⟨b, e, g1, g2⟩

/-- The hypotheses are met by CAN data received at 13:37:42.5, which come back. -/
example : ∃ b e', T0705.encode { receiveTime := 49062500000000, items := [⟨[0, 1, 2, 3], List.replicate 8 7⟩] } = .ok (b, e') ∧
    T0705.decode {} b = .ok ({ receiveTime := 49062500000000, items := [⟨[0, 1, 2, 3], List.replicate 8 7⟩] }, b.length) :=
  (C23_exact { receiveTime := 49062500000000, items := [⟨[0, 1, 2, 3], List.replicate 8 7⟩] } (by decide) (by decide) (by simp) {}).2 ⟨by decide, by decide⟩

end Verif
