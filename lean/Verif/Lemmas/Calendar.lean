import Verif.Model.Time
/-! # The civil calendar: date and day number are inverse -/

namespace Verif

/-- Day of the era to 365 times the year of the era, rounded. -/
def eraG (d : Nat) : Nat := d - d / 1460 + d / 36524 - d / 146096

/-- First day of a year of the era. -/
def eraF (y : Nat) : Nat := 365 * y + y / 4 - y / 100

theorem eraG_mono {a b : Nat} (h : a ≤ b) : eraG a ≤ eraG b := by
  have h1 : a - a / 1460 ≤ b - b / 1460 := by omega
  have h2 : a / 146096 = a / 36524 / 4 := by rw [Nat.div_div_eq_div_mul]
  have h3 : b / 146096 = b / 36524 / 4 := by rw [Nat.div_div_eq_div_mul]
  have h4 : a / 36524 ≤ b / 36524 := Nat.div_le_div_right h
  unfold eraG
  omega

set_option maxRecDepth 20000 in
theorem era_table : ∀ y < 400, eraG (eraF y) / 365 = y ∧ (0 < y → eraG (eraF y - 1) / 365 < y) := by decide

/-- Year of the era and day of the year, from the day of the era. -/
theorem yoe_bounds (d : Nat) (h1 : d < 146097) :
    eraG d / 365 ≤ 399 ∧ eraF (eraG d / 365) ≤ d ∧ (eraG d / 365 < 399 → d < eraF (eraG d / 365 + 1)) := by
  have hle : eraG d / 365 ≤ 399 := by
    have := eraG_mono (show d ≤ 146096 by omega)
    have h2 : eraG 146096 = 145999 := by decide
    omega
  refine ⟨hle, ?_, ?_⟩
  · apply Decidable.byContradiction
    intro hc
    have hpos : 0 < eraG d / 365 := by
      apply Decidable.byContradiction
      intro h0
      have : eraG d / 365 = 0 := by omega
      rw [this] at hc
      simp [eraF] at hc
    have ht := (era_table (eraG d / 365) (by omega)).2 hpos
    have hm := eraG_mono (show d ≤ eraF (eraG d / 365) - 1 by omega)
    have := Nat.div_le_div_right (c := 365) hm
    omega
  · intro hlt
    apply Decidable.byContradiction
    intro hc
    have ht := (era_table (eraG d / 365 + 1) (by omega)).1
    have hm := eraG_mono (show eraF (eraG d / 365 + 1) ≤ d by omega)
    have := Nat.div_le_div_right (c := 365) hm
    omega

theorem leap_of_long (y : Nat) (h : eraF y + 365 < eraF (y + 1)) : (y + 1) % 4 = 0 ∧ (y + 1) % 100 ≠ 0 := by
  have h1 : 365 * y + y / 4 - y / 100 + 365 < 365 * (y + 1) + (y + 1) / 4 - (y + 1) / 100 := h
  have h2 : y / 100 ≤ (y + 1) / 100 := by omega
  have h3 : (y + 1) / 4 = y / 4 ∨ (y + 1) / 4 = y / 4 + 1 := by omega
  constructor
  · apply Decidable.byContradiction
    intro hc
    have : (y + 1) / 4 = y / 4 := by omega
    omega
  · intro hc
    have : (y + 1) / 100 = y / 100 + 1 := by omega
    omega

/-- The parts of a date: era, year of the era, day of the year counted from March. -/
theorem civilFromDays_parts (z : Int) : ∃ (era : Int) (yoe doy : Nat),
    yoe ≤ 399 ∧ doy ≤ 365 ∧ (doy = 365 → isLeap (era * 400 + yoe + 1) = true) ∧
    z = era * 146097 + (365 * yoe + yoe / 4 - yoe / 100 : Nat) + doy - 719468 ∧
    civilFromDays z =
      (let mp := (5 * doy + 2) / 153
       (era * 400 + yoe + (if mp < 10 then 0 else 1), (if mp < 10 then mp + 3 else mp - 9), doy - (153 * mp + 2) / 5 + 1)) := by
  obtain ⟨d, hd⟩ : ∃ d : Nat, (z + 719468) % 146097 = (d : Int) := ⟨((z + 719468) % 146097).toNat, by omega⟩
  have hd1 : d < 146097 := by omega
  obtain ⟨h1, h2, h3⟩ := yoe_bounds d hd1
  have hG : ((d : Int) - (d : Int) / 1460 + (d : Int) / 36524 - (d : Int) / 146096) / 365 = ((eraG d / 365 : Nat) : Int) := by
    have : d / 1460 ≤ d := by omega
    have : d / 146096 ≤ d - d / 1460 + d / 36524 := by omega
    unfold eraG
    omega
  generalize hy : eraG d / 365 = yoe at h1 h2 h3 hG
  have hF : eraF yoe = 365 * yoe + yoe / 4 - yoe / 100 := rfl
  have hF1 : eraF (yoe + 1) = 365 * (yoe + 1) + (yoe + 1) / 4 - (yoe + 1) / 100 := rfl
  refine ⟨(z + 719468) / 146097, yoe, d - eraF yoe, h1, ?_, ?_, ?_, ?_⟩
  · by_cases h : yoe < 399
    · have := h3 h; omega
    · omega
  · intro h365
    unfold isLeap
    by_cases h : yoe < 399
    · have := h3 h
      have hlt : eraF yoe + 365 < eraF (yoe + 1) := by omega
      obtain ⟨h4, h100⟩ := leap_of_long yoe hlt
      have e1 : ((z + 719468) / 146097 * 400 + (yoe : Int) + 1) % 4 = 0 := by omega
      have e2 : ((z + 719468) / 146097 * 400 + (yoe : Int) + 1) % 100 ≠ 0 := by omega
      simp [e1, e2]
    · have e1 : ((z + 719468) / 146097 * 400 + (yoe : Int) + 1) % 4 = 0 := by omega
      have e2 : ((z + 719468) / 146097 * 400 + (yoe : Int) + 1) % 400 = 0 := by omega
      simp [e1, e2]
  · omega
  · have hdoy : (d : Int) - (365 * (yoe : Int) + (yoe : Int) / 4 - (yoe : Int) / 100) = ((d - eraF yoe : Nat) : Int) := by omega
    have hle : d - eraF yoe ≤ 365 := by
      by_cases h : yoe < 399
      · have := h3 h; omega
      · omega
    unfold civilFromDays
    simp only [hd, hG, hdoy]
    generalize d - eraF yoe = doy at hle ⊢
    have hmp : ((5 * (doy : Int) + 2) / 153) = (((5 * doy + 2) / 153 : Nat) : Int) := by omega
    rw [hmp]
    generalize hm : (5 * doy + 2) / 153 = mp
    have hmp11 : mp ≤ 11 := by omega
    have hlo : (153 * mp + 2) / 5 ≤ doy := by omega
    by_cases h10 : mp < 10
    · have : (mp : Int) < 10 := by omega
      have : ¬ ((mp : Int) + 3 ≤ 2) := by omega
      simp only [*, if_true, if_false, Prod.mk.injEq]
      omega
    · have : ¬ (mp : Int) < 10 := by omega
      have : ((mp : Int) - 9 ≤ 2) := by omega
      simp only [*, if_true, if_false, Prod.mk.injEq]
      omega

/-- The day number of a date is the day it was computed from. -/
theorem daysFromCivil_civilFromDays (z : Int) :
    daysFromCivil (civilFromDays z).1 (civilFromDays z).2.1 (civilFromDays z).2.2 = z := by
  obtain ⟨era, yoe, doy, h1, h2, -, hz, hc⟩ := civilFromDays_parts z
  rw [hc]
  simp only
  generalize hm : (5 * doy + 2) / 153 = mp
  have hmp11 : mp ≤ 11 := by omega
  have hlo : (153 * mp + 2) / 5 ≤ doy := by omega
  unfold daysFromCivil
  by_cases h10 : mp < 10
  · have : ¬ (mp + 3 ≤ 2) := by omega
    simp only [h10, this, if_true, if_false]
    omega
  · have : mp - 9 ≤ 2 := by omega
    simp only [h10, this, if_true, if_false]
    omega

/-- Month and day of a computed date are in range. -/
theorem civilFromDays_range (z : Int) :
    1 ≤ (civilFromDays z).2.1 ∧ (civilFromDays z).2.1 ≤ 12 ∧ 1 ≤ (civilFromDays z).2.2 ∧
      (civilFromDays z).2.2 ≤ daysIn (civilFromDays z).2.1 (civilFromDays z).1 := by
  obtain ⟨era, yoe, doy, h1, h2, hl, hz, hc⟩ := civilFromDays_parts z
  rw [hc]
  simp only
  generalize hm : (5 * doy + 2) / 153 = mp
  have hmp11 : mp ≤ 11 := by omega
  refine ⟨by split <;> omega, by split <;> omega, by omega, ?_⟩
  have hcases : mp = 0 ∨ mp = 1 ∨ mp = 2 ∨ mp = 3 ∨ mp = 4 ∨ mp = 5 ∨ mp = 6 ∨ mp = 7 ∨ mp = 8 ∨ mp = 9 ∨ mp = 10 ∨ mp = 11 := by omega
  rcases hcases with h | h | h | h | h | h | h | h | h | h | h | h <;> subst h <;> simp [daysIn] <;> try omega
  by_cases h365 : doy = 365
  · have := hl h365
    rw [this]
    simp
    omega
  · split <;> omega

/-- The calendar reading of an instant, converted back, is the instant. -/
theorem instantOf_civilOf (tz t : Int) : instantOf tz (civilOf tz t) = t := by
  unfold instantOf civilOf
  simp only [daysFromCivil_civilFromDays]
  have h1 : (((t + tz) % 86400 / 3600).toNat : Int) = (t + tz) % 86400 / 3600 := by omega
  have h2 : (((t + tz) % 86400 / 60 % 60).toNat : Int) = (t + tz) % 86400 / 60 % 60 := by omega
  have h3 : (((t + tz) % 86400 % 60).toNat : Int) = (t + tz) % 86400 % 60 := by omega
  rw [h1, h2, h3]
  show @Eq Int _ _; omega

theorem civilOf_range (tz t : Int) :
    1 ≤ (civilOf tz t).month ∧ (civilOf tz t).month ≤ 12 ∧ 1 ≤ (civilOf tz t).day ∧
      (civilOf tz t).day ≤ daysIn (civilOf tz t).month (civilOf tz t).year ∧
      (civilOf tz t).hour < 24 ∧ (civilOf tz t).minute < 60 ∧ (civilOf tz t).second < 60 := by
  have h := civilFromDays_range ((t + tz) / 86400)
  refine ⟨h.1, h.2.1, h.2.2.1, h.2.2.2, ?_, ?_, ?_⟩ <;> simp only [civilOf] <;> omega

/-! ## The other direction -/

/-- Days before March 1 of a year (years counted from March). -/
def yearStart (y : Int) : Int := 365 * y + y / 4 - y / 100 + y / 400

theorem yearStart_succ (y : Int) : yearStart (y + 1) = yearStart y + (if isLeap (y + 1) then 366 else 365) := by
  unfold yearStart isLeap
  by_cases h4 : (y + 1) % 4 = 0
  · by_cases h100 : (y + 1) % 100 = 0
    · by_cases h400 : (y + 1) % 400 = 0
      · simp [h4, h400]; omega
      · simp [h4, h100, h400]; omega
    · simp [h4, h100]; omega
  · simp [h4]; omega

theorem yearStart_lt {a b : Int} (h : a < b) : yearStart (a + 1) ≤ yearStart b := by
  unfold yearStart
  have h1 : (a + 1) / 4 ≤ b / 4 := by omega
  have h2 : (a + 1) / 400 ≤ b / 400 := by omega
  have h3 : b / 100 - (a + 1) / 100 ≤ b - (a + 1) := by omega
  omega

/-- A date that exists. -/
def ValidDate (y : Int) (m d : Nat) : Prop := 1 ≤ m ∧ m ≤ 12 ∧ 1 ≤ d ∧ d ≤ daysIn m y

/-- Year from March and day of that year for a valid date. -/
theorem daysFromCivil_parts {y : Int} {m d : Nat} (h : ValidDate y m d) : ∃ (y' : Int) (mp doy : Nat),
    mp ≤ 11 ∧ mp = (5 * doy + 2) / 153 ∧ y' = (if m ≤ 2 then y - 1 else y) ∧ m = (if mp < 10 then mp + 3 else mp - 9) ∧
    d = doy - (153 * mp + 2) / 5 + 1 ∧ (153 * mp + 2) / 5 ≤ doy ∧
    (doy : Int) < (if isLeap (y' + 1) then 366 else 365) ∧ daysFromCivil y m d = yearStart y' + doy - 719468 := by
  obtain ⟨h1, h2, h3, h4⟩ := h
  have hm : m = 1 ∨ m = 2 ∨ m = 3 ∨ m = 4 ∨ m = 5 ∨ m = 6 ∨ m = 7 ∨ m = 8 ∨ m = 9 ∨ m = 10 ∨ m = 11 ∨ m = 12 := by omega
  rcases hm with h | h | h | h | h | h | h | h | h | h | h | h <;> subst h <;> simp only [daysIn] at h4
  · simp at h4
    refine ⟨_, 10, 306 + d - 1, by omega, by omega, rfl, by simp, by omega, by omega, ?_, ?_⟩
    · generalize isLeap _ = b
      cases b <;> simp <;> omega
    · simp only [daysFromCivil, yearStart, Nat.reduceLeDiff, if_true, if_false]
      omega
  · simp at h4
    refine ⟨_, 11, 337 + d - 1, by omega, by split at h4 <;> omega, rfl, by simp, by omega, by omega, ?_, ?_⟩
    · simp only [Nat.le_refl, if_true, Int.sub_add_cancel]
      generalize isLeap y = b at h4
      cases b <;> simp at h4 ⊢ <;> omega
    · simp only [daysFromCivil, yearStart, Nat.le_refl, if_true]
      omega
  · simp at h4
    refine ⟨_, 0, 0 + d - 1, by omega, by omega, rfl, by simp, by omega, by omega, ?_, ?_⟩
    · generalize isLeap _ = b
      cases b <;> simp <;> omega
    · simp only [daysFromCivil, yearStart, Nat.reduceLeDiff, if_true, if_false]
      omega
  · simp at h4
    refine ⟨_, 1, 31 + d - 1, by omega, by omega, rfl, by simp, by omega, by omega, ?_, ?_⟩
    · generalize isLeap _ = b
      cases b <;> simp <;> omega
    · simp only [daysFromCivil, yearStart, Nat.reduceLeDiff, if_true, if_false]
      omega
  · simp at h4
    refine ⟨_, 2, 61 + d - 1, by omega, by omega, rfl, by simp, by omega, by omega, ?_, ?_⟩
    · generalize isLeap _ = b
      cases b <;> simp <;> omega
    · simp only [daysFromCivil, yearStart, Nat.reduceLeDiff, if_true, if_false]
      omega
  · simp at h4
    refine ⟨_, 3, 92 + d - 1, by omega, by omega, rfl, by simp, by omega, by omega, ?_, ?_⟩
    · generalize isLeap _ = b
      cases b <;> simp <;> omega
    · simp only [daysFromCivil, yearStart, Nat.reduceLeDiff, if_true, if_false]
      omega
  · simp at h4
    refine ⟨_, 4, 122 + d - 1, by omega, by omega, rfl, by simp, by omega, by omega, ?_, ?_⟩
    · generalize isLeap _ = b
      cases b <;> simp <;> omega
    · simp only [daysFromCivil, yearStart, Nat.reduceLeDiff, if_true, if_false]
      omega
  · simp at h4
    refine ⟨_, 5, 153 + d - 1, by omega, by omega, rfl, by simp, by omega, by omega, ?_, ?_⟩
    · generalize isLeap _ = b
      cases b <;> simp <;> omega
    · simp only [daysFromCivil, yearStart, Nat.reduceLeDiff, if_true, if_false]
      omega
  · simp at h4
    refine ⟨_, 6, 184 + d - 1, by omega, by omega, rfl, by simp, by omega, by omega, ?_, ?_⟩
    · generalize isLeap _ = b
      cases b <;> simp <;> omega
    · simp only [daysFromCivil, yearStart, Nat.reduceLeDiff, if_true, if_false]
      omega
  · simp at h4
    refine ⟨_, 7, 214 + d - 1, by omega, by omega, rfl, by simp, by omega, by omega, ?_, ?_⟩
    · generalize isLeap _ = b
      cases b <;> simp <;> omega
    · simp only [daysFromCivil, yearStart, Nat.reduceLeDiff, if_true, if_false]
      omega
  · simp at h4
    refine ⟨_, 8, 245 + d - 1, by omega, by omega, rfl, by simp, by omega, by omega, ?_, ?_⟩
    · generalize isLeap _ = b
      cases b <;> simp <;> omega
    · simp only [daysFromCivil, yearStart, Nat.reduceLeDiff, if_true, if_false]
      omega
  · simp at h4
    refine ⟨_, 9, 275 + d - 1, by omega, by omega, rfl, by simp, by omega, by omega, ?_, ?_⟩
    · generalize isLeap _ = b
      cases b <;> simp <;> omega
    · simp only [daysFromCivil, yearStart, Nat.reduceLeDiff, if_true, if_false]
      omega

/-- Different dates have different day numbers. -/
theorem daysFromCivil_inj {y1 y2 : Int} {m1 d1 m2 d2 : Nat} (h1 : ValidDate y1 m1 d1) (h2 : ValidDate y2 m2 d2)
    (h : daysFromCivil y1 m1 d1 = daysFromCivil y2 m2 d2) : y1 = y2 ∧ m1 = m2 ∧ d1 = d2 := by
  obtain ⟨a, mp, doy, a1, a2, a3, a4, a5, a6, a7, a8⟩ := daysFromCivil_parts h1
  obtain ⟨b, mq, doz, b1, b2, b3, b4, b5, b6, b7, b8⟩ := daysFromCivil_parts h2
  rw [a8, b8] at h
  have hab : a = b := by
    rcases Int.lt_trichotomy a b with hlt | he | hlt
    · have := yearStart_lt hlt
      have := yearStart_succ a
      omega
    · exact he
    · have := yearStart_lt hlt
      have := yearStart_succ b
      omega
  subst hab
  have hd : doy = doz := by omega
  subst hd
  have hm : mp = mq := by omega
  subst hm
  refine ⟨?_, by omega, by omega⟩
  have hmm : m1 = m2 := by omega
  subst hmm
  by_cases hc : m1 ≤ 2
  · rw [if_pos hc] at a3 b3; omega
  · rw [if_neg hc] at a3 b3; omega

/-- The date of a valid date's day number is the date. -/
theorem civilFromDays_daysFromCivil {y : Int} {m d : Nat} (h : ValidDate y m d) :
    civilFromDays (daysFromCivil y m d) = (y, m, d) := by
  have hr := civilFromDays_range (daysFromCivil y m d)
  have he := daysFromCivil_civilFromDays (daysFromCivil y m d)
  obtain ⟨e1, e2, e3⟩ := daysFromCivil_inj (show ValidDate _ _ _ from hr) h he
  exact Prod.ext e1 (Prod.ext e2 e3)

/-- The calendar reading of the instant of a valid reading is that reading. -/
theorem civilOf_instantOf (tz : Int) (c : Civil) (h : ValidDate c.year c.month c.day) (hh : c.hour < 24) (hm : c.minute < 60)
    (hs : c.second < 60) : civilOf tz (instantOf tz c) = c := by
  obtain ⟨y, m, d, ho, mi, s⟩ := c
  simp only at *
  unfold civilOf instantOf
  simp only
  have e : daysFromCivil y m d * 86400 + (ho : Int) * 3600 + (mi : Int) * 60 + (s : Int) - tz + tz =
    daysFromCivil y m d * 86400 + ((ho : Int) * 3600 + (mi : Int) * 60 + (s : Int)) := by omega
  have e1 : (daysFromCivil y m d * 86400 + ((ho : Int) * 3600 + (mi : Int) * 60 + (s : Int))) / 86400 = daysFromCivil y m d := by omega
  have e2 : (daysFromCivil y m d * 86400 + ((ho : Int) * 3600 + (mi : Int) * 60 + (s : Int))) % 86400 =
      (ho : Int) * 3600 + (mi : Int) * 60 + (s : Int) := by omega
  rw [e, e1, e2, civilFromDays_daysFromCivil h]
  simp only [Civil.mk.injEq, true_and]
  omega

/-- The calendar day after a date. -/
theorem daysFromCivil_next {y : Int} {m d : Nat} (h : ValidDate y m d) :
    let n := if d < daysIn m y then (y, m, d + 1) else if m < 12 then (y, m + 1, 1) else (y + 1, 1, 1)
    ValidDate n.1 n.2.1 n.2.2 ∧ daysFromCivil n.1 n.2.1 n.2.2 = daysFromCivil y m d + 1 := by
  obtain ⟨h1, h2, h3, h4⟩ := h
  intro n
  by_cases hd : d < daysIn m y
  · have hn : n = (y, m, d + 1) := by simp [n, hd]
    rw [hn]
    refine ⟨⟨h1, h2, by simp, hd⟩, ?_⟩
    simp only [daysFromCivil]
    omega
  · have hd' : d = daysIn m y := by omega
    by_cases hm : m < 12
    · have hn : n = (y, m + 1, 1) := by simp [n, hd, hm]
      rw [hn]
      have hpos : 1 ≤ daysIn (m + 1) y := by unfold daysIn; split; (split <;> omega); (split <;> omega)
      refine ⟨⟨by simp, hm, by simp, hpos⟩, ?_⟩
      subst hd'
      have hc : m = 1 ∨ m = 2 ∨ m = 3 ∨ m = 4 ∨ m = 5 ∨ m = 6 ∨ m = 7 ∨ m = 8 ∨ m = 9 ∨ m = 10 ∨ m = 11 := by omega
      have hy := yearStart_succ (y - 1)
      rw [show y - 1 + 1 = y by omega] at hy
      simp only [yearStart] at hy
      rcases hc with h | h | h | h | h | h | h | h | h | h | h <;> subst h <;> simp [daysFromCivil, daysIn]
      all_goals first | omega | (split <;> simp_all <;> omega)
    · have hm12 : m = 12 := by omega
      have hn : n = (y + 1, 1, 1) := by simp [n, hd, hm]
      rw [hn]
      subst hm12
      have : daysIn 12 y = 31 := by simp [daysIn]
      refine ⟨⟨by simp, by simp, by simp, by simp [daysIn]⟩, ?_⟩
      simp [daysFromCivil, hd', this]
      omega

theorem civilFromDays_succ (z : Int) :
    civilFromDays (z + 1) = (let c := civilFromDays z
      if c.2.2 < daysIn c.2.1 c.1 then (c.1, c.2.1, c.2.2 + 1) else if c.2.1 < 12 then (c.1, c.2.1 + 1, 1) else (c.1 + 1, 1, 1)) := by
  have hr := civilFromDays_range z
  have hz := daysFromCivil_civilFromDays z
  obtain ⟨hv, hn⟩ := daysFromCivil_next (show ValidDate _ _ _ from hr)
  rw [hz] at hn
  simp only
  rw [← hn, civilFromDays_daysFromCivil hv]

end Verif
