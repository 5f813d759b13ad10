import Verif.Lemmas.Fields
/-! # Digit strings and dates in packed form -/

namespace Verif

open Spec (Number DateOK)

theorem digit_of_char (c : UInt8) (h : 48 ≤ c ∧ c ≤ 57) : c.toNat - 48 < 10 ∧ digit (c.toNat - 48) = c := by
  have h1 : 48 ≤ c.toNat := UInt8.le_iff_toNat_le.1 h.1
  have h2 : c.toNat ≤ 57 := UInt8.le_iff_toNat_le.1 h.2
  refine ⟨by omega, ?_⟩
  apply UInt8.toNat.inj
  rw [digit_toNat (by omega)]
  omega

theorem pad2_of_chars (c d : UInt8) (hc : 48 ≤ c ∧ c ≤ 57) (hd : 48 ≤ d ∧ d ≤ 57) :
    ∃ n, n < 100 ∧ pad2 n = [c, d] := by
  obtain ⟨h1, h2⟩ := digit_of_char c hc
  obtain ⟨h3, h4⟩ := digit_of_char d hd
  refine ⟨(c.toNat - 48) * 10 + (d.toNat - 48), by omega, ?_⟩
  unfold pad2
  rw [show ((c.toNat - 48) * 10 + (d.toNat - 48)) / 10 % 10 = c.toNat - 48 by omega,
    show ((c.toNat - 48) * 10 + (d.toNat - 48)) % 10 = d.toNat - 48 by omega, h2, h4]

/-- An even number of digits falls into groups of two. -/
theorem groups_of_digits : ∀ (s : Bytes), (∀ c ∈ s, 48 ≤ c ∧ c ≤ 57) → s.length % 2 = 0 →
    ∃ ns : List Nat, (∀ n ∈ ns, n < 100) ∧ ns.flatMap pad2 = s
  | [], _, _ => ⟨[], by simp, rfl⟩
  | [_], _, h => by simp at h
  | c :: d :: s, hc, hl => by
    obtain ⟨ns, h1, h2⟩ := groups_of_digits s (fun x hx => hc x (by simp [hx])) (by simp at hl; omega)
    obtain ⟨n, hn, hp⟩ := pad2_of_chars c d (hc c (by simp)) (hc d (by simp))
    refine ⟨n :: ns, ?_, by rw [List.flatMap_cons, hp, h2]; rfl⟩
    intro m hm
    rcases List.mem_cons.1 hm with rfl | hm
    · exact hn
    · exact h1 m hm

theorem dropWhile_zeros (k : Nat) (s : Bytes) : (List.replicate k 0 ++ s).dropWhile (· = 0) = s.dropWhile (· = 0) := by
  induction k with
  | zero => rfl
  | succ k ih => rw [List.replicate_succ, List.cons_append, List.dropWhile_cons_of_pos (by simp), ih]

/-- A number without leading zero survives the packed form. -/
theorem bcd_number (s : Bytes) (k : Nat) (h : Number s (2 * k)) :
    (stringToBCD s k).length = k ∧ bcdToString (stringToBCD s k) = s := by
  obtain ⟨hl, hd, hh⟩ := h
  have ht : ∃ t, t = (if s.length % 2 = 1 then 48 :: s else s) := ⟨_, rfl⟩
  obtain ⟨t, ht⟩ := ht
  have htd : ∀ c ∈ t, 48 ≤ c ∧ c ≤ 57 := by
    intro c hc
    rw [ht] at hc
    split at hc
    · rcases List.mem_cons.1 hc with rfl | hc
      · decide
      · exact hd c hc
    · exact hd c hc
  have htl : t.length % 2 = 0 ∧ t.length ≤ 2 * k := by
    rw [ht]
    split
    · simp only [List.length_cons]; omega
    · omega
  obtain ⟨ns, h1, h2⟩ := groups_of_digits t htd htl.1
  have hnl : 2 * ns.length = t.length := by rw [← h2, groups_length]
  have hb0 : stringToBCD0 s = ns.map packTwo := by
    unfold stringToBCD0
    rw [← ht, ← h2, packBCD_groups]
  have hb : stringToBCD s k = List.replicate (k - ns.length) 0 ++ ns.map packTwo := by
    unfold stringToBCD
    simp only [hb0, List.length_map]
    rw [if_neg (by omega)]
  refine ⟨by rw [hb]; simp; omega, ?_⟩
  cases s with
  | nil =>
    have : ns = [] := by
      simp at ht
      rw [ht] at hnl
      exact List.length_eq_zero_iff.1 (by simp at hnl; omega)
    subst this
    rw [hb]
    unfold bcdToString
    rw [dropWhile_zeros]
    rfl
  | cons c s =>
    have hc : c ≠ 48 := by simpa using hh
    cases ns with
    | nil =>
      exfalso
      rw [ht] at hnl
      simp only [List.length_nil] at hnl
      split at hnl <;> simp at hnl
    | cons n ns =>
      have hn0 : n ≠ 0 := by
        intro h0
        subst h0
        rw [List.flatMap_cons, ht] at h2
        split at h2
        · simp [pad2, digit] at h2
          exact hc h2.1.symm
        · simp [pad2, digit] at h2
          exact hc h2.1.symm
      have hp : packTwo n ≠ 0 := by rw [Ne, packTwo_eq_zero (h1 n (by simp))]; exact hn0
      have hdw : ((n :: ns).map packTwo).dropWhile (· = 0) = (n :: ns).map packTwo := by
        rw [List.map_cons, List.dropWhile_cons_of_neg (by simp [hp])]
      rw [hb]
      unfold bcdToString
      rw [dropWhile_zeros, hdw]
      simp only
      rw [unpack_groups _ h1, h2, ht]
      simp only [Bool.false_eq_true, if_false]
      have hdc : (c :: s).dropWhile (· = 48) = c :: s := by rw [List.dropWhile_cons_of_neg (by simp [hc])]
      split
      · rw [if_neg (by simp [hc]), List.dropWhile_cons_of_pos (by simp), hdc]
      · rw [if_neg (by simp [hc]), hdc]

/-- Dates before a year have smaller day numbers. -/
theorem daysFromCivil_before {y a : Int} {m d : Nat} (h : ValidDate y m d) (hy : y < a) :
    daysFromCivil y m d < daysFromCivil a 1 1 := by
  obtain ⟨p, mp, doy, p1, p2, p3, p4, p5, p6, p7, p8⟩ := daysFromCivil_parts h
  have ha : daysFromCivil a 1 1 = yearStart (a - 1) + 306 - 719468 := by
    unfold daysFromCivil yearStart
    simp only [show (1 : Nat) ≤ 2 from by omega, if_true]
    omega
  rw [p8, ha]
  by_cases hm : m ≤ 2
  · rw [if_pos hm] at p3
    have hmp : ¬ mp < 10 := by intro hc; rw [if_pos hc] at p4; omega
    rw [if_neg hmp] at p4
    have hs := yearStart_succ p
    have h1 : yearStart (p + 1) ≤ yearStart (a - 1) := by
      have : p + 1 = y := by omega
      rw [this]
      by_cases he : y = a - 1
      · rw [he]; omega
      · have := yearStart_lt (show y - 1 < a - 1 by omega)
        rw [show y - 1 + 1 = y by omega] at this
        exact this
    split at hs <;> split at p7 <;> simp_all <;> omega
  · rw [if_neg hm] at p3
    by_cases he : y = a - 1
    · subst p3
      have hmp : mp < 10 := by
        by_cases hc : mp < 10
        · exact hc
        · rw [if_neg hc] at p4; omega
      rw [he]
      omega
    · have h1 := yearStart_lt (show y < a - 1 by omega)
      have hs := yearStart_succ y
      subst p3
      split at hs <;> split at p7 <;> simp_all <;> omega

theorem civil_year_range (tz t : Int) (a b : Int) (h1 : daysFromCivil a 1 1 * 86400 ≤ t + tz)
    (h2 : t + tz < daysFromCivil (b + 1) 1 1 * 86400) : a ≤ (civilOf tz t).year ∧ (civilOf tz t).year ≤ b := by
  have hr := civilFromDays_range ((t + tz) / 86400)
  have he := daysFromCivil_civilFromDays ((t + tz) / 86400)
  have e : (civilOf tz t).year = (civilFromDays ((t + tz) / 86400)).1 := rfl
  rw [e]
  have hv : ValidDate (civilFromDays ((t + tz) / 86400)).1 (civilFromDays ((t + tz) / 86400)).2.1 (civilFromDays ((t + tz) / 86400)).2.2 := hr
  constructor
  · by_cases hc : (civilFromDays ((t + tz) / 86400)).1 < a
    · have := daysFromCivil_before hv hc
      omega
    · omega
  · have hn := daysFromCivil_civilFromDays ((t + tz) / 86400)
    by_cases hc : b < (civilFromDays ((t + tz) / 86400)).1
    · exfalso
      generalize civilFromDays ((t + tz) / 86400) = c at *
      have hv1 : ValidDate (b + 1) 1 1 := ⟨by omega, by omega, by omega, by simp [daysIn]⟩
      have h3 : daysFromCivil (b + 1) 1 1 ≤ daysFromCivil c.1 1 1 := by
        by_cases he' : b + 1 = c.1
        · rw [he']; omega
        · have := daysFromCivil_before hv1 (show b + 1 < c.1 by omega); omega
      have h4 : daysFromCivil c.1 1 1 ≤ daysFromCivil c.1 c.2.1 c.2.2 := by
        by_cases hd : daysFromCivil c.1 1 1 ≤ daysFromCivil c.1 c.2.1 c.2.2
        · exact hd
        · exfalso
          have g1 : daysFromCivil c.1 1 1 = yearStart (c.1 - 1) + 306 - 719468 := by
            unfold daysFromCivil yearStart
            simp only [show (1 : Nat) ≤ 2 from by omega, if_true]
            omega
          obtain ⟨p, mp, doy, p1, p2, p3, p4, p5, p6, p7, p8⟩ := daysFromCivil_parts hv
          rw [g1, p8] at hd
          by_cases hm : c.2.1 ≤ 2
          · rw [if_pos hm] at p3
            have hmp : ¬ mp < 10 := by intro hc; rw [if_pos hc] at p4; omega
            subst p3
            omega
          · rw [if_neg hm] at p3
            subst p3
            have := yearStart_succ (c.1 - 1)
            rw [show c.1 - 1 + 1 = c.1 by omega] at this
            split at this <;> omega
      omega
    · omega

theorem fmt8_groups (c : Civil) (y : Nat) (hy : c.year = y) (h : y < 10000) :
    fmt8 c = [y / 100, y % 100, c.month, c.day].flatMap pad2 := by
  unfold fmt8
  rw [hy, fmtYear_eq h]
  simp only [List.flatMap_cons, List.flatMap_nil, List.append_nil, pad2_mod, List.append_assoc]

/-- The expiry date of 0x0702. -/
theorem date_round_trip (env : Env) (t : Time) (h : DateOK env t) :
    (stringToBCD (fmt8 (civilOf env.tz t)) 4).length = 4 ∧
      parse14 env.tz (bcdToString (stringToBCD (fmt8 (civilOf env.tz t)) 4) ++ [48, 48, 48, 48, 48, 48]) = .ok t := by
  obtain ⟨h0, h1, h2⟩ := h
  generalize htz : env.tz = tz at *
  have ht : ∃ u : Int, u = t := ⟨t, rfl⟩
  obtain ⟨u, hu⟩ := ht
  have h0' : (u + tz) % 86400 = 0 := by rw [hu]; exact h0
  have h1' : -30610224000 ≤ u + tz := by rw [hu]; exact h1
  have h2' : u + tz < 253402300800 := by rw [hu]; exact h2
  rw [← hu]
  clear hu h0 h1 h2
  obtain ⟨hy1, hy2⟩ := civil_year_range tz u 1000 9999 h1' h2'
  obtain ⟨y, hyr⟩ : ∃ y : Nat, (civilOf tz u).year = y := ⟨(civilOf tz u).year.toNat, by omega⟩
  obtain ⟨r1, r2, r3, r4, r5, r6, r7⟩ := civilOf_range tz u
  have hd31 : daysIn (civilOf tz u).month (civilOf tz u).year ≤ 31 := by
    unfold daysIn; split; (split <;> omega); (split <;> omega)
  have hb : stringToBCD (fmt8 (civilOf tz u)) 4 = [y / 100, y % 100, (civilOf tz u).month, (civilOf tz u).day].map packTwo := by
    rw [fmt8_groups _ y hyr (by omega)]
    exact stringToBCD_groups [y / 100, y % 100, (civilOf tz u).month, (civilOf tz u).day]
  refine ⟨by rw [hb]; rfl, ?_⟩
  have hs : bcdToString (stringToBCD (fmt8 (civilOf tz u)) 4) ++ [48, 48, 48, 48, 48, 48] =
      [y / 100, y % 100, (civilOf tz u).month, (civilOf tz u).day, 0, 0, 0].flatMap pad2 := by
    rw [hb, bcdToString_groups _ _ (by omega)]
    · simp only [List.flatMap_cons, List.flatMap_nil, List.append_nil, List.append_assoc]
      rfl
    · intro m hm
      simp only [List.mem_cons, List.not_mem_nil, or_false] at hm
      omega
  have hyy : ((y / 100 * 100 + y % 100 : Nat) : Int) = (civilOf tz u).year := by omega
  rw [hs, parse14_groups tz (y / 100) (y % 100) _ _ 0 0 0 (by omega) (by omega) ⟨r1, r2⟩ (by rw [hyy]; exact ⟨r3, r4⟩)
    (by omega) (by omega) (by omega), hyy]
  have hi : instantOf tz (civilOf tz u) = u := instantOf_civilOf tz u
  have hh : (civilOf tz u).hour = 0 ∧ (civilOf tz u).minute = 0 ∧ (civilOf tz u).second = 0 := by
    unfold civilOf
    simp only [h0']
    decide
  generalize civilOf tz u = c at hi hh
  obtain ⟨cy, cm, cd, ch, ci, cs⟩ := c
  simp only at hh ⊢
  obtain ⟨e1, e2, e3⟩ := hh
  subst e1 e2 e3
  exact congrArg Res.ok hi

end Verif
