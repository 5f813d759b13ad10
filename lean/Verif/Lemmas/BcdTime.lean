import Verif.Lemmas.Digits
import Verif.Lemmas.Calendar
import Verif.Model.Helpers
/-! # BCD times -/

namespace Verif

/-- Two decimal digits in one byte. -/
def packTwo (n : Nat) : UInt8 := UInt8.ofNat (n / 10 % 10 * 16 + n % 10)

theorem packBCD_pad2 (n : Nat) (s : Bytes) : packBCD (pad2 n ++ s) = packTwo n :: packBCD s := by
  have := pack_byte (a := n / 10 % 10) (b := n % 10) (by omega) (by omega)
  simp only [pad2, List.cons_append, List.nil_append, packBCD, this, packTwo]

set_option maxRecDepth 20000 in
theorem unpack_packTwo {n : Nat} (h : n < 100) : unpackByte (packTwo n) = pad2 n := by
  have : ∀ n : Fin 100, unpackByte (packTwo n.1) = pad2 n.1 := by decide
  exact this ⟨n, h⟩

theorem packTwo_eq_zero {n : Nat} (h : n < 100) : packTwo n = 0 ↔ n = 0 := by
  have : ∀ n : Fin 100, packTwo n.1 = 0 ↔ n.1 = 0 := by decide
  exact this ⟨n, h⟩

theorem digit_eq_48 {n : Nat} (h : n < 10) : digit n = 48 ↔ n = 0 := by
  have : ∀ n : Fin 10, digit n.1 = 48 ↔ n.1 = 0 := by decide
  exact this ⟨n, h⟩

theorem pad2_all {n : Nat} : (pad2 n).all isDigit = true := by
  simp [pad2, digit_isDigit (show n / 10 % 10 < 10 by omega), digit_isDigit (show n % 10 < 10 by omega)]

theorem digitsVal_pad2 {n : Nat} (h : n < 100) : digitsVal (pad2 n) = n := by
  have h1 := digit_toNat (show n / 10 % 10 < 10 by omega)
  have h2 := digit_toNat (show n % 10 < 10 by omega)
  simp [pad2, digitsVal_cons, h1, h2]
  omega

theorem pad4_eq {n : Nat} : pad4 n = pad2 (n / 100) ++ pad2 n := by
  simp only [pad4, pad2, List.cons_append, List.nil_append]
  rw [show n / 100 / 10 = n / 1000 by omega]

theorem fmtYear_eq {y : Nat} (h : y < 10000) : fmtYear (y : Int) = pad2 (y / 100) ++ pad2 y := by
  have h1 : ¬ ((y : Int) < 0) := by omega
  have h2 : ((y : Int)).natAbs = y := by omega
  simp only [fmtYear, h1, if_false, h2, h, if_true, List.nil_append, pad4_eq]

theorem pad2_mod (n : Nat) : pad2 (n % 100) = pad2 n := by
  simp only [pad2]
  rw [show n % 100 / 10 % 10 = n / 10 % 10 by omega, show n % 100 % 10 = n % 10 by omega]

/-- Packing and unpacking a number of two-digit groups. -/
theorem packBCD_groups (ns : List Nat) : packBCD (ns.flatMap pad2) = ns.map packTwo := by
  induction ns with
  | nil => rfl
  | cons n ns ih => rw [List.flatMap_cons, packBCD_pad2, ih, List.map_cons]

theorem unpack_groups (ns : List Nat) (h : ∀ n ∈ ns, n < 100) : (ns.map packTwo).flatMap unpackByte = ns.flatMap pad2 := by
  induction ns with
  | nil => rfl
  | cons n ns ih =>
    rw [List.map_cons, List.flatMap_cons, List.flatMap_cons, unpack_packTwo (h n (by simp)),
      ih fun m hm => h m (by simp [hm])]

theorem groups_length (ns : List Nat) : (ns.flatMap pad2).length = 2 * ns.length := by
  induction ns with
  | nil => rfl
  | cons n ns ih => rw [List.flatMap_cons, List.length_append, ih]; simp [pad2]; omega

theorem stringToBCD_groups (ns : List Nat) : stringToBCD (ns.flatMap pad2) ns.length = ns.map packTwo := by
  have hl := groups_length ns
  unfold stringToBCD stringToBCD0
  simp only [hl]
  rw [if_neg (by omega : ¬ 2 * ns.length % 2 = 1), packBCD_groups]
  simp

theorem stringToBCD0_groups (ns : List Nat) : stringToBCD0 (ns.flatMap pad2) = ns.map packTwo := by
  have hl := groups_length ns
  unfold stringToBCD0
  simp only [hl]
  rw [if_neg (by omega : ¬ 2 * ns.length % 2 = 1), packBCD_groups]

/-- With a first group of at least 10 nothing is stripped. -/
theorem bcdToString_groups (n : Nat) (ns : List Nat) (hn : 10 ≤ n) (h : ∀ m ∈ n :: ns, m < 100) (ig : Bool) :
    bcdToString ((n :: ns).map packTwo) ig = (n :: ns).flatMap pad2 := by
  have hn' : n < 100 := h n (by simp)
  have h0 : packTwo n ≠ 0 := by rw [Ne, packTwo_eq_zero hn']; omega
  have hd : ((n :: ns).map packTwo).dropWhile (· = 0) = (n :: ns).map packTwo := by
    rw [List.map_cons, List.dropWhile_cons_of_neg (by simp [h0])]
  unfold bcdToString
  rw [hd]
  simp only
  rw [unpack_groups _ h]
  have h1 : digit (n / 10 % 10) ≠ 48 := by rw [Ne, digit_eq_48 (by omega)]; omega
  split
  · rfl
  · split
    · rfl
    · rw [List.flatMap_cons]
      simp only [pad2, List.cons_append]
      rw [List.dropWhile_cons_of_neg (by simp [h1])]

/-- With a positive first group nothing is stripped from the padded form. -/
theorem bcdToString_groups_pad (n : Nat) (ns : List Nat) (hn : 1 ≤ n) (h : ∀ m ∈ n :: ns, m < 100) :
    bcdToString ((n :: ns).map packTwo) true = (n :: ns).flatMap pad2 := by
  have hn' : n < 100 := h n (by simp)
  have h0 : packTwo n ≠ 0 := by rw [Ne, packTwo_eq_zero hn']; omega
  have hd : ((n :: ns).map packTwo).dropWhile (· = 0) = (n :: ns).map packTwo := by
    rw [List.map_cons, List.dropWhile_cons_of_neg (by simp [h0])]
  unfold bcdToString
  rw [hd]
  simp only
  rw [unpack_groups _ h]
  simp

theorem length_dropWhile_le {α : Type} (p : α → Bool) (s : List α) : (s.dropWhile p).length ≤ s.length := by
  induction s with
  | nil => simp
  | cons a s ih => rw [List.dropWhile_cons]; split <;> simp <;> omega

theorem bcdToString_length_le (d : Bytes) (ig : Bool) : (bcdToString d ig).length ≤ 2 * (d.dropWhile (· = 0)).length := by
  unfold bcdToString
  simp only
  have h1 := unpack_length (d.dropWhile (· = 0))
  have h2 := length_dropWhile_le (· = (48 : UInt8)) ((d.dropWhile (· = 0)).flatMap unpackByte)
  split
  · omega
  · split <;> omega

/-- With a first group below 10, and not all groups zero, at least one digit is stripped. -/
theorem bcdToString_groups_short (n : Nat) (ns : List Nat) (hn : n < 10) (h : ∀ m ∈ n :: ns, m < 100) (hne : ∃ m ∈ n :: ns, m ≠ 0) :
    (bcdToString ((n :: ns).map packTwo)).length < 2 * (n :: ns).length := by
  by_cases h0 : n = 0
  · have hl := bcdToString_length_le ((n :: ns).map packTwo) false
    have : packTwo n = 0 := (packTwo_eq_zero (by omega)).2 h0
    rw [List.map_cons, List.dropWhile_cons_of_pos (by simp [this])] at hl
    have := length_dropWhile_le (· = (0 : UInt8)) (ns.map packTwo)
    rw [List.map_cons]
    simp at this ⊢
    omega
  · have hp : packTwo n ≠ 0 := by rw [Ne, packTwo_eq_zero (by omega)]; omega
    have hd : ((n :: ns).map packTwo).dropWhile (· = 0) = (n :: ns).map packTwo := by
      rw [List.map_cons, List.dropWhile_cons_of_neg (by simp [hp])]
    unfold bcdToString
    rw [hd]
    simp only
    rw [unpack_groups _ h]
    have hz : digit (n / 10 % 10) = 48 := by rw [digit_eq_48 (by omega)]; omega
    have h1 : digit (n % 10) ≠ 48 := by rw [Ne, digit_eq_48 (by omega)]; omega
    have hall : ((n :: ns).flatMap pad2).all (· = 48) = false := by
      rw [List.flatMap_cons]
      simp [pad2, h1]
    rw [hall]
    have hg := groups_length (n :: ns)
    simp only [Bool.false_eq_true, if_false]
    rw [List.flatMap_cons] at hg ⊢
    simp only [pad2, List.cons_append] at hg ⊢
    rw [hz] at hg ⊢
    rw [List.dropWhile_cons_of_pos (by simp)]
    have := length_dropWhile_le (· = (48 : UInt8)) (digit (n % 10) :: ([] ++ ns.flatMap pad2))
    simp only [List.length_cons] at this hg ⊢
    omega

/-! ## Times of this century -/

theorem fmt14_groups (c : Civil) (y : Nat) (hy : c.year = y) (h : y < 10000) :
    fmt14 c = [y / 100, y % 100, c.month, c.day, c.hour, c.minute, c.second].flatMap pad2 := by
  unfold fmt14
  rw [hy, fmtYear_eq h]
  simp [List.flatMap_cons, pad2_mod, List.append_assoc]

theorem toBCDTime_groups (tz : Int) (t : Time) (y : Nat) (hy : (civilOf tz t).year = y) (h : y < 10000) :
    toBCDTime tz t = [y % 100, (civilOf tz t).month, (civilOf tz t).day, (civilOf tz t).hour, (civilOf tz t).minute,
      (civilOf tz t).second].map packTwo := by
  unfold toBCDTime
  rw [fmt14_groups _ y hy h, List.flatMap_cons, List.drop_left' (by simp [pad2])]
  exact stringToBCD_groups [_, _, _, _, _, _]

theorem drop_groups (ns : List Nat) (k : Nat) : (ns.flatMap pad2).drop (2 * k) = (ns.drop k).flatMap pad2 := by
  induction k generalizing ns with
  | zero => simp
  | succ k ih =>
    cases ns with
    | nil => simp
    | cons n ns =>
      rw [List.flatMap_cons, show 2 * (k + 1) = 2 + 2 * k by omega, ← List.drop_drop, List.drop_left' (by simp [pad2]), ih,
        List.drop_succ_cons]

theorem groups_all (ns : List Nat) : (ns.flatMap pad2).all isDigit = true := by
  rw [List.all_flatMap]
  simp [pad2_all]

/-- Parsing seven two-digit groups that form a valid date and time. -/
theorem parse14_groups (tz : Int) (yh yl mo d h mi s : Nat) (hyh : yh < 100) (hyl : yl < 100)
    (hmo : 1 ≤ mo ∧ mo ≤ 12) (hd : 1 ≤ d ∧ d ≤ daysIn mo ((yh * 100 + yl : Nat) : Int)) (hh : h < 24) (hmi : mi < 60) (hs : s < 60) :
    parse14 tz ([yh, yl, mo, d, h, mi, s].flatMap pad2) = .ok (instantOf tz ⟨((yh * 100 + yl : Nat) : Int), mo, d, h, mi, s⟩) := by
  have hd31 : daysIn mo ((yh * 100 + yl : Nat) : Int) ≤ 31 := by unfold daysIn; split; (split <;> omega); (split <;> omega)
  have hlen := groups_length [yh, yl, mo, d, h, mi, s]
  have hall := groups_all [yh, yl, mo, d, h, mi, s]
  have hy : digitsVal ((([yh, yl, mo, d, h, mi, s].flatMap pad2).drop 0).take 4) = yh * 100 + yl := by
    have : (([yh, yl, mo, d, h, mi, s].flatMap pad2).drop 0).take 4 = pad2 yh ++ pad2 yl := by simp [pad2]
    rw [this, digitsVal_append, digitsVal_pad2 hyh, digitsVal_pad2 hyl]
    simp [pad2]
  have hg : ∀ k (hk : k < 7) (v : Nat), [yh, yl, mo, d, h, mi, s][k] = v → v < 100 →
      digitsVal ((([yh, yl, mo, d, h, mi, s].flatMap pad2).drop (2 * k)).take 2) = v := by
    intro k hk v hv hlt
    rw [drop_groups, List.drop_eq_getElem_cons (by simpa using hk), List.flatMap_cons, List.take_left' (by simp [pad2]), hv,
      digitsVal_pad2 hlt]
  have h2 := hg 2 (by omega) mo rfl (by omega)
  have h3 := hg 3 (by omega) d rfl (by omega)
  have h4 := hg 4 (by omega) h rfl (by omega)
  have h5 := hg 5 (by omega) mi rfl (by omega)
  have h6 := hg 6 (by omega) s rfl (by omega)
  generalize [yh, yl, mo, d, h, mi, s].flatMap pad2 = str at *
  simp only [Nat.reduceMul] at h2 h3 h4 h5 h6
  unfold parse14
  simp only [hy, h2, h3, h4, h5, h6]
  rw [if_neg (by simp [hlen, hall]), if_neg (by omega)]

/-- Year of a local time from 2000 to 2099. -/
theorem civil_year (tz t : Int) (h1 : 946684800 ≤ t + tz) (h2 : t + tz < 4102444800) :
    2000 ≤ (civilOf tz t).year ∧ (civilOf tz t).year ≤ 2099 ∧ (1262304000 ≤ t + tz ↔ 2010 ≤ (civilOf tz t).year) := by
  have e : (civilOf tz t).year = (civilFromDays ((t + tz) / 86400)).1 := rfl
  rw [e]
  obtain ⟨era, yoe, doy, g1, g2, hl, hz, hc⟩ := civilFromDays_parts ((t + tz) / 86400)
  rw [hc]
  simp only
  generalize hm : (5 * doy + 2) / 153 = mp
  have hz1 : 10957 ≤ (t + tz) / 86400 := by omega
  have hz2 : (t + tz) / 86400 < 47482 := by omega
  have hz3 : 1262304000 ≤ t + tz ↔ 14610 ≤ (t + tz) / 86400 := by omega
  have hs : 365 * yoe + yoe / 4 - yoe / 100 ≤ 145731 := by omega
  have hera : era = 4 ∨ era = 5 := by omega
  rw [hz3]
  generalize (t + tz) / 86400 = z at hz hz1 hz2
  rcases hera with he | he <;> subst he
  · -- January and February 2000
    have : yoe = 399 := by omega
    subst this
    by_cases h10 : mp < 10
    · exfalso; omega
    · simp only [h10, if_false]; omega
  · have hy : yoe ≤ 99 := by omega
    have hy0 : yoe / 100 = 0 := by omega
    rw [hy0] at hz
    by_cases h10 : mp < 10
    · simp only [h10, if_true]; omega
    · simp only [h10, if_false]; omega

/-! ## What the decoder of times accepts -/

/-- Seven two-digit groups that are accepted form a date and time. -/
theorem parse14_groups_valid {tz : Int} {yh yl mo d h mi s : Nat} (hb : ∀ n ∈ [yh, yl, mo, d, h, mi, s], n < 100) {t : Time}
    (ht : parse14 tz ([yh, yl, mo, d, h, mi, s].flatMap pad2) = .ok t) :
    ValidDate ((yh * 100 + yl : Nat) : Int) mo d ∧ h < 24 ∧ mi < 60 ∧ s < 60 := by
  have hlen := groups_length [yh, yl, mo, d, h, mi, s]
  have hall := groups_all [yh, yl, mo, d, h, mi, s]
  simp only [List.mem_cons, List.not_mem_nil, or_false, forall_eq_or_imp, forall_eq] at hb
  obtain ⟨hyh, hyl, b2, b3, b4, b5, b6⟩ := hb
  have hy : digitsVal ((([yh, yl, mo, d, h, mi, s].flatMap pad2).drop 0).take 4) = yh * 100 + yl := by
    have : (([yh, yl, mo, d, h, mi, s].flatMap pad2).drop 0).take 4 = pad2 yh ++ pad2 yl := by simp [pad2]
    rw [this, digitsVal_append, digitsVal_pad2 hyh, digitsVal_pad2 hyl]
    simp [pad2]
  have hg : ∀ k (hk : k < 7) (v : Nat), [yh, yl, mo, d, h, mi, s][k] = v → v < 100 →
      digitsVal ((([yh, yl, mo, d, h, mi, s].flatMap pad2).drop (2 * k)).take 2) = v := by
    intro k hk v hv hlt
    rw [drop_groups, List.drop_eq_getElem_cons (by simpa using hk), List.flatMap_cons, List.take_left' (by simp [pad2]), hv,
      digitsVal_pad2 hlt]
  have h2 := hg 2 (by omega) mo rfl b2
  have h3 := hg 3 (by omega) d rfl b3
  have h4 := hg 4 (by omega) h rfl b4
  have h5 := hg 5 (by omega) mi rfl b5
  have h6 := hg 6 (by omega) s rfl b6
  generalize [yh, yl, mo, d, h, mi, s].flatMap pad2 = str at *
  simp only [Nat.reduceMul] at h2 h3 h4 h5 h6
  unfold parse14 at ht
  simp only [hy, h2, h3, h4, h5, h6] at ht
  rw [if_neg (by simp [hlen, hall])] at ht
  split at ht
  · cases ht
  · unfold ValidDate; omega

theorem packTwo_of_digits {b : UInt8} (h : (unpackByte b).all isDigit = true) :
    ∃ n, n < 100 ∧ b = packTwo n ∧ (16 ≤ b.toNat → 10 ≤ n) := by
  rw [unpack_all_digit] at h
  refine ⟨b.toNat / 16 * 10 + b.toNat % 16, by omega, ?_, by omega⟩
  apply UInt8.toNat.inj
  have := b.toNat_lt
  unfold packTwo
  rw [UInt8.toNat_ofNat']
  omega

/-- Nothing is stripped from a packed string of full length; its first digit is not zero. -/
theorem bcdToString_full {b : UInt8} {bs : Bytes} (h : (bcdToString (b :: bs)).length = 2 * (b :: bs).length) :
    bcdToString (b :: bs) = (b :: bs).flatMap unpackByte ∧ 16 ≤ b.toNat := by
  have h0 : b ≠ 0 := by
    rintro rfl
    have hl := bcdToString_length_le (0 :: bs) false
    rw [List.dropWhile_cons_of_pos (by simp)] at hl
    have := length_dropWhile_le (· = (0 : UInt8)) bs
    simp only [List.length_cons] at h
    omega
  have hd : (b :: bs).dropWhile (· = 0) = b :: bs := List.dropWhile_cons_of_neg (by simp [h0])
  have hn : b.toNat ≠ 0 := fun hc => h0 (UInt8.toNat.inj (by simpa using hc))
  unfold bcdToString at h ⊢
  rw [hd] at h ⊢
  simp only [Bool.false_eq_true, if_false] at h ⊢
  obtain ⟨x, y, hxy, hx, hy⟩ := unpackByte_eq b
  have hul := unpack_length (b :: bs)
  rw [List.flatMap_cons, hxy] at h hul ⊢
  have hx48 : x = 48 → x.toNat = 48 := by rintro rfl; rfl
  have hy48 : y = 48 → y.toNat = 48 := by rintro rfl; rfl
  have hx48' : x.toNat = 48 → x = 48 := fun e => UInt8.toNat.inj (by simpa using e)
  have hall : ([x, y] ++ bs.flatMap unpackByte).all (· = 48) = false := by
    rw [Bool.eq_false_iff]
    intro hc
    simp only [List.cons_append, List.nil_append, List.all_cons, Bool.and_eq_true, decide_eq_true_eq] at hc
    have := hx48 hc.1
    have := hy48 hc.2.1
    omega
  rw [hall] at h ⊢
  simp only [Bool.false_eq_true, if_false] at h ⊢
  by_cases hz : x = 48
  · exfalso
    rw [List.cons_append, List.dropWhile_cons_of_pos (by simp [hz])] at h
    have := length_dropWhile_le (· = (48 : UInt8)) ([y] ++ bs.flatMap unpackByte)
    simp only [List.cons_append, List.nil_append, List.length_cons] at this h hul
    omega
  · refine ⟨by rw [List.cons_append, List.dropWhile_cons_of_neg (by simp [hz])], ?_⟩
    have : x.toNat ≠ 48 := fun e => hz (hx48' e)
    omega

/-- What the decoder of times accepts, it was made from a valid date of 2010 to 2099. -/
theorem fromBCDTime_groups {tz : Int} {b : Bytes} {t : Time} (h : fromBCDTime tz b = .ok t) :
    ∃ yl mo d ho mi s, b = [yl, mo, d, ho, mi, s].map packTwo ∧ 10 ≤ yl ∧ yl < 100 ∧ ValidDate ((20 * 100 + yl : Nat) : Int) mo d ∧ ho < 24 ∧ mi < 60 ∧
      s < 60 ∧ t = instantOf tz ⟨((20 * 100 + yl : Nat) : Int), mo, d, ho, mi, s⟩ := by
  unfold fromBCDTime at h
  split at h
  · cases h
  rename_i hl
  simp only [ne_eq, Decidable.not_not] at hl
  have hp : ([50, 48] ++ bcdToString b).length = 14 ∧ ([50, 48] ++ bcdToString b).all isDigit = true := by
    have h' := h
    unfold parse14 at h'
    split at h'
    · cases h'
    · rename_i hc
      simpa using hc
  obtain ⟨hp1, hp2⟩ := hp
  match b, hl with
  | [b0, b1, b2, b3, b4, b5], _ =>
    obtain ⟨e1, e2⟩ := bcdToString_full (b := b0) (bs := [b1, b2, b3, b4, b5]) (by simp at hp1 ⊢; omega)
    rw [e1, List.all_append, List.all_flatMap] at hp2
    simp only [List.all_cons, List.all_nil, Bool.and_true, Bool.and_eq_true] at hp2
    obtain ⟨-, d0, d1, d2, d3, d4, d5⟩ := hp2
    obtain ⟨n0, l0, rfl, g0⟩ := packTwo_of_digits d0
    obtain ⟨n1, l1, rfl, -⟩ := packTwo_of_digits d1
    obtain ⟨n2, l2, rfl, -⟩ := packTwo_of_digits d2
    obtain ⟨n3, l3, rfl, -⟩ := packTwo_of_digits d3
    obtain ⟨n4, l4, rfl, -⟩ := packTwo_of_digits d4
    obtain ⟨n5, l5, rfl, -⟩ := packTwo_of_digits d5
    have hs : ([50, 48] : Bytes) ++ bcdToString [packTwo n0, packTwo n1, packTwo n2, packTwo n3, packTwo n4, packTwo n5] =
        [20, n0, n1, n2, n3, n4, n5].flatMap pad2 := by
      rw [e1, List.flatMap_cons (x := 20), show pad2 20 = [50, 48] by decide]
      exact congrArg _ (unpack_groups [n0, n1, n2, n3, n4, n5] (by simp [l0, l1, l2, l3, l4, l5]))
    rw [hs] at h
    obtain ⟨v, w1, w2, w3⟩ := parse14_groups_valid (by simp [l0, l1, l2, l3, l4, l5]) h
    rw [parse14_groups tz 20 n0 n1 n2 n3 n4 n5 (by omega) l0 ⟨v.1, v.2.1⟩ ⟨v.2.2.1, v.2.2.2⟩ w1 w2 w3] at h
    exact ⟨n0, n1, n2, n3, n4, n5, rfl, g0 e2, l0, v, w1, w2, w3, (Res.ok.inj h).symm⟩

/-- Instants of the years 2010 to 2099. -/
theorem instantOf_range {tz : Int} {c : Civil} (h1 : 2010 ≤ c.year) (h2 : c.year ≤ 2099) (hv : ValidDate c.year c.month c.day) (hh : c.hour < 24)
    (hm : c.minute < 60) (hs : c.second < 60) : (1262304000 : Int) ≤ instantOf tz c + tz ∧ instantOf tz c + tz < 4102444800 := by
  have hd31 : daysIn c.month c.year ≤ 31 := by unfold daysIn; split; (split <;> omega); (split <;> omega)
  obtain ⟨v1, v2, v3, v4⟩ := hv
  have : 14610 ≤ daysFromCivil c.year c.month c.day ∧ daysFromCivil c.year c.month c.day < 47482 := by
    unfold daysFromCivil
    by_cases hc : c.month ≤ 2
    · simp only [hc, if_true]; omega
    · simp only [hc, if_false]; omega
  unfold instantOf
  show (1262304000 : Int) ≤ _ ∧ @LT.lt Int _ _ _
  omega

end Verif
