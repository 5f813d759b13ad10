import Verif.Lemmas.Property
/-! # Reading and writing single bits -/

namespace Verif

/-- The bit `i` of a number with the bit `o` replaced (below width `w`). -/
def bitWith (w : Nat) (v : Nat) (o : Nat) (b : Bool) (i : Nat) : Bool :=
  if o < w ∧ i = o then b else v.testBit i

theorem testBit_clear (w v x i : Nat) (hx : x < 2 ^ w) (hv : v < 2 ^ w) :
    (v &&& (2 ^ w - 1 - x)).testBit i = (v.testBit i && !x.testBit i) := by
  rw [Nat.testBit_and, show 2 ^ w - 1 - x = 2 ^ w - (x + 1) by omega, Nat.testBit_two_pow_sub_succ hx]
  by_cases h : i < w
  · simp [h]
  · have : v.testBit i = false := Nat.testBit_lt_two_pow (Nat.lt_of_lt_of_le hv (Nat.pow_le_pow_right (by omega) (by omega)))
    simp [this]


/-! ## 8 bits -/

theorem getBitByte_eq (v : UInt8) (i : Nat) : getBitByte v (i : Int) = .ok (v.toNat.testBit i) := by
  unfold getBitByte
  by_cases h : i < 8
  · rw [if_neg (by omega), if_neg (by omega)]
    congr 1
    have h1 := u8_mask i h
    have h2 := and_pow_pos v.toNat i
    rw [Bool.eq_iff_iff, ← h2]
    simp only [Int.toNat_natCast, decide_eq_true_eq, gt_iff_lt, UInt8.lt_iff_toNat_lt, UInt8.toNat_and, h1]
    rfl
  · rw [if_pos (by omega), Nat.testBit_lt_two_pow]
    exact Nat.lt_of_lt_of_le v.toNat_lt (Nat.pow_le_pow_right (by omega) (by omega))

theorem shl1Byte_toNat (o : Nat) : (shl1Byte (o : Int)).toNat = if o < 8 then 2 ^ o else 0 := by
  unfold shl1Byte
  by_cases h : o < 8
  · rw [if_neg (by omega), if_pos h]
    exact u8_mask o h
  · rw [if_pos (by omega), if_neg h]
    rfl

theorem setBitByte_eq (v : UInt8) (o : Nat) (b : Bool) :
    ∃ r, setBitByte v (o : Int) b = .ok r ∧ ∀ i, r.toNat.testBit i = bitWith 8 v.toNat o b i := by
  unfold setBitByte
  by_cases h32 : (o : Int) ≥ 32
  · rw [if_pos h32]
    refine ⟨v, rfl, fun i => ?_⟩
    unfold bitWith
    rw [if_neg (by omega)]
  · rw [if_neg h32, if_neg (by omega)]
    have hm := shl1Byte_toNat o
    have hlt : (if o < 8 then 2 ^ o else 0) < 2 ^ 8 := by
      split
      · exact Nat.pow_lt_pow_right (by omega) (by assumption)
      · decide
    cases b
    · refine ⟨_, rfl, fun i => ?_⟩
      rw [UInt8.toNat_and, UInt8.toNat_not, hm]
      have := testBit_clear 8 v.toNat (if o < 8 then 2 ^ o else 0) i hlt v.toNat_lt
      refine Eq.trans this ?_
      unfold bitWith
      by_cases ho : o < 8
      · rw [if_pos ho, Nat.testBit_two_pow]
        by_cases hi : i = o
        · simp [hi, ho]
        · simp [hi, Ne.symm hi]
      · simp [ho]
    · refine ⟨_, rfl, fun i => ?_⟩
      rw [UInt8.toNat_or, hm, Nat.testBit_or]
      unfold bitWith
      by_cases ho : o < 8
      · rw [if_pos ho, Nat.testBit_two_pow]
        by_cases hi : i = o
        · simp [hi, ho]
        · simp [hi, Ne.symm hi]
      · simp [ho]

/-! ## 16 bits -/

theorem getBitUint16_eq (v : UInt16) (i : Nat) : getBitUint16 v (i : Int) = .ok (v.toNat.testBit i) := by
  unfold getBitUint16
  by_cases h : i < 16
  · rw [if_neg (by omega), if_neg (by omega)]
    congr 1
    have h1 := u16_mask i h
    have h2 := and_pow_pos v.toNat i
    rw [Bool.eq_iff_iff, ← h2]
    simp only [Int.toNat_natCast, decide_eq_true_eq, gt_iff_lt, UInt16.lt_iff_toNat_lt, UInt16.toNat_and, h1]
    rfl
  · rw [if_pos (by omega), Nat.testBit_lt_two_pow]
    exact Nat.lt_of_lt_of_le v.toNat_lt (Nat.pow_le_pow_right (by omega) (by omega))

theorem shl1Uint16_toNat (o : Nat) : (shl1Uint16 (o : Int)).toNat = if o < 16 then 2 ^ o else 0 := by
  unfold shl1Uint16
  by_cases h : o < 16
  · rw [if_neg (by omega), if_pos h]
    exact u16_mask o h
  · rw [if_pos (by omega), if_neg h]
    rfl

theorem setBitUint16_eq (v : UInt16) (o : Nat) (b : Bool) :
    ∃ r, setBitUint16 v (o : Int) b = .ok r ∧ ∀ i, r.toNat.testBit i = bitWith 16 v.toNat o b i := by
  unfold setBitUint16
  by_cases h32 : (o : Int) ≥ 32
  · rw [if_pos h32]
    refine ⟨v, rfl, fun i => ?_⟩
    unfold bitWith
    rw [if_neg (by omega)]
  · rw [if_neg h32, if_neg (by omega)]
    have hm := shl1Uint16_toNat o
    have hlt : (if o < 16 then 2 ^ o else 0) < 2 ^ 16 := by
      split
      · exact Nat.pow_lt_pow_right (by omega) (by assumption)
      · decide
    cases b
    · refine ⟨_, rfl, fun i => ?_⟩
      rw [UInt16.toNat_and, UInt16.toNat_not, hm]
      have := testBit_clear 16 v.toNat (if o < 16 then 2 ^ o else 0) i hlt v.toNat_lt
      refine Eq.trans this ?_
      unfold bitWith
      by_cases ho : o < 16
      · rw [if_pos ho, Nat.testBit_two_pow]
        by_cases hi : i = o
        · simp [hi, ho]
        · simp [hi, Ne.symm hi]
      · simp [ho]
    · refine ⟨_, rfl, fun i => ?_⟩
      rw [UInt16.toNat_or, hm, Nat.testBit_or]
      unfold bitWith
      by_cases ho : o < 16
      · rw [if_pos ho, Nat.testBit_two_pow]
        by_cases hi : i = o
        · simp [hi, ho]
        · simp [hi, Ne.symm hi]
      · simp [ho]

/-! ## 32 bits -/

theorem getBitUint32_eq (v : UInt32) (i : Nat) : getBitUint32 v (i : Int) = .ok (v.toNat.testBit i) := by
  unfold getBitUint32
  by_cases h : i < 32
  · rw [if_neg (by omega), if_neg (by omega)]
    congr 1
    have h1 := u32_mask i h
    have h2 := and_pow_pos v.toNat i
    rw [Bool.eq_iff_iff, ← h2]
    simp only [Int.toNat_natCast, decide_eq_true_eq, gt_iff_lt, UInt32.lt_iff_toNat_lt, UInt32.toNat_and, h1]
    rfl
  · rw [if_pos (by omega), Nat.testBit_lt_two_pow]
    exact Nat.lt_of_lt_of_le v.toNat_lt (Nat.pow_le_pow_right (by omega) (by omega))

theorem setBitUint32_eq (v : UInt32) (o : Nat) (b : Bool) :
    ∃ r, setBitUint32 v (o : Int) b = .ok r ∧ ∀ i, r.toNat.testBit i = bitWith 32 v.toNat o b i := by
  unfold setBitUint32
  by_cases h32 : (o : Int) ≥ 32
  · rw [if_pos h32]
    refine ⟨v, rfl, fun i => ?_⟩
    unfold bitWith
    rw [if_neg (by omega)]
  · rw [if_neg h32, if_neg (by omega)]
    have ho : o < 32 := by omega
    have hm := u32_mask o ho
    simp only [Int.toNat_natCast]
    have hlt : 2 ^ o < 2 ^ 32 := Nat.pow_lt_pow_right (by omega) ho
    cases b
    · refine ⟨_, rfl, fun i => ?_⟩
      rw [UInt32.toNat_and, UInt32.toNat_not, hm]
      have := testBit_clear 32 v.toNat (2 ^ o) i hlt v.toNat_lt
      refine Eq.trans this ?_
      unfold bitWith
      rw [Nat.testBit_two_pow]
      by_cases hi : i = o
      · simp [hi, ho]
      · simp [hi, Ne.symm hi]
    · refine ⟨_, rfl, fun i => ?_⟩
      rw [UInt32.toNat_or, hm, Nat.testBit_or]
      unfold bitWith
      rw [Nat.testBit_two_pow]
      by_cases hi : i = o
      · simp [hi, ho]
      · simp [hi, Ne.symm hi]

end Verif
