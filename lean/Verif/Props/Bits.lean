import Verif.Lemmas.Bits
/-! # C26: bit helpers

The offset of the Go functions is an `int`; the theorems are about offsets that are not negative, and the last one says
what happens for negative ones. -/

namespace Verif

/-- Bit `i` of a number. -/
def Spec.bit (n i : Nat) : Bool := n / 2 ^ i % 2 = 1

theorem testBit_spec (n i : Nat) : n.testBit i = Spec.bit n i := by
  rw [Nat.testBit_eq_decide_div_mod_eq]; rfl

/-- C26: `GetBitByte` reads the bit of the number; beyond the width the bits are 0. -/
theorem C26_get_byte (v : UInt8) (i : Nat) : getBitByte v i = .ok (Spec.bit v.toNat i) := by
  rw [getBitByte_eq, testBit_spec]

theorem C26_get_uint16 (v : UInt16) (i : Nat) : getBitUint16 v i = .ok (Spec.bit v.toNat i) := by
  rw [getBitUint16_eq, testBit_spec]

theorem C26_get_uint32 (v : UInt32) (i : Nat) : getBitUint32 v i = .ok (Spec.bit v.toNat i) := by
  rw [getBitUint32_eq, testBit_spec]

/-- C26: reading beyond the width gives false. -/
theorem C26_get_beyond_width (v : UInt8) (w : UInt16) (x : UInt32) (i : Nat) :
    (8 ≤ i → getBitByte v i = .ok false) ∧ (16 ≤ i → getBitUint16 w i = .ok false) ∧ (32 ≤ i → getBitUint32 x i = .ok false) := by
  rw [getBitByte_eq, getBitUint16_eq, getBitUint32_eq]
  have hv := v.toNat_lt
  have hw := w.toNat_lt
  have hx := x.toNat_lt
  refine ⟨fun h => ?_, fun h => ?_, fun h => ?_⟩
  · exact congrArg _ (Nat.testBit_lt_two_pow (Nat.lt_of_lt_of_le hv (Nat.pow_le_pow_right (by omega) h)))
  · exact congrArg _ (Nat.testBit_lt_two_pow (Nat.lt_of_lt_of_le hw (Nat.pow_le_pow_right (by omega) h)))
  · exact congrArg _ (Nat.testBit_lt_two_pow (Nat.lt_of_lt_of_le hx (Nat.pow_le_pow_right (by omega) h)))

/-- C26: after `SetBitByte` the bit reads back as set and all other bits read as before; an offset beyond the width
changes nothing. -/
theorem C26_set_byte (v : UInt8) (o : Nat) (b : Bool) : ∃ r, setBitByte v o b = .ok r ∧
    (∀ i : Nat, getBitByte r i = if i = o ∧ o < 8 then .ok b else getBitByte v i) ∧ (8 ≤ o → r = v) := by
  obtain ⟨r, hr, hb⟩ := setBitByte_eq v o b
  refine ⟨r, hr, fun i => ?_, fun h => ?_⟩
  · rw [getBitByte_eq, getBitByte_eq, hb, bitWith]
    by_cases h : o < 8 ∧ i = o
    · rw [if_pos h, if_pos ⟨h.2, h.1⟩]
    · rw [if_neg h, if_neg (fun hc => h ⟨hc.2, hc.1⟩)]
  · apply UInt8.toNat.inj
    apply Nat.eq_of_testBit_eq
    intro i
    rw [hb, bitWith, if_neg (by omega)]

theorem C26_set_uint16 (v : UInt16) (o : Nat) (b : Bool) : ∃ r, setBitUint16 v o b = .ok r ∧
    (∀ i : Nat, getBitUint16 r i = if i = o ∧ o < 16 then .ok b else getBitUint16 v i) ∧ (16 ≤ o → r = v) := by
  obtain ⟨r, hr, hb⟩ := setBitUint16_eq v o b
  refine ⟨r, hr, fun i => ?_, fun h => ?_⟩
  · rw [getBitUint16_eq, getBitUint16_eq, hb, bitWith]
    by_cases h : o < 16 ∧ i = o
    · rw [if_pos h, if_pos ⟨h.2, h.1⟩]
    · rw [if_neg h, if_neg (fun hc => h ⟨hc.2, hc.1⟩)]
  · apply UInt16.toNat.inj
    apply Nat.eq_of_testBit_eq
    intro i
    rw [hb, bitWith, if_neg (by omega)]

theorem C26_set_uint32 (v : UInt32) (o : Nat) (b : Bool) : ∃ r, setBitUint32 v o b = .ok r ∧
    (∀ i : Nat, getBitUint32 r i = if i = o ∧ o < 32 then .ok b else getBitUint32 v i) ∧ (32 ≤ o → r = v) := by
  obtain ⟨r, hr, hb⟩ := setBitUint32_eq v o b
  refine ⟨r, hr, fun i => ?_, fun h => ?_⟩
  · rw [getBitUint32_eq, getBitUint32_eq, hb, bitWith]
    by_cases h : o < 32 ∧ i = o
    · rw [if_pos h, if_pos ⟨h.2, h.1⟩]
    · rw [if_neg h, if_neg (fun hc => h ⟨hc.2, hc.1⟩)]
  · apply UInt32.toNat.inj
    apply Nat.eq_of_testBit_eq
    intro i
    rw [hb, bitWith, if_neg (by omega)]

/-- Non-trivial case: setting bit 3 of 0x51 gives 0x59, clearing bit 4 gives 0x41. -/
example : setBitByte 0x51 3 true = .ok 0x59 ∧ setBitByte 0x51 4 false = .ok 0x41 ∧ getBitByte 0x51 4 = .ok true := by decide

/-- C26: with a negative offset every helper panics (Go: negative shift count). -/
theorem C26_negative_offset_panics (v : UInt8) (w : UInt16) (x : UInt32) (i : Int) (hi : i < 0) (b : Bool) :
    getBitByte v i = .panic ∧ setBitByte v i b = .panic ∧ getBitUint16 w i = .panic ∧ setBitUint16 w i b = .panic ∧
      getBitUint32 x i = .panic ∧ setBitUint32 x i b = .panic := by
  unfold getBitByte setBitByte getBitUint16 setBitUint16 getBitUint32 setBitUint32
  have h8 : ¬ i ≥ 8 := by omega
  have h16 : ¬ i ≥ 16 := by omega
  have h32 : ¬ i ≥ 32 := by omega
  simp [h8, h16, h32, hi]

end Verif
