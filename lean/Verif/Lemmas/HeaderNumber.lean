import Verif.Lemmas.Message
/-! # The terminal number in the header -/

namespace Verif
open Spec

/-- The packed-decimal value and the digit string. -/
theorem decimalValue_eq (d : Bytes) : decimalValue d = digitsVal (d.flatMap unpackByte) := by
  have : ∀ v, d.foldl (fun n b => n * 100 + (b.toNat / 16 * 10 + b.toNat % 16)) v =
      v * 10 ^ (d.flatMap unpackByte).length + digitsVal (d.flatMap unpackByte) := by
    induction d with
    | nil => simp
    | cons b d ih =>
      intro v
      rw [List.foldl_cons, ih, List.flatMap_cons, digitsVal_append, digitsVal_unpackByte, List.length_append]
      have hl : (unpackByte b).length = 2 := rfl
      rw [hl, Nat.pow_add]
      generalize 10 ^ (List.flatMap unpackByte d).length = p
      rw [Nat.add_mul, ← Nat.mul_assoc, Nat.mul_assoc v 100 p]
      have : v * (100 * p) = v * 10 ^ 2 * p := by rw [Nat.mul_assoc]
      omega
  simpa [decimalValue] using this 0

theorem all_digits_iff (d : Bytes) : (d.flatMap unpackByte).all isDigit = true ↔ ∀ b ∈ d, DecimalByte b := by
  induction d with
  | nil => simp
  | cons b d ih => simp only [List.flatMap_cons, List.all_append, Bool.and_eq_true, ih, unpack_all_digit,
      List.mem_cons, forall_eq_or_imp, DecimalByte]

theorem digitsVal_lt (s : Bytes) (h : s.all isDigit = true) : digitsVal s < 10 ^ s.length := by
  induction s with
  | nil => simp
  | cons b s ih =>
    simp only [List.all_cons, Bool.and_eq_true] at h
    have := ih h.2
    have hb := (isDigit_iff b).1 h.1
    rw [digitsVal_cons, List.length_cons, Nat.pow_succ]
    have : (b.toNat - 48) * 10 ^ s.length ≤ 9 * 10 ^ s.length := Nat.mul_le_mul_right _ (by omega)
    omega

theorem decimalValue_lt (d : Bytes) (h : ∀ b ∈ d, DecimalByte b) : decimalValue d < 100 ^ d.length := by
  rw [decimalValue_eq]
  have := digitsVal_lt _ ((all_digits_iff d).2 h)
  rw [unpack_length, Nat.pow_mul] at this
  exact this

/-- The terminal number field accepted by the header decoder. -/
theorem parseUint_field (icc : Bytes) (hi : icc.length = 6) :
    ((∀ b ∈ icc, DecimalByte b) ∧ decimalValue icc ≠ 0 → parseUint (bcdToString icc) = .ok (decimalValue icc)) ∧
    (¬ ((∀ b ∈ icc, DecimalByte b) ∧ decimalValue icc ≠ 0) → parseUint (bcdToString icc) = .err .num) := by
  have hv : digitsVal (bcdToString icc) = decimalValue icc := by rw [digitsVal_bcdToString, decimalValue_eq]
  have ha : (bcdToString icc).all isDigit = true ↔ ∀ b ∈ icc, DecimalByte b := by
    rw [all_bcdToString, all_digits_iff]
  constructor
  · rintro ⟨hd, hn⟩
    have hlt := decimalValue_lt icc hd
    rw [hi] at hlt
    unfold parseUint
    rw [if_neg (by intro he; rw [he] at hv; simp at hv; exact hn hv.symm), ha.2 hd, hv]
    simp; omega
  · intro h
    unfold parseUint
    by_cases hd : ∀ b ∈ icc, DecimalByte b
    · have hz : decimalValue icc = 0 := by
        apply Decidable.byContradiction; intro hc; exact h ⟨hd, hc⟩
      -- value zero: all bytes are zero and the string is empty
      have hall : ∀ b ∈ icc, b = 0 := by
        have : ∀ d : Bytes, digitsVal (d.flatMap unpackByte) = 0 → ∀ b ∈ d, b = 0 := by
          intro d
          induction d with
          | nil => simp
          | cons b d ih =>
            intro h0
            rw [List.flatMap_cons, digitsVal_append, digitsVal_unpackByte] at h0
            have hp : 0 < 10 ^ (List.flatMap unpackByte d).length := Nat.pow_pos (by decide)
            have h1 : (b.toNat / 16 * 10 + b.toNat % 16) * 10 ^ (List.flatMap unpackByte d).length = 0 := by omega
            have h2 : b.toNat / 16 * 10 + b.toNat % 16 = 0 := by
              rcases Nat.mul_eq_zero.1 h1 with h | h
              · exact h
              · omega
            intro x hx
            rcases List.mem_cons.1 hx with rfl | hx
            · apply UInt8.toNat.inj; simp; omega
            · exact ih (by omega) x hx
        exact this icc (by rw [← decimalValue_eq]; exact hz)
      have hnil : bcdToString icc = [] := by
        have : icc.dropWhile (· = 0) = [] := by
          clear hv ha hz hd h hi
          induction icc with
          | nil => rfl
          | cons b t ih =>
            rw [List.dropWhile_cons, if_pos (by simp [hall b (by simp)])]
            exact ih fun x hx => hall x (by simp [hx])
        simp [bcdToString, this]
      rw [if_pos hnil]
    · have : (bcdToString icc).all isDigit = false := by
        cases hx : (bcdToString icc).all isDigit with
        | false => rfl
        | true => exact absurd (ha.1 hx) hd
      split
      · rfl
      · simp [this]

/-- A field of decimal bytes is its value in packed decimal. -/
theorem bcd_decimalValue (d : Bytes) (h : ∀ b ∈ d, DecimalByte b) : bcd d.length (decimalValue d) = d := by
  have : ∀ n (d : Bytes), d.length = n → (∀ b ∈ d, DecimalByte b) → bcd n (decimalValue d) = d := by
    intro n
    induction n with
    | zero => intro d hd _; rw [List.eq_nil_of_length_eq_zero hd]; rfl
    | succ n ih =>
      intro d hd h
      obtain ⟨t, b, rfl⟩ : ∃ t b, d = t ++ [b] := by
        obtain ⟨a, c, e, ha⟩ := exists_split d n (by omega)
        match c, (show c.length = 1 by rw [e] at hd; simp at hd; omega) with
        | [b], _ => exact ⟨a, b, e⟩
      have hb := h b (by simp)
      unfold DecimalByte at hb
      have hv : decimalValue (t ++ [b]) = decimalValue t * 100 + (b.toNat / 16 * 10 + b.toNat % 16) := by
        simp [decimalValue, List.foldl_append]
      rw [bcd, hv]
      have h1 : (decimalValue t * 100 + (b.toNat / 16 * 10 + b.toNat % 16)) / 100 = decimalValue t := by omega
      rw [h1, ih t (by simpa using hd) (fun x hx => h x (by simp [hx]))]
      have h2 : (decimalValue t * 100 + (b.toNat / 16 * 10 + b.toNat % 16)) / 10 % 10 * 16 +
          (decimalValue t * 100 + (b.toNat / 16 * 10 + b.toNat % 16)) % 10 = b.toNat := by
        clear hv h1
        generalize decimalValue t = v
        have : (v * 100 + (b.toNat / 16 * 10 + b.toNat % 16)) % 10 = b.toNat % 16 := by omega
        have : (v * 100 + (b.toNat / 16 * 10 + b.toNat % 16)) / 10 = v * 10 + b.toNat / 16 := by omega
        omega
      rw [h2, UInt8.ofNat_toNat]
  exact this _ d rfl h

end Verif
