import Verif.Model.Helpers
import Verif.Spec.Wire
/-! # Decimal strings and packed decimal -/

namespace Verif
open Spec

theorem fmtAux_eq (f n : Nat) (h : n ≤ f) : fmtAux f n =
    if n < 10 then [digit n] else fmtAux (n / 10) (n / 10) ++ [digit (n % 10)] := by
  induction f using Nat.strongRecOn generalizing n with
  | _ f ih =>
    cases f with
    | zero =>
      have : n = 0 := by omega
      subst this; simp [fmtAux]
    | succ f =>
      simp only [fmtAux]
      split
      · rfl
      · rename_i h10
        congr 1
        rw [ih f (by omega) (n / 10) (by omega), ih (n / 10) (by omega) (n / 10) (by omega)]

theorem fmtUint_lt {n : Nat} (h : n < 10) : fmtUint n = [digit n] := by
  rw [fmtUint, fmtAux_eq n n (Nat.le_refl n), if_pos h]

theorem fmtUint_ge {n : Nat} (h : 10 ≤ n) : fmtUint n = fmtUint (n / 10) ++ [digit (n % 10)] := by
  rw [fmtUint, fmtAux_eq n n (Nat.le_refl n), if_neg (by omega)]; rfl

theorem fmtUint_ne_nil (n : Nat) : fmtUint n ≠ [] := by
  by_cases h : n < 10
  · rw [fmtUint_lt h]; simp
  · rw [fmtUint_ge (by omega)]; simp

theorem digit_toNat {n : Nat} (h : n < 10) : (digit n).toNat = 48 + n := by
  simp [digit, UInt8.toNat_ofNat']; omega

theorem isDigit_iff (b : UInt8) : isDigit b = true ↔ 48 ≤ b.toNat ∧ b.toNat ≤ 57 := by
  simp [isDigit, UInt8.le_iff_toNat_le]

theorem digit_isDigit {n : Nat} (h : n < 10) : isDigit (digit n) = true := by
  rw [isDigit_iff, digit_toNat h]; omega

/-- Every character of a decimal rendering is a digit. -/
theorem fmtUint_all (n : Nat) : (fmtUint n).all isDigit = true := by
  induction n using Nat.strongRecOn with
  | _ n ih =>
    by_cases h : n < 10
    · rw [fmtUint_lt h]; simp [digit_isDigit h]
    · rw [fmtUint_ge (by omega), List.all_append, ih (n / 10) (by omega)]
      simp [digit_isDigit (Nat.mod_lt n (by decide : 0 < 10))]

theorem digitsVal_foldl (s : Bytes) (v : Nat) :
    s.foldl (fun n b => n * 10 + (b.toNat - 48)) v = v * 10 ^ s.length + digitsVal s := by
  unfold digitsVal
  induction s generalizing v with
  | nil => simp
  | cons b s ih =>
    simp only [List.foldl_cons, List.length_cons]
    rw [ih, ih (0 * 10 + (b.toNat - 48))]
    simp [Nat.pow_succ, Nat.add_mul, Nat.mul_assoc, Nat.mul_comm 10, Nat.add_assoc]

theorem digitsVal_append (s t : Bytes) : digitsVal (s ++ t) = digitsVal s * 10 ^ t.length + digitsVal t := by
  rw [digitsVal, List.foldl_append, digitsVal_foldl]; rfl

@[simp] theorem digitsVal_nil : digitsVal [] = 0 := rfl
@[simp] theorem digitsVal_singleton (b : UInt8) : digitsVal [b] = b.toNat - 48 := by simp [digitsVal]

theorem digitsVal_cons (b : UInt8) (s : Bytes) :
    digitsVal (b :: s) = (b.toNat - 48) * 10 ^ s.length + digitsVal s := by
  have := digitsVal_append [b] s
  simpa using this

/-- Rendering then reading a number gives the number. -/
theorem digitsVal_fmtUint (n : Nat) : digitsVal (fmtUint n) = n := by
  induction n using Nat.strongRecOn with
  | _ n ih =>
    by_cases h : n < 10
    · rw [fmtUint_lt h]; simp [digit_toNat h]
    · rw [fmtUint_ge (by omega), digitsVal_append, ih (n / 10) (by omega)]
      simp [digit_toNat (Nat.mod_lt n (by decide : 0 < 10))]
      omega

theorem fmtUint_inj {a b : Nat} (h : fmtUint a = fmtUint b) : a = b := by
  rw [← digitsVal_fmtUint a, h, digitsVal_fmtUint]

theorem fmtUint_length_le {n k : Nat} (hk : 1 ≤ k) (h : n < 10 ^ k) : (fmtUint n).length ≤ k := by
  induction k generalizing n with
  | zero => omega
  | succ k ih =>
    by_cases h10 : n < 10
    · rw [fmtUint_lt h10]; simp
    · rw [fmtUint_ge (by omega)]
      simp only [List.length_append, List.length_singleton]
      have : 1 ≤ k := by
        rcases Nat.eq_zero_or_pos k with h0 | h0
        · subst h0; omega
        · exact h0
      have := ih this (n := n / 10) (by rw [Nat.pow_succ] at h; omega)
      omega

/-! ## Packing -/

theorem pack_byte {a b : Nat} (ha : a < 10) (hb : b < 10) :
    ((digit a - 48) <<< 4) ||| (digit b - 48) = UInt8.ofNat (a * 16 + b) := by
  have : ∀ a : Fin 10, ∀ b : Fin 10,
      ((digit a.1 - 48) <<< 4) ||| (digit b.1 - 48) = UInt8.ofNat (a.1 * 16 + b.1) := by decide
  exact this ⟨a, ha⟩ ⟨b, hb⟩

theorem packBCD_append (s : Bytes) (a b : UInt8) (h : s.length % 2 = 0) :
    packBCD (s ++ [a, b]) = packBCD s ++ [((a - 48) <<< 4) ||| (b - 48)] := by
  match s, h with
  | [], _ => rfl
  | [x], h => simp at h
  | x :: y :: t, h =>
    simp only [List.cons_append, packBCD, List.cons.injEq, true_and]
    exact packBCD_append t a b (by simp at h; omega)

theorem packBCD_append_even (s t : Bytes) (h : s.length % 2 = 0) :
    packBCD (s ++ t) = packBCD s ++ packBCD t := by
  match s, h with
  | [], _ => rfl
  | [x], h => simp at h
  | x :: y :: u, h =>
    simp only [List.cons_append, packBCD, List.cons.injEq, true_and]
    exact packBCD_append_even u t (by simp at h; omega)

theorem stringToBCD0_append (s : Bytes) (a b : UInt8) :
    stringToBCD0 (s ++ [a, b]) = stringToBCD0 s ++ [((a - 48) <<< 4) ||| (b - 48)] := by
  unfold stringToBCD0
  have hp : (s ++ [a, b]).length % 2 = s.length % 2 := by simp
  rw [hp]
  split
  · rename_i h
    rw [← List.cons_append, packBCD_append _ _ _ (by simp; omega)]
  · rename_i h
    rw [packBCD_append _ _ _ (by omega)]

theorem bcd_length (k n : Nat) : (bcd k n).length = k := by
  induction k generalizing n with
  | zero => rfl
  | succ k ih => simp [bcd, ih]

theorem bcd_zero (k : Nat) : bcd k 0 = List.replicate k 0 := by
  induction k with
  | zero => rfl
  | succ k ih => simp [bcd, ih, List.replicate_succ']

theorem stringToBCD0_fmtUint_lt {n : Nat} (h : n < 100) :
    stringToBCD0 (fmtUint n) = [UInt8.ofNat (n / 10 % 10 * 16 + n % 10)] := by
  have : ∀ n : Fin 100, stringToBCD0 (fmtUint n.1) = [UInt8.ofNat (n.1 / 10 % 10 * 16 + n.1 % 10)] := by decide
  exact this ⟨n, h⟩

theorem stringToBCD0_fmtUint_ge {n : Nat} (h : 100 ≤ n) :
    stringToBCD0 (fmtUint n) =
      stringToBCD0 (fmtUint (n / 100)) ++ [UInt8.ofNat (n / 10 % 10 * 16 + n % 10)] := by
  rw [fmtUint_ge (by omega), fmtUint_ge (by omega : 10 ≤ n / 10), List.append_assoc]
  simp only [List.singleton_append, Nat.div_div_eq_div_mul]
  rw [stringToBCD0_append, pack_byte (Nat.mod_lt _ (by decide)) (Nat.mod_lt _ (by decide))]

/-- The encoder's packed decimal rendering is the packed decimal of the number when it fits. -/
theorem stringToBCD_fmtUint {k n : Nat} (hk : 1 ≤ k) (h : n < 100 ^ k) :
    stringToBCD (fmtUint n) k = bcd k n ∧ (stringToBCD0 (fmtUint n)).length ≤ k := by
  induction k generalizing n with
  | zero => omega
  | succ k ih =>
    by_cases h100 : n < 100
    · rw [stringToBCD, stringToBCD0_fmtUint_lt h100]
      have : n / 100 = 0 := by omega
      simp [bcd, this, bcd_zero]
    · have h1 : 1 ≤ k := by
        rcases Nat.eq_zero_or_pos k with h0 | h0
        · subst h0; omega
        · exact h0
      have ⟨ih1, ih2⟩ := ih h1 (n := n / 100) (by rw [Nat.pow_succ] at h; omega)
      rw [stringToBCD] at ih1
      simp only [show ¬ (k < (stringToBCD0 (fmtUint (n / 100))).length) by omega, if_false] at ih1
      rw [stringToBCD, stringToBCD0_fmtUint_ge (by omega)]
      simp only [List.length_append, List.length_singleton]
      rw [if_neg (by omega)]
      refine ⟨?_, by omega⟩
      rw [bcd, ← ih1, Nat.add_sub_add_right, List.append_assoc]

/-! ## Unpacking -/

theorem unpackByte_zero : unpackByte 0 = [48, 48] := by decide

set_option maxRecDepth 20000 in
theorem nibble_toNat (b : UInt8) : ((b &&& 0xf0) >>> 4).toNat = b.toNat / 16 ∧ (b &&& 0x0f).toNat = b.toNat % 16 := by
  have : ∀ n : Fin 256, ((UInt8.ofNat n.1 &&& 0xf0) >>> 4).toNat = n.1 / 16 ∧ (UInt8.ofNat n.1 &&& 0x0f).toNat = n.1 % 16 := by
    decide
  have h := this ⟨b.toNat, b.toNat_lt⟩
  simpa using h

theorem unpackByte_toNat (b : UInt8) : (unpackByte b).map UInt8.toNat = [b.toNat / 16 + 48, b.toNat % 16 + 48] := by
  have ⟨h1, h2⟩ := nibble_toNat b
  have := b.toNat_lt
  simp [unpackByte, h1, h2, UInt8.toNat_add]
  omega

theorem unpackByte_eq (b : UInt8) : ∃ x y : UInt8, unpackByte b = [x, y] ∧ x.toNat = b.toNat / 16 + 48 ∧ y.toNat = b.toNat % 16 + 48 := by
  refine ⟨_, _, rfl, ?_⟩
  have := unpackByte_toNat b
  simpa [unpackByte] using this

theorem unpack_all_digit (b : UInt8) :
    (unpackByte b).all isDigit = true ↔ b.toNat / 16 ≤ 9 ∧ b.toNat % 16 ≤ 9 := by
  obtain ⟨x, y, h, hx, hy⟩ := unpackByte_eq b
  rw [h]
  simp [isDigit_iff, hx, hy]

theorem digitsVal_unpackByte (b : UInt8) : digitsVal (unpackByte b) = b.toNat / 16 * 10 + b.toNat % 16 := by
  obtain ⟨x, y, h, hx, hy⟩ := unpackByte_eq b
  rw [h, digitsVal_cons]
  simp [hx, hy]

theorem digitsVal_dropZeros (s : Bytes) : digitsVal (s.dropWhile (· = 48)) = digitsVal s := by
  induction s with
  | nil => rfl
  | cons b s ih =>
    rw [List.dropWhile_cons]
    split
    · rename_i h
      have : b = 48 := by simpa using h
      rw [ih, digitsVal_cons, this]; simp
    · rfl

theorem digitsVal_unpack_dropZeros (d : Bytes) :
    digitsVal ((d.dropWhile (· = 0)).flatMap unpackByte) = digitsVal (d.flatMap unpackByte) := by
  induction d with
  | nil => rfl
  | cons b d ih =>
    rw [List.dropWhile_cons]
    split
    · rename_i h
      have : b = 0 := by simpa using h
      rw [ih, this, List.flatMap_cons, unpackByte_zero, digitsVal_append]
      simp [digitsVal_cons]
    · rfl

/-- The value of the string produced by `bcdToString` is the value of all digit characters. -/
theorem digitsVal_bcdToString (d : Bytes) (ig : Bool) :
    digitsVal (bcdToString d ig) = digitsVal (d.flatMap unpackByte) := by
  unfold bcdToString
  simp only
  split
  · exact digitsVal_unpack_dropZeros d
  · split
    · exact digitsVal_unpack_dropZeros d
    · rw [digitsVal_dropZeros]; exact digitsVal_unpack_dropZeros d

theorem all_dropWhile_48 (s : Bytes) : (s.dropWhile (· = 48)).all isDigit = s.all isDigit := by
  induction s with
  | nil => rfl
  | cons b s ih =>
    rw [List.dropWhile_cons]
    split
    · rename_i h
      have : b = 48 := by simpa using h
      rw [ih, this]; rfl
    · rfl

theorem all_unpack_dropZeros (d : Bytes) :
    ((d.dropWhile (· = 0)).flatMap unpackByte).all isDigit = (d.flatMap unpackByte).all isDigit := by
  induction d with
  | nil => rfl
  | cons b d ih =>
    rw [List.dropWhile_cons]
    split
    · rename_i h
      have : b = 0 := by simpa using h
      rw [ih, this]
      simp only [List.flatMap_cons, List.all_append, unpackByte_zero]
      simp [show isDigit 48 = true by decide]
    · rfl

theorem all_bcdToString (d : Bytes) (ig : Bool) :
    (bcdToString d ig).all isDigit = (d.flatMap unpackByte).all isDigit := by
  unfold bcdToString
  simp only
  split
  · exact all_unpack_dropZeros d
  · split
    · exact all_unpack_dropZeros d
    · rw [all_dropWhile_48]; exact all_unpack_dropZeros d

theorem unpack_length (d : Bytes) : (d.flatMap unpackByte).length = 2 * d.length := by
  induction d with
  | nil => rfl
  | cons b d ih => simp [List.flatMap_cons, ih, unpackByte]; omega

theorem digitsVal_bcd (k n : Nat) : digitsVal ((bcd k n).flatMap unpackByte) = n % 100 ^ k := by
  induction k generalizing n with
  | zero => simp [bcd, Nat.mod_one]
  | succ k ih =>
    simp only [bcd, List.flatMap_append, digitsVal_append, ih, List.flatMap_singleton, digitsVal_unpackByte]
    have hb : (UInt8.ofNat (n / 10 % 10 * 16 + n % 10)).toNat = n / 10 % 10 * 16 + n % 10 := by
      simp [UInt8.toNat_ofNat']; omega
    rw [hb]
    have hl : (unpackByte (UInt8.ofNat (n / 10 % 10 * 16 + n % 10))).length = 2 := rfl
    rw [hl, Nat.pow_succ 100 k, Nat.mul_comm (100 ^ k) 100, Nat.mod_mul]
    omega

theorem all_bcd (k n : Nat) : ((bcd k n).flatMap unpackByte).all isDigit = true := by
  induction k generalizing n with
  | zero => rfl
  | succ k ih =>
    simp only [bcd, List.flatMap_append, List.all_append, ih, List.flatMap_singleton, Bool.true_and]
    rw [unpack_all_digit]
    simp [UInt8.toNat_ofNat']; omega

end Verif
