import Verif.Model.Bit
import Verif.Spec.Wire
/-! # Bits of words -/

namespace Verif
open Spec

theorem and_pow_pos (x n : Nat) : (0 < x &&& 2 ^ n) ↔ x.testBit n = true := by
  constructor
  · intro h
    cases hb : x.testBit n with
    | true => rfl
    | false =>
      have : x &&& 2 ^ n = 0 := by
        apply Nat.eq_of_testBit_eq
        intro i
        rw [Nat.testBit_and, Nat.testBit_two_pow]
        by_cases hi : n = i
        · subst hi; simp [hb]
        · simp [hi]
      omega
  · intro h
    have h2 : (x &&& 2 ^ n).testBit n = true := by rw [Nat.testBit_and, h, Nat.testBit_two_pow]; simp
    rcases Nat.eq_zero_or_pos (x &&& 2 ^ n) with h0 | h0
    · rw [h0] at h2; simp at h2
    · exact h0

theorem u16_mask (n : Nat) (h : n < 16) : ((1 : UInt16) <<< UInt16.ofNat n).toNat = 2 ^ n := by
  have : ∀ n : Fin 16, ((1 : UInt16) <<< UInt16.ofNat n.1).toNat = 2 ^ n.1 := by decide
  exact this ⟨n, h⟩

theorem u8_mask (n : Nat) (h : n < 8) : ((1 : UInt8) <<< UInt8.ofNat n).toNat = 2 ^ n := by
  have : ∀ n : Fin 8, ((1 : UInt8) <<< UInt8.ofNat n.1).toNat = 2 ^ n.1 := by decide
  exact this ⟨n, h⟩

theorem u32_mask (n : Nat) (h : n < 32) : ((1 : UInt32) <<< UInt32.ofNat n).toNat = 2 ^ n := by
  have : ∀ n : Fin 32, ((1 : UInt32) <<< UInt32.ofNat n.1).toNat = 2 ^ n.1 := by decide
  exact this ⟨n, h⟩

namespace Property

theorem isEnablePacket_testBit (v : UInt16) : isEnablePacket v = v.toNat.testBit 13 := by
  have h : ((1 : UInt16) <<< 13).toNat = 2 ^ 13 := by decide
  have := and_pow_pos v.toNat 13
  unfold isEnablePacket
  rw [Bool.eq_iff_iff, ← this]
  simp [UInt16.lt_iff_toNat_lt, UInt16.toNat_and, h]

theorem isEnableEncrypt_testBit (v : UInt16) : isEnableEncrypt v = v.toNat.testBit 10 := by
  have h : ((1 : UInt16) <<< 10).toNat = 2 ^ 10 := by decide
  have := and_pow_pos v.toNat 10
  unfold isEnableEncrypt
  rw [Bool.eq_iff_iff, ← this]
  simp [UInt16.lt_iff_toNat_lt, UInt16.toNat_and, h]

theorem isEnablePacket_spec (v : UInt16) : isEnablePacket v = packetFlag v.toNat := by
  rw [isEnablePacket_testBit, Nat.testBit_eq_decide_div_mod_eq]; simp [packetFlag]; rfl

theorem isEnableEncrypt_spec (v : UInt16) : isEnableEncrypt v = encryptFlag v.toNat := by
  rw [isEnableEncrypt_testBit, Nat.testBit_eq_decide_div_mod_eq]; simp [encryptFlag]; rfl

theorem enablePacket_toNat (v : UInt16) : (enablePacket v).toNat = v.toNat ||| 2 ^ 13 := by
  simp [enablePacket, UInt16.toNat_or]

theorem enableEncrypt_toNat (v : UInt16) : (enableEncrypt v).toNat = v.toNat ||| 2 ^ 10 := by
  simp [enableEncrypt, UInt16.toNat_or]

theorem getBodySize_toNat (v : UInt16) : (getBodySize v).toNat = sizeField v.toNat := by
  have hv := v.toNat_lt
  have h : ((0x3ff : UInt16)).toNat = 2 ^ 10 - 1 := by decide
  rw [getBodySize, UInt16.toNat_and, h, Nat.and_two_pow_sub_one_eq_mod]
  simp [sizeField, UInt16.toNat_shiftRight, UInt16.toNat_shiftLeft, Nat.shiftLeft_eq, Nat.shiftRight_eq_div_pow]
  omega

theorem setBodySize_toNat (v s : UInt16) (h : s.toNat < 1024) :
    ∃ w, setBodySize v s = .ok w ∧ w.toNat = v.toNat / 1024 * 1024 + s.toNat := by
  have hv := v.toNat_lt
  refine ⟨((v >>> 10) <<< 10) ||| s, ?_, ?_⟩
  · rw [setBodySize, if_neg]
    simp [UInt16.lt_iff_toNat_lt]; omega
  · rw [UInt16.toNat_or]
    simp [UInt16.toNat_shiftRight, UInt16.toNat_shiftLeft]
    have h1 : (v.toNat >>> 10) <<< 10 % 65536 = (v.toNat >>> 10) <<< 10 := by
      simp [Nat.shiftLeft_eq, Nat.shiftRight_eq_div_pow]; omega
    rw [h1, ← Nat.shiftLeft_add_eq_or_of_lt (by omega : s.toNat < 2 ^ 10)]
    simp [Nat.shiftLeft_eq, Nat.shiftRight_eq_div_pow]

theorem setBodySize_err (v s : UInt16) (h : 1024 ≤ s.toNat) : setBodySize v s = .err .bodyTooLong := by
  rw [setBodySize, if_pos]
  simp [UInt16.lt_iff_toNat_lt]; omega

end Property
end Verif
