import Verif.Lemmas.Encode
import Verif.Lemmas.Message
import Verif.Spec.Coordinates
/-! # Encoding a message: twice, and when it panics -/

namespace Verif

open Spec (packetFlag TruncMicro)

theorem Property.size_kept {v w s : UInt16} (p : Bool) (h : Property.setBodySize v s = .ok w) :
    Property.setBodySize (if p then Property.enablePacket w else w) s = .ok (if p then Property.enablePacket w else w) := by
  have hs : s.toNat < 1024 := by
    apply Decidable.byContradiction
    intro hc
    rw [Property.setBodySize_err _ _ (by omega)] at h
    simp at h
  obtain ⟨w', hw', hn⟩ := Property.setBodySize_toNat v s hs
  rw [h] at hw'
  cases hw'
  generalize hx : (if p then Property.enablePacket w else w) = x
  have hmod : x.toNat % 1024 = s.toNat := by
    rw [← hx]
    split
    · rw [Property.enablePacket_toNat, show (1024 : Nat) = 2 ^ 10 from rfl, Nat.or_mod_two_pow]
      simp only [show (2 ^ 13 % 2 ^ 10 : Nat) = 0 from rfl, Nat.or_zero]
      omega
    · omega
  obtain ⟨y, hy, hyn⟩ := Property.setBodySize_toNat x s hs
  rw [hy, show y = x from UInt16.toNat.inj (by omega)]

theorem Property.enablePacket_again (v : UInt16) : Property.enablePacket (Property.enablePacket v) = Property.enablePacket v := by
  apply Property.enablePacket_of
  rw [Property.isEnablePacket_testBit, Property.enablePacket_toNat, Nat.testBit_or, Nat.testBit_two_pow]
  simp

theorem Header.encode_again {h h' : Header} {hb : Bytes} (he : Header.encode h = .ok (hb, h')) :
    Header.encode h' = .ok (hb, h') ∧
      h' = { h with property := if h.packet.isSome then Property.enablePacket h.property else h.property } := by
  obtain ⟨id, prop, icc, serial, packet⟩ := h
  cases packet with
  | none =>
    simp only [Header.encode, Option.isSome_none, Bool.false_eq_true, if_false] at he ⊢
    split at he
    · simp at he
    · rename_i hn
      simp only [Res.ok.injEq, Prod.mk.injEq] at he
      obtain ⟨rfl, rfl⟩ := he
      simp [hn]
  | some p =>
    simp only [Header.encode, Option.isSome_some, if_true] at he ⊢
    split at he
    · rename_i hn
      simp only [Res.ok.injEq, Prod.mk.injEq] at he
      obtain ⟨rfl, rfl⟩ := he
      simp [Property.enablePacket_again, hn]
    · rename_i hn
      simp only [Res.ok.injEq, Prod.mk.injEq] at he
      obtain ⟨rfl, rfl⟩ := he
      simp [Property.enablePacket_again, hn]

theorem encode_tail_panics (prop : UInt16) (icc : UInt64) (serial : UInt16) (packet : Option Packet) (b : Bytes) (bd : Body Entity) (id : UInt16) : (do
      let prop ← Property.setBodySize prop (UInt16.ofNat b.length)
      let (hb, hdr') ← Header.encode ⟨id, prop, icc, serial, packet⟩
      let sum := computeChecksum hb (computeChecksum b 0)
      .ok ([0x7e] ++ escape hb ++ escape b ++ escape [sum] ++ [0x7e], ({ header := hdr', body := bd } : Message Entity)) : Res _) = .panic ↔
    packetFlag prop.toNat = true ∧ packet = none ∧ b.length % 65536 < 1024 := by
  have hmod : (UInt16.ofNat b.length).toNat = b.length % 65536 := by simp
  by_cases hs : b.length % 65536 < 1024
  · obtain ⟨w, hw, hn⟩ := Property.setBodySize_toNat prop _ (show (UInt16.ofNat b.length).toNat < 1024 by omega)
    rw [hw]
    have hfl : Property.isEnablePacket w = packetFlag prop.toNat := by
      rw [Property.isEnablePacket_spec, hn, hmod]
      unfold packetFlag
      rw [show (prop.toNat / 1024 * 1024 + b.length % 65536) / 8192 = prop.toNat / 8192 by omega]
    cases packet with
    | none =>
      simp only [Res.ok_bind, Header.encode, Option.isSome_none, Bool.false_eq_true, if_false, hfl, hs, and_true]
      split <;> simp_all
    | some p =>
      simp only [Res.ok_bind, Header.encode, Option.isSome_some, if_true]
      split <;> simp
  · rw [Property.setBodySize_err _ _ (by omega)]
    simp [hs]

theorem encryptLoop_safe (k : EncKey) (cs : List Bytes) : ∀ i, encryptLoop k i cs ≠ .panic := by
  induction cs with
  | nil => intro i; simp [encryptLoop]
  | cons c cs ih =>
    intro i
    unfold encryptLoop
    split
    · simp
    · have := ih (i + 1)
      cases h : encryptLoop k (i + 1) cs <;> simp_all

theorem sign_of_trunc {d : Dec} {n : Int} (h : TruncMicro d n) : (d.value ≤ 0 → n ≤ 0) ∧ (n < 0 → d.value < 0) := by
  unfold TruncMicro at h
  split at h
  · rename_i he
    have hp : (0 : Int) < 10 ^ (d.exp + 6).toNat := Int.pow_pos (by omega)
    constructor
    · intro hv; rw [h]; exact Int.mul_nonpos_of_nonpos_of_nonneg hv (Int.le_of_lt hp)
    · intro hn
      apply Decidable.byContradiction
      intro hc
      have : 0 ≤ d.value * 10 ^ (d.exp + 6).toNat := Int.mul_nonneg (by omega) (Int.le_of_lt hp)
      omega
  · split at h
    · constructor
      · intro hv
        have hv0 : d.value = 0 := by omega
        obtain ⟨h1, h2, -⟩ := h
        rw [hv0] at h2
        have hp : (0 : Int) < 10 ^ (-(d.exp + 6)).toNat := Int.pow_pos (by omega)
        apply Decidable.byContradiction
        intro hc
        have := Int.mul_pos (show 0 < n by omega) hp
        omega
      · omega
    · omega

end Verif
