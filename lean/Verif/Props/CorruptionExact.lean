import Verif.Props.Corruption
import Verif.Lemmas.CorruptionExact
/-! # C04: every escape sequence of every body is a hole -/

namespace Verif
open Spec

variable {E : Type}

/-- **C04, the changes that pass.** In every message, each `7d 02` and each `7d 01` that stands for a byte of the body can become `7c 02` or `7c 01`
without being noticed, and each `7c` before a byte `02` or `01` of the body can become `7d`: the check byte is still right, and `Decode` succeeds and
delivers the header, with the body the receiver had before. `u` and `v` are the stuffed bytes before and after. With `C04_only_escape_changes_pass_partial`
these are, up to changes in the header and the check byte, all changes of one byte that pass. -/
theorem C04_escape_changes_pass (C : BodyCodec E) (key : Option DecKey) (self : Message E) (id prop serial : UInt16) (icc : UInt64)
    (packet : Option Packet) (h0 : 0 < icc.toNat) (h1 : icc.toNat < 10 ^ 12) (hpk : packetFlag prop.toNat = packet.isSome)
    (p q u v : Bytes) (c z : UInt8) (hc : (c = 0x7e ∧ z = 0x02) ∨ (c = 0x7d ∧ z = 0x01))
    (hu : Stuffed u (headerBytes id.toNat prop.toNat icc.toNat serial.toNat (packet.map fun p => (p.sum.toNat, p.seq.toNat)) ++ p))
    (hv : Stuffed v (q ++ [xorAll (headerBytes id.toNat prop.toNat icc.toNat serial.toNat (packet.map fun p => (p.sum.toNat, p.seq.toNat)) ++ p ++
      [c] ++ q)])) :
    (sizeField prop.toNat = (p ++ [c] ++ q).length % 65536 →
      Frame ([0x7e] ++ (u ++ [0x7d, z] ++ v) ++ [0x7e]) (headerBytes id.toNat prop.toNat icc.toNat serial.toNat
        (packet.map fun p => (p.sum.toNat, p.seq.toNat)) ++ (p ++ [c] ++ q)) ∧
      Message.decode C key self ([0x7e] ++ (u ++ [0x7c, z] ++ v) ++ [0x7e]) =
        .ok { header := { msgID := id, property := prop, iccID := icc, serial := serial, packet := packet }, body := self.body }) ∧
    (sizeField prop.toNat = (p ++ [0x7c, z] ++ q).length % 65536 →
      Frame ([0x7e] ++ (u ++ [0x7c, z] ++ v) ++ [0x7e]) (headerBytes id.toNat prop.toNat icc.toNat serial.toNat
        (packet.map fun p => (p.sum.toNat, p.seq.toNat)) ++ (p ++ [0x7c, z] ++ q)) ∧
      Message.decode C key self ([0x7e] ++ (u ++ [0x7d, z] ++ v) ++ [0x7e]) =
        .ok { header := { msgID := id, property := prop, iccID := icc, serial := serial, packet := packet }, body := self.body }) := by
  generalize hh : headerBytes id.toNat prop.toNat icc.toNat serial.toNat (packet.map fun p => (p.sum.toNat, p.seq.toNat)) = hdr at hu hv ⊢
  have f1 : Frame ([0x7e] ++ (u ++ [0x7d, z] ++ v) ++ [0x7e]) (hdr ++ (p ++ [c] ++ q)) := by
    refine ⟨_, rfl, (stuffed_iff _ _).2 ?_⟩
    rw [(stuffed_iff _ _).1 hu, (stuffed_iff _ _).1 hv]
    rcases hc with ⟨rfl, rfl⟩ | ⟨rfl, rfl⟩ <;> simp [escape_append, escape]
  have f2 : Frame ([0x7e] ++ (u ++ [0x7c, z] ++ v) ++ [0x7e]) (hdr ++ (p ++ [0x7c, z] ++ q)) := by
    refine ⟨_, rfl, (stuffed_iff _ _).2 ?_⟩
    rw [(stuffed_iff _ _).1 hu, (stuffed_iff _ _).1 hv]
    have hx : xorAll (hdr ++ (p ++ [0x7c, z] ++ q)) = xorAll (hdr ++ p ++ [c] ++ q) := by
      have hz : xorAll [0x7c, z] = xorAll [c] := by
        rcases hc with ⟨rfl, rfl⟩ | ⟨rfl, rfl⟩ <;> rfl
      simp only [xorAll_append, hz, UInt8.xor_assoc]
    rw [hx]
    rcases hc with ⟨rfl, rfl⟩ | ⟨rfl, rfl⟩ <;> simp [escape_append, escape]
  have l1 : (p ++ [0x7c, z] ++ q).length = (p ++ [c] ++ q).length + 1 := by simp; omega
  subst hh
  refine ⟨fun hs => ⟨f1, ?_⟩, fun hs => ⟨f2, ?_⟩⟩
  · rw [Message.decode_known C key self _ _ ⟨id, prop, icc, serial, packet⟩ h0 h1 hpk f2, if_pos (by rw [l1]; show _ ≠ sizeField prop.toNat; rw [hs]; omega)]
  · rw [Message.decode_known C key self _ _ ⟨id, prop, icc, serial, packet⟩ h0 h1 hpk f1, if_pos (by show _ ≠ sizeField prop.toNat; rw [hs, l1]; omega)]

/-- The frame of `C04_refuted` is such a case: the body `00 01 7e` of a driving record. -/
example : Message.decode Sample.codec none {} ([0x7e] ++
      ([0x07, 0x00, 0x00, 0x03, 0x01, 0x38, 0x00, 0x13, 0x80, 0x00, 0x00, 0x07, 0x00, 0x01] ++ [0x7c, 0x02] ++ [0xd6]) ++ [0x7e]) =
    .ok { header := { msgID := 0x0700, property := 3, iccID := 13800138000, serial := 7, packet := none }, body := .nil } :=
  ((C04_escape_changes_pass Sample.codec none {} 0x0700 3 7 13800138000 none (by decide) (by decide) (by decide) [0x00, 0x01] [] _ _ 0x7e 0x02
    (.inl ⟨rfl, rfl⟩) ((stuffed_iff _ _).2 (by decide)) ((stuffed_iff _ _).2 (by decide))).1 (by decide)).2

/-- **C04, the check byte.** A change of one byte between the delimiters of a frame gives another frame with the right check byte if and only if it turns the
`7d` of an escape sequence into `7c`, or a `7c` before `01` or `02` into `7d`. The full property would be: never. -/
theorem C04_exact_partial (w w' content : Bytes) (hf : Frame ([0x7e] ++ w ++ [0x7e]) content) (hchg : OneByteChanged w w') :
    (∃ content', Frame ([0x7e] ++ w' ++ [0x7e]) content') ↔
      ∃ a z b, (z = 0x01 ∨ z = 0x02) ∧
        ((w = a ++ [0x7d, z] ++ b ∧ w' = a ++ [0x7c, z] ++ b) ∨ (w = a ++ [0x7c, z] ++ b ∧ w' = a ++ [0x7d, z] ++ b)) := by
  obtain ⟨l, hl, hne, hx⟩ := (frame_iff_xor w).1 ⟨content, hf⟩
  rw [frame_iff_xor]
  constructor
  · rintro ⟨l', hl', -, hx'⟩
    obtain ⟨a, x, y, b, hxy, e0, e1⟩ := hchg
    have h0 : Unstuffed (a ++ x :: b) l := e0 ▸ ((stuffed_iff _ _).2 hl).unstuffed
    have h1 : Unstuffed (a ++ y :: b) l' := e1 ▸ ((stuffed_iff _ _).2 hl').unstuffed
    obtain ⟨p, q, z, b', hz, rfl, hd⟩ := one_change x y hxy b a l l' h0 h1 (hx.trans hx'.symm)
    refine ⟨a, z, b', hz, ?_⟩
    rcases hd with ⟨rfl, rfl, -⟩ | ⟨rfl, rfl, -⟩
    · exact .inl ⟨by rw [e0]; simp, by rw [e1]; simp⟩
    · exact .inr ⟨by rw [e0]; simp, by rw [e1]; simp⟩
  · rintro ⟨a, z, b, hz, ⟨e0, e1⟩ | ⟨e0, e1⟩⟩
    · obtain ⟨p, c, q, rfl, rfl, hc, rfl⟩ := escape_at_seven_d z b l a (by rw [← hl, e0]; simp)
      have hcz : (c = 0x7e ∧ z = 0x02) ∨ (c = 0x7d ∧ z = 0x01) := by
        rw [escape_single] at hc
        split at hc
        · rename_i h; left; simp at hc; exact ⟨h, hc.symm⟩
        · split at hc
          · rename_i h; right; simp at hc; exact ⟨h, hc.symm⟩
          · simp at hc
      refine ⟨p ++ 0x7c :: z :: q, ?_, by simp, ?_⟩
      · rw [e1, escape_append, escape_cons 0x7c, escape_cons z]
        rcases hz with rfl | rfl <;> simp [escape_single]
      · rw [← hx, xorAll_append, xorAll_append]
        congr 1
        rcases hcz with ⟨rfl, rfl⟩ | ⟨rfl, rfl⟩ <;> exact (UInt8.xor_assoc _ _ _).symm
    · obtain ⟨p, q, rfl, rfl, -, hb⟩ := escape_at_plain 0x7c (by decide) (by decide) (by decide) (z :: b) l a (by rw [← hl, e0]; simp)
      cases q with
      | nil => simp at hb
      | cons y q =>
        rw [escape_cons, escape_single] at hb
        have hy : y = z ∧ b = escape q := by
          split at hb
          · simp at hb; rcases hz with rfl | rfl <;> simp at hb
          · split at hb
            · simp at hb; rcases hz with rfl | rfl <;> simp at hb
            · simp at hb; exact ⟨hb.1.symm, hb.2⟩
        obtain ⟨rfl, rfl⟩ := hy
        refine ⟨p ++ escValue y :: q, ?_, by simp, ?_⟩
        · rw [e1, escape_append, escape_cons (escValue y)]
          rcases hz with rfl | rfl <;> simp [escape_single, escValue]
        · rw [← hx, xorAll_append, xorAll_append]
          congr 1
          rcases hz with rfl | rfl
          · exact UInt8.xor_assoc 0x7c 0x01 (xorAll q)
          · exact UInt8.xor_assoc 0x7c 0x02 (xorAll q)

/-- Both sides happen: the change of `C04_refuted` gives a frame, and changing the check byte does not. -/
example : (∃ c, Frame ([0x7e] ++ [0x07, 0x7c, 0x02, 0x79] ++ [0x7e]) c) ∧ ¬ ∃ c, Frame ([0x7e] ++ [0x07, 0x7d, 0x02, 0x78] ++ [0x7e]) c := by
  have hf : Frame ([0x7e] ++ [0x07, 0x7d, 0x02, 0x79] ++ [0x7e]) [0x07, 0x7e] := ⟨_, rfl, (stuffed_iff _ _).2 (by decide)⟩
  refine ⟨(C04_exact_partial _ _ _ hf ⟨[0x07], 0x7d, 0x7c, [0x02, 0x79], by decide, rfl, rfl⟩).2 ⟨[0x07], 0x02, [0x79], .inr rfl, .inl ⟨rfl, rfl⟩⟩, fun h => ?_⟩
  obtain ⟨a, z, b, hz, h⟩ := (C04_exact_partial _ _ _ hf ⟨[0x07, 0x7d, 0x02], 0x79, 0x78, [], by decide, rfl, rfl⟩).1 h
  have last : ∀ x : UInt8, (a ++ [x, z] ++ b).getLast? = (b.getLast?).or (some z) := by
    intro x
    simp [List.getLast?_append, List.getLast?_cons]
  rcases h with ⟨h1, h2⟩ | ⟨h1, h2⟩ <;>
  · have g1 := (congrArg List.getLast? h1).trans (last _)
    have g2 := (congrArg List.getLast? h2).trans (last _)
    exact absurd (g1.trans g2.symm) (by decide)

end Verif
