import Verif.Lemmas.Corruption
import Verif.Props.Sample
/-! # C04: single changed bytes on the wire -/

namespace Verif
open Spec

variable {E : Type}

/-- C04 is false of the code: in the frame of the sample message, replacing the `7d` of an escape sequence
`7d 02` by `7c` is accepted, and the message loses its body. -/
theorem C04_refuted : ∃ (m m' d : Message Entity) (w w' : Bytes),
    Message.encode Sample.codec none m = .ok ([0x7e] ++ w ++ [0x7e], m') ∧ OneByteChanged w w' ∧
    Message.decode Sample.codec none {} ([0x7e] ++ w' ++ [0x7e]) = .ok d ∧ m.body ≠ .nil ∧ d.body = .nil := by
  refine ⟨{ header := Sample.header, body := .val (.m0700 { replySerial := 1, cmd := 0x7e, data := [] }) },
    _, _, [0x07, 0x00, 0x00, 0x03, 0x01, 0x38, 0x00, 0x13, 0x80, 0x00, 0x00, 0x07, 0x00, 0x01, 0x7d, 0x02, 0xd6],
    [0x07, 0x00, 0x00, 0x03, 0x01, 0x38, 0x00, 0x13, 0x80, 0x00, 0x00, 0x07, 0x00, 0x01, 0x7c, 0x02, 0xd6],
    rfl, ⟨[0x07, 0x00, 0x00, 0x03, 0x01, 0x38, 0x00, 0x13, 0x80, 0x00, 0x00, 0x07, 0x00, 0x01], 0x7d, 0x7c, [0x02, 0xd6],
      by decide, rfl, rfl⟩, rfl, by simp, rfl⟩

/-- C04, which changes pass: if one byte between the delimiters of a frame is changed and `Decode` still
succeeds, then the change turned the `7d` of an escape sequence into `7c`, or a `7c` before `01` or `02` into
`7d`. Every other change is rejected. -/
theorem C04_only_escape_changes_pass_partial (C : BodyCodec E) (key : Option DecKey) (self d : Message E)
    (w w' content : Bytes) (hf : Frame ([0x7e] ++ w ++ [0x7e]) content) (hchg : OneByteChanged w w')
    (hd : Message.decode C key self ([0x7e] ++ w' ++ [0x7e]) = .ok d) :
    ∃ a z b, (z = 0x01 ∨ z = 0x02) ∧
      ((w = a ++ [0x7d, z] ++ b ∧ w' = a ++ [0x7c, z] ++ b) ∨ (w = a ++ [0x7c, z] ++ b ∧ w' = a ++ [0x7d, z] ++ b)) := by
  obtain ⟨w0, hw0, hw⟩ := hf
  have : w = w0 := List.append_cancel_left (List.append_cancel_right hw0)
  subst this
  obtain ⟨a, x, y, z, b, p, q, c', hxy, hz, e0, e1, -, hcase⟩ := accepted_change hw hchg hd
  refine ⟨a, z, b, hz, ?_⟩
  rcases hcase with ⟨rfl, rfl, -, -⟩ | ⟨rfl, rfl, -, -⟩
  · left; simp [e0, e1]
  · right; simp [e0, e1]

/-- The hypotheses are met: a frame, a changed byte in it, and bytes that are accepted nevertheless. -/
example : ∃ (w w' content : Bytes) (d : Message Entity), Frame ([0x7e] ++ w ++ [0x7e]) content ∧ OneByteChanged w w' ∧
    Message.decode Sample.codec none {} ([0x7e] ++ w' ++ [0x7e]) = .ok d := by
  obtain ⟨m, m', d, w, w', h1, h2, h3, -⟩ := C04_refuted
  obtain ⟨_, _, _, _, hf, -⟩ := Message.encode_shape h1
  exact ⟨w, w', _, d, hf, h2, h3⟩

/-- No registered message id contains one of the bytes 7c, 7d, 7e. -/
def PlainIds (C : BodyCodec E) : Prop :=
  ∀ id b e n, C.decode id b = .ok (e, n) →
    id.toNat / 256 ≠ 0x7c ∧ id.toNat / 256 ≠ 0x7d ∧ id.toNat / 256 ≠ 0x7e ∧
    id.toNat % 256 ≠ 0x7c ∧ id.toNat % 256 ≠ 0x7d ∧ id.toNat % 256 ≠ 0x7e

/-- C04, what is delivered: if no registered id contains a byte 7c, 7d or 7e (true of all built-in types), then
a message with a wrong body is never delivered: after changing one byte between the delimiters of an encoded
message (of any length the receiver accepts), `Decode` fails or delivers a header without a body. -/
theorem C04_no_wrong_body_partial (C : BodyCodec E) (hC : PlainIds C) (ekey : Option EncKey) (dkey : Option DecKey)
    (m m' d : Message E) (w w' : Bytes) (henc : Message.encode C ekey m = .ok ([0x7e] ++ w ++ [0x7e], m'))
    (hlen : w.length < 65534) (hchg : OneByteChanged w w')
    (hd : Message.decode C dkey {} ([0x7e] ++ w' ++ [0x7e]) = .ok d) : d.body = .nil := by
  apply Classical.byContradiction
  intro hb
  obtain ⟨c1, plain, e, n, he1, hsz1, hdec, -⟩ := Message.decode_body_inv rfl hd hb
  obtain ⟨id0, prop0, rest, body, ⟨w0, hw0, hw⟩, hrest, hsz0, -⟩ := Message.encode_shape henc
  have : w = w0 := List.append_cancel_left (List.append_cancel_right hw0)
  subst this
  have hids := hC _ _ _ _ hdec
  obtain ⟨_, _, _, -, -, -, -, -, hh1⟩ := decodeEnvelope_ok he1
  have hl1 := Header.decode_length hh1
  obtain ⟨a, x, y, z, b, p, q, c1', hxy, hz, -, -, he1', hcase⟩ := accepted_change hw hchg hd
  rw [he1] at he1'
  simp only [Res.ok.injEq, Prod.mk.injEq, true_and] at he1'
  subst he1'
  obtain ⟨b0, b1, b2, b3, r1, hc1, hid1, hprop1⟩ := Header.decode_first4 hh1
  have hwl : (put16 id0 ++ put16 prop0 ++ rest ++ body ++ [xorAll (put16 id0 ++ put16 prop0 ++ rest ++ body)]).length
      ≤ w.length := by
    rw [(stuffed_iff _ _).1 hw]; exact (escape_length_le _).1
  generalize hc0 : put16 id0 ++ put16 prop0 ++ rest ++ body = c0 at *
  have hc0l : c0.length = 4 + rest.length + body.length := by rw [← hc0]; simp; omega
  have hprop0 := put16_get16
  obtain ⟨a0, a1, a2, a3, r0, hc0', hp0⟩ : ∃ a0 a1 a2 a3 r0, c0 = a0 :: a1 :: a2 :: a3 :: r0 ∧ prop0 = get16 a2 a3 :=
    ⟨_, _, _, _, rest ++ body, by rw [← hc0]; rfl, (get16_put16 prop0).symm⟩
  have hid1n := congrArg UInt16.toNat hid1
  have hp1n := congrArg UInt16.toNat hprop1
  have hp0n := congrArg UInt16.toNat hp0
  rw [get16_toNat] at hid1n hp1n hp0n
  have hb0 := b0.toNat_lt
  have hb1 := b1.toNat_lt
  have hb2 := b2.toNat_lt
  have hb3 := b3.toNat_lt
  have ha2 := a2.toNat_lt
  have ha3 := a3.toNat_lt
  rw [Property.isEnablePacket_spec] at hsz1 hl1
  simp only [List.length_append, List.length_cons, List.length_nil] at hwl
  -- the id bytes
  have hb0v : b0.toNat ≠ 0x7c ∧ b0.toNat ≠ 0x7d ∧ b0.toNat ≠ 0x7e := by omega
  have hb1v : b1.toNat ≠ 0x7c ∧ b1.toNat ≠ 0x7d ∧ b1.toNat ≠ 0x7e := by omega
  have hev : (escValue z).toNat = 0x7d ∨ (escValue z).toNat = 0x7e := by
    rcases hz with rfl | rfl <;> decide
  have hzn : z.toNat = 1 ∨ z.toNat = 2 := by rcases hz with rfl | rfl <;> decide
  have h7c : (0x7c : UInt8).toNat = 0x7c := rfl
  have hszv : ∀ n, sizeField n = n % 1024 := fun _ => rfl
  have hpkv : ∀ n, packetFlag n = (n / 8192 % 2 == 1) := fun _ => rfl
  rw [hszv] at hsz0 hsz1
  simp only [hpkv, beq_iff_eq] at hrest hsz1 hl1
  have hr : (if prop0.toNat / 8192 % 2 = 1 then 12 else 8 : Nat) = rest.length := hrest.symm
  rcases hcase with ⟨-, -, h0, h1⟩ | ⟨-, -, h1, h0⟩
  · have l0 := congrArg List.length h0
    have l1 := congrArg List.length h1
    simp only [List.length_append, List.length_cons, List.length_nil] at l0 l1
    subst hc0' hc1
    match p with
    | [] => simp at h1; obtain ⟨rfl, -⟩ := h1; omega
    | [p0] => simp at h1; obtain ⟨-, rfl, -⟩ := h1; omega
    | [p0, p1] =>
      simp only [List.cons_append, List.nil_append, List.cons.injEq] at h0 h1
      obtain ⟨-, -, rfl, rfl, -⟩ := h1
      obtain ⟨-, -, rfl, -⟩ := h0
      split at hsz1 <;> split at hr <;> omega
    | [p0, p1, p2] =>
      simp only [List.cons_append, List.nil_append, List.cons.injEq] at h0 h1
      obtain ⟨-, -, rfl, rfl, -⟩ := h1
      obtain ⟨-, -, rfl, rfl, -⟩ := h0
      split at hsz1 <;> split at hr <;> omega
    | p0 :: p1 :: p2 :: p3 :: p4 =>
      simp only [List.cons_append, List.cons.injEq] at h0 h1
      obtain ⟨-, -, rfl, rfl, -⟩ := h1
      obtain ⟨-, -, rfl, rfl, -⟩ := h0
      split at hsz1 <;> split at hr <;> omega
  · have l0 := congrArg List.length h0
    have l1 := congrArg List.length h1
    simp only [List.length_append, List.length_cons, List.length_nil] at l0 l1
    subst hc0' hc1
    match p with
    | [] => simp at h1; obtain ⟨rfl, -⟩ := h1; omega
    | [p0] => simp at h1; obtain ⟨-, rfl, -⟩ := h1; omega
    | [p0, p1] =>
      simp only [List.cons_append, List.nil_append, List.cons.injEq] at h0 h1
      obtain ⟨-, -, rfl, -⟩ := h1
      obtain ⟨-, -, rfl, rfl, -⟩ := h0
      split at hsz1 <;> split at hr <;> split at hl1 <;> omega
    | [p0, p1, p2] =>
      simp only [List.cons_append, List.nil_append, List.cons.injEq] at h0 h1
      obtain ⟨-, -, rfl, rfl, -⟩ := h1
      obtain ⟨-, -, rfl, rfl, -⟩ := h0
      split at hsz1 <;> split at hr <;> split at hl1 <;> omega
    | p0 :: p1 :: p2 :: p3 :: p4 =>
      simp only [List.cons_append, List.cons.injEq] at h0 h1
      obtain ⟨-, -, rfl, rfl, -⟩ := h1
      obtain ⟨-, -, rfl, rfl, -⟩ := h0
      split at hsz1 <;> split at hr <;> split at hl1 <;> omega

/-- The hypotheses on the frames are met by those of `C04_refuted` (the one on the codec: `C04_registered_ids_plain`). -/
example : ∃ (m m' d : Message Entity) (w w' : Bytes), Message.encode Sample.codec none m = .ok ([0x7e] ++ w ++ [0x7e], m') ∧
    w.length < 65534 ∧ OneByteChanged w w' ∧ Message.decode Sample.codec none {} ([0x7e] ++ w' ++ [0x7e]) = .ok d ∧ d.header.msgID = 0x0700 :=
  ⟨{ header := Sample.header, body := .val (.m0700 { replySerial := 1, cmd := 0x7e, data := [] }) },
    _, _, [0x07, 0x00, 0x00, 0x03, 0x01, 0x38, 0x00, 0x13, 0x80, 0x00, 0x00, 0x07, 0x00, 0x01, 0x7d, 0x02, 0xd6],
    [0x07, 0x00, 0x00, 0x03, 0x01, 0x38, 0x00, 0x13, 0x80, 0x00, 0x00, 0x07, 0x00, 0x01, 0x7c, 0x02, 0xd6],
    rfl, by decide, ⟨[0x07, 0x00, 0x00, 0x03, 0x01, 0x38, 0x00, 0x13, 0x80, 0x00, 0x00, 0x07, 0x00, 0x01], 0x7d, 0x7c, [0x02, 0xd6],
      by decide, rfl, rfl⟩, rfl, rfl⟩

end Verif
