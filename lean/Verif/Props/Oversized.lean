import Verif.Lemmas.Oversized
import Verif.Props.Stream
import Verif.Props.Rsa
/-! # C06, C13, C28: what becomes of bodies above the limit that `Encode` does not refuse -/

namespace Verif
open Spec Codec

variable {E : Type}

/-- C13: a frame of more than 65535 bytes is never decoded. However it arrives, and whatever follows it, the receiver reports an error when it has more
than 65535 bytes of it, and the server then closes the connection. -/
theorem C13_long_frame (C : BodyCodec E) (key : Option DecKey) (endErr : Err) (s : RecvState) (f rest : Bytes) (hf : Delimited f)
    (hs : s.buffer ++ s.reads.flatten = f ++ rest) (hb : s.buffer.length ≤ 65535) (hl : 65535 < f.length) :
    (receive C key endErr s).1 = .err .bodyTooLong := by
  unfold receive
  rw [read_partial _ (unfinished_prefix f s.buffer s.reads.flatten rest hf hs (by omega))]
  exact recvLoop_long s.reads s.buffer f rest hf hs hb hl

/-- **C06 for the terminal.** `Encode` does not refuse all bodies of more than 1023 bytes (`C06_refuted`), but those that it does not refuse are never
received: a receiver of this package that comes to the frame, cut in any way, reports that the body is too long. Missing for the full property: the error
where the message is sent. -/
theorem C06_never_received_partial (C : BodyCodec E) (m m' : Message E) (e e' : E) (b f : Bytes) (hm : m.body = .val e) (henc : C.encode e = .ok (b, e'))
    (hb : 1023 < b.length) (h : Message.encode C none m = .ok (f, m')) (key : Option DecKey) (endErr : Err) (s : RecvState) (rest : Bytes)
    (hs : s.buffer ++ s.reads.flatten = f ++ rest) (hbuf : s.buffer.length ≤ 65535) :
    (receive C key endErr s).1 = .err .bodyTooLong := by
  have hlim := C06_too_long_iff_partial C m e e' b hm henc
  rw [h] at hlim
  simp only [reduceCtorEq, false_iff] at hlim
  obtain ⟨hd, body, hfr, -, hdr, b', hx⟩ := C02_frame_layout C none m m' f h
  simp only [Message.encodeBody, hm, henc, Res.ok_bind, Res.ok.injEq, Prod.mk.injEq] at hx
  have hlen := frame_longer hfr
  rw [← hx.1, List.length_append] at hlen
  obtain ⟨w, hw, hn⟩ := C02_delimiters f _ hfr
  exact C13_long_frame C key endErr s f rest ⟨w, hw, hn⟩ hs hbuf (by omega)

/-- **C28 for the owner of the key.** Likewise with encryption, where the length of the cipher text counts. -/
theorem C28_never_received_partial (C : BodyCodec E) (m m' : Message E) (e e' : E) (b f : Bytes) (k : EncKey) (d : DecKey) (size : Nat)
    (hk : KeyPair k d size) (hm : m.body = .val e) (henc : C.encode e = .ok (b, e')) (hb : 1023 < size * blockCount (size - 42) b.length)
    (h : Message.encode C (some k) m = .ok (f, m')) (key : Option DecKey) (endErr : Err) (s : RecvState) (rest : Bytes)
    (hs : s.buffer ++ s.reads.flatten = f ++ rest) (hbuf : s.buffer.length ≤ 65535) :
    (receive C key endErr s).1 = .err .bodyTooLong := by
  have hlim := C28_limit_partial C m e e' b k d size hk hm henc
  rw [h] at hlim
  simp only [reduceCtorEq, false_iff] at hlim
  obtain ⟨x, x1, x2, -⟩ := encrypt_decrypt hk b
  obtain ⟨hd, body, hfr, -, hdr, b', hx⟩ := C02_frame_layout C (some k) m m' f h
  simp only [Message.encodeBody, hm, henc, x1, Res.ok_bind, Res.ok.injEq, Prod.mk.injEq] at hx
  have hlen := frame_longer hfr
  rw [← hx.1, List.length_append, x2] at hlen
  obtain ⟨w, hw, hn⟩ := C02_delimiters f _ hfr
  exact C13_long_frame C key endErr s f rest ⟨w, hw, hn⟩ hs hbuf (by omega)

/-- C28 with a 1024-bit key, for bodies of any length: exactly which of them are refused. The full property would be: those of more than 602 bytes. -/
theorem C28_limit_1024_bit_exact_partial (C : BodyCodec E) (m : Message E) (e e' : E) (b : Bytes) (k : EncKey) (d : DecKey)
    (hk : KeyPair k d 128) (hm : m.body = .val e) (henc : C.encode e = .ok (b, e')) :
    Message.encode C (some k) m = .err .bodyTooLong ↔ 687 < (b.length + 85) % 44032 := by
  rw [C28_limit_partial C m e e' b k d 128 hk hm henc]
  have h1 : blockCount (128 - 42) b.length = (b.length + 85) / 86 := by unfold blockCount; rfl
  rw [h1]
  omega

/-- The hypotheses are met by the sample message, whose body has a few bytes and is not refused, and by a driving record of 44700 bytes, which is. -/
example : Message.encode Sample.codec (some Sample.encKey) Sample.message ≠ .err .bodyTooLong ∧
    Message.encode Sample.codec (some Sample.encKey)
      { header := Sample.header, body := .val (.m0700 { replySerial := 1, cmd := 0, data := List.replicate 44697 0 }) } = .err .bodyTooLong := by
  refine ⟨fun h => ?_, ?_⟩
  · have := (C28_limit_1024_bit_exact_partial Sample.codec Sample.message Sample.body Sample.body _ Sample.encKey Sample.decKey Sample.keyPair rfl rfl).1 h
    exact absurd this (by decide)
  · have hl : (put16 1 ++ [0] ++ List.replicate 44697 (0 : UInt8)).length = 44700 := by
      simp only [List.length_append, List.length_replicate, put16_length, List.length_cons, List.length_nil]
    exact (C28_limit_1024_bit_exact_partial Sample.codec _ _ _ _ Sample.encKey Sample.decKey Sample.keyPair rfl rfl).2
      (Nat.lt_of_lt_of_le (by decide : 687 < (44700 + 85) % 44032) (Nat.le_of_eq (congrArg (fun n => (n + 85) % 44032) hl.symm)))

/-- The hypotheses are met by the message of `C06_refuted`, which arrives in pieces of one byte behind nothing else. -/
example : ∃ (m m' : Message Entity) (e : Entity) (b f : Bytes) (s : RecvState), m.body = .val e ∧ Sample.codec.encode e = .ok (b, e) ∧ 1023 < b.length ∧
    Message.encode Sample.codec none m = .ok (f, m') ∧ s.buffer ++ s.reads.flatten = f ++ [] ∧ s.buffer.length ≤ 65535 ∧
    (receive Sample.codec none .eof s).1 = .err .bodyTooLong := by
  obtain ⟨m, e, b, f, m', h1, h2, h3, h4, -⟩ := C06_refuted
  have hs : (⟨[], f.map fun x => [x]⟩ : RecvState).buffer ++ (⟨[], f.map fun x => [x]⟩ : RecvState).reads.flatten = f ++ [] := by
    rw [List.append_nil, List.nil_append]
    show (f.map fun x => [x]).flatten = f
    have single : ∀ l : Bytes, (l.map fun x => [x]).flatten = l := by
      intro l
      induction l with
      | nil => rfl
      | cons x l ih => rw [List.map_cons, List.flatten_cons, List.singleton_append, ih]
    exact single f
  exact ⟨m, m', e, b, f, ⟨[], f.map fun x => [x]⟩, h1, h2, by omega, h4, hs, by simp,
    C06_never_received_partial Sample.codec m m' e e b f h1 h2 (by omega) h4 none .eof _ [] hs (by simp)⟩

/-- Likewise for the message of `C28_refuted`. -/
example : ∃ (m m' : Message Entity) (e : Entity) (b f : Bytes), m.body = .val e ∧ Sample.codec.encode e = .ok (b, e) ∧
    1023 < 128 * blockCount (128 - 42) b.length ∧ Message.encode Sample.codec (some Sample.encKey) m = .ok (f, m') ∧
    (receive Sample.codec none .eof ⟨[], [f]⟩).1 = .err .bodyTooLong := by
  obtain ⟨m, e, b, f, m', h1, h2, h3, h4, -⟩ := C28_refuted Sample.encKey Sample.decKey Sample.keyPair
  have hb : 1023 < 128 * blockCount (128 - 42) b.length := by rw [h3]; decide
  exact ⟨m, m', e, b, f, h1, h2, hb, h4,
    C28_never_received_partial Sample.codec m m' e e b f _ _ 128 Sample.keyPair h1 h2 hb h4 none .eof _ [] (by simp) (by simp)⟩

end Verif
