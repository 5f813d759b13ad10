import Verif.Model.Connection
import Verif.Lemmas.Stream
import Verif.Props.BodySafe
/-! # Lemmas about a connection: what `Receive` leaves, and when it panics -/

namespace Verif

open Codec Spec

variable {E : Type} {C : BodyCodec E} {key : Option DecKey} {endErr : Err}

theorem readFromBuffer_suffix (data : Bytes) : (readFromBuffer C key data).2 <:+ data := by
  unfold readFromBuffer
  split
  · exact List.suffix_refl _
  · split
    · exact List.dropWhile_suffix _
    · simp only
      split
      · exact List.suffix_refl _
      · split
        · exact List.drop_suffix _ _
        · exact List.drop_suffix _ _
        · exact List.suffix_refl _

theorem readFromBuffer_none {data b : Bytes} (h : readFromBuffer C key data = (.ok none, b)) : b = data := by
  unfold readFromBuffer at h
  split at h
  · simpa using h.symm
  · split at h
    · simp at h
    · simp only at h
      split at h
      · simpa using h.symm
      · split at h <;> simp at h

/-- A message comes from the decoder. -/
theorem readFromBuffer_some {data b : Bytes} {m : Message E} (h : readFromBuffer C key data = (.ok (some m), b)) :
    ∃ f, Message.decode C key {} f = .ok m := by
  unfold readFromBuffer at h
  split at h
  · simp at h
  · split at h
    · simp at h
    · simp only at h
      split at h
      · simp at h
      · split at h
        · rename_i hd
          simp only [Prod.mk.injEq, Res.ok.injEq, Option.some.injEq] at h
          exact ⟨_, by rw [hd, h.1]⟩
        · simp at h
        · simp at h

/-- A panic is one of the decoder, on the first bytes of the buffer. -/
theorem readFromBuffer_panic {data b : Bytes} (h : readFromBuffer C key data = (.panic, b)) :
    ∃ f, f <+: data ∧ Message.decode C key {} f = .panic := by
  unfold readFromBuffer at h
  split at h
  · simp at h
  · split at h
    · simp at h
    · simp only at h
      split at h
      · simp at h
      · split at h
        · simp at h
        · simp at h
        · rename_i hd
          exact ⟨_, List.take_prefix _ _, hd⟩

theorem recvLoop_facts (reads : List Bytes) (buf : Bytes) :
    ((recvLoop C key endErr reads buf).2.buffer ++ (recvLoop C key endErr reads buf).2.reads.flatten <:+ buf ++ reads.flatten) ∧
    (∀ m, (recvLoop C key endErr reads buf).1 = .ok m → ∃ f, Message.decode C key {} f = .ok m) ∧
    ((recvLoop C key endErr reads buf).1 = .panic → ∃ f, f <:+: buf ++ reads.flatten ∧ Message.decode C key {} f = .panic) := by
  induction reads generalizing buf with
  | nil => exact ⟨List.suffix_refl _, by simp [recvLoop], by simp [recvLoop]⟩
  | cons c reads ih =>
    have hflat : buf ++ (c :: reads).flatten = (buf ++ c) ++ reads.flatten := by simp
    rw [hflat]
    unfold recvLoop
    simp only
    split
    · exact ih (buf ++ c)
    · split
      · exact ⟨List.suffix_refl _, by simp, by simp⟩
      · have hs := readFromBuffer_suffix (C := C) (key := key) (buf ++ c)
        have hgrow : ∀ {b : Bytes}, b <:+ buf ++ c → b ++ reads.flatten <:+ (buf ++ c) ++ reads.flatten := by
          rintro b ⟨t, ht⟩
          exact ⟨t, by rw [← ht]; simp⟩
        split <;> rename_i hx <;> rw [hx] at hs <;> simp only at hs
        · refine ⟨hgrow hs, ?_, by simp⟩
          intro m hm
          simp only [Res.ok.injEq] at hm
          subst hm
          exact readFromBuffer_some hx
        · rw [readFromBuffer_none hx]
          exact ih (buf ++ c)
        · exact ⟨hgrow hs, by simp, by simp⟩
        · refine ⟨hgrow hs, by simp, ?_⟩
          intro _
          obtain ⟨f, ⟨t, ht⟩, hf⟩ := readFromBuffer_panic hx
          exact ⟨f, ⟨[], t ++ reads.flatten, by rw [← ht]; simp⟩, hf⟩

/-- What is left after `Receive` is the end of what was there; a message is a result of the decoder; a panic is one of the decoder. -/
theorem receive_facts (s : RecvState) :
    ((receive C key endErr s).2.buffer ++ (receive C key endErr s).2.reads.flatten <:+ s.buffer ++ s.reads.flatten) ∧
    (∀ m, (receive C key endErr s).1 = .ok m → ∃ f, Message.decode C key {} f = .ok m) ∧
    ((receive C key endErr s).1 = .panic → ∃ f, f <:+: s.buffer ++ s.reads.flatten ∧ Message.decode C key {} f = .panic) := by
  have hs := readFromBuffer_suffix (C := C) (key := key) s.buffer
  have hgrow : ∀ {b : Bytes}, b <:+ s.buffer → b ++ s.reads.flatten <:+ s.buffer ++ s.reads.flatten := by
    rintro b ⟨t, ht⟩
    exact ⟨t, by rw [← ht]; simp⟩
  unfold receive
  split <;> rename_i hx <;> rw [hx] at hs <;> simp only at hs
  · refine ⟨hgrow hs, ?_, by simp⟩
    intro m hm
    simp only [Res.ok.injEq] at hm
    subst hm
    exact readFromBuffer_some hx
  · rw [readFromBuffer_none hx]
    exact recvLoop_facts s.reads s.buffer
  · exact ⟨hgrow hs, by simp, by simp⟩
  · refine ⟨hgrow hs, by simp, ?_⟩
    intro _
    obtain ⟨f, ⟨t, ht⟩, hf⟩ := readFromBuffer_panic hx
    exact ⟨f, ⟨[], t ++ s.reads.flatten, by rw [← ht]; simp⟩, hf⟩

/-! ## A frame that makes the decoder panic -/

theorem read_frame_panic (f rest : Bytes) (hf : Delimited f) (hp : Message.decode C key {} f = .panic) :
    readFromBuffer C key (f ++ rest) = (.panic, f ++ rest) := by
  obtain ⟨w, rfl, hw⟩ := hf
  have hb : [0x7e] ++ w ++ [0x7e] ++ rest = 0x7e :: (w ++ 0x7e :: rest) := by simp
  rw [hb, readFromBuffer, if_neg (by simp)]
  simp only [takeWhile_flag w rest hw]
  rw [if_neg (by simp)]
  have htake : (0x7e :: (w ++ 0x7e :: rest)).take (w.length + 2) = [0x7e] ++ w ++ [0x7e] := by
    rw [← hb, List.take_left' (by simp)]
  rw [htake, hp]

theorem recvLoop_frame_panic (reads : List Bytes) (buf f rest : Bytes) (hf : Delimited f) (hp : Message.decode C key {} f = .panic)
    (hs : buf ++ reads.flatten = f ++ rest) (hl : buf.length < f.length) (hr : ∀ c ∈ reads, c.length ≤ 128) (hm : f.length ≤ 65408) :
    (recvLoop C key endErr reads buf).1 = .panic := by
  induction reads generalizing buf with
  | nil =>
    simp only [List.flatten_nil, List.append_nil] at hs
    rw [hs, List.length_append] at hl
    omega
  | cons c reads ih =>
    have hc := hr c (by simp)
    unfold recvLoop
    simp only
    by_cases h0 : (buf ++ c).length = 0
    · rw [if_pos h0]
      exact ih (buf ++ c) (by rw [← hs]; simp) (by obtain ⟨w, rfl, -⟩ := hf; simp at h0 ⊢; simp [h0]) fun x hx => hr x (by simp [hx])
    · rw [if_neg h0, if_neg (by simp; omega)]
      by_cases hfull : (buf ++ c).length < f.length
      · rw [read_partial _ (unfinished_prefix f (buf ++ c) reads.flatten rest hf (by rw [← hs]; simp) hfull)]
        exact ih (buf ++ c) (by rw [← hs]; simp) hfull fun x hx => hr x (by simp [hx])
      · have hsplit : buf ++ c = f ++ (buf ++ c).drop f.length := by
          have : (buf ++ c).take f.length = f := by
            have h1 : (buf ++ c ++ reads.flatten).take f.length = f := by
              rw [show buf ++ c ++ reads.flatten = f ++ rest by rw [← hs]; simp]; simp
            rw [List.take_append_of_le_length (by omega)] at h1
            exact h1
          conv => lhs; rw [← List.take_append_drop f.length (buf ++ c), this]
        rw [hsplit, read_frame_panic f _ hf hp]

theorem receive_frame_panic {s : RecvState} {f rest : Bytes} {max : Nat} (h : Holds s (f ++ rest) max) (hf : Delimited f)
    (hp : Message.decode C key {} f = .panic) (hm : f.length ≤ max) (hmax : max ≤ 65408) : (receive C key endErr s).1 = .panic := by
  obtain ⟨buf, reads⟩ := s
  obtain ⟨h1, h2, h3⟩ := h
  simp only at h1 h2 h3
  unfold receive
  by_cases hlen : buf.length < f.length
  · rw [read_partial _ (unfinished_prefix f buf _ rest hf h1 hlen)]
    exact recvLoop_frame_panic (endErr := endErr) reads buf f rest hf hp h1 hlen h2 (by omega)
  · have hsplit : buf = f ++ buf.drop f.length := by
      have : buf.take f.length = f := by
        have h1' : (buf ++ reads.flatten).take f.length = f := by rw [h1]; simp
        rwa [List.take_append_of_le_length (by omega)] at h1'
      conv => lhs; rw [← List.take_append_drop f.length buf, this]
    rw [hsplit, read_frame_panic f _ hf hp]

end Verif
