import Verif.Lemmas.Stream
import Verif.Spec.Wire
/-! # Frames longer than the buffer of the receiver -/

namespace Verif
open Spec Codec

variable {E : Type} {C : BodyCodec E} {key : Option DecKey} {endErr : Err}

/-- Stuffing does not make bytes fewer. -/
theorem stuffed_le_length {w c : Bytes} (h : Stuffed w c) : c.length ≤ w.length := by
  induction h with
  | nil => exact Nat.le_refl _
  | flag _ ih => simp only [List.length_cons]; omega
  | esc _ ih => simp only [List.length_cons]; omega
  | plain _ _ _ ih => simp only [List.length_cons]; omega

/-- A frame is longer than its content. -/
theorem frame_longer {f c : Bytes} (h : Frame f c) : c.length + 3 ≤ f.length := by
  obtain ⟨w, rfl, hw⟩ := h
  have := stuffed_le_length hw
  simp only [List.length_append, List.length_cons, List.length_nil] at this ⊢
  omega

/-- A frame of more than 65535 bytes arrives while reading. -/
theorem recvLoop_long (reads : List Bytes) (buf f rest : Bytes) (hf : Delimited f) (hs : buf ++ reads.flatten = f ++ rest) (hl : buf.length ≤ 65535)
    (hm : 65535 < f.length) : (recvLoop C key endErr reads buf).1 = .err .bodyTooLong := by
  induction reads generalizing buf with
  | nil =>
    simp only [List.flatten_nil, List.append_nil] at hs
    rw [hs, List.length_append] at hl
    omega
  | cons c reads ih =>
    have hs' : buf ++ c ++ reads.flatten = f ++ rest := by rw [← hs]; simp
    unfold recvLoop
    simp only
    by_cases h0 : (buf ++ c).length = 0
    · rw [if_pos h0]
      exact ih _ hs' (by omega)
    · rw [if_neg h0]
      by_cases h1 : (buf ++ c).length > 0xffff
      · rw [if_pos h1]
      · rw [if_neg h1, read_partial _ (unfinished_prefix f (buf ++ c) reads.flatten rest hf hs' (by omega))]
        exact ih _ hs' (by omega)

end Verif
