import Verif.Lemmas.Connection
/-! # What `Receive` takes from the front of a stream, whatever the stream -/

namespace Verif
open Spec Codec

variable {E : Type} {C : BodyCodec E} {key : Option DecKey} {endErr : Err}

/-- A frame at the front of the buffer, if the first byte is a delimiter and there is another one. -/
theorem frame_front {t : Bytes} (h : (t.takeWhile (· ≠ (0x7e : UInt8))).length ≠ t.length) :
    Delimited ((0x7e :: t).take ((t.takeWhile (· ≠ (0x7e : UInt8))).length + 2)) := by
  have hsplit : t = t.takeWhile (· ≠ (0x7e : UInt8)) ++ t.dropWhile (· ≠ (0x7e : UInt8)) := List.takeWhile_append_dropWhile.symm
  cases hd : t.dropWhile (· ≠ (0x7e : UInt8)) with
  | nil =>
    rw [hd, List.append_nil] at hsplit
    exact absurd (congrArg List.length hsplit).symm h
  | cons x r =>
    have hx : x = 0x7e := by
      have := List.head?_dropWhile_not (· ≠ (0x7e : UInt8)) t
      rw [hd] at this
      simpa using this
    subst hx
    refine ⟨t.takeWhile (· ≠ (0x7e : UInt8)), ?_, ?_⟩
    · rw [List.take_succ_cons]
      rw [hd] at hsplit
      generalize t.takeWhile (· ≠ (0x7e : UInt8)) = w at hsplit
      subst hsplit
      rw [List.take_append, List.take_of_length_le (by omega), show w.length + 1 - w.length = 1 by omega]
      rfl
    · intro hm
      have : ∀ (l : Bytes) (y : UInt8), y ∈ l.takeWhile (· ≠ (0x7e : UInt8)) → y ≠ 0x7e := by
        intro l
        induction l with
        | nil => intro y hy; simp at hy
        | cons a l ih =>
          intro y hy
          rw [List.takeWhile_cons] at hy
          split at hy
          · rename_i ha
            rcases List.mem_cons.mp hy with rfl | hy
            · simpa using ha
            · exact ih y hy
          · simp at hy
      exact this t _ hm rfl

theorem readFromBuffer_cut {data b : Bytes} {m : Message E} (h : readFromBuffer C key data = (.ok (some m), b)) :
    ∃ f, Delimited f ∧ data = f ++ b ∧ Message.decode C key {} f = .ok m := by
  unfold readFromBuffer at h
  split at h
  · simp at h
  · rename_i x t
    split at h
    · simp at h
    · rename_i hx
      have hx : x = 0x7e := by simpa using hx
      subst hx
      simp only at h
      split at h
      · simp at h
      · rename_i hl
        split at h
        · rename_i hd
          simp only [Prod.mk.injEq, Res.ok.injEq, Option.some.injEq] at h
          exact ⟨_, frame_front hl, by rw [← h.2, List.take_append_drop], by rw [hd, h.1]⟩
        · simp at h
        · simp at h

theorem readFromBuffer_cut_panic {data b : Bytes} (h : readFromBuffer C key data = (.panic, b)) :
    ∃ f r, Delimited f ∧ data = f ++ r ∧ Message.decode C key {} f = .panic := by
  unfold readFromBuffer at h
  split at h
  · simp at h
  · rename_i x t
    split at h
    · simp at h
    · rename_i hx
      have hx : x = 0x7e := by simpa using hx
      subst hx
      simp only at h
      split at h
      · simp at h
      · rename_i hl
        split at h
        · simp at h
        · simp at h
        · rename_i hd
          exact ⟨_, _, frame_front hl, (List.take_append_drop _ _).symm, hd⟩

theorem recvLoop_cut (reads : List Bytes) (buf : Bytes) :
    (∀ m s', recvLoop C key endErr reads buf = (.ok m, s') → ∃ f, Delimited f ∧ f.length ≤ 65535 ∧ Message.decode C key {} f = .ok m ∧
      buf ++ reads.flatten = f ++ (s'.buffer ++ s'.reads.flatten) ∧ s'.buffer.length ≤ 65535 ∧ s'.reads <:+ reads) ∧
    ((recvLoop C key endErr reads buf).1 = .panic → ∃ f r, Delimited f ∧ Message.decode C key {} f = .panic ∧ buf ++ reads.flatten = f ++ r) := by
  induction reads generalizing buf with
  | nil => exact ⟨by simp [recvLoop], by simp [recvLoop]⟩
  | cons c reads ih =>
    have hflat : buf ++ (c :: reads).flatten = (buf ++ c) ++ reads.flatten := by simp
    have more : ∀ {r : List Bytes}, r <:+ reads → r <:+ c :: reads := fun h => h.trans (List.suffix_cons _ _)
    have lift := ih (buf ++ c)
    rw [hflat]
    unfold recvLoop
    simp only
    split
    · refine ⟨fun m s' h => ?_, lift.2⟩
      obtain ⟨f, a1, a2, a3, a4, a5, a6⟩ := lift.1 m s' h
      exact ⟨f, a1, a2, a3, a4, a5, more a6⟩
    · split
      · exact ⟨by simp, by simp⟩
      · rename_i hlen
        split <;> rename_i hx
        · refine ⟨?_, by simp⟩
          intro m s' h
          simp only [Prod.mk.injEq, Res.ok.injEq] at h
          obtain ⟨rfl, rfl⟩ := h
          obtain ⟨f, a1, a2, a3⟩ := readFromBuffer_cut hx
          have : (buf ++ c).length = _ := congrArg List.length a2
          rw [List.length_append (as := f)] at this
          exact ⟨f, a1, by omega, a3, by simp only; rw [a2, List.append_assoc], by simp only; omega, List.suffix_cons _ _⟩
        · rw [readFromBuffer_none hx]
          refine ⟨fun m s' h => ?_, lift.2⟩
          obtain ⟨f, a1, a2, a3, a4, a5, a6⟩ := lift.1 m s' h
          exact ⟨f, a1, a2, a3, a4, a5, more a6⟩
        · exact ⟨by simp, by simp⟩
        · refine ⟨by simp, fun _ => ?_⟩
          obtain ⟨f, r, a1, a2, a3⟩ := readFromBuffer_cut_panic hx
          exact ⟨f, r ++ reads.flatten, a1, a3, by rw [a2, List.append_assoc]⟩

/-- A message is taken from the front of the stream, and so is what makes the decoder panic. -/
theorem receive_cut (s : RecvState) (hb : s.buffer.length ≤ 65535) :
    (∀ m s', receive C key endErr s = (.ok m, s') → ∃ f, Delimited f ∧ f.length ≤ 65535 ∧ Message.decode C key {} f = .ok m ∧
      s.buffer ++ s.reads.flatten = f ++ (s'.buffer ++ s'.reads.flatten) ∧ s'.buffer.length ≤ 65535 ∧ s'.reads <:+ s.reads) ∧
    ((receive C key endErr s).1 = .panic →
      ∃ f r, Delimited f ∧ Message.decode C key {} f = .panic ∧ s.buffer ++ s.reads.flatten = f ++ r) := by
  unfold receive
  split <;> rename_i hx
  · refine ⟨?_, by simp⟩
    intro m s' h
    simp only [Prod.mk.injEq, Res.ok.injEq] at h
    obtain ⟨rfl, rfl⟩ := h
    obtain ⟨f, a1, a2, a3⟩ := readFromBuffer_cut hx
    have := congrArg List.length a2
    rw [List.length_append] at this
    exact ⟨f, a1, by omega, a3, by simp only; rw [a2, List.append_assoc], by simp only; omega, List.suffix_refl _⟩
  · rw [readFromBuffer_none hx]
    exact recvLoop_cut s.reads s.buffer
  · exact ⟨by simp, by simp⟩
  · refine ⟨by simp, fun _ => ?_⟩
    obtain ⟨f, r, a1, a2, a3⟩ := readFromBuffer_cut_panic hx
    exact ⟨f, r ++ s.reads.flatten, a1, a3, by rw [a2, List.append_assoc]⟩

end Verif
