import Verif.Spec.Stream
/-! # Lemmas on the connection codec -/

namespace Verif.Codec

open Spec

variable {E : Type} {C : BodyCodec E} {key : Option DecKey} {endErr : Err}

theorem takeWhile_flag (w rest : Bytes) (h : (0x7e : UInt8) ∉ w) : (w ++ 0x7e :: rest).takeWhile (· ≠ 0x7e) = w := by
  induction w with
  | nil => simp
  | cons a w ih =>
    have ha : a ≠ 0x7e := fun h' => h (by simp [h'])
    simp only [List.cons_append, List.takeWhile_cons, ne_eq, ha, not_false_eq_true, decide_true, if_true]
    rw [ih fun h' => h (by simp [h'])]

theorem takeWhile_none (w : Bytes) (h : (0x7e : UInt8) ∉ w) : w.takeWhile (· ≠ 0x7e) = w := by
  induction w with
  | nil => rfl
  | cons a w ih =>
    have ha : a ≠ 0x7e := fun h' => h (by simp [h'])
    simp only [List.takeWhile_cons, ne_eq, ha, not_false_eq_true, decide_true, if_true]
    rw [ih fun h' => h (by simp [h'])]

theorem dropWhile_junk (j rest : Bytes) (h : (0x7e : UInt8) ∉ j) (hr : rest = [] ∨ ∃ t, rest = 0x7e :: t) :
    (j ++ rest).dropWhile (· ≠ 0x7e) = rest := by
  induction j with
  | nil => rcases hr with rfl | ⟨t, rfl⟩ <;> simp
  | cons a w ih =>
    have ha : a ≠ 0x7e := fun h' => h (by simp [h'])
    simp only [List.cons_append, List.dropWhile_cons, ne_eq, ha, not_false_eq_true, decide_true, if_true]
    exact ih fun h' => h (by simp [h'])

/-- No complete frame in the buffer. -/
theorem read_partial (t : Bytes) (h : Unfinished t) : readFromBuffer C key t = (.ok none, t) := by
  rcases h with rfl | ⟨w, rfl, h⟩
  · rfl
  · rw [readFromBuffer, if_neg (by simp)]
    simp only [takeWhile_none w h, if_true]

/-- Junk at the start of the buffer. -/
theorem read_junk (j rest : Bytes) (hj : j ≠ []) (h : Junk j) (hr : rest = [] ∨ ∃ t, rest = 0x7e :: t) :
    readFromBuffer C key (j ++ rest) = (.err .notFoundPrefixID, rest) := by
  obtain ⟨a, j', rfl⟩ := List.exists_cons_of_ne_nil hj
  have ha : a ≠ 0x7e := fun h' => h (by simp [h'])
  have := dropWhile_junk (a :: j') rest h hr
  simp only [List.cons_append] at this ⊢
  rw [readFromBuffer, if_pos ha, this]

/-- A complete frame at the start of the buffer. -/
theorem read_frame (f rest : Bytes) (hf : Delimited f) (hp : Message.decode C key {} f ≠ .panic) :
    readFromBuffer C key (f ++ rest) = ((Message.decode C key {} f).bind fun m => .ok (some m), rest) := by
  obtain ⟨w, rfl, hw⟩ := hf
  have hb : [0x7e] ++ w ++ [0x7e] ++ rest = 0x7e :: (w ++ 0x7e :: rest) := by simp
  rw [hb, readFromBuffer, if_neg (by simp)]
  simp only [takeWhile_flag w rest hw]
  rw [if_neg (by simp)]
  have htake : (0x7e :: (w ++ 0x7e :: rest)).take (w.length + 2) = [0x7e] ++ w ++ [0x7e] := by
    rw [← hb, List.take_left' (by simp)]
  have hdrop : (0x7e :: (w ++ 0x7e :: rest)).drop (w.length + 2) = rest := by
    rw [← hb, List.drop_left' (by simp)]
  rw [htake, hdrop]
  cases hd : Message.decode C key {} ([0x7e] ++ w ++ [0x7e]) with
  | ok m => rfl
  | err e => rfl
  | panic => exact absurd hd hp

/-- A prefix of a frame that is not the whole frame is unfinished. -/
theorem unfinished_prefix (f buf t rest : Bytes) (hf : Delimited f) (h : buf ++ t = f ++ rest) (hl : buf.length < f.length) :
    Unfinished buf := by
  obtain ⟨w, rfl, hw⟩ := hf
  cases buf with
  | nil => exact .inl rfl
  | cons a b =>
    right
    simp only [List.cons_append, List.nil_append, List.append_assoc, List.cons.injEq] at h
    obtain ⟨rfl, h⟩ := h
    refine ⟨b, rfl, ?_⟩
    simp at hl
    have hb : b = (w ++ 0x7e :: rest).take b.length := by rw [← h]; simp
    rw [List.take_append_of_le_length (by omega)] at hb
    intro hm
    rw [hb] at hm
    exact hw (List.mem_of_mem_take hm)

/-- The frame arrives while reading. -/
theorem recvLoop_frame (reads : List Bytes) (buf f rest : Bytes) (hf : Delimited f) (hp : Message.decode C key {} f ≠ .panic)
    (hs : buf ++ reads.flatten = f ++ rest) (hl : buf.length < f.length) (hr : ∀ c ∈ reads, c.length ≤ 128) (hm : f.length ≤ 65408) :
    ∃ buf' reads', recvLoop C key endErr reads buf = (Message.decode C key {} f, ⟨buf', reads'⟩) ∧ buf' ++ reads'.flatten = rest ∧
      buf'.length ≤ 127 ∧ reads' <:+ reads := by
  induction reads generalizing buf with
  | nil =>
    simp only [List.flatten_nil, List.append_nil] at hs
    rw [hs, List.length_append] at hl
    omega
  | cons c reads ih =>
    have hc := hr c (by simp)
    unfold recvLoop
    simp only
    by_cases h0 : (buf ++ c).length = 0
    · rw [if_pos h0]
      obtain ⟨b', r', i1, i2, i3, i4⟩ := ih (buf ++ c) (by rw [← hs]; simp) (by obtain ⟨w, rfl, -⟩ := hf; simp at h0 ⊢; simp [h0])
        fun x hx => hr x (by simp [hx])
      exact ⟨b', r', i1, i2, i3, i4.trans (List.suffix_cons _ _)⟩
    · rw [if_neg h0, if_neg (by simp; omega)]
      by_cases hfull : (buf ++ c).length < f.length
      · rw [read_partial _ (unfinished_prefix f (buf ++ c) reads.flatten rest hf (by rw [← hs]; simp) hfull)]
        obtain ⟨b', r', i1, i2, i3, i4⟩ := ih (buf ++ c) (by rw [← hs]; simp) hfull fun x hx => hr x (by simp [hx])
        exact ⟨b', r', i1, i2, i3, i4.trans (List.suffix_cons _ _)⟩
      · have hsplit : buf ++ c = f ++ (buf ++ c).drop f.length := by
          have : (buf ++ c).take f.length = f := by
            have h1 : (buf ++ c ++ reads.flatten).take f.length = f := by
              rw [show buf ++ c ++ reads.flatten = f ++ rest by rw [← hs]; simp]; simp
            rw [List.take_append_of_le_length (by omega)] at h1
            exact h1
          conv => lhs; rw [← List.take_append_drop f.length (buf ++ c), this]
        rw [hsplit, read_frame f _ hf hp]
        refine ⟨(buf ++ c).drop f.length, reads, ?_, ?_, ?_, List.suffix_cons _ _⟩
        · cases hd : Message.decode C key {} f with
          | ok m => rfl
          | err e => rfl
          | panic => exact absurd hd hp
        · have : f ++ ((buf ++ c).drop f.length ++ reads.flatten) = f ++ rest := by
            rw [← List.append_assoc, ← hsplit, ← hs]; simp
          exact List.append_cancel_left this
        · simp only [List.length_drop, List.length_append]; omega

/-- Junk arrives while reading. -/
theorem recvLoop_junk (reads : List Bytes) (j rest : Bytes) (hj : j ≠ []) (h : Junk j) (hrest : rest = [] ∨ ∃ t, rest = 0x7e :: t)
    (hs : reads.flatten = j ++ rest) (hr : ∀ c ∈ reads, c.length ≤ 128) :
    ∃ buf' reads' j', recvLoop C key endErr reads [] = (.err .notFoundPrefixID, ⟨buf', reads'⟩) ∧ buf' ++ reads'.flatten = j' ++ rest ∧
      Junk j' ∧ j'.length < j.length ∧ buf'.length ≤ 127 ∧ (∃ b, buf' = [] ∨ buf' = 0x7e :: b ∧ j' = []) ∧ reads' <:+ reads := by
  induction reads with
  | nil => simp at hs; exact absurd hs.1 hj
  | cons c reads ih =>
    have hc := hr c (by simp)
    unfold recvLoop
    simp only [List.nil_append]
    by_cases h0 : c.length = 0
    · rw [if_pos h0]
      obtain rfl := List.length_eq_zero_iff.1 h0
      obtain ⟨b', r', j', i1, i2, i3, i4, i5, i6, i7⟩ := ih (by simpa using hs) fun x hx => hr x (by simp [hx])
      exact ⟨b', r', j', i1, i2, i3, i4, i5, i6, i7.trans (List.suffix_cons _ _)⟩
    · rw [if_neg h0, if_neg (by omega)]
      simp only [List.flatten_cons] at hs
      by_cases hlong : c.length ≤ j.length
      · -- the chunk is junk only
        have hc' : j = c ++ j.drop c.length := by
          have h1 : (j ++ rest).take c.length = c := by rw [← hs]; simp
          rw [List.take_append_of_le_length hlong] at h1
          conv => lhs; rw [← List.take_append_drop c.length j, h1]
        have hjc : Junk c := fun hm => h (by rw [hc']; simp [hm])
        have := read_junk (C := C) (key := key) c [] (by intro hn; simp [hn] at h0) hjc (.inl rfl)
        rw [List.append_nil] at this
        rw [this]
        refine ⟨[], reads, j.drop c.length, rfl, ?_, fun hm => h (List.mem_of_mem_drop hm), ?_, by simp, ⟨[], .inl rfl⟩, List.suffix_cons _ _⟩
        · rw [hc', List.append_assoc] at hs
          simpa using List.append_cancel_left hs
        · simp only [List.length_drop]; omega
      · have hc' : c = j ++ c.drop j.length := by
          have h1 : (c ++ reads.flatten).take j.length = j := by rw [hs]; simp
          rw [List.take_append_of_le_length (by omega)] at h1
          conv => lhs; rw [← List.take_append_drop j.length c, h1]
        have hrest' : c.drop j.length ++ reads.flatten = rest := by
          rw [hc', List.append_assoc] at hs
          simpa using List.append_cancel_left hs
        obtain ⟨x, b, hb⟩ : ∃ x b, c.drop j.length = x :: b := by
          apply List.exists_cons_of_ne_nil
          intro hn
          have := congrArg List.length hn
          simp at this
          omega
        have hx : x = 0x7e := by
          rcases hrest with h | ⟨t, h⟩
          · rw [h, hb] at hrest'; simp at hrest'
          · rw [h, hb] at hrest'; simp at hrest'; exact hrest'.1
        have hlen : c.length = j.length + (c.drop j.length).length := by simp; omega
        rw [hc', read_junk j (c.drop j.length) hj h (.inr ⟨b, by rw [hb, hx]⟩)]
        refine ⟨c.drop j.length, reads, [], rfl, by simpa using hrest', by simp [Junk], List.length_pos_iff.2 hj, ?_, ⟨b, .inr ⟨by rw [hb, hx], rfl⟩⟩, List.suffix_cons _ _⟩
        have := List.length_pos_iff.2 hj
        omega

/-- The stream ends. -/
theorem recvLoop_end (reads : List Bytes) (buf t : Bytes) (h : Unfinished t) (hs : buf ++ reads.flatten = t) (hl : t.length ≤ 65535) :
    recvLoop C key endErr reads buf = (.err endErr, ⟨t, []⟩) := by
  induction reads generalizing buf with
  | nil => simp at hs; subst hs; rfl
  | cons c reads ih =>
    unfold recvLoop
    simp only
    have hs' : buf ++ c ++ reads.flatten = t := by rw [← hs]; simp
    by_cases h0 : (buf ++ c).length = 0
    · rw [if_pos h0, ih _ hs']
    · have hlen := congrArg List.length hs'
      simp only [List.length_append] at hlen
      rw [if_neg h0, if_neg (by simp; omega)]
      have hu : Unfinished (buf ++ c) := by
        rcases h with rfl | ⟨w, rfl, hw⟩
        · simp at hs'; simp at h0; exact absurd hs'.2.1 (h0 hs'.1)
        · right
          obtain ⟨a, b, hb⟩ := List.exists_cons_of_ne_nil (l := buf ++ c) (by intro hn; rw [hn] at h0; simp at h0)
          rw [hb] at hs' ⊢
          simp at hs'
          obtain ⟨rfl, rfl⟩ := hs'
          exact ⟨b, rfl, fun hm => hw (by simp [hm])⟩
      rw [read_partial _ hu]
      exact ih _ hs'

/-! ## One `Receive` call -/

/-- State of a codec with the given unread stream. -/
structure Holds (s : RecvState) (bytes : Bytes) (max : Nat) : Prop where
  stream : s.buffer ++ s.reads.flatten = bytes
  reads : ∀ c ∈ s.reads, c.length ≤ 128
  bound : s.buffer.length ≤ max + 127

theorem suffix_reads {r r' : List Bytes} (h : r' <:+ r) (hr : ∀ c ∈ r, c.length ≤ 128) : ∀ c ∈ r', c.length ≤ 128 :=
  fun c hc => hr c (h.subset hc)

theorem receive_frame {s : RecvState} {f rest : Bytes} {max : Nat} (h : Holds s (f ++ rest) max) (hf : Delimited f)
    (hp : Message.decode C key {} f ≠ .panic) (hm : f.length ≤ max) (hmax : max ≤ 65408) :
    ∃ s', receive C key endErr s = (Message.decode C key {} f, s') ∧ Holds s' rest max := by
  obtain ⟨buf, reads⟩ := s
  obtain ⟨h1, h2, h3⟩ := h
  simp only at h1 h2 h3
  unfold receive
  by_cases hlen : buf.length < f.length
  · rw [read_partial _ (unfinished_prefix f buf _ rest hf h1 hlen)]
    obtain ⟨b', r', i1, i2, i3, i4⟩ := recvLoop_frame (endErr := endErr) reads buf f rest hf hp h1 hlen h2 (by omega)
    exact ⟨_, i1, i2, suffix_reads i4 h2, by simp only; omega⟩
  · have hsplit : buf = f ++ buf.drop f.length := by
      have : buf.take f.length = f := by
        have h1' : (buf ++ reads.flatten).take f.length = f := by rw [h1]; simp
        rwa [List.take_append_of_le_length (by omega)] at h1'
      conv => lhs; rw [← List.take_append_drop f.length buf, this]
    have hl := congrArg List.length hsplit
    simp only [List.length_append] at hl
    rw [hsplit, read_frame f _ hf hp]
    refine ⟨⟨buf.drop f.length, reads⟩, ?_, ?_, h2, by simp only; omega⟩
    · cases hd : Message.decode C key {} f with
      | ok m => rfl
      | err e => rfl
      | panic => exact absurd hd hp
    · rw [hsplit, List.append_assoc] at h1
      exact List.append_cancel_left h1

theorem receive_junk {s : RecvState} {j rest : Bytes} {max : Nat} (h : Holds s (j ++ rest) max) (hj : j ≠ []) (hjunk : Junk j)
    (hrest : rest = [] ∨ ∃ t, rest = 0x7e :: t) :
    ∃ s' j', receive C key endErr s = (.err .notFoundPrefixID, s') ∧ Holds s' (j' ++ rest) max ∧ Junk j' ∧ j'.length < j.length := by
  obtain ⟨buf, reads⟩ := s
  obtain ⟨h1, h2, h3⟩ := h
  simp only at h1 h2 h3
  unfold receive
  by_cases h0 : buf = []
  · subst h0
    rw [read_partial _ (.inl rfl)]
    obtain ⟨b', r', j', i1, i2, i3, i4, i5, i6, i7⟩ := recvLoop_junk (C := C) (key := key) (endErr := endErr) reads j rest hj hjunk hrest (by simpa using h1) h2
    exact ⟨_, j', i1, ⟨i2, suffix_reads i7 h2, by simp only; omega⟩, i3, i4⟩
  · by_cases hlong : buf.length ≤ j.length
    · have hc' : j = buf ++ j.drop buf.length := by
        have h1' : (j ++ rest).take buf.length = buf := by rw [← h1]; simp
        rw [List.take_append_of_le_length hlong] at h1'
        conv => lhs; rw [← List.take_append_drop buf.length j, h1']
      have hjc : Junk buf := fun hm => hjunk (by rw [hc']; simp [hm])
      have := read_junk (C := C) (key := key) buf [] h0 hjc (.inl rfl)
      rw [List.append_nil] at this
      rw [this]
      refine ⟨⟨[], reads⟩, j.drop buf.length, rfl, ⟨?_, h2, by simp⟩, fun hm => hjunk (List.mem_of_mem_drop hm), ?_⟩
      · rw [hc', List.append_assoc] at h1
        simpa using List.append_cancel_left h1
      · have := List.length_pos_iff.2 h0
        simp only [List.length_drop]; omega
    · have hc' : buf = j ++ buf.drop j.length := by
        have h1' : (buf ++ reads.flatten).take j.length = j := by rw [h1]; simp
        rw [List.take_append_of_le_length (by omega)] at h1'
        conv => lhs; rw [← List.take_append_drop j.length buf, h1']
      have hrest' : buf.drop j.length ++ reads.flatten = rest := by
        rw [hc', List.append_assoc] at h1
        simpa using List.append_cancel_left h1
      obtain ⟨x, b, hb⟩ : ∃ x b, buf.drop j.length = x :: b := by
        apply List.exists_cons_of_ne_nil
        intro hn
        have := congrArg List.length hn
        simp at this
        omega
      have hx : x = 0x7e := by
        rcases hrest with h | ⟨t, h⟩
        · rw [h, hb] at hrest'; simp at hrest'
        · rw [h, hb] at hrest'; simp at hrest'; exact hrest'.1
      have hlen := congrArg List.length hc'
      simp only [List.length_append] at hlen
      rw [hc', read_junk j (buf.drop j.length) hj hjunk (.inr ⟨b, by rw [hb, hx]⟩)]
      refine ⟨⟨buf.drop j.length, reads⟩, [], rfl, ⟨by simpa using hrest', h2, by simp only; omega⟩, by simp [Junk], List.length_pos_iff.2 hj⟩

theorem receive_end {s : RecvState} {t : Bytes} {max : Nat} (h : Holds s t max) (ht : Unfinished t) (hl : t.length ≤ max) (hmax : max ≤ 65408) :
    receive C key endErr s = (.err endErr, ⟨t, []⟩) := by
  obtain ⟨buf, reads⟩ := s
  obtain ⟨h1, h2, h3⟩ := h
  simp only at h1 h2 h3
  have hu : Unfinished buf := by
    rcases ht with rfl | ⟨w, rfl, hw⟩
    · simp at h1; exact .inl h1.1
    · cases buf with
      | nil => exact .inl rfl
      | cons a b =>
        simp at h1
        obtain ⟨rfl, rfl⟩ := h1
        exact .inr ⟨b, rfl, fun hm => hw (by simp [hm])⟩
  unfold receive
  rw [read_partial _ hu]
  exact recvLoop_end reads buf t ht h1 (by omega)

/-! ## Successive calls -/

theorem receiveMany_append (n m : Nat) (s : RecvState) : receiveMany C key endErr (n + m) s =
    ((receiveMany C key endErr n s).1 ++ (receiveMany C key endErr m (receiveMany C key endErr n s).2).1,
      (receiveMany C key endErr m (receiveMany C key endErr n s).2).2) := by
  induction n generalizing s with
  | zero => simp [receiveMany]
  | succ n ih =>
    rw [show n + 1 + m = (n + m) + 1 by omega]
    simp only [receiveMany]
    rw [ih]
    rfl

/-- All junk before the next frame (or the end) is reported and dropped. -/
theorem junk_phase (s : RecvState) (j rest : Bytes) (max : Nat) (h : Holds s (j ++ rest) max) (hjunk : Junk j)
    (hrest : rest = [] ∨ ∃ t, rest = 0x7e :: t) :
    ∃ k s', receiveMany C key endErr k s = (List.replicate k (.err .notFoundPrefixID), s') ∧ Holds s' rest max ∧ (j = [] ↔ k = 0) := by
  induction hn : j.length using Nat.strongRecOn generalizing s j with
  | _ n ih =>
    by_cases hj : j = []
    · subst hj
      exact ⟨0, s, rfl, by simpa using h, by simp⟩
    · obtain ⟨s1, j', r1, r2, r3, r4⟩ := receive_junk (C := C) (key := key) (endErr := endErr) h hj hjunk hrest
      obtain ⟨k, s', k1, k2, k3⟩ := ih j'.length (by omega) s1 j' r2 r3 rfl
      refine ⟨k + 1, s', ?_, k2, by simp [hj]⟩
      simp only [receiveMany, r1, k1, List.replicate_succ]

theorem stream_results (fs : List (Bytes × Bytes)) (j t : Bytes) (max : Nat) (hmax : max ≤ 65408)
    (hfs : ∀ x ∈ fs, Junk x.1 ∧ Delimited x.2 ∧ x.2.length ≤ max) (hp : ∀ x ∈ fs, Message.decode C key {} x.2 ≠ .panic)
    (hj : Junk j) (ht : Unfinished t) (s : RecvState)
    (h : Holds s (fs.flatMap (fun x => x.1 ++ x.2) ++ (j ++ t)) max) :
    ∃ n rs s', receiveMany C key endErr n s = (rs, s') ∧ Due C key fs j rs ∧ Holds s' t max := by
  induction fs generalizing s with
  | nil =>
    obtain ⟨k, s', k1, k2, k3⟩ := junk_phase (C := C) (key := key) (endErr := endErr) s j t max (by simpa using h) hj (by
      rcases ht with h | ⟨w, h, -⟩
      · exact .inl h
      · exact .inr ⟨w, h⟩)
    exact ⟨k, _, s', k1, .nil ⟨k, rfl, k3⟩, k2⟩
  | cons x fs ih =>
    obtain ⟨j0, f⟩ := x
    obtain ⟨a1, a2, a3⟩ := hfs (j0, f) (by simp)
    have hstart : ∃ t', f ++ (fs.flatMap (fun x => x.1 ++ x.2) ++ (j ++ t)) = 0x7e :: t' := by
      obtain ⟨w, hw, -⟩ := a2
      simp only at hw
      rw [hw]
      exact ⟨_, rfl⟩
    obtain ⟨k, s1, k1, k2, k3⟩ := junk_phase (C := C) (key := key) (endErr := endErr) s j0 (f ++ (fs.flatMap (fun x => x.1 ++ x.2) ++ (j ++ t))) max
      (by simpa using h) a1 (.inr hstart)
    obtain ⟨s2, r1, r2⟩ := receive_frame (C := C) (key := key) (endErr := endErr) k2 a2 (hp (j0, f) (by simp)) a3 hmax
    obtain ⟨n, rs, s3, i1, i2, i3⟩ := ih (fun x hx => hfs x (by simp [hx])) (fun x hx => hp x (by simp [hx])) s2 r2
    refine ⟨k + (n + 1), _, s3, ?_, .cons ⟨k, rfl, k3⟩ i2, i3⟩
    rw [receiveMany_append, k1]
    simp only [receiveMany, r1, i1]

end Verif.Codec
