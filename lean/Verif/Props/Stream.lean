import Verif.Lemmas.Stream
import Verif.Props.RoundTrip
import Verif.Spec.Transfer
/-! # C12: reassembly, C13: receive buffer, C14: errors and resynchronisation -/

namespace Verif

open Spec Codec

variable {E : Type}

/-! ## C12 -/

/-- C12: whatever frames were sent (each at most 65408 bytes and decodable) and however the network splits their concatenation into
reads of at most 128 bytes, successive `Receive` calls deliver exactly the messages in order, and every later call reports
the connection's error. -/
theorem C12_reassembly (C : BodyCodec E) (key : Option DecKey) (endErr : Err) (ms : List (Bytes × Message E))
    (hms : ∀ x ∈ ms, Delimited x.1 ∧ x.1.length ≤ 65408 ∧ Message.decode C key {} x.1 = .ok x.2)
    (reads : List Bytes) (hr : ∀ c ∈ reads, c.length ≤ 128) (hs : reads.flatten = ms.flatMap (·.1)) (k : Nat) :
    (receiveMany C key endErr (ms.length + k) ⟨[], reads⟩).1 = ms.map (fun x => .ok x.2) ++ List.replicate k (.err endErr) := by
  have main : ∀ (ms : List (Bytes × Message E)) (s : RecvState),
      (∀ x ∈ ms, Delimited x.1 ∧ x.1.length ≤ 65408 ∧ Message.decode C key {} x.1 = .ok x.2) → Holds s (ms.flatMap (·.1)) 65408 →
      (receiveMany C key endErr (ms.length + k) s).1 = ms.map (fun x => .ok x.2) ++ List.replicate k (.err endErr) := by
    clear hs hr hms ms
    intro ms
    induction ms with
    | nil =>
      intro s _ h
      have hstep : ∀ k s, Holds s [] 65408 → (receiveMany C key endErr k s).1 = List.replicate k (.err endErr) := by
        intro k
        induction k with
        | zero => intro s _; rfl
        | succ k ih =>
          intro s h
          have hend := receive_end (C := C) (key := key) (endErr := endErr) h (.inl rfl) (by simp) (Nat.le_refl _)
          simp only [receiveMany, hend, List.replicate_succ]
          rw [ih ⟨[], []⟩ ⟨rfl, by simp, by simp⟩]
      have := hstep k s (by simpa using h)
      simpa using this
    | cons x ms ih =>
      intro s hms h
      obtain ⟨a1, a2, a3⟩ := hms x (by simp)
      obtain ⟨s', r1, r2⟩ := receive_frame (C := C) (key := key) (endErr := endErr) (f := x.1) (rest := ms.flatMap (·.1)) (by simpa using h) a1 (by rw [a3]; simp) a2 (Nat.le_refl _)
      rw [show (x :: ms).length + k = (ms.length + k) + 1 by simp; omega]
      simp only [receiveMany, r1, a3, List.map_cons, List.cons_append]
      rw [ih s' (fun y hy => hms y (by simp [hy])) r2]
  exact main ms ⟨[], reads⟩ hms ⟨by simpa using hs, hr, by simp⟩

/-- C12 for a connection that breaks anywhere, even inside a frame: the messages whose frames arrived completely are delivered, in order, then the
error of the connection is reported. -/
theorem C12_cut_anywhere (C : BodyCodec E) (key : Option DecKey) (endErr : Err) (ms : List (Bytes × Message E))
    (hms : ∀ x ∈ ms, Delimited x.1 ∧ x.1.length ≤ 65408 ∧ Message.decode C key {} x.1 = .ok x.2)
    (reads : List Bytes) (hr : ∀ c ∈ reads, c.length ≤ 128) (hs : reads.flatten <+: ms.flatMap (·.1)) (k : Nat) :
    ∃ n, n ≤ ms.length ∧ ((ms.take n).flatMap (·.1)).length ≤ reads.flatten.length ∧
      (n < ms.length → reads.flatten.length < ((ms.take (n + 1)).flatMap (·.1)).length) ∧
      (receiveMany C key endErr (n + k) ⟨[], reads⟩).1 = (ms.take n).map (fun x => .ok x.2) ++ List.replicate k (.err endErr) := by
  have main : ∀ (ms : List (Bytes × Message E)) (s : RecvState) (bytes : Bytes),
      (∀ x ∈ ms, Delimited x.1 ∧ x.1.length ≤ 65408 ∧ Message.decode C key {} x.1 = .ok x.2) → Holds s bytes 65408 → bytes <+: ms.flatMap (·.1) →
      ∃ n, n ≤ ms.length ∧ ((ms.take n).flatMap (·.1)).length ≤ bytes.length ∧
        (n < ms.length → bytes.length < ((ms.take (n + 1)).flatMap (·.1)).length) ∧
        (receiveMany C key endErr (n + k) s).1 = (ms.take n).map (fun x => .ok x.2) ++ List.replicate k (.err endErr) := by
    clear hs hr hms ms
    have hstep : ∀ k t s, Holds s t 65408 → Unfinished t → t.length ≤ 65408 → (receiveMany C key endErr k s).1 = List.replicate k (.err endErr) := by
      intro k
      induction k with
      | zero => intro t s _ _ _; rfl
      | succ k ih =>
        intro t s h hu hl
        have hend := receive_end (C := C) (key := key) (endErr := endErr) h hu hl (Nat.le_refl _)
        simp only [receiveMany, hend, List.replicate_succ]
        rw [ih t ⟨t, []⟩ ⟨by simp, by simp, by simp only; omega⟩ hu hl]
    intro ms
    induction ms with
    | nil =>
      intro s bytes _ h hp
      have hb : bytes = [] := List.prefix_nil.1 hp
      subst hb
      exact ⟨0, Nat.le_refl _, by simp, by simp, by simpa using hstep k [] s h (.inl rfl) (by simp)⟩
    | cons x ms ih =>
      intro s bytes hms h hp
      obtain ⟨a1, a2, a3⟩ := hms x (by simp)
      rw [List.flatMap_cons] at hp
      by_cases hlen : bytes.length < x.1.length
      · have hu : bytes <+: x.1 := List.prefix_of_prefix_length_le hp (List.prefix_append _ _) (by omega)
        obtain ⟨r, hr⟩ := hu
        have hun := unfinished_prefix x.1 bytes r [] a1 (by rw [hr, List.append_nil]) hlen
        refine ⟨0, Nat.zero_le _, by simp, by simpa using hlen, ?_⟩
        simpa using hstep k bytes s h hun (by omega)
      · obtain ⟨rest, rfl⟩ : ∃ rest, bytes = x.1 ++ rest :=
          let ⟨r, hr⟩ := List.prefix_of_prefix_length_le (List.prefix_append x.1 _) hp (by omega)
          ⟨r, hr.symm⟩
        obtain ⟨s', r1, r2⟩ := receive_frame (C := C) (key := key) (endErr := endErr) (f := x.1) (rest := rest) h a1 (by rw [a3]; simp) a2 (Nat.le_refl _)
        obtain ⟨n, n1, n2, n3, n4⟩ := ih s' rest (fun y hy => hms y (by simp [hy])) r2 ((List.prefix_append_right_inj _).1 hp)
        refine ⟨n + 1, by simpa using n1, by simpa using n2, by simpa using n3, ?_⟩
        rw [show n + 1 + k = (n + k) + 1 by omega]
        simp only [receiveMany, r1, a3, List.take_succ_cons, List.map_cons, List.cons_append, n4]
  exact main ms ⟨[], reads⟩ _ hms ⟨by simp, hr, by simp⟩ hs

/-- An encoded message is a frame, of at most 2082 bytes if its body is not longer than 1023 bytes. -/
theorem frame_of_encode {C : BodyCodec E} {key : Option EncKey} {m m' : Message E} {f body : Bytes} {hdr : Header} {b' : Body E}
    (h : Message.encode C key m = .ok (f, m')) (hb : Message.encodeBody C key m = .ok (body, hdr, b')) (hl : body.length ≤ 1023) :
    Delimited f ∧ f.length ≤ 2082 := by
  obtain ⟨body', hdr', b'', id, prop, hbytes, h1, h2, h3, h4, h5, hf⟩ := Message.encode_inv h
  rw [hb] at h1
  obtain ⟨rfl, rfl, rfl⟩ : body = body' ∧ hdr = hdr' ∧ b' = b'' := by simpa using h1
  have hlen := Header.encode_length _ _ _ h4
  subst hf
  refine ⟨⟨_, rfl, escape_no_flag _⟩, ?_⟩
  have := (escape_length_le (hbytes ++ body ++ [xorAll (hbytes ++ body)])).2
  have h16 : hbytes.length ≤ 16 := by rw [hlen]; split <;> omega
  simp only [List.length_append, List.length_cons, List.length_nil] at this ⊢
  omega

/-- The frames of messages with registered bodies, and what each of them is decoded to. -/
theorem sendable_frames (env : Env) (key : Option DecKey) (ms : List (Message Entity × Entity)) (hms : ∀ x ∈ ms, Spec.Sendable env x.1 x.2) :
    ∃ xs : List (Bytes × Message Entity), xs.length = ms.length ∧
      ms.map (fun x => sendBytes (entityCodec env) none x.1) = xs.map (fun x => .ok x.1) ∧
      (∀ x ∈ xs, Delimited x.1 ∧ x.1.length ≤ 65408 ∧ Message.decode (entityCodec env) key {} x.1 = .ok x.2) ∧
      ∀ p ∈ ms.zip (xs.map (·.2)), Spec.Carries p.1.1 p.1.2 p.2 := by
  induction ms with
  | nil => exact ⟨[], rfl, rfl, by simp, by simp⟩
  | cons x ms ih =>
    obtain ⟨xs, i1, i2, i3, i4⟩ := ih fun y hy => hms y (by simp [hy])
    have hx := hms x (by simp)
    obtain ⟨f, m', d, g1, g2, g3, g4, g5, g6, g7⟩ := C01_registered_round_trip env x.1 x.2 hx.body hx.range hx.icc0 hx.icc1 hx.size hx.plain hx.packet key {}
    obtain ⟨b, e', e1, -⟩ := Entity.round_trip env x.2 hx.range
    have hb : Message.encodeBody (entityCodec env) none x.1 = .ok (b, x.1.header, .val e') := by
      unfold Message.encodeBody
      rw [hx.body]
      simp only [entityCodec, e1, Res.ok_bind]
    have hfr := frame_of_encode g1 hb (hx.size b e' e1)
    refine ⟨(f, d) :: xs, by simp [i1], ?_, ?_, ?_⟩
    · simp only [List.map_cons, i2]
      congr 1
      unfold sendBytes
      simp only [g1]
      rfl
    · intro y hy
      rcases List.mem_cons.1 hy with rfl | hy
      · exact ⟨hfr.1, by have := hfr.2; simp only; omega, g2⟩
      · exact i3 y hy
    · intro p hp
      simp only [List.map_cons, List.zip_cons_cons] at hp
      rcases List.mem_cons.1 hp with rfl | hp
      · exact ⟨g3, g4, g5, g6, g7⟩
      · exact i4 p hp

/-- C12 from end to end: messages with registered bodies are written by `Send` of one connection, arrive in arbitrary pieces, and
are returned by `Receive` of the other, with their contents and in order. What is returned does not depend on the pieces. -/
theorem C12_same_for_all_pieces (env : Env) (key : Option DecKey) (ms : List (Message Entity × Entity))
    (hms : ∀ x ∈ ms, Spec.Sendable env x.1 x.2) :
    ∃ (sent : List Bytes) (ds : List (Message Entity)), ms.map (fun x => sendBytes (entityCodec env) none x.1) = sent.map .ok ∧
      ds.length = ms.length ∧ (∀ p ∈ ms.zip ds, Spec.Carries p.1.1 p.1.2 p.2) ∧
      ∀ (endErr : Err) (reads : List Bytes), (∀ c ∈ reads, c.length ≤ 128) → reads.flatten = sent.flatten → ∀ k,
        (receiveMany (entityCodec env) key endErr (ms.length + k) ⟨[], reads⟩).1 = ds.map .ok ++ List.replicate k (.err endErr) := by
  obtain ⟨xs, h1, h2, h3, h4⟩ := sendable_frames env key ms hms
  refine ⟨xs.map (·.1), xs.map (·.2), by rw [h2]; simp, by simp [h1], h4, ?_⟩
  intro endErr reads hr hs k
  rw [← h1, C12_reassembly _ key endErr xs h3 reads hr (by rw [hs, List.flatMap_def]) k]
  simp

/-- C12 from end to end: messages with registered bodies are written by `Send` of one connection, arrive in arbitrary pieces, and
are returned by `Receive` of the other, with their contents and in order. -/
theorem C12_end_to_end (env : Env) (key : Option DecKey) (endErr : Err) (ms : List (Message Entity × Entity))
    (hms : ∀ x ∈ ms, Spec.Sendable env x.1 x.2) :
    ∃ sent : List Bytes, ms.map (fun x => sendBytes (entityCodec env) none x.1) = sent.map .ok ∧
      ∀ (reads : List Bytes), (∀ c ∈ reads, c.length ≤ 128) → reads.flatten = sent.flatten → ∀ k,
        ∃ ds : List (Message Entity), ds.length = ms.length ∧ (∀ p ∈ ms.zip ds, Spec.Carries p.1.1 p.1.2 p.2) ∧
          (receiveMany (entityCodec env) key endErr (ms.length + k) ⟨[], reads⟩).1 = ds.map .ok ++ List.replicate k (.err endErr) := by
  obtain ⟨sent, ds, h1, h2, h3, h4⟩ := C12_same_for_all_pieces env key ms hms
  exact ⟨sent, h1, fun reads hr hs k => ⟨ds, h2, h3, h4 endErr reads hr hs k⟩⟩

/-- Non-trivial case: the sample message satisfies the hypotheses of `C12_end_to_end`, and a frame cut in the middle is
a legal sequence of reads. -/
example : Spec.Sendable Sample.env Sample.message Sample.body where
  body := rfl
  range := trivial
  icc0 := by decide
  icc1 := by decide
  size := by intro b e' h; cases h; decide
  plain := by decide
  packet := by decide

/-- Non-trivial case for `C12_cut_anywhere`: the first five bytes of a frame that decodes. -/
example : ∃ f m, Codec.sendBytes Sample.codec none Sample.message = .ok f ∧ Message.decode Sample.codec none {} f = .ok m ∧ f.length ≤ 65408 ∧
    [f.take 2, (f.drop 2).take 3].flatten <+: [(f, m)].flatMap (·.1) ∧ (f.take 5).length < f.length :=
  ⟨_, _, rfl, rfl, by decide, by decide, by decide⟩

/-! ## C13 -/

/-- C13 for well-formed traffic of frames of at most `max` bytes: after any number of `Receive` calls the buffer holds at most one
frame plus one read (less one byte), so with the protocol's frames (at most 2082 bytes) at most 2209 bytes. -/
theorem C13_well_formed (C : BodyCodec E) (key : Option DecKey) (endErr : Err) (fs : List Bytes) (max : Nat) (hmax : max ≤ 65408)
    (hfs : ∀ f ∈ fs, Delimited f ∧ f.length ≤ max ∧ Message.decode C key {} f ≠ .panic)
    (reads : List Bytes) (hr : ∀ c ∈ reads, c.length ≤ 128) (hs : reads.flatten = fs.flatten) (n : Nat) :
    (receiveMany C key endErr n ⟨[], reads⟩).2.buffer.length ≤ max + 127 := by
  have main : ∀ (n : Nat) (fs : List Bytes) (s : RecvState), (∀ f ∈ fs, Delimited f ∧ f.length ≤ max ∧ Message.decode C key {} f ≠ .panic) →
      Holds s fs.flatten max → (receiveMany C key endErr n s).2.buffer.length ≤ max + 127 := by
    intro n
    induction n with
    | zero => intro fs s _ h; exact h.bound
    | succ n ih =>
      intro fs s hfs h
      cases fs with
      | nil =>
        have hend := receive_end (C := C) (key := key) (endErr := endErr) h (.inl rfl) (by simp) hmax
        simp only [receiveMany, hend]
        exact ih [] ⟨[], []⟩ (by simp) ⟨rfl, by simp, by simp⟩
      | cons f fs =>
        obtain ⟨a1, a2, a3⟩ := hfs f (by simp)
        obtain ⟨s', r1, r2⟩ := receive_frame (C := C) (key := key) (endErr := endErr) (f := f) (rest := fs.flatten) (by simpa using h) a1 a3 a2 hmax
        simp only [receiveMany, r1]
        exact ih fs s' (fun y hy => hfs y (by simp [hy])) r2
  exact main n fs ⟨[], reads⟩ hfs ⟨by simpa using hs, hr, by simp⟩

/-- Well-formed traffic never triggers the body-too-long error of `Receive`: every result is that of decoding a frame, or the end. -/
theorem C13_never_too_long (C : BodyCodec E) (key : Option DecKey) (endErr : Err) (fs : List Bytes)
    (hfs : ∀ f ∈ fs, Delimited f ∧ f.length ≤ 65408 ∧ Message.decode C key {} f ≠ .panic)
    (reads : List Bytes) (hr : ∀ c ∈ reads, c.length ≤ 128) (hs : reads.flatten = fs.flatten) (n : Nat) :
    ∀ r ∈ (receiveMany C key endErr n ⟨[], reads⟩).1, r = .err endErr ∨ ∃ f ∈ fs, r = Message.decode C key {} f := by
  have main : ∀ (n : Nat) (fs : List Bytes) (s : RecvState), (∀ f ∈ fs, Delimited f ∧ f.length ≤ 65408 ∧ Message.decode C key {} f ≠ .panic) →
      Holds s fs.flatten 65408 → ∀ r ∈ (receiveMany C key endErr n s).1, r = .err endErr ∨ ∃ f ∈ fs, r = Message.decode C key {} f := by
    intro n
    induction n with
    | zero => intro fs s _ h r hr; simp [receiveMany] at hr
    | succ n ih =>
      intro fs s hfs h r hr
      cases fs with
      | nil =>
        have hend := receive_end (C := C) (key := key) (endErr := endErr) h (.inl rfl) (by simp) (Nat.le_refl _)
        simp only [receiveMany, hend] at hr
        rcases List.mem_cons.1 hr with rfl | hr
        · exact .inl rfl
        · exact ih [] ⟨[], []⟩ (by simp) ⟨rfl, by simp, by simp⟩ r hr
      | cons f fs =>
        obtain ⟨a1, a2, a3⟩ := hfs f (by simp)
        obtain ⟨s', r1, r2⟩ := receive_frame (C := C) (key := key) (endErr := endErr) (f := f) (rest := fs.flatten) (by simpa using h) a1 a3 a2 (Nat.le_refl _)
        simp only [receiveMany, r1] at hr
        rcases List.mem_cons.1 hr with rfl | hr
        · exact .inr ⟨f, by simp, rfl⟩
        · rcases ih fs s' (fun y hy => hfs y (by simp [hy])) r2 r hr with h | ⟨g, hg, h⟩
          · exact .inl h
          · exact .inr ⟨g, by simp [hg], h⟩
  exact main n fs ⟨[], reads⟩ hfs ⟨by simpa using hs, hr, by simp⟩

theorem readFromBuffer_length (C : BodyCodec E) (key : Option DecKey) (data : Bytes) : (readFromBuffer C key data).2.length ≤ data.length := by
  unfold readFromBuffer
  split
  · simp
  · rename_i b t
    split
    · exact (List.dropWhile_suffix _).length_le
    · simp only
      split
      · simp
      · split <;> simp only [List.length_drop] <;> omega

/-- C13 for any traffic: a call that delivers a message leaves at most 65535 bytes in the buffer, and a failing one (after which
the server closes the connection) at most one read more. -/
theorem C13_any_traffic (C : BodyCodec E) (key : Option DecKey) (endErr : Err) (s : RecvState) (hb : s.buffer.length ≤ 65535)
    (hr : ∀ c ∈ s.reads, c.length ≤ 128) :
    (receive C key endErr s).2.buffer.length ≤ 65535 + 128 ∧
    ∀ m, (receive C key endErr s).1 = .ok m → (receive C key endErr s).2.buffer.length ≤ 65535 := by
  have loop : ∀ (reads : List Bytes) (buf : Bytes), buf.length ≤ 65535 → (∀ c ∈ reads, c.length ≤ 128) →
      (recvLoop C key endErr reads buf).2.buffer.length ≤ 65535 + 128 ∧
      ∀ m, (recvLoop C key endErr reads buf).1 = .ok m → (recvLoop C key endErr reads buf).2.buffer.length ≤ 65535 := by
    intro reads
    induction reads with
    | nil => intro buf h _; exact ⟨by simp only [recvLoop]; omega, by intro m hm; simp [recvLoop] at hm⟩
    | cons c reads ih =>
      intro buf h hr
      have hc := hr c (by simp)
      have hl : (buf ++ c).length = buf.length + c.length := List.length_append
      unfold recvLoop
      simp only
      split
      · exact ih _ (by omega) fun x hx => hr x (by simp [hx])
      · split
        · exact ⟨by simp only; omega, by intro m hm; simp at hm⟩
        · have hlen := readFromBuffer_length C key (buf ++ c)
          split <;> rename_i hx <;> rw [hx] at hlen <;> simp only at hlen
          · exact ⟨by simp only; omega, by intro m hm; simp only; omega⟩
          · exact ih _ (by omega) fun x hx => hr x (by simp [hx])
          · exact ⟨by simp only; omega, by intro m hm; simp only; omega⟩
          · exact ⟨by simp only; omega, by intro m hm; simp only; omega⟩
  have hlen := readFromBuffer_length C key s.buffer
  unfold receive
  split <;> rename_i hx <;> rw [hx] at hlen <;> simp only at hlen
  · exact ⟨by simp only; omega, by intro m hm; simp only; omega⟩
  · exact loop _ _ (by omega) hr
  · exact ⟨by simp only; omega, by intro m hm; simp only; omega⟩
  · exact ⟨by simp only; omega, by intro m hm; simp only; omega⟩

/-- C13: bytes without an end of frame are not collected beyond the limit: 65536 of them are an error. -/
theorem C13_limit (C : BodyCodec E) (key : Option DecKey) (endErr : Err) (buf c : Bytes) (reads : List Bytes) (h : Unfinished buf)
    (hlen : 65535 < buf.length + c.length) :
    receive C key endErr ⟨buf, c :: reads⟩ = (.err .bodyTooLong, ⟨buf ++ c, reads⟩) := by
  unfold receive
  rw [read_partial _ h]
  simp only [recvLoop, List.length_append]
  rw [if_neg (by omega), if_pos (by omega)]

/-- The hypotheses are met by a delimiter, 65500 other bytes, and a read of 128 bytes. -/
example : Unfinished (0x7e :: List.replicate 65500 1) ∧ 65535 < (0x7e :: List.replicate 65500 (1 : UInt8)).length + (List.replicate 128 (1 : UInt8)).length ∧
    (∀ c ∈ [List.replicate 128 (1 : UInt8)], c.length ≤ 128) := by
  have hm : (0x7e : UInt8) ∉ List.replicate 65500 1 := fun h => absurd (List.eq_of_mem_replicate h) (by decide)
  refine ⟨?_, by rw [List.length_cons, List.length_replicate, List.length_replicate]; decide, ?_⟩
  · exact .inr ⟨_, rfl, hm⟩
  · intro c hc
    cases List.mem_singleton.1 hc
    rw [List.length_replicate]
    decide

/-! ## C14 -/

/-- C14: if the buffer starts with something other than a delimiter, `Receive` reports the missing prefix and drops exactly the bytes
before the next delimiter (all of them if there is none). -/
theorem C14_missing_prefix (C : BodyCodec E) (key : Option DecKey) (endErr : Err) (j rest : Bytes) (reads : List Bytes)
    (hj : j ≠ []) (hjunk : Junk j) (hrest : rest = [] ∨ ∃ t, rest = 0x7e :: t) :
    receive C key endErr ⟨j ++ rest, reads⟩ = (.err .notFoundPrefixID, ⟨rest, reads⟩) := by
  unfold receive
  rw [read_junk j rest hj hjunk hrest]

/-- C14: a frame that does not decode is reported with its own error and consumed exactly. -/
theorem C14_bad_frame (C : BodyCodec E) (key : Option DecKey) (endErr : Err) (f rest : Bytes) (reads : List Bytes) (e : Err)
    (hf : Delimited f) (he : Message.decode C key {} f = .err e) :
    receive C key endErr ⟨f ++ rest, reads⟩ = (.err e, ⟨rest, reads⟩) := by
  unfold receive
  rw [read_frame f rest hf (by rw [he]; simp), he]
  rfl

/-- The hypotheses of the last two are met: junk before a delimiter, and a frame with a wrong check byte (or too short). -/
example : receive Sample.codec none .eof ⟨[1, 2, 3] ++ [0x7e, 4, 5, 0x7e, 0x7e], []⟩ = (.err .notFoundPrefixID, ⟨[0x7e, 4, 5, 0x7e, 0x7e], []⟩) ∧
    ∃ e, receive Sample.codec none .eof ⟨[0x7e, 4, 5, 0x7e] ++ [0x7e], []⟩ = (.err e, ⟨[0x7e], []⟩) :=
  ⟨C14_missing_prefix _ _ _ _ _ _ (by decide) (show (0x7e : UInt8) ∉ _ by decide) (.inr ⟨_, rfl⟩), _, C14_bad_frame _ _ _ _ _ _ _ ⟨[4, 5], rfl, by decide⟩ rfl⟩

/-- Every byte string is a stream of frames and junk. -/
theorem C14_every_stream_parses (bytes : Bytes) : ∃ p : Parsed, p.bytes = bytes ∧ p.OK bytes.length := by
  induction hn : bytes.length using Nat.strongRecOn generalizing bytes with
  | _ n ih =>
    -- junk up to the first delimiter
    have hsplit : bytes = bytes.takeWhile (· ≠ 0x7e) ++ bytes.dropWhile (· ≠ 0x7e) := List.takeWhile_append_dropWhile.symm
    have hjunk : Junk (bytes.takeWhile (· ≠ 0x7e)) := by
      intro hm
      have := List.all_takeWhile (l := bytes) (p := fun x : UInt8 => decide (x ≠ 0x7e))
      rw [List.all_eq_true] at this
      have := this _ hm
      simp at this
    generalize bytes.takeWhile (· ≠ 0x7e) = j at hsplit hjunk
    cases hr : bytes.dropWhile (· ≠ 0x7e) with
    | nil =>
      rw [hr] at hsplit
      exact ⟨⟨[], j, []⟩, by simp [Parsed.bytes, hsplit], by simp, hjunk, .inl rfl, by simp⟩
    | cons a t =>
      have ha : a = 0x7e := by
        have := List.head?_dropWhile_not (fun x : UInt8 => decide (x ≠ 0x7e)) bytes
        rw [hr] at this
        simpa using this
      subst ha
      rw [hr] at hsplit
      have hsplit2 : t = t.takeWhile (· ≠ 0x7e) ++ t.dropWhile (· ≠ 0x7e) := List.takeWhile_append_dropWhile.symm
      have hw : Junk (t.takeWhile (· ≠ 0x7e)) := by
        intro hm
        have := List.all_takeWhile (l := t) (p := fun x : UInt8 => decide (x ≠ 0x7e))
        rw [List.all_eq_true] at this
        have := this _ hm
        simp at this
      generalize t.takeWhile (· ≠ 0x7e) = w at hsplit2 hw
      have hlen := congrArg List.length hsplit
      simp only [List.length_append, List.length_cons] at hlen
      cases hr2 : t.dropWhile (· ≠ 0x7e) with
      | nil =>
        rw [hr2, List.append_nil] at hsplit2
        subst hsplit2
        exact ⟨⟨[], j, 0x7e :: t⟩, by simp [Parsed.bytes, ← hsplit], by simp, hjunk, .inr ⟨t, rfl, hw⟩, by simp only [List.length_cons]; omega⟩
      | cons a t' =>
        have ha : a = 0x7e := by
          have := List.head?_dropWhile_not (fun x : UInt8 => decide (x ≠ 0x7e)) t
          rw [hr2] at this
          simpa using this
        subst ha
        rw [hr2] at hsplit2
        have hlen2 := congrArg List.length hsplit2
        simp only [List.length_append, List.length_cons] at hlen2
        obtain ⟨p, hp, hok⟩ := ih t'.length (by omega) t' rfl
        obtain ⟨k1, k2, k3, k4⟩ := hok
        refine ⟨⟨(j, [0x7e] ++ w ++ [0x7e]) :: p.frames, p.junk, p.rest⟩, ?_, ?_, k2, k3, by simp only; omega⟩
        · rw [hsplit, hsplit2, ← hp]
          simp [Parsed.bytes]
        · intro x hx
          rcases List.mem_cons.1 hx with rfl | hx
          · exact ⟨hjunk, ⟨w, rfl, hw⟩, by simp; omega⟩
          · have := k1 x hx
            exact ⟨this.1, this.2.1, by omega⟩

/-- C14: for any stream whatsoever, cut at its delimiters, with frames of at most 65408 bytes, and however it is split into reads, successive
calls return for each frame exactly what decoding that frame alone gives — so a bad frame or junk does not disturb the
frames behind it — with missing-prefix errors only where there is junk, and then the connection's error. -/
theorem C14_resynchronisation (C : BodyCodec E) (key : Option DecKey) (endErr : Err) (p : Parsed) (hp : p.OK 65408)
    (hpanic : ∀ x ∈ p.frames, Message.decode C key {} x.2 ≠ .panic)
    (reads : List Bytes) (hr : ∀ c ∈ reads, c.length ≤ 128) (hs : reads.flatten = p.bytes) :
    ∃ n rs s', receiveMany C key endErr n ⟨[], reads⟩ = (rs, s') ∧ Due C key p.frames p.junk rs ∧
      receive C key endErr s' = (.err endErr, ⟨p.rest, []⟩) := by
  obtain ⟨h1, h2, h3, h4⟩ := hp
  obtain ⟨n, rs, s', k1, k2, k3⟩ := stream_results (C := C) (key := key) (endErr := endErr) p.frames p.junk p.rest 65408 (Nat.le_refl _) h1 hpanic h2 h3
    ⟨[], reads⟩ ⟨by simpa [Parsed.bytes] using hs, hr, by simp⟩
  exact ⟨n, rs, s', k1, k2, receive_end k3 h3 h4 (Nat.le_refl _)⟩

/-- Non-trivial case: junk, an empty frame (an error), and an unfinished frame. -/
example : (Parsed.mk [([1, 2], [0x7e, 0x7e])] [3] [0x7e, 4]).OK 65408 ∧
    Message.decode Sample.codec none {} [0x7e, 0x7e] = .err .invalidMessage := by
  refine ⟨⟨?_, by simp [Junk], .inr ⟨[4], rfl, by decide⟩, by decide⟩, rfl⟩
  intro x hx
  obtain rfl : x = ([1, 2], [0x7e, 0x7e]) := by simpa using hx
  exact ⟨by simp [Junk], ⟨[], rfl, by decide⟩, by decide⟩

end Verif
