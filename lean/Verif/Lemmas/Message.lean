import Verif.Lemmas.Wire
/-! # Lemmas about Message.Encode and Message.Decode -/

namespace Verif
open Spec

variable {E : Type}

namespace Message

/-- The parts of a successful `Encode`. -/
theorem encode_inv {C : BodyCodec E} {key : Option EncKey} {m m' : Message E} {f : Bytes}
    (h : encode C key m = .ok (f, m')) :
    ∃ body hdr b' id prop hb,
      encodeBody C key m = .ok (body, hdr, b') ∧ bodyMsgID C m.body = .ok id ∧
      Property.setBodySize hdr.property (UInt16.ofNat body.length) = .ok prop ∧
      Header.encode { hdr with msgID := id, property := prop } = .ok (hb, m'.header) ∧ m'.body = b' ∧
      f = [0x7e] ++ escape (hb ++ body ++ [xorAll (hb ++ body)]) ++ [0x7e] := by
  unfold encode at h
  cases h1 : encodeBody C key m with
  | err e => simp [h1] at h
  | panic => simp [h1] at h
  | ok r =>
    obtain ⟨body, hdr, b'⟩ := r
    cases h2 : bodyMsgID C m.body with
    | err e => simp [h1, h2] at h
    | panic => simp [h1, h2] at h
    | ok id =>
      cases h3 : Property.setBodySize hdr.property (UInt16.ofNat body.length) with
      | err e => simp [h1, h2, h3] at h
      | panic => simp [h1, h2, h3] at h
      | ok prop =>
        cases h4 : Header.encode { hdr with msgID := id, property := prop } with
        | err e => simp [h1, h2, h3, h4] at h
        | panic => simp [h1, h2, h3, h4] at h
        | ok q =>
          obtain ⟨hb, hdr'⟩ := q
          simp only [h1, h2, h3, h4, Res.ok_bind, Res.ok.injEq, Prod.mk.injEq] at h
          obtain ⟨rfl, rfl⟩ := h
          refine ⟨body, hdr, b', id, prop, hb, rfl, rfl, h3, h4, rfl, ?_⟩
          simp only [escape_append, computeChecksum_eq, xorAll_append, UInt8.zero_xor, List.append_assoc,
            UInt8.xor_comm]

/-- Building a successful `Encode`. -/
theorem encode_ok {C : BodyCodec E} {key : Option EncKey} {m : Message E} {body hb : Bytes} {hdr hdr' : Header}
    {b' : Body E} {id prop : UInt16}
    (h1 : encodeBody C key m = .ok (body, hdr, b')) (h2 : bodyMsgID C m.body = .ok id)
    (h3 : Property.setBodySize hdr.property (UInt16.ofNat body.length) = .ok prop)
    (h4 : Header.encode { hdr with msgID := id, property := prop } = .ok (hb, hdr')) :
    encode C key m = .ok ([0x7e] ++ escape (hb ++ body ++ [xorAll (hb ++ body)]) ++ [0x7e],
      { header := hdr', body := b' }) := by
  unfold encode
  simp only [h1, h2, h3, h4, Res.ok_bind, Res.ok.injEq, Prod.mk.injEq, and_true]
  simp only [escape_append, computeChecksum_eq, xorAll_append, UInt8.zero_xor, List.append_assoc, UInt8.xor_comm]

/-- Decoding after the envelope: header `h`, full content `buffer`. -/
def decodeRest (C : BodyCodec E) (key : Option DecKey) (self : Message E) (h : Header) (buffer : Bytes) :
    Res (Message E) := do
  let content ← contentOf h buffer
  if UInt16.ofNat content.length ≠ Property.getBodySize h.property then
    .ok { header := h, body := self.body }
  else do
    let plain ← plainContent key h content
    let b ← decodeContent C self.body h plain
    .ok { header := h, body := b }

theorem decode_eq (C : BodyCodec E) (key : Option DecKey) (self : Message E) (data : Bytes) :
    decode C key self data = (decodeEnvelope data).bind fun r => decodeRest C key self r.1 r.2 := by
  unfold decode
  cases decodeEnvelope data with
  | ok r => obtain ⟨h, b⟩ := r; rfl
  | err e => rfl
  | panic => rfl

/-- The decoder on a stuffed frame with a correct check byte. -/
theorem decode_frame {C : BodyCodec E} {key : Option DecKey} {self : Message E} {c : Bytes} {h : Header}
    (hlen : 12 ≤ c.length) (hh : Header.decode {} c = .ok h) :
    decode C key self ([0x7e] ++ escape (c ++ [xorAll c]) ++ [0x7e]) = decodeRest C key self h c := by
  have hc : c ≠ [] := by rintro rfl; simp at hlen
  rw [decode_eq, decodeEnvelope_frame c _ hc]
  simp [show ¬ (c.length < 12) by omega, hh, Res.bind]

/-- Decoding the rest when header and body bytes are known. -/
theorem decodeRest_split {C : BodyCodec E} {key : Option DecKey} {self : Message E} {h : Header} {hb body : Bytes}
    (hl : hb.length = if Property.isEnablePacket h.property then 16 else 12) :
    decodeRest C key self h (hb ++ body) =
      if UInt16.ofNat body.length ≠ Property.getBodySize h.property then .ok { header := h, body := self.body }
      else (plainContent key h body).bind fun plain =>
        (decodeContent C self.body h plain).bind fun b => .ok { header := h, body := b } := by
  unfold decodeRest
  have hcontent : contentOf h (hb ++ body) = .ok body := by
    unfold contentOf
    split
    · rename_i hp
      rw [if_pos hp] at hl
      rw [← hl, slice_to_end _ _ (by simp), List.drop_left]
    · rename_i hp
      rw [if_neg hp] at hl
      rw [← hl, slice_to_end _ _ (by simp), List.drop_left]
  rw [hcontent]
  rfl

end Message

/-! ## Header decoding and lengths -/

theorem Header.decode_safe (self : Header) (data : Bytes) : Header.decode self data ≠ .panic := by
  unfold Header.decode
  split
  · simp
  · have hs : ∀ {α : Type} (x : Rd α) (e : Err), x.Safe → (Rd.orErr x e).Safe := by
      intro α x e hx s
      unfold Rd.orErr
      have := hx s
      cases h : x s <;> simp_all [Res.mapErr]
    have : Rd.Safe (do
      let i ← Rd.orErr Rd.u16 .invalidHeader
      let p ← Rd.orErr Rd.u16 .invalidHeader
      let t ← Rd.orErr (Rd.read 6) .invalidHeader
      let n ← Rd.lift (parseUint (bcdToString t))
      let sn ← Rd.orErr Rd.u16 .invalidHeader
      let pk ← if Property.isEnablePacket p then (do
          let a ← Rd.u16
          let b ← Rd.u16
          pure (some ⟨a, b⟩)) else pure self.packet
      pure { msgID := i, property := p, iccID := UInt64.ofNat n, serial := sn, packet := pk } : Rd Header) := by
      refine .bind (hs _ _ .u16) fun i => .bind (hs _ _ .u16) fun p => .bind (hs _ _ (.read 6)) fun t =>
        .bind (.lift ?_) fun n => .bind (hs _ _ .u16) fun sn => ?_
      · unfold parseUint; split
        · simp
        · split
          · simp
          · split <;> simp
      · split
        · exact .bind (.bind .u16 fun a => .bind .u16 fun b => .pure _) fun pk => .pure _
        · exact .bind (.pure _) fun pk => .pure _
    have h2 := this data
    split <;> simp_all

theorem exists_split (l : Bytes) (n : Nat) (h : n ≤ l.length) : ∃ a b, l = a ++ b ∧ a.length = n :=
  ⟨l.take n, l.drop n, (List.take_append_drop n l).symm, by simp [h]⟩

theorem two_bytes (l : Bytes) (h : l.length = 2) : ∃ n : UInt16, l = put16 n := by
  match l, h with
  | [a, b], _ => exact ⟨get16 a b, (put16_get16 a b).symm⟩

/-- Any twelve bytes are a header's fixed part. -/
theorem header_split (data : Bytes) (h : 12 ≤ data.length) :
    ∃ (id prop serial : UInt16) (icc tail : Bytes), icc.length = 6 ∧
      data = put16 id ++ put16 prop ++ icc ++ put16 serial ++ tail := by
  obtain ⟨a, r1, rfl, ha⟩ := exists_split data 2 (by omega)
  simp only [List.length_append] at h
  obtain ⟨b, r2, rfl, hb⟩ := exists_split r1 2 (by omega)
  simp only [List.length_append] at h
  obtain ⟨c, r3, rfl, hc⟩ := exists_split r2 6 (by omega)
  simp only [List.length_append] at h
  obtain ⟨d, r4, rfl, hd⟩ := exists_split r3 2 (by omega)
  obtain ⟨n1, rfl⟩ := two_bytes a ha
  obtain ⟨n2, rfl⟩ := two_bytes b hb
  obtain ⟨n3, rfl⟩ := two_bytes d hd
  exact ⟨n1, n2, n3, c, r4, hc, by simp⟩

theorem u16_ok_length {s r : Bytes} {n : UInt16} (h : Rd.u16 s = .ok (n, r)) : s = put16 n ++ r := by
  unfold Rd.u16 at h
  split at h
  · simp only [Res.ok.injEq, Prod.mk.injEq] at h
    obtain ⟨rfl, rfl⟩ := h
    rw [put16_get16]; rfl
  · simp at h

/-- A successfully decoded header with the packet flag had at least 16 bytes. -/
theorem Header.decode_packet {self h : Header} {data : Bytes} (hd : Header.decode self data = .ok h)
    (hp : Property.isEnablePacket h.property = true) : h.packet.isSome := by
  have hlen : 12 ≤ data.length := by
    unfold Header.decode at hd
    split at hd
    · simp at hd
    · omega
  obtain ⟨id, prop, serial, icc, tail, hi, rfl⟩ := header_split data hlen
  rw [Header.decode_bytes _ _ _ _ _ _ hi] at hd
  cases hn : parseUint (bcdToString icc) with
  | err e => simp [hn, Res.bind] at hd
  | panic => simp [hn, Res.bind] at hd
  | ok n =>
    simp only [hn, Res.bind] at hd
    split at hd
    · rw [Rd.bind_apply] at hd
      cases h1 : Rd.u16 tail with
      | err e => simp [h1] at hd
      | panic => simp [h1] at hd
      | ok r =>
        obtain ⟨a, t1⟩ := r
        simp only [h1] at hd
        rw [Rd.bind_apply] at hd
        cases h2 : Rd.u16 t1 with
        | err e => simp [h2] at hd
        | panic => simp [h2] at hd
        | ok r2 =>
          simp only [h2, Rd.pure_apply, Res.ok.injEq] at hd
          rw [← hd]
          rfl
    · rename_i hpk
      simp only [Res.ok.injEq] at hd
      rw [← hd] at hp
      exact absurd hp hpk

theorem Header.decode_length {self h : Header} {data : Bytes} (hd : Header.decode self data = .ok h) :
    (if Property.isEnablePacket h.property then 16 else 12) ≤ data.length := by
  have hlen : 12 ≤ data.length := by
    unfold Header.decode at hd
    split at hd
    · simp at hd
    · omega
  obtain ⟨id, prop, serial, icc, tail, hi, rfl⟩ := header_split data hlen
  rw [Header.decode_bytes _ _ _ _ _ _ hi] at hd
  cases hp : parseUint (bcdToString icc) with
  | err e => simp [hp, Res.bind] at hd
  | panic => simp [hp, Res.bind] at hd
  | ok n =>
    simp only [hp, Res.bind] at hd
    split at hd
    · rename_i hpk
      rw [Rd.bind_apply] at hd
      cases h1 : Rd.u16 tail with
      | err e => simp [h1] at hd
      | panic => simp [h1] at hd
      | ok r =>
        obtain ⟨a, t1⟩ := r
        simp only [h1] at hd
        rw [Rd.bind_apply] at hd
        cases h2 : Rd.u16 t1 with
        | err e => simp [h2] at hd
        | panic => simp [h2] at hd
        | ok r2 =>
          obtain ⟨b, t2⟩ := r2
          have e1 := u16_ok_length h1
          have e2 := u16_ok_length h2
          simp only [h2, Rd.pure_apply, Res.ok.injEq] at hd
          subst hd
          rw [e1, e2]
          simp [hpk, hi]; omega
    · rename_i hpk
      simp only [Res.ok.injEq] at hd
      subst hd
      simp [hpk, hi]; omega

/-! ## The unescape loop in general -/

theorem unescapeLoop_spec (d : Bytes) (s : UInt8) (buf : Bytes) :
    (∃ c, Unstuffed d c ∧ unescapeLoop d s buf = .ok (s ^^^ xorAll c, buf ++ c)) ∨
    ((¬ ∃ c, Unstuffed d c) ∧ unescapeLoop d s buf = .err .invalidMessage) := by
  induction h : d.length using Nat.strongRecOn generalizing d s buf with
  | _ n ih =>
    match d with
    | [] => left; exact ⟨[], .nil, by simp [unescapeLoop, xorAll]⟩
    | b :: t =>
      simp only [List.length_cons] at h
      by_cases hb : b = 0x7d
      · subst hb
        match t with
        | [] =>
          right
          refine ⟨?_, by simp [unescapeLoop]⟩
          rintro ⟨c, hc⟩
          cases hc with
          | plain h _ => exact h rfl
        | b' :: t' =>
          simp only [List.length_cons] at h
          by_cases h1 : b' = 0x01
          · subst h1
            rcases ih t'.length (by omega) t' (s ^^^ 0x7d) (buf ++ [0x7d]) rfl with ⟨c, hc, he⟩ | ⟨hc, he⟩
            · left
              refine ⟨0x7d :: c, .esc hc, ?_⟩
              simp [unescapeLoop, he, xorAll, UInt8.xor_assoc]
            · right
              refine ⟨?_, by simp [unescapeLoop, he]⟩
              rintro ⟨c, hc'⟩
              cases hc' with
              | esc h => exact hc ⟨_, h⟩
              | plain h _ => exact h rfl
          · by_cases h2 : b' = 0x02
            · subst h2
              rcases ih t'.length (by omega) t' (s ^^^ 0x7e) (buf ++ [0x7e]) rfl with ⟨c, hc, he⟩ | ⟨hc, he⟩
              · left
                refine ⟨0x7e :: c, .flag hc, ?_⟩
                simp [unescapeLoop, he, xorAll, UInt8.xor_assoc]
              · right
                refine ⟨?_, by simp [unescapeLoop, he]⟩
                rintro ⟨c, hc'⟩
                cases hc' with
                | flag h => exact hc ⟨_, h⟩
                | plain h _ => exact h rfl
            · right
              refine ⟨?_, by simp [unescapeLoop, h1, h2]⟩
              rintro ⟨c, hc'⟩
              cases hc' with
              | flag h => exact h2 rfl
              | esc h => exact h1 rfl
              | plain h _ => exact h rfl
      · rcases ih t.length (by omega) t (s ^^^ b) (buf ++ [b]) rfl with ⟨c, hc, he⟩ | ⟨hc, he⟩
        · left
          refine ⟨b :: c, .plain hb hc, ?_⟩
          rw [unescapeLoop.eq_def]
          simp [hb, he, xorAll, UInt8.xor_assoc]
        · right
          refine ⟨?_, by rw [unescapeLoop.eq_def]; simp [hb, he]⟩
          rintro ⟨c, hc'⟩
          cases hc' with
          | flag h => exact hb rfl
          | esc h => exact hb rfl
          | plain h h' => exact hc ⟨_, h'⟩

theorem unescapeLoop_safe (d : Bytes) (s : UInt8) (buf : Bytes) : unescapeLoop d s buf ≠ .panic := by
  rcases unescapeLoop_spec d s buf with ⟨c, _, h⟩ | ⟨_, h⟩ <;> rw [h] <;> simp

/-- Lists of length at least two end in two elements. -/
theorem exists_last2 (l : Bytes) (h : 2 ≤ l.length) : ∃ d x y, l = d ++ [x, y] := by
  obtain ⟨d, e, rfl, hd⟩ := exists_split l (l.length - 2) (by omega)
  simp only [List.length_append] at h hd
  match e, (by omega : e.length = 2) with
  | [x, y], _ => exact ⟨d, x, y, rfl⟩


/-! ## The envelope decoder on arbitrary input -/

theorem delimited_cases (data : Bytes) :
    (∃ inner, data = [0x7e] ++ inner ++ [0x7e]) ∨ Message.decodeEnvelope data = .err .invalidMessage := by
  by_cases hl : data.length < 2
  · right; unfold Message.decodeEnvelope; simp only [if_pos hl]
  · match data, hl with
    | a :: t, hl =>
      have ht : t ≠ [] := by rintro rfl; simp at hl
      rw [← List.dropLast_concat_getLast ht] at hl ⊢
      generalize t.dropLast = inner at hl ⊢
      generalize t.getLast ht = z at hl ⊢
      by_cases h : a = 0x7e ∧ z = 0x7e
      · left; exact ⟨inner, by simp [h.1, h.2]⟩
      · right
        unfold Message.decodeEnvelope
        have h0 : idx (a :: (inner ++ [z])) 0 = .ok a := rfl
        have h1 := idx_last (a :: inner) z
        rw [List.cons_append] at h1
        simp only [if_neg hl, h0, h1, Res.ok_bind]
        rw [if_pos]
        by_cases ha : a = 0x7e
        · exact .inr fun hz => h ⟨ha, hz⟩
        · exact .inl ha

theorem decodeInner_nil : Message.decodeInner [] = .err .invalidMessage := rfl

theorem decodeInner_single (x : UInt8) : Message.decodeInner [x] = .panic := rfl

/-- The envelope decoder on two or more inner bytes: either an error, or a header decoded from the unstuffed
content whose XOR is the check byte. -/
theorem decodeInner_spec (inner : Bytes) (h2 : 2 ≤ inner.length) :
    (∃ e, Message.decodeInner inner = .err e) ∨
    ∃ w u s content h, inner = w ++ u ∧ Unstuffed w content ∧ CheckByte u s ∧ s = xorAll content ∧
      12 ≤ content.length ∧ Header.decode {} content = .ok h ∧ Message.decodeInner inner = .ok (h, content) := by
  obtain ⟨d, x, y, rfl⟩ := exists_last2 inner h2
  have hne : ¬ ((d ++ [x, y]).length = 0) := by simp
  -- what happens after the split
  have key : ∀ (w u : Bytes) (s : UInt8), d ++ [x, y] = w ++ u → CheckByte u s →
      splitChecksum (d ++ [x, y]) = .ok (s, w) →
      (∃ e, Message.decodeInner (d ++ [x, y]) = .err e) ∨
      ∃ w u s content h, d ++ [x, y] = w ++ u ∧ Unstuffed w content ∧ CheckByte u s ∧ s = xorAll content ∧
        12 ≤ content.length ∧ Header.decode {} content = .ok h ∧
        Message.decodeInner (d ++ [x, y]) = .ok (h, content) := by
    intro w u s hw hu hs
    unfold Message.decodeInner
    rw [if_neg hne, hs]
    simp only [Res.ok_bind]
    rcases unescapeLoop_spec w 0 [] with ⟨c, hc, he⟩ | ⟨hc, he⟩
    · simp only [he, Res.ok_bind, List.nil_append, UInt8.zero_xor]
      split
      · exact .inl ⟨_, rfl⟩
      · rename_i hx
        split
        · exact .inl ⟨_, rfl⟩
        · rename_i hl
          cases hh : Header.decode {} c with
          | err e => exact .inl ⟨e, rfl⟩
          | panic => exact absurd hh (Header.decode_safe _ _)
          | ok h =>
            right
            exact ⟨w, u, s, c, h, hw, hc, hu, by
              by_cases hxs : xorAll c = s
              · exact hxs.symm
              · exact absurd (Or.inr hxs) hx, by omega, hh, rfl⟩
    · left; rw [he]; exact ⟨_, rfl⟩
  rw [splitChecksum_eq] at key
  by_cases hx : x = 0x7d
  · subst hx
    by_cases h1 : y = 0x01
    · subst h1; exact key d [0x7d, 0x01] 0x7d rfl (.inr (.inl ⟨rfl, rfl⟩)) (by simp)
    · by_cases h2 : y = 0x02
      · subst h2; exact key d [0x7d, 0x02] 0x7e rfl (.inr (.inr ⟨rfl, rfl⟩)) (by simp)
      · left
        unfold Message.decodeInner
        rw [if_neg hne, splitChecksum_eq]
        simp [h1, h2]
  · exact key (d ++ [x]) [y] y (by simp) (.inl rfl) (by simp [hx])

/-- The envelope decoder panics exactly on three-byte inputs between delimiters. -/
theorem decodeEnvelope_panic_iff (data : Bytes) :
    Message.decodeEnvelope data = .panic ↔ ∃ x, data = [0x7e, x, 0x7e] := by
  constructor
  · intro h
    rcases delimited_cases data with ⟨inner, rfl⟩ | he
    · rw [decodeEnvelope_delim] at h
      match inner with
      | [] => simp [decodeInner_nil] at h
      | [x] => exact ⟨x, rfl⟩
      | x :: y :: t =>
        rcases decodeInner_spec (x :: y :: t) (by simp) with ⟨e, he⟩ | ⟨_, _, _, _, _, _, _, _, _, _, _, he⟩ <;>
          rw [he] at h <;> simp at h
    · rw [he] at h; simp at h
  · rintro ⟨x, rfl⟩
    exact (decodeEnvelope_delim [x]).trans (decodeInner_single x)

/-- The envelope decoder on any accepted input. -/
theorem decodeEnvelope_ok {data content : Bytes} {h : Header} (he : Message.decodeEnvelope data = .ok (h, content)) :
    ∃ w u s, data = [0x7e] ++ w ++ u ++ [0x7e] ∧ Unstuffed w content ∧ CheckByte u s ∧ s = xorAll content ∧
      12 ≤ content.length ∧ Header.decode {} content = .ok h := by
  rcases delimited_cases data with ⟨inner, rfl⟩ | hx
  · rw [decodeEnvelope_delim] at he
    match inner with
    | [] => simp [decodeInner_nil] at he
    | [x] => simp [decodeInner_single] at he
    | x :: y :: t =>
      rcases decodeInner_spec (x :: y :: t) (by simp) with ⟨e, hx⟩ | ⟨w, u, s, c, h', hi, hw, hu, hs, hl, hh, hx⟩
      · rw [hx] at he; simp at he
      · rw [hx] at he
        simp only [Res.ok.injEq, Prod.mk.injEq] at he
        obtain ⟨rfl, rfl⟩ := he
        exact ⟨w, u, s, by rw [hi]; simp, hw, hu, hs, hl, hh⟩
  · rw [hx] at he; simp at he

/-- Any successful `Decode` went through the envelope decoder and kept its header. -/
theorem Message.decode_ok_header {C : BodyCodec E} {key : Option DecKey} {self d : Message E} {data : Bytes}
    (h : Message.decode C key self data = .ok d) :
    ∃ content, Message.decodeEnvelope data = .ok (d.header, content) := by
  rw [Message.decode_eq] at h
  cases he : Message.decodeEnvelope data with
  | err e => simp [he, Res.bind] at h
  | panic => simp [he, Res.bind] at h
  | ok r =>
    obtain ⟨hd, content⟩ := r
    refine ⟨content, ?_⟩
    simp only [he, Res.bind, Message.decodeRest] at h
    cases hc : Message.contentOf hd content with
    | err e => simp [hc] at h
    | panic => simp [hc] at h
    | ok b =>
      simp only [hc, Res.ok_bind] at h
      split at h
      · simp only [Res.ok.injEq] at h; rw [← h]
      · cases hp : Message.plainContent key hd b with
        | err e => simp [hp] at h
        | panic => simp [hp] at h
        | ok p =>
          simp only [hp, Res.ok_bind] at h
          cases hq : Message.decodeContent C self.body hd p with
          | err e => simp [hq] at h
          | panic => simp [hq] at h
          | ok q =>
            simp only [hq, Res.ok_bind, Res.ok.injEq] at h
            rw [← h]

theorem Property.enablePacket_of (v : UInt16) (h : Property.isEnablePacket v = true) : Property.enablePacket v = v := by
  apply UInt16.toNat.inj
  rw [Property.enablePacket_toNat]
  rw [Property.isEnablePacket_testBit] at h
  apply Nat.eq_of_testBit_eq
  intro i
  rw [Nat.testBit_or, Nat.testBit_two_pow]
  by_cases hi : 13 = i
  · subst hi; simp [h]
  · simp [hi]

theorem Property.enableEncrypt_of (v : UInt16) (h : Property.isEnableEncrypt v = true) : Property.enableEncrypt v = v := by
  apply UInt16.toNat.inj
  rw [Property.enableEncrypt_toNat]
  rw [Property.isEnableEncrypt_testBit] at h
  apply Nat.eq_of_testBit_eq
  intro i
  rw [Nat.testBit_or, Nat.testBit_two_pow]
  by_cases hi : 10 = i
  · subst hi; simp [h]
  · simp [hi]

/-- Encoding a header whose packet flag agrees with its packet information. -/
theorem Header.encode_consistent (h : Header) (hicc : h.iccID.toNat < 10 ^ 12)
    (hpk : packetFlag h.property.toNat = h.packet.isSome) :
    Header.encode h = .ok (headerBytes h.msgID.toNat h.property.toNat h.iccID.toNat h.serial.toNat
      (h.packet.map fun p => (p.sum.toNat, p.seq.toNat)), h) := by
  obtain ⟨id, prop, icc, serial, packet⟩ := h
  have hprop : (if packet.isSome then Property.enablePacket prop else prop) = prop := by
    split
    · rename_i hp
      rw [← Property.isEnablePacket_spec, hp] at hpk
      exact Property.enablePacket_of _ hpk
    · rfl
  obtain ⟨b, h', he⟩ : ∃ b h', Header.encode ⟨id, prop, icc, serial, packet⟩ = .ok (b, h') := by
    unfold Header.encode
    simp only [hprop]
    rw [Property.isEnablePacket_spec, hpk]
    cases packet <;> simp
  obtain ⟨h1, h2, h3, h4⟩ := Header.encode_layout _ hicc _ _ he
  rw [he]
  have : h' = ⟨id, prop, icc, serial, packet⟩ := by
    rw [h2, h3]
    simp [hprop]
  rw [h1, this]

theorem headerBytes_length (h : Header) (hicc : h.iccID.toNat < 10 ^ 12)
    (hpk : packetFlag h.property.toNat = h.packet.isSome) :
    (headerBytes h.msgID.toNat h.property.toNat h.iccID.toNat h.serial.toNat
      (h.packet.map fun p => (p.sum.toNat, p.seq.toNat))).length =
      if Property.isEnablePacket h.property then 16 else 12 :=
  Header.encode_length _ _ _ (Header.encode_consistent h hicc hpk)

/-- Decoding a frame whose content is known. -/
theorem Message.decode_known (C : BodyCodec E) (key : Option DecKey) (self : Message E) (f body : Bytes) (h : Header)
    (h0 : 0 < h.iccID.toNat) (h1 : h.iccID.toNat < 10 ^ 12) (hpk : packetFlag h.property.toNat = h.packet.isSome)
    (hf : Frame f (headerBytes h.msgID.toNat h.property.toNat h.iccID.toNat h.serial.toNat
      (h.packet.map fun p => (p.sum.toNat, p.seq.toNat)) ++ body)) :
    Message.decode C key self f =
      if body.length % 65536 ≠ sizeField h.property.toNat then .ok { header := h, body := self.body }
      else (Message.plainContent key h body).bind fun plain =>
        (Message.decodeContent C self.body h plain).bind fun b => .ok { header := h, body := b } := by
  obtain ⟨w, rfl, hw⟩ := hf
  rw [(stuffed_iff _ _).1 hw]
  have he := Header.encode_consistent h h1 hpk
  have hlen := Header.encode_length _ _ _ he
  have hd := Header.decode_encode h h0 h1 _ _ he body
  rw [Message.decode_frame (by simp only [List.length_append, hlen]; split <;> omega) hd, Message.decodeRest_split hlen]
  have hiff : (UInt16.ofNat body.length ≠ Property.getBodySize h.property) ↔
      (body.length % 65536 ≠ sizeField h.property.toNat) := by
    rw [← Property.getBodySize_toNat, Ne, ← UInt16.toNat_inj]; simp
  simp only [hiff]

/-- The shape of every encoded message: id, property word, eight or twelve more header bytes, body. -/
theorem Message.encode_shape {C : BodyCodec E} {key : Option EncKey} {m m' : Message E} {f : Bytes}
    (h : Message.encode C key m = .ok (f, m')) :
    ∃ id prop rest body, Frame f (put16 id ++ put16 prop ++ rest ++ body) ∧
      rest.length = (if packetFlag prop.toNat then 12 else 8) ∧ sizeField prop.toNat = body.length % 65536 ∧
      Message.bodyMsgID C m.body = .ok id := by
  obtain ⟨body, hdr, b', id, prop, hb, h1, h2, h3, h4, h5, hf⟩ := Message.encode_inv h
  have hs : (UInt16.ofNat body.length).toNat < 1024 := by
    apply Decidable.byContradiction
    intro hc
    rw [Property.setBodySize_err _ _ (by omega)] at h3
    simp at h3
  obtain ⟨w, hw, hwn⟩ := Property.setBodySize_toNat hdr.property _ hs
  rw [h3] at hw
  simp only [Res.ok.injEq] at hw
  subst hw
  have hmod : (UInt16.ofNat body.length).toNat = body.length % 65536 := by simp
  obtain ⟨rest, hrest⟩ : ∃ rest, hb = put16 id ++ put16 m'.header.property ++ rest := by
    unfold Header.encode at h4
    simp only at h4
    generalize hq : (if hdr.packet.isSome = true then Property.enablePacket prop else prop) = pr at h4
    split at h4
    · cases hp : hdr.packet with
      | none => simp [hp] at h4
      | some p =>
        simp only [hp, Res.ok.injEq, Prod.mk.injEq] at h4
        rw [← h4.1, ← h4.2]
        exact ⟨stringToBCD (fmtUint hdr.iccID.toNat) 6 ++ put16 hdr.serial ++ put16 p.sum ++ put16 p.seq, by simp⟩
    · simp only [Res.ok.injEq, Prod.mk.injEq] at h4
      rw [← h4.1, ← h4.2]
      exact ⟨stringToBCD (fmtUint hdr.iccID.toNat) 6 ++ put16 hdr.serial, by simp⟩
  have hl := Header.encode_length _ _ _ h4
  refine ⟨id, m'.header.property, rest, body, ⟨_, by rw [hf, hrest], stuffed_escape _⟩, ?_, ?_, h2⟩
  · rw [← Property.isEnablePacket_spec]
    rw [hrest] at hl
    simp only [List.length_append, put16_length] at hl
    split at hl <;> simp_all <;> omega
  · have hprop' : m'.header.property = if hdr.packet.isSome then Property.enablePacket prop else prop := by
      unfold Header.encode at h4
      simp only at h4
      generalize (if hdr.packet.isSome = true then Property.enablePacket prop else prop) = pr at h4
      split at h4
      · cases hp : hdr.packet with
        | none => simp [hp] at h4
        | some p =>
          simp only [hp, Res.ok.injEq, Prod.mk.injEq] at h4
          rw [← h4.2]
      · simp only [Res.ok.injEq, Prod.mk.injEq] at h4
        rw [← h4.2]
    rw [hprop', sizeField]
    split
    · rw [Property.enablePacket_toNat]
      have : (prop.toNat ||| 2 ^ 13) % 2 ^ 10 = prop.toNat % 2 ^ 10 := by
        rw [Nat.or_mod_two_pow]; simp
      have h10 : (2 : Nat) ^ 10 = 1024 := by decide
      rw [h10] at this
      rw [this]; omega
    · omega

/-- Where a delivered body came from. -/
theorem Message.decode_body_inv {C : BodyCodec E} {key : Option DecKey} {self d : Message E} {data : Bytes}
    (hself : self.body = .nil) (h : Message.decode C key self data = .ok d) (hb : d.body ≠ .nil) :
    ∃ content plain e n, Message.decodeEnvelope data = .ok (d.header, content) ∧
      (content.length - (if Property.isEnablePacket d.header.property then 16 else 12)) % 65536 =
        sizeField d.header.property.toNat ∧
      C.decode d.header.msgID plain = .ok (e, n) ∧ d.body = .val e := by
  rw [Message.decode_eq] at h
  cases he : Message.decodeEnvelope data with
  | err e => simp [he, Res.bind] at h
  | panic => simp [he, Res.bind] at h
  | ok r =>
    obtain ⟨hd, content⟩ := r
    simp only [he, Res.bind, Message.decodeRest] at h
    obtain ⟨w, u, s, h1, h2, h3, h4, h5, h6⟩ := decodeEnvelope_ok he
    have hl := Header.decode_length h6
    have hc : Message.contentOf hd content = .ok (content.drop (if Property.isEnablePacket hd.property then 16 else 12)) := by
      unfold Message.contentOf
      split
      · rename_i hp; rw [if_pos hp] at hl
        exact slice_to_end _ _ hl
      · rename_i hp; rw [if_neg hp] at hl
        exact slice_to_end _ _ hl
    generalize hk : (if Property.isEnablePacket hd.property = true then 16 else 12) = k at hc
    simp only [hc, Res.ok_bind] at h
    split at h
    · simp only [Res.ok.injEq] at h
      rw [← h] at hb
      exact absurd hself hb
    · rename_i hsz
      cases hp : Message.plainContent key hd (content.drop k) with
      | err e => simp [hp] at h
      | panic => simp [hp] at h
      | ok p =>
        simp only [hp, Res.ok_bind, Message.decodeContent] at h
        cases hq : C.decode hd.msgID p with
        | err e =>
          simp only [hq, Res.ok_bind, Res.ok.injEq] at h
          rw [← h] at hb
          exact absurd hself hb
        | panic => simp [hq] at h
        | ok q =>
          obtain ⟨e, n⟩ := q
          simp only [hq, Res.ok_bind, Res.ok.injEq] at h
          subst h
          refine ⟨content, p, e, n, rfl, ?_, hq, rfl⟩
          have := congrArg UInt16.toNat (Decidable.byContradiction fun hne => hsz hne)
          rw [Property.getBodySize_toNat, List.length_drop] at this
          rw [hk, ← this]; simp

/-- Id and property word are the first four bytes. -/
theorem Header.decode_first4 {self h : Header} {data : Bytes} (hd : Header.decode self data = .ok h) :
    ∃ b0 b1 b2 b3 r, data = b0 :: b1 :: b2 :: b3 :: r ∧ h.msgID = get16 b0 b1 ∧ h.property = get16 b2 b3 := by
  have hlen : 12 ≤ data.length := by
    unfold Header.decode at hd
    split at hd
    · simp at hd
    · omega
  obtain ⟨id, prop, serial, icc, tail, hi, rfl⟩ := header_split data hlen
  rw [Header.decode_bytes _ _ _ _ _ _ hi] at hd
  have key : h.msgID = id ∧ h.property = prop := by
    cases hp : parseUint (bcdToString icc) with
    | err e => simp [hp, Res.bind] at hd
    | panic => simp [hp, Res.bind] at hd
    | ok n =>
      simp only [hp, Res.bind] at hd
      split at hd
      · split at hd
        · simp only [Res.ok.injEq] at hd; subst hd; exact ⟨rfl, rfl⟩
        · simp at hd
        · simp at hd
      · simp only [Res.ok.injEq] at hd; subst hd; exact ⟨rfl, rfl⟩
  refine ⟨_, _, _, _, _, rfl, ?_, ?_⟩
  · rw [key.1]; exact (get16_put16 id).symm
  · rw [key.2]; exact (get16_put16 prop).symm

theorem get16_toNat (a b : UInt8) : (get16 a b).toNat = a.toNat * 256 + b.toNat := by
  have ha := a.toNat_lt
  have hb := b.toNat_lt
  unfold get16
  rw [UInt16.toNat_ofNat']
  omega

end Verif
