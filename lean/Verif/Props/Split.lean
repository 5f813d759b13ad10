import Verif.Props.Connection
import Verif.Props.Corruption
import Verif.Props.Registry
import Verif.Lemmas.Receive
/-! # C04 and C51: a byte that becomes a delimiter on the way -/

namespace Verif
open Spec Handler Codec

variable {E : Type}

/-- **C04, a byte that becomes a delimiter.** If a byte between the delimiters of an encoded message (of any length the receiver accepts) becomes `7e`
on the way, the receiver sees a frame that ends there: `a` is what comes before. If `Decode` takes it for a message, then it delivers a header without a body,
or the message it would have delivered without the change. It never delivers a wrong body, whatever the message types. -/
theorem C04_split_partial (C : BodyCodec E) (ekey : Option EncKey) (dkey : Option DecKey) (m m' d : Message E) (a b : Bytes) (x : UInt8)
    (henc : Message.encode C ekey m = .ok ([0x7e] ++ (a ++ x :: b) ++ [0x7e], m')) (hlen : (a ++ x :: b).length < 65534)
    (hd : Message.decode C dkey {} ([0x7e] ++ a ++ [0x7e]) = .ok d) :
    d.body = .nil ∨ Message.decode C dkey {} ([0x7e] ++ (a ++ x :: b) ++ [0x7e]) = .ok d := by
  apply Classical.byContradiction
  intro hno
  simp only [not_or] at hno
  obtain ⟨hb, hne⟩ := hno
  obtain ⟨c1, plain, e, n, he1, hsz1, -, -⟩ := Message.decode_body_inv rfl hd hb
  obtain ⟨id0, prop0, rest, body, ⟨w0, hw0, hw⟩, hrest, hsz0, -⟩ := Message.encode_shape henc
  have : a ++ x :: b = w0 := List.append_cancel_left (List.append_cancel_right hw0)
  subst this
  obtain ⟨w1, u1, s, hdata, hun, hcb, hs, hl12, hh1⟩ := decodeEnvelope_ok he1
  have ha : a = w1 ++ u1 := by
    have h1 : [0x7e] ++ a ++ [0x7e] = [0x7e] ++ (w1 ++ u1) ++ [0x7e] := by rw [hdata]; simp
    exact List.append_cancel_left (List.append_cancel_right h1)
  have hl1 := Header.decode_length hh1
  have hwl : (put16 id0 ++ put16 prop0 ++ rest ++ body ++ [xorAll (put16 id0 ++ put16 prop0 ++ rest ++ body)]).length
      ≤ (a ++ x :: b).length := by
    conv => rhs; rw [(stuffed_iff _ _).1 hw]
    exact (escape_length_le _).1
  obtain ⟨q, hq, hqu⟩ := hun.of_append (w2 := u1 ++ x :: b) (by
    rw [← List.append_assoc, ← ha]
    exact hw.unstuffed)
  obtain ⟨q', y, rfl⟩ : ∃ q' y, q = q' ++ [y] := by
    rcases List.eq_nil_or_concat q with rfl | ⟨q', y, h⟩
    · exfalso
      have h2 : u1 ++ x :: b = [] := by
        generalize hu : u1 ++ x :: b = u at hqu
        cases hqu
        rfl
      simp at h2
    · exact ⟨q', y, by simpa using h⟩
  rw [← List.append_assoc] at hq
  have hc : put16 id0 ++ put16 prop0 ++ rest ++ body = c1 ++ q' := (List.append_inj' hq rfl).1
  by_cases h0 : q' = []
  · subst h0
    rw [List.append_nil] at hc
    apply hne
    have hf : Message.decodeEnvelope ([0x7e] ++ (a ++ x :: b) ++ [0x7e]) = .ok (d.header, c1) := by
      rw [(stuffed_iff _ _).1 hw, hc, decodeEnvelope_frame _ _ (by rintro rfl; simp at hl12), if_neg (by simp), if_neg (by omega), hh1]
      rfl
    rw [Message.decode_eq, hf, ← hd, Message.decode_eq, he1]
  · obtain ⟨b0, b1, b2, b3, r1, hc1, -, hprop1⟩ := Header.decode_first4 hh1
    have hp : d.header.property = prop0 := by
      rw [hc1] at hc
      have h4 := congrArg (fun l => (l.drop 2).take 2) hc
      have : put16 prop0 = [b2, b3] := by simpa [put16] using h4
      rw [hprop1, ← get16_put16 prop0]
      simp only [put16, List.cons.injEq, and_true] at this ⊢
      rw [← this.1, ← this.2]
    have hcl := congrArg List.length hc
    have hq0 : 0 < q'.length := List.length_pos_iff.2 h0
    rw [Property.isEnablePacket_spec, hp] at hsz1 hl1
    simp only [List.length_append, put16_length, List.length_cons, List.length_nil] at hcl hwl hlen
    rw [hsz0] at hsz1
    by_cases hpk : packetFlag prop0.toNat = true
    · simp only [hpk, if_true] at hsz1 hl1 hrest
      omega
    · simp only [hpk, if_false] at hsz1 hl1 hrest
      simp at hsz1 hl1 hrest
      omega

/-- Both cases happen: a message of which a header remains, and one whose check byte `7d 01` is cut to `7d` and which is delivered as it was sent. -/
example : (∃ (m m' d : Message Entity) (a b : Bytes) (x : UInt8), Message.encode Sample.codec none m = .ok ([0x7e] ++ (a ++ x :: b) ++ [0x7e], m') ∧
      Message.decode Sample.codec none {} ([0x7e] ++ a ++ [0x7e]) = .ok d ∧ d.body = .nil ∧ d.header.msgID = 0x0700) ∧
    ∃ (m m' d : Message Entity) (a b : Bytes) (x : UInt8), Message.encode Sample.codec none m = .ok ([0x7e] ++ (a ++ x :: b) ++ [0x7e], m') ∧
      Message.decode Sample.codec none {} ([0x7e] ++ a ++ [0x7e]) = .ok d ∧ d.body = .val (.m0700 { replySerial := 1, cmd := 0xd5, data := [] }) :=
  ⟨⟨{ header := Sample.header, body := .val (.m0700 { replySerial := 0xa901, cmd := 0x01, data := [] }) }, _, _,
      [0x07, 0x00, 0x00, 0x03, 0x01, 0x38, 0x00, 0x13, 0x80, 0x00, 0x00, 0x07, 0xa9], [0x01, 0x00], 0x01, rfl, rfl, rfl, rfl⟩,
    ⟨{ header := Sample.header, body := .val (.m0700 { replySerial := 1, cmd := 0xd5, data := [] }) }, _, _,
      [0x07, 0x00, 0x00, 0x03, 0x01, 0x38, 0x00, 0x13, 0x80, 0x00, 0x00, 0x07, 0x00, 0x01, 0xd5, 0x7d], [], 0x01, rfl, rfl, rfl⟩⟩

/-- **C04, a lost delimiter.** If the closing delimiter of an encoded message becomes another byte, the receiver takes the opening delimiter of the next
message for it. If `Decode` takes these bytes for a message, then it delivers a header without a body. -/
theorem C04_lost_end_partial (C : BodyCodec E) (ekey : Option EncKey) (dkey : Option DecKey) (m m' d : Message E) (w : Bytes) (y : UInt8)
    (henc : Message.encode C ekey m = .ok ([0x7e] ++ w ++ [0x7e], m')) (hlen : w.length < 65534)
    (hd : Message.decode C dkey {} ([0x7e] ++ (w ++ [y]) ++ [0x7e]) = .ok d) : d.body = .nil := by
  apply Classical.byContradiction
  intro hb
  obtain ⟨c1, plain, e, n, he1, hsz1, -, -⟩ := Message.decode_body_inv rfl hd hb
  obtain ⟨id0, prop0, rest, body, ⟨w0, hw0, hw⟩, hrest, hsz0, -⟩ := Message.encode_shape henc
  have : w = w0 := List.append_cancel_left (List.append_cancel_right hw0)
  subst this
  obtain ⟨w1, u1, s, hdata, hun, hcb, hs, hl12, hh1⟩ := decodeEnvelope_ok he1
  have ha : w ++ [y] = w1 ++ u1 := by
    have h1 : [0x7e] ++ (w ++ [y]) ++ [0x7e] = [0x7e] ++ (w1 ++ u1) ++ [0x7e] := by rw [hdata]; simp
    exact List.append_cancel_left (List.append_cancel_right h1)
  have hw1 : w = w1 := by
    have two : ∀ z : UInt8, w ++ [y] = w1 ++ [0x7d, z] → False := by
      intro z h
      rw [show w1 ++ [0x7d, z] = (w1 ++ [0x7d]) ++ [z] by simp] at h
      exact hw.unstuffed.last w1 _ (List.append_inj' h rfl).1 rfl
    rcases hcb with rfl | ⟨rfl, -⟩ | ⟨rfl, -⟩
    · exact (List.append_inj' ha rfl).1
    · exact (two _ ha).elim
    · exact (two _ ha).elim
  subst hw1
  have hc := hun.functional hw.unstuffed
  have hl1 := Header.decode_length hh1
  have hwl : (put16 id0 ++ put16 prop0 ++ rest ++ body ++ [xorAll (put16 id0 ++ put16 prop0 ++ rest ++ body)]).length ≤ w.length := by
    conv => rhs; rw [(stuffed_iff _ _).1 hw]
    exact (escape_length_le _).1
  obtain ⟨b0, b1, b2, b3, r1, hc1, -, hprop1⟩ := Header.decode_first4 hh1
  have hp : d.header.property = prop0 := by
    rw [hc1] at hc
    have h4 := congrArg (fun l => (l.drop 2).take 2) hc
    have : put16 prop0 = [b2, b3] := by simpa [put16, eq_comm] using h4
    rw [hprop1, ← get16_put16 prop0]
    simp only [put16, List.cons.injEq, and_true] at this ⊢
    rw [← this.1, ← this.2]
  have hcl := congrArg List.length hc
  rw [Property.isEnablePacket_spec, hp] at hsz1 hl1
  simp only [List.length_append, put16_length, List.length_cons, List.length_nil] at hcl hwl
  rw [hsz0] at hsz1
  by_cases hpk : packetFlag prop0.toNat = true
  · simp only [hpk, if_true] at hsz1 hl1 hrest
    omega
  · simp only [hpk, if_false] at hsz1 hl1 hrest
    simp at hsz1 hl1 hrest
    omega

/-- It happens: a closing delimiter that becomes `00`. -/
example : ∃ (m m' d : Message Entity) (w : Bytes), Message.encode Sample.codec none m = .ok ([0x7e] ++ w ++ [0x7e], m') ∧ w.length < 65534 ∧
    Message.decode Sample.codec none {} ([0x7e] ++ (w ++ [0x00]) ++ [0x7e]) = .ok d ∧ d.header.msgID = 0x0700 :=
  ⟨{ header := Sample.header, body := .val (.m0700 { replySerial := 1, cmd := 0x01, data := [] }) }, _, _,
    [0x07, 0x00, 0x00, 0x03, 0x01, 0x38, 0x00, 0x13, 0x80, 0x00, 0x00, 0x07, 0x00, 0x01, 0x01, 0xa9], rfl, by decide, rfl, rfl⟩

/-- **C04 for a whole stream.** Clients send any messages, each of a size the receiver accepts, and one byte of the stream changes on the way: any byte,
delimiters included, into any other. However the stream is cut into pieces, as long as `Receive` reports no error, the message it delivers at the i-th call is
the i-th message sent, or has no body: a body that was not sent, or in another place, is never delivered before the first error, with which the server ends
the session. (What is missing: that the change is always noticed, `C04_refuted`, and that it does not crash the server, `C51_refuted_one_byte`.) -/
theorem C04_stream_partial (C : BodyCodec E) (hC : PlainIds C) (key : Option DecKey) (endErr : Err) (ms : List (Bytes × Message E))
    (hms : ∀ x ∈ ms, (∃ ekey m m', Message.encode C ekey m = .ok (x.1, m')) ∧ x.1.length ≤ 65407 ∧ Message.decode C key {} x.1 = .ok x.2)
    (reads : List Bytes) (hr : ∀ c ∈ reads, c.length ≤ 128) (hs : OneByteChanged (ms.flatMap (·.1)) reads.flatten) (k : Nat)
    (ds : List (Message E)) (hds : (receiveMany C key endErr k ⟨[], reads⟩).1 = ds.map .ok) (i : Nat) (d : Message E) (hi : ds[i]? = some d) :
    d.body = .nil ∨ (ms[i]?).map (·.2) = some d := by
  have shape : ∀ x ∈ ms, ∃ w, x.1 = [0x7e] ++ w ++ [0x7e] ∧ (0x7e : UInt8) ∉ w ∧ w ≠ [] := by
    intro x hx
    obtain ⟨ekey, m, m', henc⟩ := (hms x hx).1
    obtain ⟨_, _, _, _, ⟨w, hw0, hw⟩, -⟩ := Message.encode_shape henc
    refine ⟨w, hw0, by rw [(stuffed_iff _ _).1 hw]; exact escape_no_flag _, ?_⟩
    rintro rfl
    have := Nat.le_trans (escape_length_le _).1 (Nat.le_of_eq (congrArg List.length ((stuffed_iff _ _).1 hw).symm))
    simp at this
  -- one call
  have call : ∀ (k : Nat) (s : RecvState) (ds : List (Message E)), (receiveMany C key endErr k s).1 = ds.map .ok →
      ds = [] ∨ ∃ k' d0 ds', k = k' + 1 ∧ ds = d0 :: ds' ∧ (receive C key endErr s).1 = .ok d0 ∧
        (receiveMany C key endErr k' (receive C key endErr s).2).1 = ds'.map .ok := by
    intro k s ds h
    cases k with
    | zero => simp [receiveMany] at h; exact .inl h
    | succ k =>
      right
      simp only [receiveMany] at h
      cases ds with
      | nil => simp at h
      | cons d0 ds' =>
        simp only [List.map_cons, List.cons.injEq] at h
        exact ⟨k, d0, ds', rfl, rfl, h.1, h.2⟩
  have stops : ∀ (k : Nat) (s : RecvState) (ds : List (Message E)), (receiveMany C key endErr k s).1 = ds.map .ok →
      (∃ e s', receive C key endErr s = (.err e, s')) → ds = [] := by
    rintro k s ds h ⟨e, s', he⟩
    rcases call k s ds h with h | ⟨_, _, _, -, -, h, -⟩
    · exact h
    · rw [he] at h; simp at h
  -- one call on a frame
  have frame : ∀ (s : RecvState) (f rest : Bytes) (d0 : Message E), Holds s (f ++ rest) 65408 → Delimited f → f.length ≤ 65408 →
      (receive C key endErr s).1 = .ok d0 → Message.decode C key {} f = .ok d0 ∧ Holds (receive C key endErr s).2 rest 65408 := by
    intro s f rest d0 h hf hl h0
    by_cases hp : Message.decode C key {} f = .panic
    · rw [receive_frame_panic (endErr := endErr) h hf hp hl (Nat.le_refl _)] at h0
      simp at h0
    · obtain ⟨s', r1, r2⟩ := receive_frame (endErr := endErr) h hf hp hl (Nat.le_refl _)
      rw [r1] at h0 ⊢
      exact ⟨h0, r2⟩
  have delim : ∀ x ∈ ms, Delimited x.1 := fun x hx => by
    obtain ⟨w, h1, h2, -⟩ := shape x hx
    exact ⟨w, h1, h2⟩
  -- a stream without change
  have good : ∀ (l : List (Bytes × Message E)), (∀ x ∈ l, x ∈ ms) → ∀ (s : RecvState) (k : Nat) (ds : List (Message E)), Holds s (l.flatMap (·.1)) 65408 →
      (receiveMany C key endErr k s).1 = ds.map .ok → ∀ (i : Nat) (d : Message E), ds[i]? = some d → (l[i]?).map (·.2) = some d := by
    intro l
    induction l with
    | nil =>
      intro _ s k ds h hds i d hi
      rw [stops k s ds hds ⟨_, _, receive_end (C := C) (key := key) (endErr := endErr) h (.inl rfl) (by simp) (Nat.le_refl _)⟩] at hi
      simp at hi
    | cons x l ih =>
      intro hl s k ds h hds i d hi
      have hx := hl x (by simp)
      rcases call k s ds hds with rfl | ⟨k', d0, ds', rfl, rfl, h0, h1⟩
      · simp at hi
      · obtain ⟨g1, g2⟩ := frame s x.1 (l.flatMap (·.1)) d0 (by simpa using h) (delim x hx) (by have := (hms x hx).2.1; omega) h0
        rw [(hms x hx).2.2] at g1
        cases i with
        | zero => simp at hi g1; simp [g1, hi]
        | succ i => simpa using ih (fun y hy => hl y (by simp [hy])) _ k' ds' g2 h1 i d (by simpa using hi)
  have main : ∀ (l : List (Bytes × Message E)), (∀ x ∈ l, x ∈ ms) → ∀ (s : RecvState) (k : Nat) (ds : List (Message E)) (bytes : Bytes), Holds s bytes 65408 →
      OneByteChanged (l.flatMap (·.1)) bytes → (receiveMany C key endErr k s).1 = ds.map .ok → ∀ (i : Nat) (d : Message E), ds[i]? = some d →
      d.body = .nil ∨ (l[i]?).map (·.2) = some d := by
    intro l
    induction l with
    | nil =>
      rintro _ s k ds bytes h ⟨a, x, y, b, -, h1, -⟩
      simp at h1
    | cons x l ih =>
      rintro hl s k ds bytes h ⟨a, x0, y, b, hxy, h1, rfl⟩ hds i d hi
      have hx := hl x (by simp)
      have hl' : ∀ y ∈ l, y ∈ ms := fun y hy => hl y (by simp [hy])
      obtain ⟨⟨ekey, m, m', henc⟩, hlen, hdec⟩ := hms x hx
      obtain ⟨w, hxw, hw, hw0⟩ := shape x hx
      rcases call k s ds hds with rfl | ⟨k', d0, ds', rfl, rfl, h0, h2⟩
      · simp at hi
      -- what is left of the stream begins with a delimiter
      have hR : l.flatMap (·.1) = [] ∨ ∃ w2 R2, l.flatMap (·.1) = 0x7e :: (w2 ++ 0x7e :: R2) ∧ (0x7e : UInt8) ∉ w2 ∧ w2 ≠ [] := by
        cases l with
        | nil => exact .inl rfl
        | cons z l =>
          obtain ⟨w2, e1, e2, e3⟩ := shape z (hl' z (by simp))
          exact .inr ⟨w2, l.flatMap (·.1), by simp [e1], e2, e3⟩
      rw [List.flatMap_cons] at h1
      generalize hRR : l.flatMap (·.1) = R at *
      have only : ds' = [] → (d0.body = .nil ∨ x.2 = d0) → d.body = .nil ∨ ((x :: l)[i]?).map (·.2) = some d := by
        rintro rfl hor
        cases i with
        | zero =>
          simp only [List.getElem?_cons_zero, Option.some.injEq] at hi
          subst hi
          simpa using hor
        | succ i => simp at hi
      rcases List.append_eq_append_iff.1 h1 with ⟨a', ha', hb'⟩ | ⟨c', hc', hb'⟩
      · -- the change is behind this message
        rw [ha', List.append_assoc] at h
        obtain ⟨g1, g2⟩ := frame s x.1 _ d0 h (delim x hx) (by omega) h0
        rw [hdec] at g1
        cases i with
        | zero => right; simp at hi g1; simp [g1, hi]
        | succ i =>
          simpa using ih hl' _ k' ds' _ g2 ⟨a', x0, y, b, hxy, by rw [hb'], rfl⟩ h2 i d (by simpa using hi)
      · cases c' with
        | nil =>
          -- the first byte behind this message
          simp only [List.append_nil, List.nil_append] at hc' hb'
          rw [← hc'] at h
          obtain ⟨g1, g2⟩ := frame s x.1 _ d0 h (delim x hx) (by omega) h0
          rw [hdec] at g1
          cases i with
          | zero => right; simp at hi g1; simp [g1, hi]
          | succ i =>
            simpa using ih hl' _ k' ds' _ g2 ⟨[], x0, y, b, hxy, by simp [hb'], rfl⟩ h2 i d (by simpa using hi)
        | cons c0 c' =>
          simp only [List.cons_append, List.cons.injEq] at hb'
          obtain ⟨rfl, rfl⟩ := hb'
          rw [hxw] at hc'
          cases a with
          | nil =>
            -- the opening delimiter
            simp only [List.cons_append, List.nil_append, List.cons.injEq] at hc'
            obtain ⟨rfl, rfl⟩ := hc'
            obtain ⟨s', j', r, -⟩ := receive_junk (C := C) (key := key) (endErr := endErr) (j := y :: w) (rest := 0x7e :: R)
              (by simpa using h) (by simp) (by simpa [Junk, hw] using hxy) (.inr ⟨_, rfl⟩)
            rw [r] at h0
            simp at h0
          | cons a0 a =>
            simp only [List.cons_append, List.nil_append, List.cons.injEq] at hc'
            obtain ⟨rfl, hc'⟩ := hc'
            rcases List.eq_nil_or_concat c' with rfl | ⟨c'', z, hz⟩
            · -- the closing delimiter
              obtain ⟨rfl, hz⟩ := List.append_inj' hc' rfl
              simp only [List.cons.injEq, and_true] at hz
              subst hz
              rcases hR with rfl | ⟨w2, R2, rfl, hw2, hw20⟩
              · rw [receive_end (C := C) (key := key) (endErr := endErr) h (.inr ⟨w ++ [y], by simp, by simpa [hw] using hxy⟩)
                  (by rw [hxw] at hlen; simp at hlen ⊢; omega) (Nat.le_refl _)] at h0
                simp at h0
              · obtain ⟨g1, g2⟩ := frame s ([0x7e] ++ (w ++ [y]) ++ [0x7e]) (w2 ++ 0x7e :: R2) d0 (by simpa using h)
                  ⟨w ++ [y], rfl, by simpa [hw] using hxy⟩ (by rw [hxw] at hlen; simp at hlen ⊢; omega) h0
                obtain ⟨s', j', r, -⟩ := receive_junk (C := C) (key := key) (endErr := endErr) g2 hw20 hw2 (.inr ⟨_, rfl⟩)
                exact only (stops k' _ ds' h2 ⟨_, _, r⟩) (.inl (C04_lost_end_partial C ekey key m m' d0 w y (hxw ▸ henc)
                  (by rw [hxw] at hlen; simp at hlen; omega) g1))
            · rw [List.concat_eq_append] at hz
              subst hz
              rw [show a ++ x0 :: (c'' ++ [z]) = (a ++ x0 :: c'') ++ [z] by simp] at hc'
              obtain ⟨rfl, hz⟩ := List.append_inj' hc' rfl
              simp only [List.cons.injEq, and_true] at hz
              subst hz
              have hw65 : (a ++ x0 :: c'').length < 65534 := by rw [hxw] at hlen; simp at hlen ⊢; omega
              simp only [List.mem_append, List.mem_cons, not_or] at hw
              by_cases hy : y = 0x7e
              · -- a byte in between becomes a delimiter
                subst hy
                obtain ⟨g1, g2⟩ := frame s ([0x7e] ++ a ++ [0x7e]) (c'' ++ 0x7e :: R) d0 (by simpa using h) ⟨a, rfl, hw.1⟩
                  (by rw [hxw] at hlen; simp at hlen ⊢; omega) h0
                have hor : d0.body = .nil ∨ x.2 = d0 := by
                  rcases C04_split_partial C ekey key m m' d0 a c'' x0 (hxw ▸ henc) hw65 g1 with h | h
                  · exact .inl h
                  · rw [← hxw, hdec] at h
                    exact .inr (by simpa using h)
                refine only (stops k' _ ds' h2 ?_) hor
                by_cases hc0 : c'' = []
                · subst hc0
                  rcases hR with rfl | ⟨w2, R2, rfl, hw2, hw20⟩
                  · exact ⟨_, _, receive_end (C := C) (key := key) (endErr := endErr) g2 (.inr ⟨[], by simp, by simp⟩) (by simp) (Nat.le_refl _)⟩
                  · have he : Message.decode C key {} [0x7e, 0x7e] = .err .invalidMessage := by
                      rw [Message.decode_eq, show ([0x7e, 0x7e] : Bytes) = [0x7e] ++ [] ++ [0x7e] by rfl, decodeEnvelope_delim, decodeInner_nil]
                      rfl
                    obtain ⟨s', r1, -⟩ := receive_frame (C := C) (key := key) (endErr := endErr) (f := [0x7e, 0x7e]) (rest := w2 ++ 0x7e :: R2)
                      (by simpa using g2) ⟨[], rfl, by simp⟩ (by rw [he]; simp) (by simp) (Nat.le_refl _)
                    exact ⟨_, _, by rw [r1, he]⟩
                · obtain ⟨s', j', r, -⟩ := receive_junk (C := C) (key := key) (endErr := endErr) g2 hc0 hw.2.2 (.inr ⟨_, rfl⟩)
                  exact ⟨_, _, r⟩
              · -- a byte in between becomes another one
                have hy' : (0x7e : UInt8) ≠ y := fun h => hy h.symm
                obtain ⟨g1, g2⟩ := frame s ([0x7e] ++ (a ++ y :: c'') ++ [0x7e]) R d0 (by simpa using h)
                  ⟨a ++ y :: c'', rfl, by simp [hw.1, hw.2.2, hy']⟩ (by simp at hw65 ⊢; rw [hxw] at hlen; simp at hlen; omega) h0
                have hn := C04_no_wrong_body_partial C hC ekey key m m' d0 _ _ (hxw ▸ henc) hw65 ⟨a, x0, y, c'', hxy, rfl, rfl⟩ g1
                cases i with
                | zero => simp at hi; left; rw [← hi]; exact hn
                | succ i => right; simpa using good l hl' _ k' ds' (hRR ▸ g2) h2 i d (by simpa using hi)
  exact main ms (fun _ h => h) ⟨[], reads⟩ k ds _ ⟨by simp, hr, by simp⟩ hs hds i d hi

/-- `C04_stream_partial` for the registered message types, which meet its hypothesis on the ids. -/
theorem C04_registered_stream_partial (env : Env) (key : Option DecKey) (endErr : Err) (ms : List (Bytes × Message Entity))
    (hms : ∀ x ∈ ms, (∃ ekey m m', Message.encode (entityCodec env) ekey m = .ok (x.1, m')) ∧ x.1.length ≤ 65407 ∧
      Message.decode (entityCodec env) key {} x.1 = .ok x.2)
    (reads : List Bytes) (hr : ∀ c ∈ reads, c.length ≤ 128) (hs : OneByteChanged (ms.flatMap (·.1)) reads.flatten) (k : Nat)
    (ds : List (Message Entity)) (hds : (receiveMany (entityCodec env) key endErr k ⟨[], reads⟩).1 = ds.map .ok) (i : Nat) (d : Message Entity)
    (hi : ds[i]? = some d) : d.body = .nil ∨ (ms[i]?).map (·.2) = some d :=
  C04_stream_partial (entityCodec env) (C04_registered_ids_plain env) key endErr ms hms reads hr hs k ds hds i d hi

/-- Non-trivial case: two messages, the second of which loses its body because a byte of it becomes a delimiter, in two pieces. -/
example : ∃ (ms : List (Bytes × Message Entity)) (reads : List Bytes) (ds : List (Message Entity)),
    (∀ x ∈ ms, (∃ ekey m m', Message.encode Sample.codec ekey m = .ok (x.1, m')) ∧ x.1.length ≤ 65407 ∧ Message.decode Sample.codec none {} x.1 = .ok x.2) ∧
    (∀ c ∈ reads, c.length ≤ 128) ∧ OneByteChanged (ms.flatMap (·.1)) reads.flatten ∧
    (receiveMany Sample.codec none .eof 2 ⟨[], reads⟩).1 = ds.map .ok ∧ ds.map (·.body) = [.val (.m0700 { replySerial := 1, cmd := 0x01, data := [] }), .nil] :=
  ⟨[([0x7e, 0x07, 0x00, 0x00, 0x03, 0x01, 0x38, 0x00, 0x13, 0x80, 0x00, 0x00, 0x07, 0x00, 0x01, 0x01, 0xa9, 0x7e], _),
      ([0x7e, 0x07, 0x00, 0x00, 0x03, 0x01, 0x38, 0x00, 0x13, 0x80, 0x00, 0x00, 0x07, 0xa9, 0x01, 0x01, 0x00, 0x7e], _)],
    [[0x7e, 0x07, 0x00, 0x00, 0x03, 0x01, 0x38, 0x00, 0x13, 0x80, 0x00, 0x00, 0x07, 0x00, 0x01],
      [0x01, 0xa9, 0x7e, 0x7e, 0x07, 0x00, 0x00, 0x03, 0x01, 0x38, 0x00, 0x13, 0x80, 0x00, 0x00, 0x07, 0xa9, 0x7e, 0x01, 0x00, 0x7e]],
    [_, _], by
      intro x hx
      simp only [List.mem_cons, List.not_mem_nil, or_false] at hx
      rcases hx with rfl | rfl
      · exact ⟨⟨none, { header := Sample.header, body := .val (.m0700 { replySerial := 1, cmd := 0x01, data := [] }) }, _, rfl⟩, by decide, rfl⟩
      · exact ⟨⟨none, { header := Sample.header, body := .val (.m0700 { replySerial := 0xa901, cmd := 0x01, data := [] }) }, _, rfl⟩, by decide, rfl⟩,
    by decide, ⟨[0x7e, 0x07, 0x00, 0x00, 0x03, 0x01, 0x38, 0x00, 0x13, 0x80, 0x00, 0x00, 0x07, 0x00, 0x01, 0x01, 0xa9, 0x7e,
      0x7e, 0x07, 0x00, 0x00, 0x03, 0x01, 0x38, 0x00, 0x13, 0x80, 0x00, 0x00, 0x07, 0xa9], 0x01, 0x7e, [0x01, 0x00, 0x7e], by decide, rfl, rfl⟩,
    rfl, rfl⟩

/-- **C51: one changed byte is enough.** Whatever message a client sends, a single byte that changes on the way crashes the server: the second byte
after the opening delimiter, if it becomes a delimiter. This holds for every message that can be encoded, under every configuration, however the stream is cut
into pieces and whatever follows. -/
theorem C51_refuted_one_byte (env : Env) (C : BodyCodec E) (ekey : Option EncKey) (key : Option DecKey) (endErr : Err) (auto : Bool) (a : Around)
    (m m' : Message E) (f : Bytes) (henc : Message.encode C ekey m = .ok (f, m')) :
    ∃ f', OneByteChanged f f' ∧ ∀ (reads : List Bytes) (rest : Bytes), reads.flatten = f' ++ rest → (∀ c ∈ reads, c.length ≤ 128) →
      serve env key endErr auto [([], a)] reads = .panic := by
  obtain ⟨id0, prop0, rest0, body, ⟨w, rfl, hw⟩, hrest, -⟩ := Message.encode_shape henc
  have hwe := (stuffed_iff _ _).1 hw
  have hnf : (0x7e : UInt8) ∉ w := by rw [hwe]; exact escape_no_flag _
  have hwl : 2 ≤ w.length := by
    rw [hwe]
    refine Nat.le_trans ?_ (escape_length_le _).1
    simp only [List.length_append, put16_length]
    omega
  match w, hwl with
  | p :: x :: t, _ =>
    simp only [List.mem_cons, not_or] at hnf
    refine ⟨[0x7e, p, 0x7e] ++ (t ++ [0x7e]), ⟨[0x7e, p], x, 0x7e, t ++ [0x7e], fun h => hnf.2.1 h.symm, by simp, by simp⟩, fun reads rest hr hc => ?_⟩
    have hdec : Message.decode (entityCodec env) key {} [0x7e, p, 0x7e] = .panic := by
      rw [Message.decode_eq, (decodeEnvelope_panic_iff _).2 ⟨p, rfl⟩]
      rfl
    have h : Holds ⟨[], reads⟩ ([0x7e, p, 0x7e] ++ (t ++ [0x7e] ++ rest)) 65408 := ⟨by simp [hr], hc, by simp⟩
    have hp := receive_frame_panic (endErr := endErr) h ⟨[p], rfl, by simpa using hnf.1⟩ hdec (by simp) (Nat.le_refl _)
    simp [serve, inputs, hp, Loop.run, Loop.step, bind, Res.bind]

/-- The hypothesis is met, for example by the message of `C04_refuted`. -/
example : ∃ f m', Message.encode Sample.codec none { header := Sample.header, body := .val (.m0700 { replySerial := 1, cmd := 0x7e, data := [] }) } = .ok (f, m') :=
  ⟨_, _, rfl⟩

end Verif
