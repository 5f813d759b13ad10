import Verif.Props.RoundTrip
/-! # C17: list counts, C47: decoding into a used value -/

namespace Verif

open Spec (Text)

/-- Reading fewer items than were written. -/
theorem encList_take {α : Type} (enc : α → Res Bytes) (item : Rd α) (m : Nat) (xs : List α)
    (h : ∀ x ∈ xs, ∃ b, enc x = .ok b ∧ m ≤ b.length ∧ ∀ s, item (b ++ s) = .ok (x, s)) (k : Nat) (hk : k ≤ xs.length) :
    ∃ bs, encList enc xs = .ok bs ∧ m * xs.length ≤ bs.length ∧
      ∃ rest, Rd.times k item bs = .ok (xs.take k, rest) := by
  have hsplit : ∀ ys zs : List α, ∀ a b, encList enc ys = .ok a → encList enc zs = .ok b → encList enc (ys ++ zs) = .ok (a ++ b) := by
    intro ys
    induction ys with
    | nil => intro zs a b ha hb; cases ha; exact hb
    | cons y ys ih =>
      intro zs a b ha hb
      simp only [encList, List.cons_append] at ha ⊢
      cases hy : enc y with
      | ok w =>
        rw [hy] at ha
        cases hys : encList enc ys with
        | ok v =>
          rw [hys] at ha
          cases ha
          rw [ih zs v b hys hb]
          simp
        | err x => rw [hys] at ha; cases ha
        | panic => rw [hys] at ha; cases ha
      | err x => rw [hy] at ha; cases ha
      | panic => rw [hy] at ha; cases ha
  obtain ⟨a, a1, a2, a3⟩ := encList_times enc item id m (xs.take k) fun x hx => h x (List.mem_of_mem_take hx)
  obtain ⟨b, b1, b2, -⟩ := encList_times enc item id m (xs.drop k) fun x hx => h x (List.mem_of_mem_drop hx)
  have := hsplit _ _ a b a1 b1
  rw [List.take_append_drop] at this
  refine ⟨a ++ b, this, ?_, b, ?_⟩
  · rw [List.length_append]
    simp only [List.length_take, List.length_drop] at a2 b2
    rw [Nat.min_eq_left hk] at a2
    have : m * xs.length = m * k + m * (xs.length - k) := by rw [← Nat.mul_add]; congr 1; omega
    omega
  · have := a3 b
    rw [List.length_take, Nat.min_eq_left hk] at this
    rw [this]
    simp

/-- The same for items without conversion. -/
theorem flatMap_take {α : Type} (enc : α → Bytes) (item : Rd α) (h : ∀ x s, item (enc x ++ s) = .ok (x, s)) (xs : List α) (k : Nat)
    (hk : k ≤ xs.length) : Rd.times k item (xs.flatMap enc) = .ok (xs.take k, (xs.drop k).flatMap enc) := by
  have := Rd.times_flatMap (xs.take k) ((xs.drop k).flatMap enc) h
  rw [List.length_take, Nat.min_eq_left hk, ← List.flatMap_append, List.take_append_drop] at this
  exact this

theorem u8_mod (n : Nat) : (u8 n).toNat = n % 256 := by simp
theorem u16_mod (n : Nat) : (UInt16.ofNat n).toNat = n % 65536 := by simp

/-- A body that passes the length check and is read to some point is decoded. -/
theorem decodeMin_some {α : Type} {n : Nat} {p : Rd α} {data rest : Bytes} {a : α} (h : n ≤ data.length)
    (hp : p data = .ok (a, rest)) : ∃ k, decodeMin n p data = .ok (a, k) := ⟨_, decodeMin_eq h hp⟩

/-! ## What really happens to a list of any length -/

/-- 0x8003: the peer sees the first `length mod 256` packet ids. -/
theorem C17_resend_request (e : T8003) : ∃ b, T8003.encode e = .ok b ∧ ∃ n,
    T8003.decode {} b = .ok ({ e with packetIDs := e.packetIDs.take (e.packetIDs.length % 256) }, n) := by
  refine ⟨_, rfl, ?_⟩
  unfold T8003.decode
  refine decodeMin_some (a := { e with packetIDs := e.packetIDs.take (e.packetIDs.length % 256) })
    (rest := (e.packetIDs.drop (e.packetIDs.length % 256)).flatMap put16) ?_ ?_
  · simp; omega
  simp only [List.append_assoc, Rd.bind_u16_put16, List.cons_append, List.nil_append, Rd.bind_byte_cons]
  rw [u8_mod, Rd.bind_ok _ (flatMap_take put16 Rd.u16 (fun x s => Rd.u16_put16 x s) _ _ (Nat.mod_le _ _))]
  rfl

/-- 0x8106, 0x8601, 0x8603, 0x8605: the peer sees the first `length mod 256` ids. -/
theorem C17_ids (e : TIDs) : ∃ b, TIDs.encode e = .ok b ∧ ∃ n,
    TIDs.decode {} b = .ok ({ e with ids := e.ids.take (e.ids.length % 256) }, n) := by
  refine ⟨u8 e.ids.length :: e.ids.flatMap put32, rfl, (u8 e.ids.length :: e.ids.flatMap put32).length - ((e.ids.drop (e.ids.length % 256)).flatMap put32).length - 1, ?_⟩
  unfold TIDs.decode
  rw [if_neg (by simp), idx_zero, slice_to_end _ _ (by simp)]
  simp only [Res.ok_bind, List.drop_succ_cons, List.drop_zero]
  rw [u8_mod, flatMap_take put32 Rd.u32 (fun x s => Rd.u32_put32 x s) _ _ (Nat.mod_le _ _)]
  rfl

/-- 0x8607: the same. -/
theorem C17_delete_routes (e : TIDs) : ∃ b, TIDs.encode e = .ok b ∧ ∃ n,
    T8607.decode {} b = .ok ({ e with ids := e.ids.take (e.ids.length % 256) }, n) := by
  refine ⟨u8 e.ids.length :: e.ids.flatMap put32, rfl, ?_⟩
  unfold T8607.decode
  refine decodeMin_some (a := { e with ids := e.ids.take (e.ids.length % 256) })
    (rest := (e.ids.drop (e.ids.length % 256)).flatMap put32) ?_ ?_
  · simp
  rw [Rd.bind_byte_cons, u8_mod, Rd.bind_ok _ (flatMap_take put32 Rd.u32 (fun x s => Rd.u32_put32 x s) _ _ (Nat.mod_le _ _))]
  rfl

/-- 0x8800: the same for the packets to resend. -/
theorem C17_media_resend (e : T8800) : ∃ b, T8800.encode e = .ok b ∧ ∃ n,
    T8800.decode {} b = .ok ({ e with retryIDs := e.retryIDs.take (e.retryIDs.length % 256) }, n) := by
  by_cases h : e.retryIDs.length < 256
  · obtain ⟨b, h1, h2⟩ := T8800.round_trip e h
    refine ⟨b, h1, b.length, ?_⟩
    rw [h2, Nat.mod_eq_of_lt h, List.take_length]
  · unfold T8800.encode
    rw [if_neg (by omega)]
    refine ⟨_, rfl, ?_⟩
    unfold T8800.decode
    refine decodeMin_some (a := { e with retryIDs := e.retryIDs.take (e.retryIDs.length % 256) })
      (rest := (e.retryIDs.drop (e.retryIDs.length % 256)).flatMap put16) ?_ ?_
    · simp
    simp only [List.append_assoc, Rd.bind_u32_put32, List.cons_append, List.nil_append, Rd.bind_len]
    rw [if_neg (by simp), Rd.bind_byte_cons, u8_mod, Rd.bind_ok _ (flatMap_take put16 Rd.u16 (fun x s => Rd.u16_put16 x s) _ _ (Nat.mod_le _ _))]
    rfl

/-- 0x0805: the first `length mod 65536` media ids. -/
theorem C17_media_ids (e : T0805) : ∃ b, T0805.encode e = .ok b ∧ ∃ n,
    T0805.decode {} b = .ok ({ e with mediaIDs := e.mediaIDs.take (e.mediaIDs.length % 65536) }, n) := by
  refine ⟨_, rfl, ?_⟩
  unfold T0805.decode
  refine decodeMin_some (a := { e with mediaIDs := e.mediaIDs.take (e.mediaIDs.length % 65536) })
    (rest := (e.mediaIDs.drop (e.mediaIDs.length % 65536)).flatMap put32) ?_ ?_
  · simp; omega
  simp only [List.append_assoc, Rd.bind_u16_put16, List.cons_append, List.nil_append, Rd.bind_byte_cons]
  rw [u16_mod, Rd.bind_ok _ (flatMap_take put32 Rd.u32 (fun x s => Rd.u32_put32 x s) _ _ (Nat.mod_le _ _))]
  rfl

/-- 0x8103: a non-empty list of parameters arrives cut to `length mod 256`. -/
theorem C17_params (e : T8103) (h0 : e.params ≠ []) (h : ∀ p ∈ e.params, p.serialized.length < 256) :
    ∃ b, T8103.encode e = .ok b ∧ ∃ n,
      T8103.decode {} b = .ok ({ e with params := e.params.take (e.params.length % 256) }, n) := by
  obtain ⟨bs, g1, g2, rest, g3⟩ := encList_take Param.encodeItem Param.decodeItem 5 e.params (fun p hp => Param.item p (h p hp))
    (e.params.length % 256) (Nat.mod_le _ _)
  have hpos : 0 < e.params.length := List.length_pos_iff.2 h0
  refine ⟨_, by unfold T8103.encode; rw [g1]; rfl, ?_⟩
  unfold T8103.decode
  refine decodeMin_some (a := { e with params := e.params.take (e.params.length % 256) })
    (rest := rest) ?_ ?_
  · simp; omega
  simp only [List.cons_append, List.nil_append, Rd.bind_byte_cons]
  rw [u8_mod, Rd.bind_ok _ g3]
  rfl

/-- 0x0104: the same for the answer. -/
theorem C17_params_answer (e : T0104) (h0 : e.params ≠ []) (h : ∀ p ∈ e.params, p.serialized.length < 256) :
    ∃ b, T0104.encode e = .ok b ∧ ∃ n,
      T0104.decode {} b = .ok ({ e with params := e.params.take (e.params.length % 256) }, n) := by
  obtain ⟨bs, g1, g2, rest, g3⟩ := encList_take Param.encodeItem Param.decodeItem 5 e.params (fun p hp => Param.item p (h p hp))
    (e.params.length % 256) (Nat.mod_le _ _)
  have hpos : 0 < e.params.length := List.length_pos_iff.2 h0
  refine ⟨_, by unfold T0104.encode; rw [g1]; rfl, ?_⟩
  unfold T0104.decode
  refine decodeMin_some (a := { e with params := e.params.take (e.params.length % 256) })
    (rest := rest) ?_ ?_
  · simp; omega
  simp only [List.append_assoc, Rd.bind_u16_put16, List.cons_append, List.nil_append, Rd.bind_byte_cons]
  rw [u8_mod, Rd.bind_ok _ g3]
  rfl

/-- 0x8301: events. -/
theorem C17_events (env : Env) (e : T8301) (h : ∀ x ∈ e.events, Text env x.content 255) :
    ∃ b, T8301.encode env e = .ok b ∧ ∃ n,
      T8301.decode env {} b = .ok ({ e with events := e.events.take (e.events.length % 256) }, n) := by
  obtain ⟨bs, g1, g2, rest, g3⟩ := encList_take (IdText.encodeItem env) (IdText.decodeItem env) 2 e.events (fun p hp => IdText.item env p (h p hp))
    (e.events.length % 256) (Nat.mod_le _ _)
  refine ⟨_, by unfold T8301.encode; rw [g1]; rfl, ?_⟩
  unfold T8301.decode
  refine decodeMin_some (a := { e with events := e.events.take (e.events.length % 256) })
    (rest := rest) ?_ ?_
  · simp
  simp only [List.cons_append, List.nil_append, Rd.bind_byte_cons]
  rw [u8_mod, Rd.bind_ok _ g3]
  rfl

/-- 0x8401: phone book. -/
theorem C17_contacts (env : Env) (e : T8401) (h : ∀ x ∈ e.contacts, Text env x.number 255 ∧ Text env x.contact 255) :
    ∃ b, T8401.encode env e = .ok b ∧ ∃ n,
      T8401.decode env {} b = .ok ({ e with contacts := e.contacts.take (e.contacts.length % 256) }, n) := by
  obtain ⟨bs, g1, g2, rest, g3⟩ := encList_take (Contact.encodeItem env) (Contact.decodeItem env) 3 e.contacts
    (fun p hp => Contact.item env p (h p hp).1 (h p hp).2) (e.contacts.length % 256) (Nat.mod_le _ _)
  refine ⟨_, by unfold T8401.encode; rw [g1]; rfl, ?_⟩
  unfold T8401.decode
  refine decodeMin_some (a := { e with contacts := e.contacts.take (e.contacts.length % 256) })
    (rest := rest) ?_ ?_
  · simp
  simp only [List.cons_append, List.nil_append, Rd.bind_byte_cons]
  rw [u8_mod, Rd.bind_ok _ g3]
  rfl

/-- C17 where it holds: within the limits of the count field the peer decodes the same list. The items of the other
list types are covered by `C16_body_round_trip_partial`. -/
theorem C17_lists_within_limits_partial :
    (∀ e : T8003, e.packetIDs.length < 256 → ∃ b n, T8003.encode e = .ok b ∧ T8003.decode {} b = .ok (e, n)) ∧
    (∀ e : TIDs, e.ids.length < 256 → ∃ b n, TIDs.encode e = .ok b ∧ TIDs.decode {} b = .ok (e, n)) ∧
    (∀ e : T8800, e.retryIDs.length < 256 → ∃ b n, T8800.encode e = .ok b ∧ T8800.decode {} b = .ok (e, n)) ∧
    (∀ e : T0805, e.mediaIDs.length < 65536 → ∃ b n, T0805.encode e = .ok b ∧ T0805.decode {} b = .ok (e, n)) ∧
    (∀ e : T8103, e.params ≠ [] → e.params.length < 256 → (∀ p ∈ e.params, p.serialized.length < 256) →
      ∃ b n, T8103.encode e = .ok b ∧ T8103.decode {} b = .ok (e, n)) := by
  refine ⟨?_, ?_, ?_, ?_, ?_⟩
  · intro e h; obtain ⟨b, h1, h2⟩ := T8003.round_trip e h; exact ⟨b, _, h1, h2⟩
  · intro e h; obtain ⟨b, h1, -, h2⟩ := TIDs.round_trip e h; exact ⟨b, _, h1, h2⟩
  · intro e h; obtain ⟨b, h1, h2⟩ := T8800.round_trip e h; exact ⟨b, _, h1, h2⟩
  · intro e h; obtain ⟨b, h1, h2⟩ := T0805.round_trip e h; exact ⟨b, _, h1, h2⟩
  · intro e h0 h1 h2; obtain ⟨b, h1, h2⟩ := T8103.round_trip e ⟨h0, h1, h2⟩; exact ⟨b, _, h1, h2⟩

/-- Non-trivial case: three packet ids arrive. -/
example : ∃ b n, T8003.encode { msgSerial := 1, packetIDs := [7, 8, 9] } = .ok b ∧ T8003.decode {} b = .ok ({ msgSerial := 1, packetIDs := [7, 8, 9] }, n) :=
  C17_lists_within_limits_partial.1 _ (by decide)

theorem take_mod_length {α : Type} (xs : List α) (k : Nat) (hk : 0 < k) (h : k ≤ xs.length) :
    (xs.take (xs.length % k)).length < xs.length := by
  rw [List.length_take, Nat.min_eq_left (Nat.mod_le _ _)]
  exact Nat.lt_of_lt_of_le (Nat.mod_lt _ hk) h

/-- C17 is false of the code: a list that is too long for its count encodes without error, and the peer decodes,
without error, a shorter list. -/
theorem C17_refuted :
    (∀ e : T8003, 256 ≤ e.packetIDs.length → ∃ b n d, T8003.encode e = .ok b ∧ T8003.decode {} b = .ok (d, n) ∧
      d.packetIDs.length < e.packetIDs.length) ∧
    (∀ e : TIDs, 256 ≤ e.ids.length → ∃ b n d, TIDs.encode e = .ok b ∧ TIDs.decode {} b = .ok (d, n) ∧ d.ids.length < e.ids.length) ∧
    (∀ e : T8800, 256 ≤ e.retryIDs.length → ∃ b n d, T8800.encode e = .ok b ∧ T8800.decode {} b = .ok (d, n) ∧
      d.retryIDs.length < e.retryIDs.length) ∧
    (∀ e : T0805, 65536 ≤ e.mediaIDs.length → ∃ b n d, T0805.encode e = .ok b ∧ T0805.decode {} b = .ok (d, n) ∧
      d.mediaIDs.length < e.mediaIDs.length) ∧
    (∀ e : T8103, 256 ≤ e.params.length → (∀ p ∈ e.params, p.serialized.length < 256) →
      ∃ b n d, T8103.encode e = .ok b ∧ T8103.decode {} b = .ok (d, n) ∧ d.params.length < e.params.length) := by
  refine ⟨?_, ?_, ?_, ?_, ?_⟩
  · intro e h; obtain ⟨b, h1, n, h2⟩ := C17_resend_request e; exact ⟨b, n, _, h1, h2, take_mod_length _ _ (by omega) h⟩
  · intro e h; obtain ⟨b, h1, n, h2⟩ := C17_ids e; exact ⟨b, n, _, h1, h2, take_mod_length _ _ (by omega) h⟩
  · intro e h; obtain ⟨b, h1, n, h2⟩ := C17_media_resend e; exact ⟨b, n, _, h1, h2, take_mod_length _ _ (by omega) h⟩
  · intro e h; obtain ⟨b, h1, n, h2⟩ := C17_media_ids e; exact ⟨b, n, _, h1, h2, take_mod_length _ _ (by omega) h⟩
  · intro e h h'
    obtain ⟨b, h1, n, h2⟩ := C17_params e (by intro h0; rw [h0] at h; simp at h) h'
    exact ⟨b, n, _, h1, h2, take_mod_length _ _ (by omega) h⟩

/-- A list of 256 packet ids arrives empty. -/
example : ∃ b n, T8003.encode { msgSerial := 1, packetIDs := List.replicate 256 7 } = .ok b ∧
    T8003.decode {} b = .ok ({ msgSerial := 1, packetIDs := [] }, n) := by
  obtain ⟨b, h1, n, h2⟩ := C17_resend_request { msgSerial := 1, packetIDs := List.replicate 256 7 }
  refine ⟨b, n, h1, ?_⟩
  rw [h2]
  simp only [List.length_replicate]
  rfl

/-! ## C47 -/

/-- Body types whose decoder looks at the receiver's previous value: nine append to its list, the others keep an old
value when the bytes do not carry a new one. -/
def keepsOld : List UInt16 :=
  [0x0100, 0x0200, 0x0801, 0x8003, 0x8100, 0x8105, 0x8300, 0x8301, 0x8302, 0x8303, 0x8401, 0x8604, 0x8606, 0x8607, 0x8800]

theorem decode_fresh (env : Env) (e : Entity) (data : Bytes) (h : e.msgID ∉ keepsOld) :
    ∃ e0, Entity.create e.msgID = some e0 ∧ Entity.decode env e data = Entity.decode env e0 data := by
  cases e <;> first | (exfalso; revert h; simp [Entity.msgID, keepsOld]; done) | exact ⟨_, rfl, rfl⟩

/-- C47 for the body types outside `keepsOld`: two values of the same type decode the same bytes to the same result.
Missing: the fifteen types of `keepsOld`, for which it is false (`C47_refuted`). -/
theorem C47_decode_into_used_value_partial (env : Env) (old1 old2 : Entity) (data : Bytes) (ht : old1.msgID = old2.msgID)
    (h : old1.msgID ∉ keepsOld) : Entity.decode env old1 data = Entity.decode env old2 data := by
  obtain ⟨e1, h1, h2⟩ := decode_fresh env old1 data h
  obtain ⟨e2, h3, h4⟩ := decode_fresh env old2 data (by rw [← ht]; exact h)
  rw [ht, h3] at h1
  cases h1
  rw [h2, h4]

/-- Non-trivial case: a parameter list. -/
example : (Entity.m8103 { params := [⟨1, [2]⟩] }).msgID ∉ keepsOld := by decide

/-- C47 is false of the code. A resend request decoded into a used value appends to the old list, and a location
report without extras keeps the old extras. -/
theorem C47_refuted (env : Env) :
    (∀ old e : T8003, e.packetIDs.length < 256 → ∃ b n, T8003.encode e = .ok b ∧
      T8003.decode old b = .ok ({ e with packetIDs := old.packetIDs ++ e.packetIDs }, n)) ∧
    (∀ old e : T0200, Spec.LocationOK env e → e.extras = [] → ∃ b n, T0200.encode env e = .ok (b, e) ∧
      T0200.decode env old b = .ok ({ e with extras := old.extras }, n)) := by
  constructor
  · intro old e h
    refine ⟨put16 e.msgSerial ++ [u8 e.packetIDs.length] ++ e.packetIDs.flatMap put16, ?_⟩
    have hd : ∃ n, T8003.decode old (put16 e.msgSerial ++ [u8 e.packetIDs.length] ++ e.packetIDs.flatMap put16) =
        .ok ({ e with packetIDs := old.packetIDs ++ e.packetIDs }, n) := by
      unfold T8003.decode
      refine decodeMin_some (a := { e with packetIDs := old.packetIDs ++ e.packetIDs }) (rest := []) ?_ ?_
      · simp; omega
      · simp only [List.append_assoc, Rd.bind_u16_put16, List.cons_append, List.nil_append, Rd.bind_byte_cons]
        rw [u8_toNat h, bind_times_flatMap _ _ (fun x s => Rd.u16_put16 x s)]
        rfl
    obtain ⟨n, hd⟩ := hd
    exact ⟨n, rfl, hd⟩
  · intro old e h hx
    obtain ⟨b, h1, -, -⟩ := T0200.round_trip env e h
    have h2 := T0200.encode_base env e h.1 [] (by rw [hx]; rfl)
    rw [List.append_nil] at h2
    have h3 := T0200.decode_base env e h.1 old [] [] rfl
    rw [List.append_nil] at h3
    exact ⟨_, _, h2, h3⟩

end Verif
