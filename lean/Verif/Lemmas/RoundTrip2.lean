import Verif.Lemmas.RoundTrip1
/-! # Body round trips, part 2: protocol/t808_0x8*.go -/

namespace Verif

open Spec (Plain Text AnyText TimeOK TailOK CircleOK RectOK VertexOK PointOK Coord Hemisphere)

theorem T8001.round_trip (e : T0001) : ∃ b, T8001.encode e = .ok b ∧ T8001.decode {} b = .ok (e, b.length) :=
  T0001.round_trip e

theorem T8003.round_trip (e : T8003) (h : e.packetIDs.length < 256) :
    ∃ b, T8003.encode e = .ok b ∧ T8003.decode {} b = .ok (e, b.length) := by
  refine ⟨_, rfl, ?_⟩
  unfold T8003.decode
  rw [decodeMin_eq (rest := []) (a := e) (by simp; omega)]
  · rfl
  · simp only [List.append_assoc, Rd.bind_u16_put16, List.cons_append, List.nil_append, Rd.bind_byte_cons]
    rw [u8_toNat h, bind_times_flatMap _ _ (fun x s => Rd.u16_put16 x s)]
    rfl

theorem T8100.round_trip (env : Env) (e : T8100) (h : AnyText env e.authKey) :
    ∃ b, T8100.encode env e = .ok b ∧ T8100.decode env {} b = .ok (e, b.length) := by
  obtain ⟨t, ht⟩ := h.bytes
  obtain ⟨b, hb1, hb2⟩ := ht.optional
  refine ⟨_, by unfold T8100.encode; rw [hb1]; rfl, ?_⟩
  unfold T8100.decode
  rw [decodeMin_eq (rest := []) (a := e) (by simp; omega)]
  · rfl
  · simp only [List.append_assoc, Rd.bind_u16_put16, List.cons_append, List.nil_append, Rd.bind_byte_cons]
    rw [Rd.bind_ok _ hb2]
    rfl

theorem T8103.round_trip (e : T8103) (h : Spec.ParamsOK e.params) :
    ∃ b, T8103.encode e = .ok b ∧ T8103.decode {} b = .ok (e, b.length) := by
  obtain ⟨h1, h2, h3⟩ := h
  obtain ⟨bs, g1, g2, g3⟩ := encList_times Param.encodeItem Param.decodeItem id 5 e.params fun p hp => Param.item p (h3 p hp)
  have hpos : 0 < e.params.length := List.length_pos_iff.2 h1
  refine ⟨_, by unfold T8103.encode; rw [g1]; rfl, ?_⟩
  unfold T8103.decode
  rw [decodeMin_eq (rest := []) (a := e) (by simp; omega)]
  · rfl
  · simp only [List.cons_append, List.nil_append, Rd.bind_byte_cons]
    rw [u8_toNat h2, bind_times_exact _ g3]
    simp

theorem TByteText.round_trip (env : Env) (e : TByteText) (h : AnyText env e.text) :
    ∃ b, TByteText.encode env e = .ok b ∧ 0 < b.length ∧ TByteText.decode env {} b = .ok (e, b.length - 1) := by
  obtain ⟨t, ht⟩ := h.bytes
  obtain ⟨b, hb1, hb2⟩ := ht.optional
  refine ⟨e.code :: b, by unfold TByteText.encode; rw [hb1]; rfl, by simp, ?_⟩
  unfold TByteText.decode
  rw [if_neg (by simp), slice_to_end _ _ (by simp)]
  simp only [Res.ok_bind, List.drop_succ_cons, List.drop_zero]
  rw [hb2]
  simp only [Res.ok_bind, idx_zero, List.length_cons, List.length_nil]
  rfl

theorem TIDs.round_trip (e : TIDs) (h : e.ids.length < 256) :
    ∃ b, TIDs.encode e = .ok b ∧ 0 < b.length ∧ TIDs.decode {} b = .ok (e, b.length - 1) := by
  refine ⟨u8 e.ids.length :: e.ids.flatMap put32, rfl, by simp, ?_⟩
  unfold TIDs.decode
  rw [if_neg (by simp), idx_zero, slice_to_end _ _ (by simp)]
  simp only [Res.ok_bind, List.drop_succ_cons, List.drop_zero]
  have := Rd.times_flatMap e.ids [] (fun x s => Rd.u32_put32 x s)
  rw [List.append_nil] at this
  rw [u8_toNat h, this]
  rfl

theorem T8607.round_trip (e : TIDs) (h : e.ids.length < 256) :
    ∃ b, TIDs.encode e = .ok b ∧ T8607.decode {} b = .ok (e, b.length) := by
  refine ⟨u8 e.ids.length :: e.ids.flatMap put32, rfl, ?_⟩
  unfold T8607.decode
  rw [decodeMin_eq (rest := []) (a := e) (by simp)]
  · rfl
  · rw [Rd.bind_byte_cons, u8_toNat h, bind_times_flatMap _ _ (fun x s => Rd.u32_put32 x s)]
    rfl

theorem T8108.round_trip (env : Env) (e : T8108) (h1 : Plain e.manufactureID 5) (h2 : Text env e.version 255) :
    ∃ b, T8108.encode env e = .ok b ∧ T8108.decode env {} b = .ok (e, b.length) := by
  obtain ⟨v, v1, v2⟩ := h2.bytes
  refine ⟨_, by unfold T8108.encode; rw [v1.put8]; rfl, ?_⟩
  unfold T8108.decode
  rw [decodeMin_eq (rest := []) (a := e) (by simp; omega)]
  · rfl
  · simp only [List.append_assoc, List.cons_append, List.nil_append, Rd.bind_byte_cons]
    rw [Rd.bind_read_append _ _ _ _ (by simp), Rd.bind_ok _ (v1.str8 v2 _)]
    simp only [Rd.bind_u32_put32, Rd.bind_rest, Rd.pure_apply, bytesToString_putFixed _ _ h1]

theorem T8202.round_trip (e : T8202) : ∃ b, T8202.encode e = .ok b ∧ T8202.decode {} b = .ok (e, b.length) := by
  refine ⟨_, rfl, ?_⟩
  unfold T8202.decode
  rw [decodeMin_eq (rest := []) (a := e) (by simp)]
  · rfl
  · simp only [Rd.bind_u16_put16, Rd.bind_u32_put32_nil, Rd.pure_apply]

theorem T8203.round_trip (e : T8203) : ∃ b, T8203.encode e = .ok b ∧ T8203.decode {} b = .ok (e, b.length) := by
  refine ⟨_, rfl, ?_⟩
  unfold T8203.decode
  rw [decodeMin_eq (rest := []) (a := e) (by simp)]
  · rfl
  · simp only [Rd.bind_u16_put16, Rd.bind_u32_put32_nil, Rd.pure_apply]

theorem IdText.item (env : Env) (x : IdText) (h : Text env x.content 255) :
    ∃ b, IdText.encodeItem env x = .ok b ∧ 2 ≤ b.length ∧ ∀ s, IdText.decodeItem env (b ++ s) = .ok (x, s) := by
  obtain ⟨v, v1, v2⟩ := h.bytes
  refine ⟨_, by unfold IdText.encodeItem; rw [v1.put8]; rfl, by simp, ?_⟩
  intro s
  unfold IdText.decodeItem
  simp only [List.append_assoc, List.cons_append, List.nil_append, Rd.bind_byte_cons]
  rw [Rd.bind_ok _ (v1.str8 v2 _)]
  rfl

theorem T8301.round_trip (env : Env) (e : T8301) (h0 : e.events.length < 256) (h : ∀ x ∈ e.events, Text env x.content 255) :
    ∃ b, T8301.encode env e = .ok b ∧ T8301.decode env {} b = .ok (e, b.length) := by
  obtain ⟨bs, g1, g2, g3⟩ := encList_times (IdText.encodeItem env) (IdText.decodeItem env) id 2 e.events fun p hp => IdText.item env p (h p hp)
  refine ⟨_, by unfold T8301.encode; rw [g1]; rfl, ?_⟩
  unfold T8301.decode
  rw [decodeMin_eq (rest := []) (a := e) (by simp)]
  · rfl
  · simp only [List.cons_append, List.nil_append, Rd.bind_byte_cons]
    rw [u8_toNat h0, bind_times_exact _ g3]
    simp

theorem decodeAnswers_eq (env : Env) (xs : List IdText) (h : ∀ x ∈ xs, Text env x.content 255) :
    ∃ bs, encList (IdText.encodeItem env) xs = .ok bs ∧ ∀ fuel, xs.length ≤ fuel → decodeAnswers env fuel bs = .ok (xs, []) := by
  induction xs with
  | nil =>
    refine ⟨[], rfl, ?_⟩
    intro fuel _
    cases fuel with
    | zero => rfl
    | succ n => rfl
  | cons x xs ih =>
    obtain ⟨b, h1, h2, h3⟩ := IdText.item env x (h x (by simp))
    obtain ⟨bs, g1, g2⟩ := ih fun y hy => h y (by simp [hy])
    refine ⟨b ++ bs, by simp [encList, h1, g1], ?_⟩
    intro fuel hf
    obtain ⟨f, rfl⟩ : ∃ f, fuel = f + 1 := ⟨fuel - 1, by simp at hf; omega⟩
    unfold decodeAnswers
    rw [Rd.bind_len, if_neg (by simp only [List.length_append]; omega), Rd.bind_ok _ (h3 bs),
      Rd.bind_ok _ (g2 f (by simp at hf; omega))]
    rfl

theorem T8302.round_trip (env : Env) (e : T8302) (h0 : Text env e.question 255) (h : ∀ x ∈ e.answers, Text env x.content 255) :
    ∃ b, T8302.encode env e = .ok b ∧ T8302.decode env {} b = .ok (e, b.length) := by
  obtain ⟨q, q1, q2⟩ := h0.bytes
  obtain ⟨bs, g1, g2⟩ := decodeAnswers_eq env e.answers h
  obtain ⟨bs', g1', g3, -⟩ := encList_times (IdText.encodeItem env) (IdText.decodeItem env) id 2 e.answers fun p hp => IdText.item env p (h p hp)
  rw [g1] at g1'
  cases g1'
  refine ⟨_, by unfold T8302.encode; rw [q1.put8, g1]; rfl, ?_⟩
  unfold T8302.decode
  rw [decodeMin_eq (rest := []) (a := e) (by simp)]
  · rfl
  · simp only [List.append_assoc, List.cons_append, List.nil_append, Rd.bind_byte_cons]
    rw [Rd.bind_ok _ (q1.str8 q2 _), Rd.bind_len, Rd.bind_ok _ (g2 _ (by omega))]
    rfl

theorem putStr16_item (env : Env) (x : Bytes) (h : Text env x 65535) :
    ∃ b, putStr16 env x = .ok b ∧ 2 ≤ b.length ∧ ∀ s, Rd.str16 env (b ++ s) = .ok (x, s) := by
  obtain ⟨v, v1, v2⟩ := h.bytes
  refine ⟨_, by unfold putStr16; rw [v1.put]; rfl, by simp, ?_⟩
  intro s
  rw [List.append_assoc]
  exact v1.str16 v2 s

theorem T8303.round_trip (env : Env) (e : T8303) (h0 : e.items.length < 256) (h : ∀ x ∈ e.items, Text env x 65535) :
    ∃ b, T8303.encode env e = .ok b ∧ T8303.decode env {} b = .ok (e, b.length) := by
  obtain ⟨bs, g1, g2, g3⟩ := encList_times (putStr16 env) (Rd.str16 env) id 2 e.items fun p hp => putStr16_item env p (h p hp)
  refine ⟨_, by unfold T8303.encode; rw [g1]; rfl, ?_⟩
  unfold T8303.decode
  rw [decodeMin_eq (rest := []) (a := e) (by simp)]
  · rfl
  · simp only [List.cons_append, List.nil_append, Rd.bind_byte_cons]
    rw [u8_toNat h0, bind_times_exact _ g3]
    simp

theorem T8304.round_trip (env : Env) (e : T8304) (h : Text env e.content 65535) :
    ∃ b, T8304.encode env e = .ok b ∧ T8304.decode env {} b = .ok (e, b.length) := by
  obtain ⟨b, b1, b2, b3⟩ := putStr16_item env e.content h
  refine ⟨_, by unfold T8304.encode; rw [b1]; rfl, ?_⟩
  unfold T8304.decode
  rw [decodeMin_eq (rest := []) (a := e) (by simp; omega)]
  · rfl
  · have := b3 []
    rw [List.append_nil] at this
    rw [List.cons_append, List.nil_append, Rd.bind_byte_cons, Rd.bind_ok _ this]
    rfl

theorem T8400.round_trip (env : Env) (e : T8400) (h : AnyText env e.number) :
    ∃ b, T8400.encode env e = .ok b ∧ T8400.decode env {} b = .ok (e, b.length) := by
  obtain ⟨t, ht⟩ := h.bytes
  refine ⟨e.flag :: t, by unfold T8400.encode; rw [ht.put]; rfl, ?_⟩
  unfold T8400.decode
  rw [decodeMin_eq (rest := []) (a := e) (by simp)]
  · rfl
  · rw [Rd.bind_byte_cons, Rd.bind_ok _ ht.strRest]
    rfl

theorem Contact.item (env : Env) (x : Contact) (h1 : Text env x.number 255) (h2 : Text env x.contact 255) :
    ∃ b, Contact.encodeItem env x = .ok b ∧ 3 ≤ b.length ∧ ∀ s, Contact.decodeItem env (b ++ s) = .ok (x, s) := by
  obtain ⟨v, v1, v2⟩ := h1.bytes
  obtain ⟨w, w1, w2⟩ := h2.bytes
  refine ⟨_, by unfold Contact.encodeItem; rw [v1.put8, w1.put8]; rfl, by simp; omega, ?_⟩
  intro s
  unfold Contact.decodeItem
  simp only [List.append_assoc, List.cons_append, List.nil_append, Rd.bind_byte_cons]
  rw [Rd.bind_ok _ (v1.str8 v2 _), Rd.bind_ok _ (w1.str8 w2 _)]
  rfl

theorem T8401.round_trip (env : Env) (e : T8401) (h0 : e.contacts.length < 256)
    (h : ∀ x ∈ e.contacts, Text env x.number 255 ∧ Text env x.contact 255) :
    ∃ b, T8401.encode env e = .ok b ∧ T8401.decode env {} b = .ok (e, b.length) := by
  obtain ⟨bs, g1, g2, g3⟩ := encList_times (Contact.encodeItem env) (Contact.decodeItem env) id 3 e.contacts
    fun p hp => Contact.item env p (h p hp).1 (h p hp).2
  refine ⟨_, by unfold T8401.encode; rw [g1]; rfl, ?_⟩
  unfold T8401.decode
  rw [decodeMin_eq (rest := []) (a := e) (by simp)]
  · rfl
  · simp only [List.cons_append, List.nil_append, Rd.bind_byte_cons]
    rw [u8_toNat h0, bind_times_exact _ g3]
    simp

theorem T8500.round_trip (e : T8500) : ∃ b, T8500.encode e = .ok b ∧ T8500.decode {} b = .ok (e, b.length) := ⟨_, rfl, rfl⟩

/-! ## Areas -/

theorem mark16 (at' : UInt16) (neg : Bool) (bit : Nat) (h : neg = true → at'.toNat.testBit bit = true) :
    markIf at' neg (bit : Int) = .ok at' := by
  unfold markIf
  split
  · rename_i hv
    obtain ⟨r, hr, hb⟩ := setBitUint16_eq at' bit true
    rw [hr]
    congr 1
    apply UInt16.toNat.inj
    apply Nat.eq_of_testBit_eq
    intro i
    rw [hb, bitWith]
    split
    · rename_i hi; rw [hi.2, h hv]
    · rfl
  · rfl

theorem mark8 (at' : UInt8) (v : Int) (bit : Nat) (h : v < 0 → at'.toNat.testBit bit = true) :
    markByte at' v (bit : Int) = .ok at' := by
  unfold markByte
  split
  · rename_i hv
    obtain ⟨r, hr, hb⟩ := setBitByte_eq at' bit true
    rw [hr]
    congr 1
    apply UInt8.toNat.inj
    apply Nat.eq_of_testBit_eq
    intro i
    rw [hb, bitWith]
    split
    · rename_i hi; rw [hi.2, h hv]
    · rfl
  · rfl

theorem set8_same (at' : UInt8) (bit : Nat) (b : Bool) (h : b = at'.toNat.testBit bit) :
    setBitByte at' (bit : Int) b = .ok at' := by
  obtain ⟨r, hr, hb⟩ := setBitByte_eq at' bit b
  rw [hr]
  congr 1
  apply UInt8.toNat.inj
  apply Nat.eq_of_testBit_eq
  intro i
  rw [hb, bitWith]
  split
  · rename_i hi; rw [hi.2, h]
  · rfl

theorem and_one_eq_zero (a : UInt16) : a &&& 1 = 0 ↔ a.toNat.testBit 0 = false := by
  rw [← UInt16.toNat_inj, UInt16.toNat_and]
  simp [Nat.testBit_zero, Nat.and_one_is_mod]

/-- The optional tail of an area. -/
theorem areaTail (env : Env) (at' : UInt16) (s e : Time) (m : UInt16) (d : UInt8) (h : TailOK env at' s e m d) (rest : Bytes) :
    decodeAreaTail env at' (zeroTime, zeroTime, 0, 0) (encodeAreaTail env at' s e m d ++ rest) = .ok ((s, e, m, d), rest) := by
  unfold TailOK at h
  unfold decodeAreaTail encodeAreaTail
  by_cases hb : at'.toNat.testBit 0 = true
  · rw [if_pos hb] at h
    have : ¬ at' &&& 1 = 0 := by rw [and_one_eq_zero, hb]; simp
    rw [if_neg this, if_neg this]
    simp only [List.append_assoc]
    rw [bind_bcdTime env _ h.1, bind_bcdTime env _ h.2, Rd.bind_u16_put16, List.cons_append, List.nil_append, Rd.bind_byte_cons]
    rfl
  · rw [if_neg hb] at h
    have : at' &&& 1 = 0 := by rw [and_one_eq_zero]; simpa using hb
    rw [if_pos this, if_pos this]
    obtain ⟨h1, h2, h3, h4⟩ := h
    rw [h1, h2, h3, h4]
    rfl

theorem areaTail_length (env : Env) (at' : UInt16) (s e : Time) (m : UInt16) (d : UInt8) (h : TailOK env at' s e m d)
    (hb : at'.toNat.testBit 0 = true) : (encodeAreaTail env at' s e m d).length = 15 := by
  unfold TailOK at h
  rw [if_pos hb] at h
  unfold encodeAreaTail
  have : ¬ at' &&& 1 = 0 := by rw [and_one_eq_zero, hb]; simp
  rw [if_neg this]
  simp [putTime_length env _ h.1, putTime_length env _ h.2]

theorem encListM_times {α : Type} (enc : α → Res (Bytes × α)) (item : Rd α) (m : Nat) (xs : List α)
    (h : ∀ x ∈ xs, ∃ b, enc x = .ok (b, x) ∧ m ≤ b.length ∧ ∀ s, item (b ++ s) = .ok (x, s)) :
    ∃ bs, encListM enc xs = .ok (bs, xs) ∧ m * xs.length ≤ bs.length ∧
      ∀ s, Rd.times xs.length item (bs ++ s) = .ok (xs.map id, s) := by
  induction xs with
  | nil => exact ⟨[], rfl, by simp, fun s => rfl⟩
  | cons x xs ih =>
    obtain ⟨b, h1, h2, h3⟩ := h x (by simp)
    obtain ⟨bs, g1, g2, g3⟩ := ih fun y hy => h y (by simp [hy])
    refine ⟨b ++ bs, by simp [encListM, h1, g1], ?_, ?_⟩
    · simp only [List.length_cons, List.length_append, Nat.mul_add, Nat.mul_one]; omega
    · intro s
      simp only [List.length_cons, Rd.times, List.append_assoc, Rd.bind]
      rw [h3]
      simp only
      rw [g3]
      rfl

theorem neg_imp {d : Dec} {b : Bool} (h : Coord d) (hb : Hemisphere b d) : decide (micro d < 0) = true → b = true := by
  intro hc
  rw [micro_coord d h] at hc
  exact hb.1 (of_decide_eq_true hc)

theorem getBit16_nat (v : UInt16) (i : Nat) : getBitUint16 v (i : Int) = .ok (v.toNat.testBit i) := getBitUint16_eq v i

theorem CircleArea.item (env : Env) (a : CircleArea) (h : CircleOK env a) :
    ∃ b, CircleArea.encodeItem env a = .ok (b, a) ∧ 18 ≤ b.length ∧ ∀ s, CircleArea.decodeItem env (b ++ s) = .ok (a, s) := by
  obtain ⟨h1, h2, h3, h4, h5⟩ := h
  refine ⟨put32 a.id ++ put16 a.attr ++ put32 (absU32 (micro a.lat)) ++ put32 (absU32 (micro a.lng)) ++ put32 a.radius ++
    encodeAreaTail env a.attr a.startTime a.endTime a.maxSpeed a.duration, ?_, by simp; omega, ?_⟩
  · unfold CircleArea.encodeItem
    have m1 := mark16 a.attr (decide (micro a.lat < 0)) 6 (neg_imp h1 h3)
    have m2 := mark16 a.attr (decide (micro a.lng < 0)) 7 (neg_imp h2 h4)
    simp only
    rw [show ((6 : Nat) : Int) = 6 from rfl] at m1
    rw [show ((7 : Nat) : Int) = 7 from rfl] at m2
    rw [m1]
    simp only [Res.ok_bind]
    rw [m2]
    rfl
  · intro s
    have g6 : getBitUint16 a.attr 6 = .ok (a.attr.toNat.testBit 6) := getBit16_nat a.attr 6
    have g7 : getBitUint16 a.attr 7 = .ok (a.attr.toNat.testBit 7) := getBit16_nat a.attr 7
    unfold CircleArea.decodeItem
    simp only [List.append_assoc, Rd.bind_u32_put32, Rd.bind_u16_put16, g6, g7, Rd.bind_lift_ok]
    rw [Rd.bind_ok _ (areaTail env _ _ _ _ _ h5 s)]
    simp only [Rd.pure_apply, getGeoPoint_eq, geoCoord_coord _ _ h1 h3, geoCoord_coord _ _ h2 h4]

theorem T8600.round_trip (env : Env) (e : T8600) (h1 : e.items ≠ []) (h2 : e.items.length < 256) (h3 : ∀ a ∈ e.items, CircleOK env a) :
    ∃ b, T8600.encode env e = .ok (b, e) ∧ T8600.decode env {} b = .ok (e, b.length) := by
  obtain ⟨bs, g1, g2, g3⟩ := encListM_times (CircleArea.encodeItem env) (CircleArea.decodeItem env) 18 e.items
    fun p hp => CircleArea.item env p (h3 p hp)
  have hpos : 0 < e.items.length := List.length_pos_iff.2 h1
  refine ⟨[e.action, u8 e.items.length] ++ bs, by unfold T8600.encode; rw [g1]; rfl, ?_⟩
  unfold T8600.decode
  rw [decodeMin_eq (rest := []) (a := e) (by simp; omega)]
  · rfl
  · simp only [List.cons_append, List.nil_append, Rd.bind_byte_cons]
    rw [u8_toNat h2, bind_times_exact _ g3]
    simp

theorem RectArea.item (env : Env) (a : RectArea) (h : RectOK env a) :
    ∃ b, RectArea.encodeItem env a = .ok (b, a) ∧ 22 ≤ b.length ∧ ∀ s, RectArea.decodeItem env (b ++ s) = .ok (a, s) := by
  obtain ⟨c1, c2, c3, c4, h1, h2, h3, h4, h5⟩ := h
  refine ⟨put32 a.id ++ put16 a.attr ++ put32 (absU32 (micro a.leftTopLat)) ++ put32 (absU32 (micro a.leftTopLon)) ++
    put32 (absU32 (micro a.rightBottomLat)) ++ put32 (absU32 (micro a.rightBottomLon)) ++
    encodeAreaTail env a.attr a.startTime a.endTime a.maxSpeed a.duration, ?_, by simp; omega, ?_⟩
  · unfold RectArea.encodeItem
    have m1 := mark16 a.attr (decide (micro a.leftTopLat < 0)) 6 (neg_imp c1 h1)
    have m2 := mark16 a.attr (decide (micro a.leftTopLon < 0)) 7 (neg_imp c2 h2)
    have m3 := mark16 a.attr (decide (micro a.rightBottomLat < 0)) 6 (neg_imp c3 h3)
    have m4 := mark16 a.attr (decide (micro a.rightBottomLon < 0)) 7 (neg_imp c4 h4)
    simp only
    rw [show ((6 : Nat) : Int) = 6 from rfl] at m1 m3
    rw [show ((7 : Nat) : Int) = 7 from rfl] at m2 m4
    rw [m1]
    simp only [Res.ok_bind]
    rw [m2]
    simp only [Res.ok_bind]
    rw [m3]
    simp only [Res.ok_bind]
    rw [m4]
    rfl
  · intro s
    have g6 : getBitUint16 a.attr 6 = .ok (a.attr.toNat.testBit 6) := getBit16_nat a.attr 6
    have g7 : getBitUint16 a.attr 7 = .ok (a.attr.toNat.testBit 7) := getBit16_nat a.attr 7
    unfold RectArea.decodeItem
    simp only [List.append_assoc, Rd.bind_u32_put32, Rd.bind_u16_put16, g6, g7, Rd.bind_lift_ok]
    rw [Rd.bind_ok _ (areaTail env _ _ _ _ _ h5 s)]
    simp only [Rd.pure_apply, getGeoPoint_eq, geoCoord_coord _ _ c1 h1, geoCoord_coord _ _ c2 h2, geoCoord_coord _ _ c3 h3,
      geoCoord_coord _ _ c4 h4]

theorem T8602.round_trip (env : Env) (e : T8602) (h1 : e.items ≠ []) (h2 : e.items.length < 256) (h3 : ∀ a ∈ e.items, RectOK env a) :
    ∃ b, T8602.encode env e = .ok (b, e) ∧ T8602.decode env {} b = .ok (e, b.length) := by
  obtain ⟨bs, g1, g2, g3⟩ := encListM_times (RectArea.encodeItem env) (RectArea.decodeItem env) 22 e.items
    fun p hp => RectArea.item env p (h3 p hp)
  have hpos : 0 < e.items.length := List.length_pos_iff.2 h1
  refine ⟨[e.action, u8 e.items.length] ++ bs, by unfold T8602.encode; rw [g1]; rfl, ?_⟩
  unfold T8602.decode
  rw [decodeMin_eq (rest := []) (a := e) (by simp; omega)]
  · rfl
  · simp only [List.cons_append, List.nil_append, Rd.bind_byte_cons]
    rw [u8_toNat h2, bind_times_exact _ g3]
    simp

theorem Dec.isNeg_coord (d : Dec) : (d.mul Dec.million).isNeg = decide (d.value < 0) := by
  simp [Dec.mul, Dec.million, Dec.isNeg]

theorem markVertexes_same (at' : UInt16) (vs : List Vertex) (h : ∀ v ∈ vs, VertexOK at' v) : markVertexes at' vs = .ok at' := by
  induction vs with
  | nil => rfl
  | cons v vs ih =>
    obtain ⟨h1, h2, h3, h4⟩ := h v (by simp)
    have m1 := mark16 at' (v.lat.mul Dec.million).isNeg 6 (by rw [Dec.isNeg_coord]; exact fun hc => h3.1 (of_decide_eq_true hc))
    have m2 := mark16 at' (v.lng.mul Dec.million).isNeg 7 (by rw [Dec.isNeg_coord]; exact fun hc => h4.1 (of_decide_eq_true hc))
    rw [show ((6 : Nat) : Int) = 6 from rfl] at m1
    rw [show ((7 : Nat) : Int) = 7 from rfl] at m2
    unfold markVertexes
    rw [m1]
    simp only [Res.ok_bind]
    rw [m2]
    exact ih fun w hw => h w (by simp [hw])

theorem encList_ok_flatMap {α : Type} (f : α → Bytes) (xs : List α) : encList (fun x => .ok (f x)) xs = .ok (xs.flatMap f) := by
  induction xs with
  | nil => rfl
  | cons x xs ih => simp [encList, ih]

theorem Vertex.item (at' : UInt16) (v : Vertex) (h : VertexOK at' v) (s : Bytes) :
    Vertex.decodeItem at' (put32 (absU32 (micro v.lat)) ++ (put32 (absU32 (micro v.lng)) ++ s)) = .ok (v, s) := by
  have g6 : getBitUint16 at' 6 = .ok (at'.toNat.testBit 6) := getBit16_nat at' 6
  have g7 : getBitUint16 at' 7 = .ok (at'.toNat.testBit 7) := getBit16_nat at' 7
  obtain ⟨h1, h2, h3, h4⟩ := h
  unfold Vertex.decodeItem
  simp only [Rd.bind_u32_put32, g6, g7, Rd.bind_lift_ok, Rd.pure_apply, getGeoPoint_eq, geoCoord_coord _ _ h1 h3,
    geoCoord_coord _ _ h2 h4]

theorem vertexes_times (at' : UInt16) (vs : List Vertex) (h : ∀ v ∈ vs, VertexOK at' v) (s : Bytes) :
    Rd.times vs.length (Vertex.decodeItem at') (vs.flatMap (fun v => put32 (absU32 (micro v.lat)) ++ put32 (absU32 (micro v.lng))) ++ s) =
      .ok (vs.map id, s) := by
  induction vs with
  | nil => rfl
  | cons v vs ih =>
    simp only [List.flatMap_cons, List.length_cons, Rd.times, List.append_assoc, Rd.bind]
    rw [Vertex.item at' v (h v (by simp))]
    simp only
    rw [ih fun w hw => h w (by simp [hw])]
    rfl

theorem T8604.round_trip (env : Env) (e : T8604) (h0 : e.vertexes ≠ [] ∨ e.attr.toNat.testBit 0 = true) (h1 : e.vertexes.length < 65536)
    (h2 : ∀ v ∈ e.vertexes, VertexOK e.attr v) (h3 : TailOK env e.attr e.startTime e.endTime e.maxSpeed e.duration) :
    ∃ b, T8604.encode env e = .ok (b, e) ∧ T8604.decode env {} b = .ok (e, b.length) := by
  refine ⟨_, by unfold T8604.encode; rw [markVertexes_same _ _ h2]; rfl, ?_⟩
  unfold T8604.decode
  rw [decodeMin_eq (rest := []) (a := e)]
  · rfl
  · have hl := flatMap_length_const (fun v : Vertex => put32 (absU32 (micro v.lat)) ++ put32 (absU32 (micro v.lng))) 8 (by simp) e.vertexes
    simp only [List.length_append, put32_length, put16_length, hl]
    rcases h0 with h0 | h0
    · have : 0 < e.vertexes.length := List.length_pos_iff.2 h0
      omega
    · rw [areaTail_length env _ _ _ _ _ h3 h0]
      omega
  · simp only [List.append_assoc, Rd.bind_u32_put32, Rd.bind_u16_put16]
    rw [Rd.bind_ok _ (areaTail env _ _ _ _ _ h3 _), Rd.bind_u16_put16, u16_toNat h1, bind_times_exact _ (vertexes_times e.attr e.vertexes h2)]
    simp

theorem getBit8_nat (v : UInt8) (i : Nat) : getBitByte v (i : Int) = .ok (v.toNat.testBit i) := getBitByte_eq v i

theorem RoutePoint.item (p : RoutePoint) (h : PointOK p) :
    ∃ b, RoutePoint.encodeItem p = .ok b ∧ 18 ≤ b.length ∧ ∀ s, RoutePoint.decodeItem (b ++ s) = .ok (p, s) := by
  obtain ⟨h1, h2, h3, h4, t1, t2, s1, s2⟩ := h
  have m1 := mark8 p.attr (micro p.lat) 2 (by rw [micro_coord _ h1]; exact h3.1)
  have m2 := mark8 p.attr (micro p.lng) 3 (by rw [micro_coord _ h2]; exact h4.1)
  have m3 := set8_same p.attr 0 (p.timeTooLong.isSome && p.timeTooShort.isSome) (by rw [t1, t2]; simp)
  have m4 := set8_same p.attr 1 (p.maxSpeed.isSome && p.overSpeedDuration.isSome) (by rw [s1, s2]; simp)
  have g0 : getBitByte p.attr 0 = .ok (p.attr.toNat.testBit 0) := getBit8_nat p.attr 0
  have g1 : getBitByte p.attr 1 = .ok (p.attr.toNat.testBit 1) := getBit8_nat p.attr 1
  have g2 : getBitByte p.attr 2 = .ok (p.attr.toNat.testBit 2) := getBit8_nat p.attr 2
  have g3 : getBitByte p.attr 3 = .ok (p.attr.toNat.testBit 3) := getBit8_nat p.attr 3
  rw [show ((2 : Nat) : Int) = 2 from rfl] at m1
  rw [show ((3 : Nat) : Int) = 3 from rfl] at m2
  rw [show ((0 : Nat) : Int) = 0 from rfl] at m3
  rw [show ((1 : Nat) : Int) = 1 from rfl] at m4
  refine ⟨_, by unfold RoutePoint.encodeItem; simp only; rw [m1]; simp only [Res.ok_bind]; rw [m2]; simp only [Res.ok_bind]; rw [m3]; simp only [Res.ok_bind]; rw [m4]; rfl, by simp; omega, ?_⟩
  intro s
  unfold RoutePoint.decodeItem
  simp only [List.append_assoc, List.cons_append, List.nil_append, Rd.bind_u32_put32, Rd.bind_byte_cons, g0, g1, g2, g3, Rd.bind_lift_ok,
    getGeoPoint_eq, geoCoord_coord _ _ h1 h3, geoCoord_coord _ _ h2 h4]
  obtain ⟨i, sec, la, ln, w, at', tl, ts, ms, od⟩ := p
  simp only at *
  generalize at'.toNat.testBit 0 = b0 at *
  generalize at'.toNat.testBit 1 = b1 at *
  cases tl <;> cases ts <;> simp at t1 t2 <;> subst t1 <;> (try cases t2) <;>
    cases ms <;> cases od <;> simp at s1 s2 <;> subst s1 <;> (try cases s2) <;> simp

theorem T8606.round_trip (env : Env) (e : T8606) (h1 : TimeOK env e.startTime) (h2 : TimeOK env e.endTime) (h3 : e.points.length < 65536)
    (h4 : ∀ p ∈ e.points, PointOK p) : ∃ b, T8606.encode env e = .ok b ∧ T8606.decode env {} b = .ok (e, b.length) := by
  obtain ⟨bs, g1, g2, g3⟩ := encList_times RoutePoint.encodeItem RoutePoint.decodeItem _root_.id 18 e.points fun p hp => RoutePoint.item p (h4 p hp)
  refine ⟨_, by unfold T8606.encode; rw [g1]; rfl, ?_⟩
  unfold T8606.decode
  rw [decodeMin_eq (rest := []) (a := e) (by simp [putTime_length env _ h1, putTime_length env _ h2]; omega)]
  · rfl
  · simp only [List.append_assoc, Rd.bind_u32_put32, Rd.bind_u16_put16]
    rw [bind_bcdTime env _ h1, bind_bcdTime env _ h2, Rd.bind_u16_put16, u16_toNat h3, bind_times_exact _ g3]
    simp

theorem T8700.round_trip (e : T8700) : ∃ b, T8700.encode e = .ok b ∧ T8700.decode {} b = .ok (e, b.length) := by
  refine ⟨e.cmd :: e.data, rfl, ?_⟩
  unfold T8700.decode
  rw [decodeMin_eq (rest := []) (a := e) (by simp)]
  · rfl
  · rfl

theorem T8800.round_trip (e : T8800) (h : e.retryIDs.length < 256) :
    ∃ b, T8800.encode e = .ok b ∧ T8800.decode {} b = .ok (e, b.length) := by
  unfold T8800.encode
  by_cases h0 : e.retryIDs.length = 0
  · rw [if_pos h0]
    refine ⟨_, rfl, ?_⟩
    unfold T8800.decode
    rw [decodeMin_eq (rest := []) (a := e) (by simp)]
    · rfl
    · rw [Rd.bind_u32_put32_nil, Rd.bind_len, if_pos (by rfl)]
      obtain ⟨i, r⟩ := e
      have : r = [] := List.length_eq_zero_iff.1 h0
      subst this
      rfl
  · rw [if_neg h0]
    refine ⟨_, rfl, ?_⟩
    unfold T8800.decode
    rw [decodeMin_eq (rest := []) (a := e) (by simp)]
    · rfl
    · simp only [List.append_assoc, Rd.bind_u32_put32, List.cons_append, List.nil_append, Rd.bind_len]
      rw [if_neg (by simp), Rd.bind_byte_cons, u8_toNat h, bind_times_flatMap _ _ (fun x s => Rd.u16_put16 x s)]
      rfl

theorem T8801.round_trip (e : T8801) : ∃ b, T8801.encode e = .ok b ∧ T8801.decode {} b = .ok (e, b.length) := by
  refine ⟨_, rfl, ?_⟩
  unfold T8801.decode
  rw [decodeMin_eq (rest := []) (a := e) (by simp)]
  · rfl
  · simp only [List.append_assoc, List.cons_append, List.nil_append, Rd.bind_byte_cons, Rd.bind_u16_put16, Rd.pure_apply]

theorem T8802.round_trip (env : Env) (e : T8802) (h1 : TimeOK env e.startTime) (h2 : TimeOK env e.endTime) :
    ∃ b, T8802.encode env e = .ok b ∧ T8802.decode env {} b = .ok (e, b.length) := by
  have l1 := putTime_length env _ h1
  have l2 := putTime_length env _ h2
  refine ⟨_, rfl, ?_⟩
  unfold T8802.decode
  rw [decodeMin_eq (rest := []) (a := e) (by simp [l1, l2])]
  · rfl
  · have hb := bcdTime_putTime env e.endTime h2 []
    rw [List.append_nil] at hb
    simp only [List.append_assoc, List.cons_append, List.nil_append, Rd.bind_byte_cons]
    rw [bind_bcdTime env _ h1, Rd.bind_ok _ hb]
    rfl

theorem T8803.round_trip (env : Env) (e : T8803) (h1 : TimeOK env e.startTime) (h2 : TimeOK env e.endTime) :
    ∃ b, T8803.encode env e = .ok b ∧ T8803.decode env {} b = .ok (e, b.length) := by
  have l1 := putTime_length env _ h1
  have l2 := putTime_length env _ h2
  refine ⟨_, rfl, ?_⟩
  unfold T8803.decode
  rw [decodeMin_eq (rest := []) (a := e) (by simp [l1, l2])]
  · rfl
  · simp only [List.append_assoc, List.cons_append, List.nil_append, Rd.bind_byte_cons]
    rw [bind_bcdTime env _ h1, bind_bcdTime env _ h2]
    rfl

theorem T8804.round_trip (e : T8804) : ∃ b, T8804.encode e = .ok b ∧ T8804.decode {} b = .ok (e, b.length) := by
  refine ⟨_, rfl, ?_⟩
  unfold T8804.decode
  rw [decodeMin_eq (rest := []) (a := e) (by simp)]
  · rfl
  · simp only [List.append_assoc, List.cons_append, List.nil_append, Rd.bind_byte_cons, Rd.bind_u16_put16, Rd.pure_apply]

theorem T8805.round_trip (e : T8805) : ∃ b, T8805.encode e = .ok b ∧ T8805.decode {} b = .ok (e, b.length) := by
  refine ⟨_, rfl, ?_⟩
  unfold T8805.decode
  rw [decodeMin_eq (rest := []) (a := e) (by simp)]
  · rfl
  · simp only [Rd.bind_byte_cons, Rd.bind_u32_put32, Rd.pure_apply]

end Verif
