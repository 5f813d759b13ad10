import Verif.Lemmas.Location
import Verif.Lemmas.Numbers
/-! # Body round trips, part 1: protocol/t808_0x0*.go -/

namespace Verif

open Spec (Plain Text AnyText Number TimeOK DateOK LocationOK BaseOK KeyOK)

theorem u8_toNat {n : Nat} (h : n < 256) : (u8 n).toNat = n := by simp; omega
theorem u16_toNat {n : Nat} (h : n < 65536) : (UInt16.ofNat n).toNat = n := by simp; omega

/-- Lists whose items read back one by one. -/
theorem encList_times {α β : Type} (enc : α → Res Bytes) (item : Rd β) (norm : α → β) (m : Nat) (xs : List α)
    (h : ∀ x ∈ xs, ∃ b, enc x = .ok b ∧ m ≤ b.length ∧ ∀ s, item (b ++ s) = .ok (norm x, s)) :
    ∃ bs, encList enc xs = .ok bs ∧ m * xs.length ≤ bs.length ∧
      ∀ s, Rd.times xs.length item (bs ++ s) = .ok (xs.map norm, s) := by
  induction xs with
  | nil => exact ⟨[], rfl, by simp, fun s => rfl⟩
  | cons x xs ih =>
    obtain ⟨b, h1, h2, h3⟩ := h x (by simp)
    obtain ⟨bs, g1, g2, g3⟩ := ih fun y hy => h y (by simp [hy])
    refine ⟨b ++ bs, by simp [encList, h1, g1], ?_, ?_⟩
    · simp only [List.length_cons, List.length_append, Nat.mul_add, Nat.mul_one]; omega
    · intro s
      simp only [List.length_cons, Rd.times, List.append_assoc, Rd.bind]
      rw [h3]
      simp only
      rw [g3]
      rfl

theorem bind_times_exact {α β γ : Type} {item : Rd β} {xs : List α} {norm : α → β} {bs : Bytes} (f : List β → Rd γ)
    (h : ∀ s, Rd.times xs.length item (bs ++ s) = .ok (xs.map norm, s)) :
    (Rd.times xs.length item >>= f) bs = f (xs.map norm) [] := by
  refine Rd.bind_ok f ?_
  have := h []
  rwa [List.append_nil] at this

theorem bind_times_flatMap {α β : Type} {enc : α → Bytes} {item : Rd α} (xs : List α) (f : List α → Rd β)
    (h : ∀ x s, item (enc x ++ s) = .ok (x, s)) :
    (Rd.times xs.length item >>= f) (xs.flatMap enc) = f xs [] := by
  refine Rd.bind_ok f ?_
  have := Rd.times_flatMap xs [] h
  rwa [List.append_nil] at this

theorem flatMap_length_const {α : Type} (f : α → Bytes) (k : Nat) (h : ∀ x, (f x).length = k) (xs : List α) :
    (xs.flatMap f).length = k * xs.length := by
  induction xs with
  | nil => simp
  | cons x xs ih => rw [List.flatMap_cons, List.length_append, h, ih, List.length_cons, Nat.mul_add]; omega

theorem T0001.round_trip (e : T0001) : ∃ b, T0001.encode e = .ok b ∧ T0001.decode {} b = .ok (e, b.length) := by
  refine ⟨_, rfl, ?_⟩
  unfold T0001.decode
  rw [decodeMin_eq (rest := []) (a := e) (by simp)]
  · rfl
  · simp only [List.append_assoc, Rd.bind_u16_put16, Rd.bind_byte_cons, Rd.pure_apply]

theorem T0100.round_trip (env : Env) (e : T0100) (h1 : Plain e.manufactureID 5) (h2 : Plain e.model 20)
    (h3 : Plain e.terminalID 7) (h4 : AnyText env e.licenseNo) :
    ∃ b, T0100.encode env e = .ok b ∧ T0100.decode env {} b = .ok (e, b.length) := by
  obtain ⟨t, ht⟩ := h4.bytes
  obtain ⟨b, hb1, hb2⟩ := ht.optional
  refine ⟨_, by unfold T0100.encode; rw [hb1]; rfl, ?_⟩
  unfold T0100.decode
  rw [decodeMin_eq (rest := []) (a := e) (by simp; omega)]
  · rfl
  · simp only [List.append_assoc, Rd.bind_u16_put16, List.cons_append, List.nil_append]
    rw [Rd.bind_read_append _ _ _ _ (by simp), Rd.bind_read_append _ _ _ _ (by simp), Rd.bind_read_append _ _ _ _ (by simp),
      Rd.bind_byte_cons, Rd.bind_ok _ hb2]
    simp only [bytesToString_putFixed _ _ h1, bytesToString_putFixed _ _ h2, bytesToString_putFixed _ _ h3, Rd.pure_apply]

theorem TextBytes.length_pos {env : Env} {s b : Bytes} (h : TextBytes env s b) (hs : s ≠ []) : 0 < b.length := by
  have := h.ne hs
  cases b <;> simp_all

theorem T0102.round_trip (env : Env) (e : T0102) (h0 : e.authKey ≠ []) (h : AnyText env e.authKey) :
    ∃ b, T0102.encode env e = .ok b ∧ T0102.decode env {} b = .ok (e, b.length) := by
  obtain ⟨t, ht⟩ := h.bytes
  refine ⟨t, ht.nonempty h0, ?_⟩
  unfold T0102.decode runDecode
  rw [if_neg (by have := ht.length_pos h0; omega), Rd.bind_ok _ ht.strRest]
  rfl

theorem Param.item (p : Param) (h : p.serialized.length < 256) :
    ∃ b, Param.encodeItem p = .ok b ∧ 5 ≤ b.length ∧ ∀ s, Param.decodeItem (b ++ s) = .ok (p, s) := by
  refine ⟨_, rfl, by simp; omega, ?_⟩
  intro s
  unfold Param.decodeItem
  simp only [List.append_assoc, Rd.bind_u32_put32, List.cons_append, List.nil_append, Rd.bind_byte_cons]
  rw [Rd.bind_read_append _ _ _ _ (u8_toNat h).symm]
  rfl

theorem T0104.round_trip (e : T0104) (h : Spec.ParamsOK e.params) :
    ∃ b, T0104.encode e = .ok b ∧ T0104.decode {} b = .ok (e, b.length) := by
  obtain ⟨h1, h2, h3⟩ := h
  obtain ⟨bs, g1, g2, g3⟩ := encList_times Param.encodeItem Param.decodeItem id 5 e.params fun p hp => Param.item p (h3 p hp)
  have hpos : 0 < e.params.length := List.length_pos_iff.2 h1
  refine ⟨_, by unfold T0104.encode; rw [g1]; rfl, ?_⟩
  unfold T0104.decode
  rw [decodeMin_eq (rest := []) (a := e) (by simp; omega)]
  · rfl
  · simp only [List.append_assoc, Rd.bind_u16_put16, List.cons_append, List.nil_append, Rd.bind_byte_cons]
    rw [u8_toNat h2, bind_times_exact _ g3]
    simp

theorem T0107.round_trip (e : T0107) (h1 : Plain e.manufactureID 5) (h2 : Plain e.model 20) (h3 : Plain e.terminalID 7)
    (h4 : Number e.sim 20) (h5 : Plain e.hardwareVersion 255) (h6 : Plain e.softwareVersion 255) :
    ∃ b, T0107.encode e = .ok b ∧ T0107.decode {} b = .ok (e, b.length) := by
  obtain ⟨n1, n2⟩ := bcd_number e.sim 10 h4
  refine ⟨_, rfl, ?_⟩
  unfold T0107.decode
  rw [decodeMin_eq (rest := []) (a := e) (by simp [n1]; omega)]
  · rfl
  · simp only [List.append_assoc, Rd.bind_u16_put16, List.cons_append, List.nil_append]
    rw [Rd.bind_read_append _ _ _ _ (by simp), Rd.bind_read_append _ _ _ _ (by simp), Rd.bind_read_append _ _ _ _ (by simp),
      Rd.bind_read_append _ _ _ _ n1]
    simp only [Rd.bind_byte_cons]
    rw [Rd.bind_read_append _ _ _ _ (u8_toNat (by have := h5.1; omega)).symm]
    simp only [Rd.bind_byte_cons]
    rw [Rd.bind_read_append _ _ _ _ (u8_toNat (by have := h6.1; omega)).symm, u8_toNat (by have := h6.1; omega),
      slice_from_zero _ _ (Nat.le_refl _)]
    simp only [Rd.bind_lift_ok, Rd.bind_byte_cons, List.take_length, Rd.pure_apply, n2, bytesToString_putFixed _ _ h1,
      bytesToString_putFixed _ _ h2, bytesToString_putFixed _ _ h3, bytesToString_self _ h5.2, bytesToString_self _ h6.2]

theorem T0108.round_trip (e : T0108) : ∃ b, T0108.encode e = .ok b ∧ T0108.decode {} b = .ok (e, b.length) :=
  ⟨_, rfl, rfl⟩

theorem T0201.round_trip (env : Env) (e : T0201) (h : LocationOK env e.result) : ∃ b, T0201.encode env e = .ok (b, e) ∧
    b.length = 30 + Spec.extrasSize e.result.extras ∧
    T0201.decode env {} b = .ok ({ e with result := Spec.dropCache e.result }, 30) := by
  obtain ⟨b, h1, h2, h3⟩ := T0200.round_trip env e.result h
  refine ⟨put16 e.replySerial ++ b, ?_, by simp [h2]; omega, ?_⟩
  · unfold T0201.encode; rw [h1]; rfl
  · unfold T0201.decode
    rw [if_neg (by simp; omega), Rd.u16_put16]
    simp only [Res.ok_bind, List.length_append, put16_length]
    rw [show 2 + b.length - b.length = 2 by omega, show 2 + b.length = (put16 e.replySerial ++ b).length by simp,
      slice_to_end _ _ (by simp)]
    rw [show (put16 e.replySerial ++ b).drop 2 = b from rfl]
    simp only [Res.ok_bind]
    rw [h3]
    rfl

theorem T0301.round_trip (e : T0301) : ∃ b, T0301.encode e = .ok b ∧ T0301.decode {} b = .ok (e, b.length) :=
  ⟨_, rfl, rfl⟩

theorem T0302.round_trip (e : T0302) : ∃ b, T0302.encode e = .ok b ∧ T0302.decode {} b = .ok (e, b.length) := by
  refine ⟨_, rfl, ?_⟩
  unfold T0302.decode
  rw [decodeMin_eq (rest := []) (a := e) (by simp)]
  · rfl
  · have h1 : Rd.ignoreErr Rd.u16 0 (put16 e.replySerial ++ [e.answerID]) = .ok (e.replySerial, [e.answerID]) := by
      unfold Rd.ignoreErr; rw [Rd.u16_put16]
    rw [Rd.bind_ok _ h1]
    rfl

theorem T0303.round_trip (e : T0303) : ∃ b, T0303.encode e = .ok b ∧ b.length = 2 ∧ T0303.decode {} b = .ok (e, 1) :=
  ⟨_, rfl, rfl, rfl⟩

theorem T0700.round_trip (e : T0700) : ∃ b, T0700.encode e = .ok b ∧ T0700.decode {} b = .ok (e, b.length) := by
  refine ⟨_, rfl, ?_⟩
  unfold T0700.decode
  rw [decodeMin_eq (rest := []) (a := e) (by simp; omega)]
  · rfl
  · simp only [List.append_assoc, Rd.bind_u16_put16, List.cons_append, List.nil_append, Rd.bind_byte_cons, Rd.bind_rest, Rd.pure_apply]

theorem T0701.round_trip (e : T0701) : ∃ b, T0701.encode e = .ok b ∧ T0701.decode {} b = .ok (e, b.length) := by
  refine ⟨_, rfl, ?_⟩
  unfold T0701.decode
  rw [decodeMin_eq (rest := []) (a := e) (by simp)]
  · rfl
  · simp only [List.append_assoc, Rd.bind_u32_put32, Rd.bind_rest, Rd.pure_apply]

theorem T0702.round_trip (env : Env) (e : T0702) (h1 : TimeOK env e.time) (h2 : Text env e.driverName 255)
    (h3 : Text env e.number 20) (h4 : Text env e.companyName 255) (h5 : DateOK env e.expiryDate) :
    ∃ b, T0702.encode env e = .ok b ∧ T0702.decode env {} b = .ok (e, b.length) := by
  obtain ⟨dn, d1, d2⟩ := h2.bytes
  obtain ⟨nu, n1, n2⟩ := h3.bytes
  obtain ⟨cn, c1, c2⟩ := h4.bytes
  obtain ⟨x1, x2⟩ := date_round_trip env e.expiryDate h5
  refine ⟨_, by unfold T0702.encode; rw [d1.put8, n1.putFixed, c1.put8]; rfl, ?_⟩
  unfold T0702.decode
  have ht := putTime_length env e.time h1
  rw [decodeMin_eq (rest := []) (a := e) (by simp [x1, ht]; omega)]
  · rfl
  · simp only [List.append_assoc, List.cons_append, List.nil_append, Rd.bind_byte_cons]
    rw [bind_bcdTime env _ h1, Rd.bind_byte_cons, Rd.bind_ok _ (d1.str8 d2 _), Rd.bind_ok _ (n1.strFixed 20 n2 _),
      Rd.bind_ok _ (c1.str8 c2 _), Rd.bind_read_exact _ _ _ x1, x2]
    rfl

theorem T0704.item (env : Env) (p : T0200) (h : LocationOK env p) (hs : 28 + Spec.extrasSize p.extras < 65536) :
    ∃ b, T0704.encodeItem env p = .ok b ∧ 0 ≤ b.length ∧ ∀ s, T0704.decodeItem env (b ++ s) = .ok (Spec.dropCache p, s) := by
  obtain ⟨b, h1, h2, h3⟩ := T0200.round_trip env p h
  refine ⟨put16 (UInt16.ofNat b.length) ++ b, by unfold T0704.encodeItem; rw [h1]; rfl, by omega, ?_⟩
  intro s
  unfold T0704.decodeItem
  rw [List.append_assoc, Rd.bind_u16_put16, Rd.bind_read_append _ _ _ _ (u16_toNat (by omega)).symm, h3]
  rfl

theorem T0704.round_trip (env : Env) (e : T0704) (h0 : e.items.length < 65536)
    (h : ∀ i ∈ e.items, LocationOK env i ∧ 28 + Spec.extrasSize i.extras < 65536) :
    ∃ b, T0704.encode env e = .ok b ∧ T0704.decode env {} b = .ok ({ e with items := e.items.map Spec.dropCache }, b.length) := by
  obtain ⟨bs, g1, g2, g3⟩ := encList_times (T0704.encodeItem env) (T0704.decodeItem env) Spec.dropCache 0 e.items
    fun p hp => T0704.item env p (h p hp).1 (h p hp).2
  refine ⟨_, by unfold T0704.encode; rw [g1]; rfl, ?_⟩
  unfold T0704.decode
  rw [decodeMin_eq (rest := []) (a := { e with items := e.items.map Spec.dropCache }) (by simp; omega)]
  · rfl
  · simp only [List.append_assoc, Rd.bind_u16_put16, List.cons_append, List.nil_append, Rd.bind_byte_cons]
    rw [u16_toNat h0, bind_times_exact _ g3]
    rfl

theorem T0800.round_trip (e : T0800) : ∃ b, T0800.encode e = .ok b ∧ T0800.decode {} b = .ok (e, b.length) := by
  refine ⟨_, rfl, ?_⟩
  unfold T0800.decode
  rw [decodeMin_eq (rest := []) (a := e) (by simp)]
  · rfl
  · simp only [Rd.bind_u32_put32, Rd.bind_byte_cons, Rd.pure_apply]

/-- The 28 bytes of a location report without extras. -/
theorem T0200.base (env : Env) (e : T0200) (h : BaseOK env e) (hx : e.extras = []) :
    T0200.encode env { e with extras := [] } = .ok (baseBytes env e, e) ∧
      ∀ self : T0200, self.extras = [] → T0200.decode env self (baseBytes env e) = .ok (e, 28) := by
  obtain ⟨al, st, la, ln, at', sp, di, ti, ex⟩ := e
  simp only at hx
  subst hx
  constructor
  · have := T0200.encode_base env _ h [] rfl
    rw [List.append_nil] at this
    exact this
  · intro self hs
    have := T0200.decode_base env _ h self [] [] rfl
    rw [List.append_nil, hs] at this
    exact this

theorem T0801.round_trip (env : Env) (e : T0801) (h : BaseOK env e.location) (hx : e.location.extras = []) (hp : e.packet.isSome) :
    ∃ b, T0801.encode env e = .ok (b, { e with packet := some [] }) ∧ T0801.decodePacket env {} b = .ok e := by
  obtain ⟨p, hp⟩ := Option.isSome_iff_exists.1 hp
  obtain ⟨h1, h2⟩ := T0200.base env e.location h hx
  have hl := baseBytes_length env e.location h.2.2.2.2
  refine ⟨put32 e.mediaID ++ [e.type, e.coding, e.event, e.channelID] ++ baseBytes env e.location ++ p, ?_, ?_⟩
  · unfold T0801.encode; rw [h1, hp]; rfl
  · have hd : T0801.decode env {} (put32 e.mediaID ++ [e.type, e.coding, e.event, e.channelID] ++ baseBytes env e.location ++ p) =
        .ok ({ e with packet := none }, 36) := by
      unfold T0801.decode
      rw [decodeMin_eq (rest := p) (a := { e with packet := none }) (by simp [hl]; omega)]
      · congr 2; simp [hl]; omega
      · simp only [List.append_assoc, Rd.bind_u32_put32, List.cons_append, List.nil_append, Rd.bind_byte_cons]
        rw [Rd.bind_read_append _ _ _ _ hl, h2 _ rfl]
        rfl
    unfold T0801.decodePacket
    rw [hd]
    simp only [Res.ok_bind]
    rw [slice_to_end _ _ (by simp [hl]; omega), List.drop_left' (by simp [hl])]
    simp only [Res.ok_bind, ← hp]

theorem MediaItem.item (env : Env) (i : MediaItem) (h : BaseOK env i.location) (hx : i.location.extras = []) :
    ∃ b, MediaItem.encodeItem env i = .ok b ∧ 0 ≤ b.length ∧ ∀ s, MediaItem.decodeItem env (b ++ s) = .ok (i, s) := by
  obtain ⟨h1, h2⟩ := T0200.base env i.location h hx
  have hl := baseBytes_length env i.location h.2.2.2.2
  refine ⟨_, by unfold MediaItem.encodeItem; rw [h1]; rfl, by omega, ?_⟩
  intro s
  unfold MediaItem.decodeItem
  simp only [List.append_assoc, Rd.bind_u32_put32, List.cons_append, List.nil_append, Rd.bind_byte_cons]
  rw [Rd.bind_read_append _ _ _ _ hl, h2 _ rfl]
  rfl

theorem T0802.round_trip (env : Env) (e : T0802) (h0 : e.items.length < 65536)
    (h : ∀ i ∈ e.items, BaseOK env i.location ∧ i.location.extras = []) :
    ∃ b, T0802.encode env e = .ok b ∧ T0802.decode env {} b = .ok (e, b.length) := by
  obtain ⟨bs, g1, g2, g3⟩ := encList_times (MediaItem.encodeItem env) (MediaItem.decodeItem env) id 0 e.items
    fun p hp => MediaItem.item env p (h p hp).1 (h p hp).2
  refine ⟨_, by unfold T0802.encode; rw [g1]; rfl, ?_⟩
  unfold T0802.decode
  rw [decodeMin_eq (rest := []) (a := e) (by simp; omega)]
  · rfl
  · simp only [List.append_assoc, Rd.bind_u16_put16]
    rw [u16_toNat h0, bind_times_exact _ g3]
    simp

theorem T0805.round_trip (e : T0805) (h0 : e.mediaIDs.length < 65536) :
    ∃ b, T0805.encode e = .ok b ∧ T0805.decode {} b = .ok (e, b.length) := by
  refine ⟨_, rfl, ?_⟩
  unfold T0805.decode
  rw [decodeMin_eq (rest := []) (a := e) (by simp; omega)]
  · rfl
  · simp only [List.append_assoc, Rd.bind_u16_put16, List.cons_append, List.nil_append, Rd.bind_byte_cons]
    rw [u16_toNat h0, bind_times_flatMap _ _ (fun x s => Rd.u32_put32 x s)]
    rfl

theorem T0900.round_trip (e : T0900) : ∃ b, T0900.encode e = .ok b ∧ T0900.decode {} b = .ok (e, b.length) := by
  refine ⟨e.type :: e.data, rfl, ?_⟩
  unfold T0900.decode
  rw [if_neg (by simp), idx_zero, slice_to_end _ _ (by simp)]
  rfl

theorem T0901.round_trip (env : Env) (e : T0901) (z : Bytes) (h1 : env.gzip e.uncompressed = some z)
    (h2 : env.gunzip z = some e.uncompressed) (h3 : z.length < 2 ^ 32) :
    ∃ b, T0901.encode env e = .ok b ∧ T0901.decode env {} b = .ok (e, b.length) := by
  refine ⟨put32 (UInt32.ofNat z.length) ++ z, by unfold T0901.encode; rw [h1]; rfl, ?_⟩
  unfold T0901.decode
  rw [decodeMin_eq (rest := []) (a := e) (by simp)]
  · rfl
  · rw [Rd.bind_u32_put32, Rd.bind_read_exact _ _ _ (by simp; omega)]
    simp only [h2]
    rfl

theorem bytesNat_foldl (s : Bytes) (v : Nat) : s.foldl (fun n x => n * 256 + x.toNat) v = v * 256 ^ s.length + bytesNat s := by
  unfold bytesNat
  induction s generalizing v with
  | nil => simp
  | cons b s ih =>
    rw [List.foldl_cons, List.foldl_cons, ih, ih (0 * 256 + b.toNat), List.length_cons, Nat.pow_succ]
    rw [Nat.zero_mul, Nat.zero_add, Nat.add_mul, Nat.mul_assoc, Nat.mul_comm 256 (256 ^ s.length)]
    omega

theorem bytesNat_append (s : Bytes) (b : UInt8) : bytesNat (s ++ [b]) = bytesNat s * 256 + b.toNat := by
  unfold bytesNat
  rw [List.foldl_append]
  rfl

theorem natBytesAux_spec (f n : Nat) (h : n ≤ f) : bytesNat (natBytesAux f n) = n ∧ n < 256 ^ (natBytesAux f n).length ∧
    (n ≠ 0 → 256 ^ (natBytesAux f n).length ≤ n * 256) := by
  induction f generalizing n with
  | zero =>
    have : n = 0 := by omega
    subst this
    exact ⟨rfl, by simp [natBytesAux], by simp⟩
  | succ f ih =>
    unfold natBytesAux
    by_cases h0 : n = 0
    · subst h0
      exact ⟨rfl, by simp, by simp⟩
    · rw [if_neg h0]
      obtain ⟨i1, i2, i3⟩ := ih (n / 256) (by omega)
      refine ⟨?_, ?_, ?_⟩
      · rw [bytesNat_append, i1]
        simp
        omega
      · rw [List.length_append, List.length_singleton, Nat.pow_succ]
        omega
      · intro _
        rw [List.length_append, List.length_singleton, Nat.pow_succ]
        by_cases h1 : n / 256 = 0
        · rw [h1] at i1 ⊢
          have : natBytesAux f 0 = [] := by cases f <;> rfl
          rw [this]
          simp
          omega
        · have := i3 h1
          omega

theorem natBytes_key (n : Nat) (h : keySize n = 128) : (natBytes n).length = 128 ∧ bytesNat (natBytes n) = n := by
  obtain ⟨h1, h2, h3⟩ := natBytesAux_spec n n (Nat.le_refl n)
  unfold keySize at h
  split at h
  · simp at h
  · rename_i h0
    have hlo : 2 ^ 1016 ≤ n := by
      have : 1016 ≤ n.log2 := by omega
      exact Nat.le_trans (Nat.pow_le_pow_right (by omega) this) (Nat.log2_self_le h0)
    have hhi : n < 2 ^ 1024 := by
      have : n.log2 < 1024 := by omega
      exact (Nat.log2_lt h0).1 this
    have h3 := h3 h0
    refine ⟨?_, h1⟩
    unfold natBytes
    generalize (natBytesAux n n).length = l at h2 h3
    rw [show (256 : Nat) = 2 ^ 8 from rfl, ← Nat.pow_mul] at h2
    rw [show (256 : Nat) ^ l = 2 ^ (8 * l) by rw [show (256 : Nat) = 2 ^ 8 from rfl, ← Nat.pow_mul]] at h3
    have a1 : 2 ^ 1016 < 2 ^ (8 * l) := Nat.lt_of_le_of_lt hlo h2
    have a2 : 2 ^ (8 * l) < 2 ^ 1032 := by
      have : n * 256 < 2 ^ 1024 * 256 := Nat.mul_lt_mul_of_pos_right hhi (by omega)
      rw [show (2 : Nat) ^ 1024 * 256 = 2 ^ 1032 by rw [show (256 : Nat) = 2 ^ 8 from rfl, ← Nat.pow_add]] at this
      exact Nat.lt_of_le_of_lt h3 this
    have b1 := (Nat.pow_lt_pow_iff_right (show 1 < 2 by omega)).1 a1
    have b2 := (Nat.pow_lt_pow_iff_right (show 1 < 2 by omega)).1 a2
    omega

theorem T0A00.round_trip (e : T0A00) (h : KeyOK e.publicKey) :
    ∃ b, T0A00.encode e = .ok b ∧ T0A00.decode {} b = .ok (e, b.length) := by
  obtain ⟨n, x, hk, hs, h1, h2⟩ := h
  obtain ⟨n1, n2⟩ := natBytes_key n hs
  obtain ⟨k⟩ := e
  simp only at hk
  subst hk
  refine ⟨put32 (UInt32.ofInt x) ++ natBytes n, ?_, ?_⟩
  · unfold T0A00.encode
    simp only [hs, ne_eq, not_true_eq_false, if_false]
    unfold putFixed
    rw [if_pos (by omega), List.take_of_length_le (by omega)]
  · unfold T0A00.decode
    rw [decodeMin_eq (rest := []) (a := ⟨some ⟨some n, x⟩⟩) (by simp [n1])]
    · rfl
    · rw [Rd.bind_u32_put32, Rd.bind_read_exact _ _ _ n1, n2]
      have : ((UInt32.ofInt x).toNat : Int) = x := by
        unfold UInt32.ofInt
        simp
        omega
      rw [this]
      rfl

end Verif
