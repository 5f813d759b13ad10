import Verif.Spec.Strings
import Verif.Props.RoundTrip
/-! # C24: string fields, C25: terminal parameters -/

namespace Verif

open Spec (Plain Text AnyText Number padded seen)

/-! ## C24 -/

theorem padded_length (n : Nat) (s : Bytes) : (padded n s).length = n := by
  simp [padded]

theorem takeWhile_zeros (s : Bytes) (k : Nat) : (s ++ List.replicate k 0).takeWhile (· ≠ 0) = s.takeWhile (· ≠ 0) := by
  induction s with
  | nil => cases k <;> simp [List.replicate_succ]
  | cons a s ih => simp only [List.cons_append, List.takeWhile_cons]; split <;> simp_all

/-- The reader of a fixed-width field sees the string cut to the width and to the first NUL. -/
theorem bytesToString_padded (s : Bytes) (n : Nat) : bytesToString (padded n s) = seen n s := by
  unfold bytesToString padded seen
  rw [List.take_append, List.take_replicate]
  exact takeWhile_zeros _ _

/-- A string that fits and has no NUL is seen unchanged. -/
theorem C24_fits (s : Bytes) (n : Nat) : seen n s = s ↔ Plain s n := by
  unfold seen Plain
  constructor
  · intro h
    have hlen : s.length ≤ n := by
      have h1 := congrArg List.length h
      have h2 := (List.takeWhile_prefix (l := s.take n) (· ≠ (0 : UInt8))).length_le
      rw [h1, List.length_take] at h2
      omega
    refine ⟨hlen, ?_⟩
    intro h0
    rw [List.take_of_length_le hlen] at h
    rw [← h] at h0
    have hall := List.all_takeWhile (l := s) (p := fun x : UInt8 => decide (x ≠ 0))
    rw [List.all_eq_true] at hall
    have := hall 0 h0
    simp at this
  · intro ⟨h1, h2⟩
    rw [List.take_of_length_le h1]
    exact bytesToString_self s h2

/-- Terminal registration (0x0100) with any strings in its three fixed-width fields: bytes 4–8 are the manufacturer,
9–28 the model, 29–35 the terminal id, each cut or padded to its width, and the receiver sees each field up to its
first NUL; the other fields are not disturbed. -/
theorem C24_registration (env : Env) (e : T0100) (h4 : AnyText env e.licenseNo) : ∃ b, T0100.encode env e = .ok b ∧
    (b.drop 4).take 5 = padded 5 e.manufactureID ∧ (b.drop 9).take 20 = padded 20 e.model ∧ (b.drop 29).take 7 = padded 7 e.terminalID ∧
    T0100.decode env {} b = .ok ({ e with manufactureID := seen 5 e.manufactureID, model := seen 20 e.model, terminalID := seen 7 e.terminalID }, b.length) := by
  obtain ⟨t, ht⟩ := h4.bytes
  obtain ⟨b, hb1, hb2⟩ := ht.optional
  have l1 := padded_length 5 e.manufactureID
  have l2 := padded_length 20 e.model
  have l3 := padded_length 7 e.terminalID
  refine ⟨put16 e.provinceID ++ put16 e.cityID ++ padded 5 e.manufactureID ++ padded 20 e.model ++ padded 7 e.terminalID ++ [e.plateColor] ++ b,
    by unfold T0100.encode; simp only [putFixed_padded]; rw [hb1]; rfl, ?_, ?_, ?_, ?_⟩
  · rw [List.append_assoc, List.append_assoc, List.append_assoc, List.append_assoc, List.drop_left' (by simp), List.take_left' l1]
  · rw [List.append_assoc, List.append_assoc, List.append_assoc, List.drop_left' (by simp [l1]), List.take_left' l2]
  · rw [List.append_assoc, List.append_assoc, List.drop_left' (by simp [l1, l2]), List.take_left' l3]
  · unfold T0100.decode
    rw [decodeMin_eq (rest := []) (a := { e with manufactureID := seen 5 e.manufactureID, model := seen 20 e.model, terminalID := seen 7 e.terminalID }) (by simp [l1, l2, l3]; omega)]
    · rfl
    · simp only [List.append_assoc, Rd.bind_u16_put16, List.cons_append, List.nil_append]
      rw [Rd.bind_read_append _ _ _ _ l1, Rd.bind_read_append _ _ _ _ l2, Rd.bind_read_append _ _ _ _ l3,
        Rd.bind_byte_cons, Rd.bind_ok _ hb2]
      simp only [bytesToString_padded, Rd.pure_apply]

/-- Terminal attributes (0x0107): three fixed-width strings as above, and two length-prefixed ones of up to 255 bytes,
which the receiver sees up to their first NUL. -/
theorem C24_attributes (e : T0107) (h4 : Number e.sim 20) (h5 : e.hardwareVersion.length ≤ 255) (h6 : e.softwareVersion.length ≤ 255) :
    ∃ b, T0107.encode e = .ok b ∧
    (b.drop 2).take 5 = padded 5 e.manufactureID ∧ (b.drop 7).take 20 = padded 20 e.model ∧ (b.drop 27).take 7 = padded 7 e.terminalID ∧
    T0107.decode {} b = .ok ({ e with manufactureID := seen 5 e.manufactureID, model := seen 20 e.model, terminalID := seen 7 e.terminalID, hardwareVersion := seen 255 e.hardwareVersion, softwareVersion := seen 255 e.softwareVersion }, b.length) := by
  obtain ⟨n1, n2⟩ := bcd_number e.sim 10 h4
  have l1 := padded_length 5 e.manufactureID
  have l2 := padded_length 20 e.model
  have l3 := padded_length 7 e.terminalID
  refine ⟨put16 e.terminalType ++ padded 5 e.manufactureID ++ padded 20 e.model ++ padded 7 e.terminalID ++ stringToBCD e.sim 10 ++
    [u8 e.hardwareVersion.length] ++ e.hardwareVersion ++ [u8 e.softwareVersion.length] ++ e.softwareVersion ++ [e.gnss, e.comm],
    by unfold T0107.encode; simp only [putFixed_padded], ?_, ?_, ?_, ?_⟩
  · simp only [List.append_assoc]
    rw [List.drop_left' (by simp), List.take_left' l1]
  · simp only [List.append_assoc]
    rw [← List.append_assoc, List.drop_left' (by simp [l1]), List.take_left' l2]
  · simp only [List.append_assoc]
    rw [← List.append_assoc, ← List.append_assoc, List.drop_left' (by simp [l1, l2]), List.take_left' l3]
  · have hh : bytesToString e.hardwareVersion = seen 255 e.hardwareVersion := by
      unfold seen; rw [List.take_of_length_le h5]; rfl
    have hs : bytesToString e.softwareVersion = seen 255 e.softwareVersion := by
      unfold seen; rw [List.take_of_length_le h6]; rfl
    unfold T0107.decode
    rw [decodeMin_eq (rest := []) (a := { e with manufactureID := seen 5 e.manufactureID, model := seen 20 e.model, terminalID := seen 7 e.terminalID, hardwareVersion := seen 255 e.hardwareVersion, softwareVersion := seen 255 e.softwareVersion }) (by simp [n1, l1, l2, l3]; omega)]
    · rfl
    · simp only [List.append_assoc, Rd.bind_u16_put16, List.cons_append, List.nil_append]
      rw [Rd.bind_read_append _ _ _ _ l1, Rd.bind_read_append _ _ _ _ l2, Rd.bind_read_append _ _ _ _ l3,
        Rd.bind_read_append _ _ _ _ n1]
      simp only [Rd.bind_byte_cons]
      rw [Rd.bind_read_append _ _ _ _ (u8_toNat (by omega)).symm]
      simp only [Rd.bind_byte_cons]
      rw [Rd.bind_read_append _ _ _ _ (u8_toNat (by omega)).symm, u8_toNat (by omega), slice_from_zero _ _ (Nat.le_refl _)]
      simp only [Rd.bind_lift_ok, Rd.bind_byte_cons, List.take_length, Rd.pure_apply, n2, bytesToString_padded, hh, hs]

/-- Upgrade package (0x8108): bytes 1–5 are the manufacturer, cut or padded; a version text of up to 255 encoded bytes arrives
unchanged. -/
theorem C24_upgrade (env : Env) (e : T8108) (h2 : Text env e.version 255) : ∃ b, T8108.encode env e = .ok b ∧
    (b.drop 1).take 5 = padded 5 e.manufactureID ∧
    T8108.decode env {} b = .ok ({ e with manufactureID := seen 5 e.manufactureID }, b.length) := by
  obtain ⟨v, v1, v2⟩ := h2.bytes
  have l1 := padded_length 5 e.manufactureID
  refine ⟨[e.type] ++ padded 5 e.manufactureID ++ ([u8 v.length] ++ v) ++ put32 e.size ++ e.data,
    by unfold T8108.encode; rw [v1.put8, putFixed_padded]; rfl, ?_, ?_⟩
  · simp only [List.append_assoc]
    rw [List.drop_left' (by simp), List.take_left' l1]
  · unfold T8108.decode
    rw [decodeMin_eq (rest := []) (a := { e with manufactureID := seen 5 e.manufactureID }) (by simp [l1]; omega)]
    · rfl
    · simp only [List.append_assoc, List.cons_append, List.nil_append, Rd.bind_byte_cons]
      rw [Rd.bind_read_append _ _ _ _ l1, Rd.bind_ok _ (v1.str8 v2 _)]
      simp only [Rd.bind_u32_put32, Rd.bind_rest, Rd.pure_apply, bytesToString_padded]

/-- Text fields of every other type — with a one-byte length, a two-byte length, twenty bytes wide, or up to the end of the
body — as the encoder's writers and the decoder's readers handle them, wherever they stand in a body. -/
theorem C24_texts (env : Env) (s rest : Bytes) :
    (Text env s 255 → ∃ b, putStr8 env s = .ok b ∧ Rd.str8 env (b ++ rest) = .ok (s, rest)) ∧
    (Text env s 65535 → ∃ b, putStr16 env s = .ok b ∧ Rd.str16 env (b ++ rest) = .ok (s, rest)) ∧
    (∀ n, Text env s n → ∃ b, putStrFixed env s n = .ok b ∧ b.length = n ∧ Rd.str env n (b ++ rest) = .ok (s, rest)) ∧
    (AnyText env s → ∃ b, putStr env s = .ok b ∧ Rd.strRest env b = .ok (s, [])) := by
  refine ⟨?_, ?_, ?_, ?_⟩
  · intro h
    obtain ⟨b, h1, h2⟩ := h.bytes
    exact ⟨_, h1.put8, h1.str8 h2 rest⟩
  · intro h
    obtain ⟨b, h1, h2⟩ := h.bytes
    refine ⟨put16 (UInt16.ofNat b.length) ++ b, ?_, ?_⟩
    · unfold putStr16; rw [h1.put]; rfl
    · rw [List.append_assoc]; exact h1.str16 h2 rest
  · intro n h
    obtain ⟨b, h1, h2⟩ := h.bytes
    exact ⟨_, h1.putFixed n, by simp, h1.strFixed n h2 rest⟩
  · intro h
    obtain ⟨b, h1⟩ := h.bytes
    exact ⟨_, h1.put, h1.strRest⟩

/-- Non-trivial case: a manufacturer name of seven bytes is cut to five; a model with an embedded NUL is cut there. -/
example : seen 5 [65, 66, 67, 68, 69, 70, 71] = [65, 66, 67, 68, 69] ∧ seen 20 [65, 0, 66] = [65] ∧
    padded 5 [65, 66] = [65, 66, 0, 0, 0] := ⟨rfl, rfl, rfl⟩

/-! ## C25 -/

namespace Param

theorem be16_put16 (n : UInt16) : be16 (put16 n) = .ok n := by
  show Res.ok (get16 _ _) = _
  exact congrArg Res.ok (get16_put16 n)

theorem be32_put32 (n : UInt32) : be32 (put32 n) = .ok n := by
  show Res.ok (get32 _ _ _ _) = _
  exact congrArg Res.ok (get32_put32 n)

end Param

/-- C25: what was set is read back with the matching getter and the id is kept. -/
theorem C25_set_get (env : Env) (id : UInt32) :
    (∀ b, (Param.setByte id b).getByte = .ok b ∧ (Param.setByte id b).id = id) ∧
    (∀ n, (Param.setUint16 id n).getUint16 = .ok n ∧ (Param.setUint16 id n).id = id) ∧
    (∀ n, (Param.setUint32 id n).getUint32 = .ok n ∧ (Param.setUint32 id n).id = id) ∧
    (∀ b, (Param.setBytes id b).getBytes = .ok b ∧ (Param.setBytes id b).id = id) ∧
    (∀ s, AnyText env s → env.gbDec [] = some [] → (Param.setString env id s).getString env = .ok s ∧ (Param.setString env id s).id = id) := by
  refine ⟨fun b => ⟨rfl, rfl⟩, fun n => ⟨?_, rfl⟩, fun n => ⟨?_, rfl⟩, fun b => ⟨rfl, rfl⟩, ?_⟩
  · exact Param.be16_put16 n
  · exact Param.be32_put32 n
  · intro s h h0
    obtain ⟨b, hb⟩ := h.bytes
    unfold Param.setString
    split
    · rename_i hl
      obtain rfl : s = [] := List.length_eq_zero_iff.1 hl
      simp [Param.setBytes, Param.getString, h0]
    · have := hb.dec 0
      simp only [List.replicate_zero, List.append_nil] at this
      simp [hb.enc, Param.setBytes, Param.getString, this]

/-- C25: a getter wider than the stored value fails; every other integer getter succeeds. -/
theorem C25_width (p : Param) :
    (p.serialized.length < 1 → p.getByte = .err .invalidBody) ∧ (1 ≤ p.serialized.length → ∃ b, p.getByte = .ok b) ∧
    (p.serialized.length < 2 → p.getUint16 = .err .invalidBody) ∧ (2 ≤ p.serialized.length → ∃ n, p.getUint16 = .ok n) ∧
    (p.serialized.length < 4 → p.getUint32 = .err .invalidBody) ∧ (4 ≤ p.serialized.length → ∃ n, p.getUint32 = .ok n) := by
  obtain ⟨i, s⟩ := p
  refine ⟨fun h => if_pos h, ?_, fun h => if_pos h, ?_, fun h => if_pos h, ?_⟩
  · intro h
    match s, h with
    | a :: s, _ => exact ⟨a, rfl⟩
  · intro h
    match s, h with
    | a :: b :: s, _ => exact ⟨get16 a b, by simp [Param.getUint16, slice, Param.be16]⟩
  · intro h
    match s, h with
    | a :: b :: c :: d :: s, _ => exact ⟨get32 a b c d, by simp [Param.getUint32, slice, Param.be32]⟩

/-- In particular a value stored with a narrower setter is never read by a wider getter. -/
theorem C25_narrow_then_wide (id : UInt32) (b : UInt8) (n : UInt16) :
    (Param.setByte id b).getUint16 = .err .invalidBody ∧ (Param.setByte id b).getUint32 = .err .invalidBody ∧
      (Param.setUint16 id n).getUint32 = .err .invalidBody := ⟨rfl, rfl, rfl⟩

/-- C25 through the wire: parameters sent to a terminal (0x8103) and returned by it (0x0104) arrive with the same ids and
bytes, so the getters give the same values. -/
theorem C25_on_the_wire (e : T8103) (a : T0104) (h : Spec.ParamsOK e.params) (h' : Spec.ParamsOK a.params) :
    (∃ b n, T8103.encode e = .ok b ∧ T8103.decode {} b = .ok (e, n)) ∧ ∃ b n, T0104.encode a = .ok b ∧ T0104.decode {} b = .ok (a, n) := by
  obtain ⟨b, h1, h2⟩ := T8103.round_trip e h
  obtain ⟨b', h1', h2'⟩ := T0104.round_trip a h'
  exact ⟨⟨b, _, h1, h2⟩, b', _, h1', h2'⟩

/-- Non-trivial case. -/
example : Spec.ParamsOK [Param.setUint32 1 60, Param.setBytes 0x13 [49, 48], Param.setByte 0x84 2] := by
  refine ⟨by simp, by simp, ?_⟩
  intro p hp
  simp at hp
  rcases hp with rfl | rfl | rfl <;> decide

end Verif
