import Verif.Lemmas.HeaderNumber
import Verif.Props.Sample
/-! # C07, C08, C09: header and property word -/

namespace Verif
open Spec

/-! ## C07 -/

/-- C07: a header with a terminal number from 1 to 999999999999 (and packet information if the packet flag is
set) is encoded, and decodes to the same message id, terminal number, serial number and packet information; the
property word is the same except that the packet flag tells whether there is packet information. -/
theorem C07_header_round_trip (h : Header) (h0 : 0 < h.iccID.toNat) (h1 : h.iccID.toNat < 10 ^ 12)
    (hpk : packetFlag h.property.toNat = true → h.packet.isSome) (rest : Bytes) :
    ∃ b d, (∃ h', Header.encode h = .ok (b, h')) ∧ Header.decode {} (b ++ rest) = .ok d ∧
      d.msgID = h.msgID ∧ d.iccID = h.iccID ∧ d.serial = h.serial ∧ d.packet = h.packet ∧
      d.property.toNat = (if h.packet.isSome ∧ packetFlag h.property.toNat = false then h.property.toNat + 8192
        else h.property.toNat) := by
  obtain ⟨b, h', he⟩ : ∃ b h', Header.encode h = .ok (b, h') := by
    unfold Header.encode
    simp only
    generalize hq : (if h.packet.isSome then Property.enablePacket h.property else h.property) = pr
    cases hp : h.packet with
    | none =>
      rw [hp] at hq hpk
      simp at hq hpk
      subst hq
      have : Property.isEnablePacket h.property = false := by
        rw [Property.isEnablePacket_spec, hpk]
      simp [this]
    | some p =>
      simp only
      split
      · exact ⟨_, _, rfl⟩
      · exact ⟨_, _, rfl⟩
  obtain ⟨-, hh', hprop', -⟩ := Header.encode_layout h h1 b h' he
  refine ⟨b, h', ⟨h', he⟩, Header.decode_encode h h0 h1 b h' he rest, by rw [hh'], by rw [hh'], by rw [hh'], by rw [hh'], ?_⟩
  rw [hprop']
  by_cases hp : h.packet.isSome = true
  · simp only [hp, if_true, true_and]
    by_cases hf : packetFlag h.property.toNat = true
    · rw [Property.enablePacket_of _ (by rw [Property.isEnablePacket_spec, hf])]
      simp [hf]
    · have hf' : packetFlag h.property.toNat = false := by simpa using hf
      rw [if_pos hf', Property.enablePacket_toNat]
      have ht : h.property.toNat.testBit 13 = false := by
        rw [← Property.isEnablePacket_testBit, Property.isEnablePacket_spec, hf']
      -- an absent bit is added
      apply Nat.eq_of_testBit_eq
      intro i
      rw [Nat.add_comm, show (8192 : Nat) = 2 ^ 13 from rfl, Nat.testBit_or, Nat.testBit_two_pow]
      by_cases hi : 13 = i
      · subst hi
        rw [Nat.testBit_two_pow_add_eq, ht]; rfl
      · rcases Nat.lt_or_gt_of_ne hi with hlt | hgt
        · simp only [hi, decide_false, Bool.or_false]
          have hx := h.property.toNat_lt
          rw [Nat.testBit_eq_decide_div_mod_eq, Nat.testBit_eq_decide_div_mod_eq]
          have ht' : h.property.toNat / 2 ^ 13 % 2 = 0 := by
            rw [Nat.testBit_eq_decide_div_mod_eq] at ht; simp at ht; omega
          obtain ⟨j, rfl⟩ : ∃ j, i = 14 + j := ⟨i - 14, by omega⟩
          rw [Nat.pow_add, ← Nat.div_div_eq_div_mul, ← Nat.div_div_eq_div_mul]
          have : (2 ^ 13 + h.property.toNat) / 2 ^ 14 = h.property.toNat / 2 ^ 14 := by omega
          rw [this]
        · simp only [hi, decide_false, Bool.or_false]
          rw [Nat.testBit_two_pow_add_gt hgt]
  · simp [hp]

/-- Non-trivial case: a packed header. -/
example : ∃ b d, (∃ h', Header.encode Sample.packedHeader = .ok (b, h')) ∧ Header.decode {} (b ++ [1]) = .ok d ∧
    d.iccID = 13800138000 ∧ d.packet = some ⟨3, 2⟩ := by
  obtain ⟨b, d, h1, h2, -, h3, -, h4, -⟩ := C07_header_round_trip Sample.packedHeader (by decide) (by decide) (by decide) [1]
  exact ⟨b, d, h1, h2, h3, h4⟩

/-- C07: a header whose terminal number field contains a non-decimal digit is rejected, and so is the number 0. -/
theorem C07_bad_number_rejected (id prop serial : UInt16) (icc tail : Bytes) (hi : icc.length = 6)
    (hbad : (∃ b ∈ icc, ¬ DecimalByte b) ∨ decimalValue icc = 0) :
    Header.decode {} (put16 id ++ put16 prop ++ icc ++ put16 serial ++ tail) = .err .num := by
  rw [Header.decode_bytes _ _ _ _ _ _ hi, (parseUint_field icc hi).2]
  · rfl
  · rintro ⟨h1, h2⟩
    rcases hbad with ⟨b, hb, hn⟩ | h
    · exact hn (h1 b hb)
    · exact h2 h

/-- C07: every other header without packet flag is accepted, with the number written in the field. -/
theorem C07_good_number_accepted (id prop serial : UInt16) (icc tail : Bytes) (hi : icc.length = 6)
    (hgood : ∀ b ∈ icc, DecimalByte b) (hnz : decimalValue icc ≠ 0) (hp : packetFlag prop.toNat = false) :
    ∃ d, Header.decode {} (put16 id ++ put16 prop ++ icc ++ put16 serial ++ tail) = .ok d ∧
      d.iccID.toNat = decimalValue icc ∧ d.msgID = id ∧ d.property = prop ∧ d.serial = serial ∧ d.packet = none := by
  rw [Header.decode_bytes _ _ _ _ _ _ hi, (parseUint_field icc hi).1 ⟨hgood, hnz⟩]
  have hlt := decimalValue_lt icc hgood
  rw [hi] at hlt
  refine ⟨_, by rw [Res.bind]; rw [Property.isEnablePacket_spec, hp]; rfl, ?_, rfl, rfl, rfl, rfl⟩
  simp; omega

/-- Non-trivial cases: a field with a non-decimal digit, and one without. -/
example : (∃ b ∈ ([0x01, 0x38, 0x0a, 0x13, 0x80, 0x00] : Bytes), ¬ DecimalByte b) ∧
    decimalValue [0x01, 0x38, 0x00, 0x13, 0x80, 0x00] = 13800138000 :=
  ⟨⟨0x0a, by decide, by unfold DecimalByte; decide⟩, by decide⟩

/-! ## C08 -/

/-- C08 (exact): the terminal number survives encoding and decoding exactly when it is between 1 and
999999999999. -/
theorem C08_number_preserved_iff_partial (h : Header) (hpk : h.packet = none) (hpf : packetFlag h.property.toNat = false) :
    (∃ b h' d, Header.encode h = .ok (b, h') ∧ Header.decode {} b = .ok d ∧ d.iccID = h.iccID) ↔
      1 ≤ h.iccID.toNat ∧ h.iccID.toNat < 10 ^ 12 := by
  constructor
  · rintro ⟨b, h', d, he, hd, hi⟩
    have hb : b = put16 h.msgID ++ put16 h.property ++ stringToBCD (fmtUint h.iccID.toNat) 6 ++ put16 h.serial ++ [] := by
      unfold Header.encode at he
      simp [hpk, Property.isEnablePacket_spec, hpf] at he
      rw [← he.1]; simp
    rw [hb, Header.decode_bytes _ _ _ _ _ _ (header_fixed_length h)] at hd
    by_cases hgood : (∀ b ∈ stringToBCD (fmtUint h.iccID.toNat) 6, DecimalByte b) ∧
        decimalValue (stringToBCD (fmtUint h.iccID.toNat) 6) ≠ 0
    · have hlt := decimalValue_lt _ hgood.1
      rw [header_fixed_length] at hlt
      rw [(parseUint_field _ (header_fixed_length h)).1 hgood, Res.bind, Property.isEnablePacket_spec, hpf] at hd
      simp only [Bool.false_eq_true, if_false, Res.ok.injEq] at hd
      rw [← hi, ← hd]
      simp only [UInt64.toNat_ofNat']
      have := hgood.2
      omega
    · rw [(parseUint_field _ (header_fixed_length h)).2 hgood] at hd
      simp [Res.bind] at hd
  · rintro ⟨h0, h1⟩
    obtain ⟨b, d, ⟨h', he⟩, hd, -, hi, -⟩ := C07_header_round_trip h h0 h1 (by rw [hpf]; simp) []
    rw [List.append_nil] at hd
    exact ⟨b, h', d, he, hd, hi⟩

/-- The hypotheses are met by the sample header; its number is preserved, a number of 13 digits is not. -/
example : (∃ b h' d, Header.encode Sample.header = .ok (b, h') ∧ Header.decode {} b = .ok d ∧ d.iccID = 13800138000) ∧
    ¬ ∃ b h' d, Header.encode { Sample.header with iccID := 1234567890123 } = .ok (b, h') ∧ Header.decode {} b = .ok d ∧ d.iccID = 1234567890123 :=
  ⟨(C08_number_preserved_iff_partial Sample.header rfl rfl).2 (by decide),
    fun h => absurd ((C08_number_preserved_iff_partial { Sample.header with iccID := 1234567890123 } rfl rfl).1 h) (by decide)⟩

/-- C08 is false of the code: the terminal number 0 is encoded but rejected by the receiver, and 1000000000000 is
silently changed to 10000000000. -/
theorem C08_refuted :
    (∃ b h', Header.encode { iccID := 0 } = .ok (b, h') ∧ Header.decode {} b = .err .num) ∧
    (∃ b h' d, Header.encode { iccID := 1000000000000 } = .ok (b, h') ∧ Header.decode {} b = .ok d ∧
      d.iccID = 10000000000) :=
  ⟨⟨_, _, rfl, by decide⟩, ⟨_, _, { iccID := 10000000000 }, rfl, by decide, rfl⟩⟩

/-! ## C09 -/

/-- The public settings of a property word. -/
inductive PropOp where
  | size (n : UInt16)
  | packet
  | encrypt

/-- Applying a setting (protocol/property.go:11-20, 42-50); a refused size leaves the word unchanged. -/
def PropOp.apply (p : UInt16) : PropOp → UInt16
  | .size n => match Property.setBodySize p n with | .ok q => q | _ => p
  | .packet => Property.enablePacket p
  | .encrypt => Property.enableEncrypt p

namespace Spec

/-- What a property word means. -/
structure PropView where
  size : Nat
  encrypt : Bool
  packet : Bool
  /-- the other bits: 11, 12, 14 and 15 -/
  others : List Bool
  deriving DecidableEq

/-- The meaning of a property word. -/
def propView (p : Nat) : PropView :=
  { size := sizeField p, encrypt := encryptFlag p, packet := packetFlag p
    others := [p.testBit 11, p.testBit 12, p.testBit 14, p.testBit 15] }

/-- What a setting should do. -/
def propSet (v : PropView) : PropOp → PropView
  | .size n => if n.toNat ≤ 1023 then { v with size := n.toNat } else v
  | .packet => { v with packet := true }
  | .encrypt => { v with encrypt := true }

end Spec

theorem propView_or13 (p : Nat) : propView (p ||| 2 ^ 13) = { propView p with packet := true } := by
  have h1 : (p ||| 2 ^ 13) % 1024 = p % 1024 := by
    have : (p ||| 2 ^ 13) % 2 ^ 10 = p % 2 ^ 10 := by rw [Nat.or_mod_two_pow]; simp
    simpa using this
  have e1 : ∀ q : Nat, encryptFlag q = q.testBit 10 := by
    intro q; rw [Nat.testBit_eq_decide_div_mod_eq]; simp [encryptFlag]; rfl
  have e2 : ∀ q : Nat, packetFlag q = q.testBit 13 := by
    intro q; rw [Nat.testBit_eq_decide_div_mod_eq]; simp [packetFlag]; rfl
  simp only [propView, sizeField, h1, e1, e2, Nat.testBit_or, Nat.testBit_two_pow]
  simp

theorem propView_or10 (p : Nat) : propView (p ||| 2 ^ 10) = { propView p with encrypt := true } := by
  have h1 : (p ||| 2 ^ 10) % 1024 = p % 1024 := by
    have : (p ||| 2 ^ 10) % 2 ^ 10 = p % 2 ^ 10 := by rw [Nat.or_mod_two_pow]; simp
    simpa using this
  have e1 : ∀ q : Nat, encryptFlag q = q.testBit 10 := by
    intro q; rw [Nat.testBit_eq_decide_div_mod_eq]; simp [encryptFlag]; rfl
  have e2 : ∀ q : Nat, packetFlag q = q.testBit 13 := by
    intro q; rw [Nat.testBit_eq_decide_div_mod_eq]; simp [packetFlag]; rfl
  simp only [propView, sizeField, h1, e1, e2, Nat.testBit_or, Nat.testBit_two_pow]
  simp

theorem propView_size (p n : Nat) (h : n < 1024) : propView (p / 1024 * 1024 + n) = { propView p with size := n } := by
  have ht : ∀ i, 10 ≤ i → (p / 1024 * 1024 + n).testBit i = p.testBit i := by
    intro i hi
    obtain ⟨j, rfl⟩ : ∃ j, i = 10 + j := ⟨i - 10, by omega⟩
    rw [Nat.testBit_eq_decide_div_mod_eq, Nat.testBit_eq_decide_div_mod_eq, Nat.pow_add,
      ← Nat.div_div_eq_div_mul, ← Nat.div_div_eq_div_mul]
    have : (p / 1024 * 1024 + n) / 2 ^ 10 = p / 2 ^ 10 := by omega
    rw [this]
  have e1 : ∀ q : Nat, encryptFlag q = q.testBit 10 := by
    intro q; rw [Nat.testBit_eq_decide_div_mod_eq]; simp [encryptFlag]; rfl
  have e2 : ∀ q : Nat, packetFlag q = q.testBit 13 := by
    intro q; rw [Nat.testBit_eq_decide_div_mod_eq]; simp [packetFlag]; rfl
  simp only [propView, sizeField, e1, e2]
  rw [ht 10 (by omega), ht 11 (by omega), ht 12 (by omega), ht 13 (by omega), ht 14 (by omega), ht 15 (by omega)]
  congr 1; omega

/-- C09, one setting: each setting changes only its field. -/
theorem C09_setting_changes_only_its_field (p : UInt16) (op : PropOp) :
    propView (op.apply p).toNat = propSet (propView p.toNat) op := by
  cases op with
  | size n =>
    simp only [PropOp.apply, propSet]
    by_cases h : n.toNat ≤ 1023
    · obtain ⟨w, hw, hwn⟩ := Property.setBodySize_toNat p n (by omega)
      simp only [hw, if_pos h]
      rw [hwn, propView_size _ _ (by omega)]
    · rw [Property.setBodySize_err _ _ (by omega), if_neg h]
  | packet => simp only [PropOp.apply, propSet]; rw [Property.enablePacket_toNat, propView_or13]
  | encrypt => simp only [PropOp.apply, propSet]; rw [Property.enableEncrypt_toNat, propView_or10]

/-- C09: for every property word and every sequence of settings, every field reads as the settings say, and the
getters return the fields. -/
theorem C09_settings_history (p : UInt16) (ops : List PropOp) :
    let q := ops.foldl PropOp.apply p
    let v := ops.foldl propSet (propView p.toNat)
    propView q.toNat = v ∧ (Property.getBodySize q).toNat = v.size ∧ Property.isEnableEncrypt q = v.encrypt ∧
      Property.isEnablePacket q = v.packet := by
  have h : propView (ops.foldl PropOp.apply p).toNat = ops.foldl propSet (propView p.toNat) := by
    induction ops generalizing p with
    | nil => rfl
    | cons op ops ih => rw [List.foldl_cons, List.foldl_cons, ih, C09_setting_changes_only_its_field]
  refine ⟨h, ?_, ?_, ?_⟩
  · rw [Property.getBodySize_toNat, ← h]; rfl
  · rw [Property.isEnableEncrypt_spec, ← h]; rfl
  · rw [Property.isEnablePacket_spec, ← h]; rfl

/-- C09: sizes above 1023 are refused. -/
theorem C09_large_size_refused (p n : UInt16) (h : 1023 < n.toNat) :
    Property.setBodySize p n = .err .bodyTooLong := Property.setBodySize_err p n h

/-- Non-trivial case: a history that sets everything and tries an illegal size. -/
example : [PropOp.size 5, .packet, .size 2000, .encrypt, .size 1023].foldl propSet (propView 0x8001) =
    { size := 1023, encrypt := true, packet := true, others := [false, false, false, true] } := by decide

end Verif
