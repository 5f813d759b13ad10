import Verif.Model.Message
import Verif.Lemmas.Reader
import Verif.Lemmas.Digits
import Verif.Lemmas.Property
/-! # Lemmas about framing, checksum and header -/

namespace Verif
open Spec

/-! ## Stuffing -/

@[simp] theorem escape_nil : escape [] = [] := rfl
theorem escape_cons (b : UInt8) (t : Bytes) : escape (b :: t) = escape [b] ++ escape t := by
  simp [escape]
theorem escape_append (a b : Bytes) : escape (a ++ b) = escape a ++ escape b := by
  simp [escape]
theorem escape_single (b : UInt8) :
    escape [b] = if b = 0x7e then [0x7d, 0x02] else if b = 0x7d then [0x7d, 0x01] else [b] := by
  simp [escape]

theorem stuffed_escape (c : Bytes) : Stuffed (escape c) c := by
  induction c with
  | nil => exact .nil
  | cons b t ih =>
    rw [escape_cons, escape_single]
    split
    · rename_i h; subst h; exact .flag ih
    · split
      · rename_i h; subst h; exact .esc ih
      · rename_i h1 h2; exact .plain h1 h2 ih

theorem stuffed_iff (w c : Bytes) : Stuffed w c ↔ w = escape c := by
  constructor
  · intro h
    induction h with
    | nil => rfl
    | flag _ ih => rw [escape_cons, ← ih]; rfl
    | esc _ ih => rw [escape_cons, ← ih]; rfl
    | plain h1 h2 _ ih => rw [escape_cons, ← ih, escape_single]; simp [h1, h2]
  · rintro rfl; exact stuffed_escape c

theorem escape_no_flag (c : Bytes) : (0x7e : UInt8) ∉ escape c := by
  induction c with
  | nil => simp
  | cons b t ih =>
    rw [escape_cons, List.mem_append, escape_single]
    rintro (h | h)
    · split at h
      · simp at h
      · split at h
        · simp at h
        · rename_i h1 _; simp at h; exact h1 h.symm
    · exact ih h

theorem escape_length_le (c : Bytes) : c.length ≤ (escape c).length ∧ (escape c).length ≤ 2 * c.length := by
  induction c with
  | nil => simp
  | cons b t ih =>
    have h : 1 ≤ (escape [b]).length ∧ (escape [b]).length ≤ 2 := by
      rw [escape_single]; split
      · simp
      · split <;> simp
    rw [escape_cons]; simp; omega

/-- Escaped bytes never end in the escape byte. -/
theorem escape_getLast (c : Bytes) (h : c ≠ []) : ∃ w x, escape c = w ++ [x] ∧ x ≠ 0x7d := by
  obtain ⟨c', b, rfl⟩ : ∃ c' b, c = c' ++ [b] := ⟨c.dropLast, c.getLast h, (List.dropLast_concat_getLast h).symm⟩
  rw [escape_append, escape_single]
  split
  · exact ⟨escape c' ++ [0x7d], 0x02, by simp, by decide⟩
  · split
    · exact ⟨escape c' ++ [0x7d], 0x01, by simp, by decide⟩
    · rename_i h; exact ⟨escape c', b, rfl, h⟩

/-! ## Checksum -/

theorem foldl_xor (d : Bytes) (c : UInt8) : d.foldl (fun c b => c ^^^ b) c = c ^^^ xorAll d := by
  induction d generalizing c with
  | nil => simp [xorAll]
  | cons b t ih => simp [ih, xorAll, UInt8.xor_assoc]

theorem computeChecksum_eq (d : Bytes) (c : UInt8) : computeChecksum d c = c ^^^ xorAll d := foldl_xor d c

theorem xorAll_append (a b : Bytes) : xorAll (a ++ b) = xorAll a ^^^ xorAll b := by
  induction a with
  | nil => simp [xorAll]
  | cons x t ih => simp [xorAll, ih, UInt8.xor_assoc]

/-! ## The decoder on a stuffed frame -/

theorem unescapeLoop_escape (c : Bytes) (s : UInt8) (buf t : Bytes) :
    unescapeLoop (escape c ++ t) s buf = unescapeLoop t (s ^^^ xorAll c) (buf ++ c) := by
  induction c generalizing s buf with
  | nil => simp [xorAll]
  | cons b c ih =>
    rw [escape_cons, escape_single]
    split
    · rename_i h; subst h
      simp only [List.cons_append, List.nil_append, unescapeLoop]
      simp [ih, xorAll, UInt8.xor_assoc]
    · split
      · rename_i h; subst h
        simp only [List.cons_append, List.nil_append, unescapeLoop]
        simp [ih, xorAll, UInt8.xor_assoc]
      · rename_i h1 h2
        simp only [List.cons_append, List.nil_append]
        rw [unescapeLoop.eq_def]; simp only [if_pos h2, ih]
        simp [xorAll, UInt8.xor_assoc]

theorem idx_last {α : Type} (xs : List α) (x : α) : idx (xs ++ [x]) (((xs ++ [x]).length : Int) - 1) = .ok x := by
  have : ((xs ++ [x]).length : Int) - 1 = ((xs.length : Nat) : Int) := by simp
  rw [this, idx_ofNat _ _ (by simp)]; simp

theorem idx_before_last {α : Type} (xs : List α) (x y : α) :
    idx (xs ++ [x, y]) (((xs ++ [x, y]).length : Int) - 2) = .ok x := by
  have : ((xs ++ [x, y]).length : Int) - 2 = ((xs.length : Nat) : Int) := by simp
  rw [this, idx_ofNat _ _ (by simp)]; simp

theorem idx_last2 {α : Type} (xs : List α) (x y : α) :
    idx (xs ++ [x, y]) (((xs ++ [x, y]).length : Int) - 1) = .ok y := by
  have := idx_last (xs ++ [x]) y
  simpa using this

/-- The result of the check-byte split when the data has at least two bytes. -/
theorem splitChecksum_eq (d : Bytes) (x y : UInt8) :
    splitChecksum (d ++ [x, y]) =
      if x ≠ 0x7d then .ok (y, d ++ [x])
      else if y = 0x01 then .ok (0x7d, d)
      else if y = 0x02 then .ok (0x7e, d)
      else .err .invalidMessage := by
  unfold splitChecksum
  simp only [idx_last2, idx_before_last, Res.ok_bind]
  have h1 : slice (d ++ [x, y]) 0 ((d ++ [x, y]).length - 1) = .ok (d ++ [x]) := by
    rw [slice_from_zero _ _ (by omega)]
    congr 1
    have : (d ++ [x, y]).length - 1 = (d ++ [x]).length := by simp
    rw [this]
    have e : d ++ [x, y] = (d ++ [x]) ++ [y] := by simp
    rw [e, List.take_left]
  have h2 : slice (d ++ [x, y]) 0 ((d ++ [x, y]).length - 2) = .ok d := by
    rw [slice_from_zero _ _ (by omega)]
    congr 1
    have : (d ++ [x, y]).length - 2 = d.length := by simp
    rw [this, List.take_left]
  rw [h1, h2]
  simp only [Res.ok_bind]

theorem splitChecksum_escape (c : Bytes) (s : UInt8) (hc : c ≠ []) :
    splitChecksum (escape (c ++ [s])) = .ok (s, escape c) := by
  rw [escape_append, escape_single]
  split
  · rename_i h; subst h; rw [splitChecksum_eq]; simp
  · split
    · rename_i h; subst h; rw [splitChecksum_eq]; simp
    · obtain ⟨w, x, he, hx⟩ := escape_getLast c hc
      rw [he, List.append_assoc, List.singleton_append, splitChecksum_eq, if_pos hx]

/-- What is left of the envelope decoder once the delimiters are gone. -/
def Message.decodeInner (inner : Bytes) : Res (Header × Bytes) := do
  if inner.length = 0 then .err .invalidMessage
  else do
    let (sum, d) ← splitChecksum inner
    let (c, buffer) ← unescapeLoop d 0 []
    if buffer.length = 0 ∨ c ≠ sum then .err .invalidCheckSum
    else if buffer.length < 12 then .err .invalidHeader
    else do
      let h ← Header.decode {} buffer
      .ok (h, buffer)

theorem decodeEnvelope_delim (inner : Bytes) :
    Message.decodeEnvelope ([0x7e] ++ inner ++ [0x7e]) = Message.decodeInner inner := by
  unfold Message.decodeEnvelope
  have hl : ¬ (([0x7e] ++ inner ++ [0x7e] : Bytes).length < 2) := by simp
  simp only [if_neg hl, idx_last, Res.ok_bind]
  have h0 : idx ([0x7e] ++ inner ++ [0x7e] : Bytes) 0 = .ok 0x7e := rfl
  have h1 : slice ([0x7e] ++ inner ++ [0x7e] : Bytes) 1 (([0x7e] ++ inner ++ [0x7e] : Bytes).length - 1) = .ok inner := by
    rw [slice_ok _ _ _ (by simp) (by omega)]
    congr 1
    simp [List.take_append]
  rw [h0, h1]
  simp only [Res.ok_bind, ne_eq, not_true_eq_false, or_self, if_false]
  rfl

/-- The envelope decoder on the stuffed form of content `c` followed by check byte `s`. -/
theorem decodeEnvelope_frame (c : Bytes) (s : UInt8) (hc : c ≠ []) :
    Message.decodeEnvelope ([0x7e] ++ escape (c ++ [s]) ++ [0x7e]) =
      if xorAll c ≠ s then .err .invalidCheckSum
      else if c.length < 12 then .err .invalidHeader
      else (Header.decode {} c).bind fun h => .ok (h, c) := by
  rw [decodeEnvelope_delim]
  unfold Message.decodeInner
  have hne : ¬ ((escape (c ++ [s])).length = 0) := by
    have := (escape_length_le (c ++ [s])).1; simp at this; omega
  rw [if_neg hne, splitChecksum_escape c s hc]
  have hu := unescapeLoop_escape c 0 [] []
  simp only [List.append_nil, List.nil_append] at hu
  have hc0 : c.length ≠ 0 := by simpa using hc
  simp only [Res.ok_bind, hu, unescapeLoop, UInt8.zero_xor, hc0, false_or]
  rfl

/-! ## Header -/

theorem put16_spec (n : UInt16) : put16 n = be16 n.toNat := by
  have h := n.toNat_lt
  simp only [put16, be16, List.cons.injEq, and_true]
  constructor <;> apply UInt8.toNat.inj <;> simp [UInt8.toNat_ofNat']

theorem header_fixed_length (h : Header) : (stringToBCD (fmtUint h.iccID.toNat) 6).length = 6 := by
  unfold stringToBCD
  simp only
  split
  · rw [List.length_take]; omega
  · simp; omega

/-- Reading the fixed part of a header. -/
theorem Header.decode_bytes (self : Header) (id prop serial : UInt16) (icc tail : Bytes) (hi : icc.length = 6) :
    Header.decode self (put16 id ++ put16 prop ++ icc ++ put16 serial ++ tail) =
      (parseUint (bcdToString icc)).bind fun n =>
        if Property.isEnablePacket prop then
          match (do let a ← Rd.u16; let b ← Rd.u16; pure (some ⟨a, b⟩) : Rd (Option Packet)) tail with
          | .ok (pk, _) => .ok { msgID := id, property := prop, iccID := UInt64.ofNat n, serial := serial, packet := pk }
          | .err e => .err e
          | .panic => .panic
        else .ok { msgID := id, property := prop, iccID := UInt64.ofNat n, serial := serial, packet := self.packet } := by
  unfold Header.decode
  have hl : ¬ ((put16 id ++ put16 prop ++ icc ++ put16 serial ++ tail).length < 12) := by
    simp [hi]; omega
  rw [if_neg hl]
  simp only [List.append_assoc]
  rw [Rd.bind_ok (a := id) (s' := put16 prop ++ (icc ++ (put16 serial ++ tail))) _ (by simp [Rd.orErr, Res.mapErr])]
  rw [Rd.bind_ok (a := prop) (s' := icc ++ (put16 serial ++ tail)) _ (by simp [Rd.orErr, Res.mapErr])]
  rw [Rd.bind_ok (a := icc) (s' := put16 serial ++ tail) _ (by rw [Rd.orErr, Rd.read_append _ _ _ hi]; rfl)]
  cases hp : parseUint (bcdToString icc) with
  | err e => rfl
  | panic => rfl
  | ok n =>
    simp only [Rd.bind_lift_ok, Res.bind]
    rw [Rd.bind_ok (a := serial) (s' := tail) _ (by simp [Rd.orErr, Res.mapErr])]
    by_cases h : Property.isEnablePacket prop = true
    · simp only [h, if_true]
      rw [Rd.bind_apply]
      cases (do let a ← Rd.u16; let b ← Rd.u16; pure (some ⟨a, b⟩) : Rd (Option Packet)) tail <;> rfl
    · simp [h]

theorem parseUint_bcd (n : Nat) (h0 : 0 < n) (h1 : n < 10 ^ 12) : parseUint (bcdToString (bcd 6 n)) = .ok n := by
  have hv : digitsVal (bcdToString (bcd 6 n)) = n := by
    rw [digitsVal_bcdToString, digitsVal_bcd]; omega
  unfold parseUint
  have hne : bcdToString (bcd 6 n) ≠ [] := by
    intro he; rw [he] at hv; simp at hv; omega
  rw [if_neg hne, all_bcdToString, all_bcd, hv]
  simp; omega

/-- The header encoder produces the specified layout. -/
theorem Header.encode_layout (h : Header) (hicc : h.iccID.toNat < 10 ^ 12)
    (b : Bytes) (h' : Header) (he : Header.encode h = .ok (b, h')) :
    b = headerBytes h'.msgID.toNat h'.property.toNat h'.iccID.toNat h'.serial.toNat
      (h'.packet.map fun p => (p.sum.toNat, p.seq.toNat)) ∧
    h' = { h with property := h'.property } ∧
    h'.property = (if h.packet.isSome then Property.enablePacket h.property else h.property) ∧
    (Property.isEnablePacket h'.property = h'.packet.isSome) := by
  unfold Header.encode at he
  simp only at he
  have hb := (stringToBCD_fmtUint (k := 6) (n := h.iccID.toNat) (by decide) (by omega)).1
  cases hp : h.packet with
  | none =>
    simp only [hp, Option.isSome_none, if_false, Bool.false_eq_true] at he
    split at he
    · simp at he
    · rename_i hn
      simp only [Res.ok.injEq, Prod.mk.injEq] at he
      obtain ⟨rfl, rfl⟩ := he
      simp only [headerBytes, hp, hb, put16_spec, Option.map_none, List.append_nil]
      simp_all
  | some p =>
    simp only [hp, Option.isSome_some, if_true] at he
    have hen : Property.isEnablePacket (Property.enablePacket h.property) = true := by
      rw [Property.isEnablePacket_testBit, Property.enablePacket_toNat, Nat.testBit_or, Nat.testBit_two_pow]
      simp
    simp only [hen, if_true, Res.ok.injEq, Prod.mk.injEq] at he
    obtain ⟨rfl, rfl⟩ := he
    simp only [headerBytes, hp, hb, put16_spec, Option.map_some, List.append_assoc]
    simp [hen]

/-- Decoding an encoded header followed by any bytes gives the header back. -/
theorem Header.decode_encode (h : Header) (h0 : 0 < h.iccID.toNat) (hicc : h.iccID.toNat < 10 ^ 12)
    (b : Bytes) (h' : Header) (he : Header.encode h = .ok (b, h')) (rest : Bytes) :
    Header.decode {} (b ++ rest) = .ok h' := by
  obtain ⟨hb, hh, hprop, hpk⟩ := Header.encode_layout h hicc b h' he
  have hi' : h'.iccID = h.iccID := by rw [hh]
  subst hb
  have hround := parseUint_bcd h'.iccID.toNat (by rw [hi']; exact h0) (by rw [hi']; exact hicc)
  cases hp : h'.packet with
  | none =>
    simp only [headerBytes, ← put16_spec, hp, Option.map_none, List.append_nil]
    rw [Header.decode_bytes _ _ _ _ _ _ (bcd_length 6 _), hround]
    rw [hp] at hpk
    simp only [Res.bind, hpk, Option.isSome_none, Bool.false_eq_true, if_false]
    cases h'; simp_all
  | some p =>
    simp only [headerBytes, ← put16_spec, hp, Option.map_some, ← List.append_assoc]
    rw [show put16 h'.msgID ++ put16 h'.property ++ bcd 6 h'.iccID.toNat ++ put16 h'.serial ++ put16 p.sum ++
      put16 p.seq ++ rest = put16 h'.msgID ++ put16 h'.property ++ bcd 6 h'.iccID.toNat ++ put16 h'.serial ++
      (put16 p.sum ++ (put16 p.seq ++ rest)) by simp]
    rw [Header.decode_bytes _ _ _ _ _ _ (bcd_length 6 _), hround]
    rw [hp] at hpk
    simp only [Res.bind, hpk, Option.isSome_some, if_true]
    simp
    cases h'; simp_all

theorem Header.encode_length (h : Header) (b : Bytes) (h' : Header) (he : Header.encode h = .ok (b, h')) :
    b.length = if Property.isEnablePacket h'.property then 16 else 12 := by
  unfold Header.encode at he
  simp only at he
  have hl := header_fixed_length h
  generalize (if h.packet.isSome then Property.enablePacket h.property else h.property) = prop at he
  split at he
  · rename_i hp
    split at he
    · simp only [Res.ok.injEq, Prod.mk.injEq] at he
      obtain ⟨rfl, rfl⟩ := he
      simp [hp, hl]
    · simp at he
  · rename_i hp
    simp only [Res.ok.injEq, Prod.mk.injEq] at he
    obtain ⟨rfl, rfl⟩ := he
    simp [hp, hl]

end Verif
