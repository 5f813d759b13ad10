import Verif.Lemmas.Location
import Verif.Spec.Extras
/-! # Lemmas about the extras loop -/

namespace Verif

open Spec (BaseOK)

theorem put16_be16 (n : UInt16) : put16 n = Spec.be16 n.toNat := by
  simp only [put16, Spec.be16, List.cons.injEq, and_true]
  constructor
  · apply UInt8.toNat.inj
    simp [UInt16.toNat_shiftRight, Nat.shiftRight_eq_div_pow]
  · apply UInt8.toNat.inj
    simp

theorem put32_be32 (n : UInt32) : put32 n = Spec.be32 n.toNat := by
  simp only [put32, Spec.be32, Spec.be16, List.cons_append, List.nil_append, List.cons.injEq, and_true]
  refine ⟨?_, ?_, ?_, ?_⟩ <;> apply UInt8.toNat.inj <;>
    simp [UInt32.toNat_shiftRight, Nat.shiftRight_eq_div_pow] <;> omega

theorem Extra.new_content (v : ExtraVal) (h : Spec.ExtraOK v) : (Extra.new v).serialized = Spec.extraContent v := by
  cases v with
  | x11 t a =>
    simp only [Spec.ExtraOK] at h
    cases a with
    | none => rw [h.2 rfl]; rfl
    | some a =>
      have : t ≠ 0 := fun h0 => by have := h.1 h0; simp at this
      simp only [Extra.new, if_pos this, put32_be32, Spec.extraContent, ne_eq]
  | _ => simp only [Extra.new, Spec.extraContent, put32_be32, put16_be16]

theorem Extra.new_id (v : ExtraVal) : (Extra.new v).id = Spec.extraID v := by cases v <;> rfl

theorem Spec.itemWire_known (v : ExtraVal) (h : Spec.ExtraOK v) :
    Spec.itemWire (Spec.extraID v) (Spec.extraContent v) = (Extra.new v).id :: u8 (Extra.new v).serialized.length :: (Extra.new v).serialized := by
  rw [← Extra.new_content v h, ← Extra.new_id]; rfl

/-- What the decoder of one extra does with a content of any length. -/
theorem Extra.decode_size (id : UInt8) (d : Bytes) :
    match Spec.extraSize id d with
    | none => Extra.decode id d = .err .typeNotRegistered
    | some k => if d.length < k then Extra.decode id d = .err .invalidExtraLength else ∃ x, Extra.decode id d = .ok (x, k) := by
  have f32 : ∀ mk, if d.length < 4 then Extra.dec32 mk d = .err .invalidExtraLength else ∃ x, Extra.dec32 mk d = .ok (x, 4) := by
    intro mk
    unfold Extra.dec32
    split
    · rfl
    · match d with
      | a :: b :: c :: e :: t => exact ⟨_, rfl⟩
      | [] => simp at *
      | [_] => simp at *
      | [_, _] => simp at *
      | [_, _, _] => simp at *
  have f16 : ∀ mk, if d.length < 2 then Extra.dec16 mk d = .err .invalidExtraLength else ∃ x, Extra.dec16 mk d = .ok (x, 2) := by
    intro mk
    unfold Extra.dec16
    split
    · rfl
    · match d with
      | a :: b :: t => exact ⟨_, rfl⟩
      | [] => simp at *
      | [_] => simp at *
  have f8 : ∀ mk, if d.length < 1 then Extra.dec8 mk d = .err .invalidExtraLength else ∃ x, Extra.dec8 mk d = .ok (x, 1) := by
    intro mk
    unfold Extra.dec8
    split
    · rfl
    · match d with
      | a :: t => exact ⟨_, rfl⟩
      | [] => simp at *
  have f12 : if d.length < 6 then Extra.dec12 d = .err .invalidExtraLength else ∃ x, Extra.dec12 d = .ok (x, 6) := by
    unfold Extra.dec12
    split
    · rfl
    · match d with
      | a :: b :: c :: e :: f :: g :: t =>
        have : slice (a :: b :: c :: e :: f :: g :: t) 1 5 = .ok [b, c, e, f] := by
          rw [slice_ok _ _ _ (by omega) (by simp)]; rfl
        exact ⟨_, by rw [this]; rfl⟩
      | [] => simp at *
      | [_] => simp at *
      | [_, _] => simp at *
      | [_, _, _] => simp at *
      | [_, _, _, _] => simp at *
      | [_, _, _, _, _] => simp at *
  have f13 : if d.length < 7 then Extra.dec13 d = .err .invalidExtraLength else ∃ x, Extra.dec13 d = .ok (x, 7) := by
    unfold Extra.dec13
    split
    · rfl
    · match d with
      | a :: b :: c :: e :: f :: g :: i :: t =>
        have h1 : slice (a :: b :: c :: e :: f :: g :: i :: t) 0 4 = .ok [a, b, c, e] := by
          rw [slice_ok _ _ _ (by omega) (by simp)]; rfl
        have h2 : slice (a :: b :: c :: e :: f :: g :: i :: t) 4 6 = .ok [f, g] := by
          rw [slice_ok _ _ _ (by omega) (by simp)]; rfl
        exact ⟨_, by rw [h1, h2]; rfl⟩
      | [] => simp at *
      | [_] => simp at *
      | [_, _] => simp at *
      | [_, _, _] => simp at *
      | [_, _, _, _] => simp at *
      | [_, _, _, _, _] => simp at *
      | [_, _, _, _, _, _] => simp at *
  have f11 : if d.length < (if d.head? = some 0 then 1 else 5) then Extra.dec11 d = .err .invalidExtraLength
      else ∃ x, Extra.dec11 d = .ok (x, if d.head? = some 0 then 1 else 5) := by
    unfold Extra.dec11
    cases d with
    | nil => rfl
    | cons t d =>
      rw [if_neg (by simp : ¬ (t :: d).length < 1), idx_zero]
      simp only [Res.ok_bind, List.head?_cons, Option.some.injEq]
      by_cases h0 : t = 0
      · subst h0
        simp
      · simp only [if_neg h0]
        rw [slice_to_end _ _ (by simp)]
        simp only [Res.ok_bind, List.drop_succ_cons, List.drop_zero]
        match d with
        | a :: b :: c :: e :: r =>
          rw [if_neg (by simp), if_neg (by simp)]
          exact ⟨_, rfl⟩
        | [] => simp
        | [_] => simp
        | [_, _] => simp
        | [_, _, _] => simp
  unfold Spec.extraSize Extra.decode
  by_cases h : id = 0x01
  · subst h; exact f32 _
  by_cases h : id = 0x02
  · subst h; exact f16 _
  by_cases h : id = 0x03
  · subst h; exact f16 _
  by_cases h : id = 0x04
  · subst h; exact f16 _
  by_cases h : id = 0x11
  · subst h; exact f11
  by_cases h : id = 0x12
  · subst h; exact f12
  by_cases h : id = 0x13
  · subst h; exact f13
  by_cases h : id = 0x25
  · subst h; exact f32 _
  by_cases h : id = 0x2a
  · subst h; exact f16 _
  by_cases h : id = 0x2b
  · subst h; exact f32 _
  by_cases h : id = 0x30
  · subst h; exact f8 _
  by_cases h : id = 0x31
  · subst h; exact f8 _
  simp [*]

/-- A prefix of well-formed items is read, the rest of the bytes decides. -/
theorem decodeExtras_items (is : List Spec.Item) (h : ∀ i ∈ is, i.OK) (f : Nat) (rest : Bytes) :
    decodeExtras (is.length + f) (is.flatMap Spec.Item.wire ++ rest) =
      (decodeExtras f rest >>= fun xs => .ok ((Spec.knownValues is).map (fun v => some ⟨v, []⟩) ++ xs)) := by
  induction is with
  | nil => simp only [List.length_nil, Nat.zero_add, List.flatMap_nil, List.nil_append, Spec.knownValues, List.map_nil]
           cases decodeExtras f rest <;> rfl
  | cons i is ih =>
    have ih := ih fun j hj => h j (by simp [hj])
    have hi := h i (by simp)
    rw [List.flatMap_cons, List.append_assoc, List.length_cons, Nat.add_right_comm]
    cases i with
    | known v =>
      have hv : Spec.ExtraOK v := by cases v <;> first | exact hi | trivial
      have hl := Extra.new_length v
      rw [show Spec.Item.wire (.known v) = _ from Spec.itemWire_known v hv, List.cons_append, List.cons_append,
        decodeExtras_round _ _ _ _ (by omega), Extra.decode_new v hv]
      simp only [ne_eq, not_true_eq_false, if_false]
      rw [ih]
      cases decodeExtras f rest <;> rfl
    | unknown id data =>
      have hd := Extra.decode_size id data
      rw [hi.1] at hd
      rw [show Spec.Item.wire (.unknown id data) = id :: u8 data.length :: data from rfl, List.cons_append, List.cons_append,
        decodeExtras_round _ _ _ _ hi.2, hd]
      exact ih

theorem Spec.Item.wire_length (i : Spec.Item) : 2 ≤ i.wire.length := by
  cases i <;> simp [Spec.Item.wire, Spec.itemWire]

theorem items_length (is : List Spec.Item) : 2 * is.length ≤ (is.flatMap Spec.Item.wire).length := by
  induction is with
  | nil => simp
  | cons i is ih =>
    have := i.wire_length
    rw [List.flatMap_cons, List.length_append, List.length_cons]
    omega

/-- A report whose extras cannot be read is refused. -/
theorem T0200.decode_base_err (env : Env) (e : T0200) (h5 : Spec.TimeOK env e.time) (self : T0200) (tail : Bytes) (x : Err)
    (hx : decodeExtras tail.length tail = .err x) : T0200.decode env self (baseBytes env e ++ tail) = .err x := by
  have hl := baseBytes_length env e h5
  have hgen : ∀ data, data = baseBytes env e ++ tail → T0200.decode env self data = .err x := by
    intro data hdata
    have hdl : data.length = 28 + tail.length := by rw [hdata, List.length_append, hl]
    have hg2 : getBitUint32 e.status 2 = .ok (e.status.toNat.testBit 2) := getBitUint32_eq e.status 2
    have hg3 : getBitUint32 e.status 3 = .ok (e.status.toNat.testBit 3) := getBitUint32_eq e.status 3
    have hdrop : data.drop (data.length - tail.length) = tail := by
      rw [hdl, Nat.add_sub_cancel, hdata, List.drop_left' hl]
    have hsl : slice data (data.length - tail.length) data.length = .ok tail := by
      rw [slice_to_end _ _ (by omega), hdrop]
    unfold T0200.decode decodeMin runDecode
    rw [if_neg (by omega)]
    generalize hL : data.length = L at hsl
    generalize hD : slice data = S at hsl
    rw [hdata]
    simp only [baseBytes, List.append_assoc, Rd.bind_u32_put32, Rd.bind_u16_put16, hg2, hg3, Rd.bind_lift_ok]
    rw [bind_bcdTime env e.time h5]
    simp only [Rd.bind_len, hsl, Rd.bind_lift_ok, hx]
    rfl
  exact hgen _ rfl

end Verif
