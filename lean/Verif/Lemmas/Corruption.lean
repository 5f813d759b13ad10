import Verif.Lemmas.Message
/-! # Lemmas about single changed bytes on the wire -/

namespace Verif
open Spec

variable {E : Type}

theorem Spec.Unstuffed.functional {w a b : Bytes} (ha : Unstuffed w a) (hb : Unstuffed w b) : a = b := by
  induction ha generalizing b with
  | nil => cases hb; rfl
  | flag _ ih =>
    cases hb with
    | flag h => rw [ih h]
    | plain h _ => exact absurd rfl h
  | esc _ ih =>
    cases hb with
    | esc h => rw [ih h]
    | plain h _ => exact absurd rfl h
  | plain h _ ih =>
    cases hb with
    | flag h' => exact absurd rfl h
    | esc h' => exact absurd rfl h
    | plain _ h' => rw [ih h']

theorem Spec.Unstuffed.append {w1 w2 a b : Bytes} (ha : Unstuffed w1 a) (hb : Unstuffed w2 b) :
    Unstuffed (w1 ++ w2) (a ++ b) := by
  induction ha with
  | nil => exact hb
  | flag _ ih => exact .flag ih
  | esc _ ih => exact .esc ih
  | plain h _ ih => exact .plain h ih

theorem Spec.Stuffed.unstuffed {w c : Bytes} (h : Stuffed w c) : Unstuffed w c := by
  induction h with
  | nil => exact .nil
  | flag _ ih => exact .flag ih
  | esc _ ih => exact .esc ih
  | plain _ h _ ih => exact .plain h ih

/-- The byte an escape sequence stands for. -/
def escValue (z : UInt8) : UInt8 := if z = 0x01 then 0x7d else 0x7e

theorem Spec.Unstuffed.cons_esc {z : UInt8} {w c : Bytes} (h : Unstuffed (0x7d :: z :: w) c) :
    (z = 0x01 ∨ z = 0x02) ∧ ∃ q, c = escValue z :: q ∧ Unstuffed w q := by
  cases h with
  | flag h => exact ⟨.inr rfl, _, rfl, h⟩
  | esc h => exact ⟨.inl rfl, _, rfl, h⟩
  | plain h _ => exact absurd rfl h

theorem Spec.Unstuffed.cons_plain {x : UInt8} {w c : Bytes} (hx : x ≠ 0x7d) (h : Unstuffed (x :: w) c) :
    ∃ q, c = x :: q ∧ Unstuffed w q := by
  cases h with
  | flag h => exact absurd rfl hx
  | esc h => exact absurd rfl hx
  | plain _ h => exact ⟨_, rfl, h⟩

theorem Spec.Unstuffed.not_single_esc {c : Bytes} (h : Unstuffed [0x7d] c) : False := by
  cases h with
  | plain h _ => exact h rfl

theorem xor_cancel_right (x y z : UInt8) (h : x ^^^ z = y ^^^ z) : x = y := (UInt8.xor_left_inj _).1 h

theorem xor_cancel_left (x y z : UInt8) (h : z ^^^ x = z ^^^ y) : x = y := (UInt8.xor_right_inj _).1 h

/-- Two wire strings that differ in one byte and unstuff to contents with the same XOR: an escape sequence was
made or unmade. -/
theorem one_change (x y : UInt8) (hxy : x ≠ y) (b : Bytes) : ∀ (a C0 C1 : Bytes),
    Unstuffed (a ++ x :: b) C0 → Unstuffed (a ++ y :: b) C1 → xorAll C0 = xorAll C1 →
    ∃ p q z b', (z = 0x01 ∨ z = 0x02) ∧ b = z :: b' ∧
      ((x = 0x7d ∧ y = 0x7c ∧ C0 = p ++ escValue z :: q ∧ C1 = p ++ 0x7c :: z :: q) ∨
       (y = 0x7d ∧ x = 0x7c ∧ C1 = p ++ escValue z :: q ∧ C0 = p ++ 0x7c :: z :: q)) := by
  -- the case of an escape sequence at the changed position
  have esc : ∀ (y : UInt8) (C0 C1 : Bytes), y ≠ 0x7d → Unstuffed (0x7d :: b) C0 → Unstuffed (y :: b) C1 →
      xorAll C0 = xorAll C1 → ∃ q z b', (z = 0x01 ∨ z = 0x02) ∧ b = z :: b' ∧ y = 0x7c ∧ C0 = escValue z :: q ∧
        C1 = 0x7c :: z :: q := by
    intro y C0 C1 hy h0 h1 hx
    match b with
    | [] => exact (h0.not_single_esc).elim
    | z :: b' =>
      obtain ⟨hz, q, rfl, hq⟩ := h0.cons_esc
      obtain ⟨r, rfl, hr⟩ := h1.cons_plain hy
      have hz7 : z ≠ 0x7d := by rcases hz with rfl | rfl <;> decide
      obtain ⟨q', rfl, hq'⟩ := hr.cons_plain hz7
      have := hq.functional hq'
      subst this
      simp only [xorAll] at hx
      have hyz : escValue z = y ^^^ z := by
        rw [← UInt8.xor_assoc] at hx
        exact xor_cancel_right _ _ _ hx
      have hy' : y = 0x7c := by
        apply xor_cancel_right _ _ z
        rw [← hyz]
        rcases hz with rfl | rfl <;> decide
      subst hy'
      exact ⟨q, z, b', hz, rfl, rfl, rfl, rfl⟩
  intro a
  induction h : a.length using Nat.strongRecOn generalizing a with
  | _ n ih =>
    intro C0 C1 h0 h1 hx
    match a with
    | [] =>
      rw [List.nil_append] at h0 h1
      by_cases hx7 : x = 0x7d
      · subst hx7
        obtain ⟨q, z, b', hz, hb, hy, e0, e1⟩ := esc y C0 C1 (Ne.symm hxy) h0 h1 hx
        exact ⟨[], q, z, b', hz, hb, .inl ⟨rfl, hy, e0, e1⟩⟩
      · by_cases hy7 : y = 0x7d
        · subst hy7
          obtain ⟨q, z, b', hz, hb, hy, e0, e1⟩ := esc x C1 C0 hx7 h1 h0 hx.symm
          exact ⟨[], q, z, b', hz, hb, .inr ⟨rfl, hy, e0, e1⟩⟩
        · obtain ⟨q0, rfl, hq0⟩ := h0.cons_plain hx7
          obtain ⟨q1, rfl, hq1⟩ := h1.cons_plain hy7
          have := hq0.functional hq1
          subst this
          exact absurd (xor_cancel_right _ _ _ hx) hxy
    | a0 :: a' =>
      rw [List.cons_append] at h0 h1
      simp only [List.length_cons] at h
      by_cases h7 : a0 = 0x7d
      · subst h7
        match a' with
        | [] =>
          rw [List.nil_append] at h0 h1
          obtain ⟨hz, q0, rfl, hq0⟩ := h0.cons_esc
          obtain ⟨hz', q1, rfl, hq1⟩ := h1.cons_esc
          have := hq0.functional hq1
          subst this
          have hv := xor_cancel_right _ _ _ hx
          exfalso
          rcases hz with rfl | rfl <;> rcases hz' with rfl | rfl <;> first | exact hxy rfl | (exact absurd hv (by decide))
        | z :: a'' =>
          rw [List.cons_append] at h0 h1
          simp only [List.length_cons] at h
          obtain ⟨hz, q0, rfl, hq0⟩ := h0.cons_esc
          obtain ⟨-, q1, rfl, hq1⟩ := h1.cons_esc
          obtain ⟨p, q, z', b', hz', hb, hd⟩ := ih a''.length (by omega) a'' rfl q0 q1 hq0 hq1 (xor_cancel_left _ _ _ hx)
          refine ⟨escValue z :: p, q, z', b', hz', hb, ?_⟩
          rcases hd with ⟨e1, e2, e3, e4⟩ | ⟨e1, e2, e3, e4⟩
          · exact .inl ⟨e1, e2, by rw [e3]; rfl, by rw [e4]; rfl⟩
          · exact .inr ⟨e1, e2, by rw [e3]; rfl, by rw [e4]; rfl⟩
      · obtain ⟨q0, rfl, hq0⟩ := h0.cons_plain h7
        obtain ⟨q1, rfl, hq1⟩ := h1.cons_plain h7
        obtain ⟨p, q, z', b', hz', hb, hd⟩ := ih a'.length (by omega) a' rfl q0 q1 hq0 hq1 (xor_cancel_left _ _ _ hx)
        refine ⟨a0 :: p, q, z', b', hz', hb, ?_⟩
        rcases hd with ⟨e1, e2, e3, e4⟩ | ⟨e1, e2, e3, e4⟩
        · exact .inl ⟨e1, e2, by rw [e3]; rfl, by rw [e4]; rfl⟩
        · exact .inr ⟨e1, e2, by rw [e3]; rfl, by rw [e4]; rfl⟩

theorem Spec.Unstuffed.of_append {w1 w2 a c : Bytes} (h1 : Unstuffed w1 a) (h : Unstuffed (w1 ++ w2) c) :
    ∃ q, c = a ++ q ∧ Unstuffed w2 q := by
  induction h1 generalizing c with
  | nil => exact ⟨c, rfl, h⟩
  | flag _ ih =>
    obtain ⟨_, q, rfl, hq⟩ := h.cons_esc
    obtain ⟨r, rfl, hr⟩ := ih hq
    exact ⟨r, rfl, hr⟩
  | esc _ ih =>
    obtain ⟨_, q, rfl, hq⟩ := h.cons_esc
    obtain ⟨r, rfl, hr⟩ := ih hq
    exact ⟨r, rfl, hr⟩
  | plain h7 _ ih =>
    obtain ⟨q, rfl, hq⟩ := h.cons_plain h7
    obtain ⟨r, rfl, hr⟩ := ih hq
    exact ⟨r, rfl, hr⟩

/-- What a receiver that accepts a one-byte change of a frame has seen. -/
theorem accepted_change {w w' content : Bytes} {self d : Message E} {C : BodyCodec E} {key : Option DecKey}
    (hw : Stuffed w (content ++ [xorAll content])) (hchg : OneByteChanged w w')
    (hd : Message.decode C key self ([0x7e] ++ w' ++ [0x7e]) = .ok d) :
    ∃ a x y z b p q c', x ≠ y ∧ (z = 0x01 ∨ z = 0x02) ∧ w = a ++ x :: z :: b ∧ w' = a ++ y :: z :: b ∧
      Message.decodeEnvelope ([0x7e] ++ w' ++ [0x7e]) = .ok (d.header, c') ∧
      ((x = 0x7d ∧ y = 0x7c ∧ content ++ [xorAll content] = p ++ escValue z :: q ∧
          c' ++ [xorAll c'] = p ++ 0x7c :: z :: q) ∨
       (y = 0x7d ∧ x = 0x7c ∧ c' ++ [xorAll c'] = p ++ escValue z :: q ∧
          content ++ [xorAll content] = p ++ 0x7c :: z :: q)) := by
  obtain ⟨c', he⟩ := Message.decode_ok_header hd
  obtain ⟨v, u, s, hdata, hv, hu, hs, hlen, -⟩ := decodeEnvelope_ok he
  have hw' : w' = v ++ u := by
    have : ([0x7e] ++ w' ++ [0x7e] : Bytes) = [0x7e] ++ (v ++ u) ++ [0x7e] := by rw [hdata]; simp
    exact List.append_cancel_left (List.append_cancel_right this)
  obtain ⟨a, x, y, b, hxy, e0, e1⟩ := hchg
  have hx0 : xorAll (content ++ [xorAll content]) = 0 := by simp [xorAll_append, xorAll]
  have hx1 : xorAll (c' ++ [xorAll c']) = 0 := by simp [xorAll_append, xorAll]
  have h0 : Unstuffed (a ++ x :: b) (content ++ [xorAll content]) := e0 ▸ hw.unstuffed
  -- unless the check byte is a bare 7d, the changed string unstuffs to content and check byte
  have h1 : Unstuffed w' (c' ++ [xorAll c']) ∨ u = [0x7d] := by
    rw [hw', ← hs]
    rcases hu with rfl | ⟨rfl, rfl⟩ | ⟨rfl, rfl⟩
    · by_cases h7 : s = 0x7d
      · right; rw [h7]
      · left; exact hv.append (.plain h7 .nil)
    · left; exact hv.append (.esc .nil)
    · left; exact hv.append (.flag .nil)
  rcases h1 with h1 | h1
  · rw [e1] at h1
    obtain ⟨p, q, z, b', hz, hb, hd⟩ := one_change x y hxy b a _ _ h0 h1 (hx0.trans hx1.symm)
    subst hb
    exact ⟨a, x, y, z, b', p, q, c', hxy, hz, e0, e1, he, hd⟩
  · -- a bare 7d at the end
    exfalso
    have hs7 : s = 0x7d := by
      rcases hu with rfl | ⟨rfl, _⟩ | ⟨rfl, _⟩
      · simpa using h1
      · simp at h1
      · simp at h1
    rw [h1] at hw'
    have hb : b = [] := by
      apply Decidable.byContradiction
      intro hb
      -- the last byte is not the changed one, so the stuffed string ends in 7d
      have hlast : ∃ b0, b = b0 ++ [0x7d] := by
        rw [← List.dropLast_concat_getLast hb] at e1
        rw [hw'] at e1
        have e2 : v ++ [0x7d] = (a ++ y :: b.dropLast) ++ [b.getLast hb] := by rw [e1]; simp
        have := (List.append_inj' e2 rfl).2
        simp only [List.cons.injEq, and_true] at this
        exact ⟨b.dropLast, by rw [this, List.dropLast_concat_getLast]⟩
      obtain ⟨b0, rfl⟩ := hlast
      rw [e0, show a ++ x :: (b0 ++ [0x7d]) = (a ++ x :: b0) ++ [0x7d] by simp] at hw
      obtain ⟨v', z', hv', hz'⟩ := escape_getLast (content ++ [xorAll content]) (by simp)
      have := (List.append_inj' (((stuffed_iff _ _).1 hw).trans hv') rfl).2
      simp only [List.cons.injEq, and_true] at this
      exact hz' this.symm
    subst hb
    have hva : v = a ∧ y = 0x7d := by
      have := List.append_inj' (hw'.symm.trans e1) rfl
      exact ⟨this.1, by simpa using this.2.symm⟩
    obtain ⟨rfl, rfl⟩ := hva
    obtain ⟨q, hq, hqx⟩ := hv.of_append h0
    obtain ⟨q', rfl, hq'⟩ := hqx.cons_plain hxy
    cases hq'
    have := List.append_inj' hq rfl
    simp only [List.cons.injEq, and_true] at this
    apply hxy
    rw [← this.2, this.1, ← hs, hs7]

end Verif
