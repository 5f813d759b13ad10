import Verif.Lemmas.Corruption
/-! # Where an escape sequence stands for a byte -/

namespace Verif
open Spec

/-- A byte 7d of stuffed bytes starts an escape sequence. -/
theorem escape_at_seven_d (z : UInt8) (b : Bytes) : ∀ (l a : Bytes), a ++ 0x7d :: z :: b = escape l →
    ∃ p c q, l = p ++ c :: q ∧ a = escape p ∧ escape [c] = [0x7d, z] ∧ b = escape q := by
  intro l
  induction l with
  | nil => intro a h; simp [escape] at h
  | cons c l ih =>
    intro a h
    rw [escape_cons] at h
    have step : ∀ a', a = escape [c] ++ a' → ∃ p c' q, c :: l = p ++ c' :: q ∧ a = escape p ∧ escape [c'] = [0x7d, z] ∧ b = escape q := by
      intro a' ha
      rw [ha, List.append_assoc] at h
      obtain ⟨p, c', q, h1, h2, h3, h4⟩ := ih a' (List.append_cancel_left h)
      exact ⟨c :: p, c', q, by rw [h1]; rfl, by rw [ha, h2, ← escape_cons], h3, h4⟩
    have cases3 : escape [c] = [0x7d, 0x02] ∨ escape [c] = [0x7d, 0x01] ∨ (escape [c] = [c] ∧ c ≠ 0x7d) := by
      by_cases h1 : c = 0x7e
      · exact .inl (by simp [escape, h1])
      · by_cases h2 : c = 0x7d
        · exact .inr (.inl (by simp [escape, h2]))
        · exact .inr (.inr ⟨by simp [escape, h1, h2], h2⟩)
    rcases cases3 with hc | hc | ⟨hc, hne⟩
    · rw [hc] at h step
      cases a with
      | nil =>
        simp only [List.nil_append, List.cons_append, List.cons.injEq, true_and] at h
        exact ⟨[], c, l, rfl, rfl, by rw [hc, h.1], h.2⟩
      | cons x a =>
        cases a with
        | nil => simp at h
        | cons y a =>
          simp only [List.cons_append, List.nil_append, List.cons.injEq] at h
          exact step a (by rw [h.1, h.2.1]; rfl)
    · rw [hc] at h step
      cases a with
      | nil =>
        simp only [List.nil_append, List.cons_append, List.cons.injEq, true_and] at h
        exact ⟨[], c, l, rfl, rfl, by rw [hc, h.1], h.2⟩
      | cons x a =>
        cases a with
        | nil => simp at h
        | cons y a =>
          simp only [List.cons_append, List.nil_append, List.cons.injEq] at h
          exact step a (by rw [h.1, h.2.1]; rfl)
    · rw [hc] at h step
      cases a with
      | nil =>
        simp only [List.nil_append, List.cons_append, List.cons.injEq] at h
        exact absurd h.1.symm hne
      | cons x a =>
        simp only [List.cons_append, List.nil_append, List.cons.injEq] at h
        exact step a (by rw [h.1]; rfl)

/-- Any other byte of stuffed bytes, if it is not 01 or 02, stands for itself. -/
theorem escape_at_plain (y : UInt8) (h0 : y ≠ 0x7d) (h1 : y ≠ 0x01) (h2 : y ≠ 0x02) (b : Bytes) : ∀ (l a : Bytes), a ++ y :: b = escape l →
    ∃ p q, l = p ++ y :: q ∧ a = escape p ∧ escape [y] = [y] ∧ b = escape q := by
  intro l
  induction l with
  | nil => intro a h; simp [escape] at h
  | cons c l ih =>
    intro a h
    rw [escape_cons] at h
    have step : ∀ a', a = escape [c] ++ a' → ∃ p q, c :: l = p ++ y :: q ∧ a = escape p ∧ escape [y] = [y] ∧ b = escape q := by
      intro a' ha
      rw [ha, List.append_assoc] at h
      obtain ⟨p, q, h1, h2, h3, h4⟩ := ih a' (List.append_cancel_left h)
      exact ⟨c :: p, q, by rw [h1]; rfl, by rw [ha, h2, ← escape_cons], h3, h4⟩
    have cases3 : (∃ z, (z = 0x01 ∨ z = 0x02) ∧ escape [c] = [0x7d, z]) ∨ escape [c] = [c] := by
      by_cases h1 : c = 0x7e
      · exact .inl ⟨0x02, .inr rfl, by simp [escape, h1]⟩
      · by_cases h2 : c = 0x7d
        · exact .inl ⟨0x01, .inl rfl, by simp [escape, h2]⟩
        · exact .inr (by simp [escape, h1, h2])
    rcases cases3 with ⟨z, hz, hc⟩ | hc
    · rw [hc] at h step
      cases a with
      | nil =>
        simp only [List.nil_append, List.cons_append, List.cons.injEq] at h
        exact absurd h.1 h0
      | cons x a =>
        cases a with
        | nil =>
          simp only [List.cons_append, List.nil_append, List.cons.injEq] at h
          rcases hz with rfl | rfl
          · exact absurd h.2.1 h1
          · exact absurd h.2.1 h2
        | cons w a =>
          simp only [List.cons_append, List.nil_append, List.cons.injEq] at h
          exact step a (by rw [h.1, h.2.1]; rfl)
    · have hc' := hc
      rw [hc] at h step
      cases a with
      | nil =>
        simp only [List.nil_append, List.cons_append, List.cons.injEq] at h
        obtain ⟨rfl, h⟩ := h
        exact ⟨[], l, rfl, rfl, hc', h⟩
      | cons x a =>
        simp only [List.cons_append, List.nil_append, List.cons.injEq] at h
        exact step a (by rw [h.1]; rfl)

/-- Stuffed bytes with the right check byte are a frame. -/
theorem frame_iff_xor (w : Bytes) : (∃ c, Frame ([0x7e] ++ w ++ [0x7e]) c) ↔ ∃ l, w = escape l ∧ l ≠ [] ∧ xorAll l = 0 := by
  constructor
  · rintro ⟨c, w0, h, hw⟩
    have : w = w0 := List.append_cancel_left (List.append_cancel_right h)
    subst this
    exact ⟨_, (stuffed_iff _ _).1 hw, by simp, by simp [xorAll_append, xorAll]⟩
  · rintro ⟨l, rfl, hl, hx⟩
    refine ⟨l.dropLast, _, rfl, (stuffed_iff _ _).2 ?_⟩
    have h1 := List.dropLast_concat_getLast hl
    have h2 : xorAll l.dropLast = l.getLast hl := by
      rw [← h1, xorAll_append] at hx
      simp only [xorAll, UInt8.xor_zero] at hx
      exact UInt8.xor_eq_zero_iff.1 hx
    rw [h2, h1]

end Verif
