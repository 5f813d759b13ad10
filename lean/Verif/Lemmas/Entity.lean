import Verif.Model.Codec
/-! # Lemmas about the registry of body types -/

namespace Verif.Entity

theorem ite_some {p : Prop} [Decidable p] {a e : Entity} {x : Option Entity}
    (h : (if p then some a else x) = some e) : (p ∧ a = e) ∨ x = some e := by
  by_cases hp : p
  · simp [hp] at h; exact .inl ⟨hp, h⟩
  · simp [hp] at h; exact .inr h

theorem create_msgID {id : UInt16} {e : Entity} (h : create id = some e) : e.msgID = id := by
  unfold create at h
  repeat (rcases ite_some h with ⟨hid, rfl⟩ | h; · exact hid.symm)
  simp at h

theorem wrapDec_ok {α : Type} {mk : α → Entity} {r : Res (α × Nat)} {e : Entity} {n : Nat}
    (h : wrapDec mk r = .ok (e, n)) : ∃ a, r = .ok (a, n) ∧ e = mk a := by
  unfold wrapDec at h
  split at h
  · simp only [Res.ok.injEq, Prod.mk.injEq] at h
    obtain ⟨rfl, rfl⟩ := h
    exact ⟨_, rfl, rfl⟩
  · simp at h
  · simp at h

/-- Decoding into a body keeps its type. -/
theorem decode_msgID {env : Env} {e e' : Entity} {data : Bytes} {n : Nat} (h : decode env e data = .ok (e', n)) :
    e'.msgID = e.msgID := by
  cases e <;> (simp only [decode] at h; obtain ⟨a, -, rfl⟩ := wrapDec_ok h; rfl)

theorem decodeBody_msgID {env : Env} {id : UInt16} {data : Bytes} {e : Entity} {n : Nat}
    (h : decodeBody env id data = .ok (e, n)) : e.msgID = id := by
  unfold decodeBody at h
  split at h
  · simp at h
  · rename_i e0 he
    have h0 := create_msgID he
    split at h
    · split at h
      · simp only [Res.ok.injEq, Prod.mk.injEq] at h
        obtain ⟨rfl, rfl⟩ := h
        rw [← h0]; rfl
      · simp at h
      · simp at h
    · rw [decode_msgID h, h0]

/-- A delivered 0x0801 has a content. -/
theorem decodeBody_content {env : Env} {id : UInt16} {data : Bytes} {b : T0801} {n : Nat}
    (h : decodeBody env id data = .ok (m0801 b, n)) : b.packet.isSome := by
  unfold decodeBody at h
  split at h
  · simp at h
  · split at h
    · rename_i self _
      split at h
      · rename_i b' hb
        simp only [Res.ok.injEq, Prod.mk.injEq, m0801.injEq] at h
        obtain ⟨rfl, _⟩ := h
        unfold T0801.decodePacket at hb
        cases hd : T0801.decode env self data with
        | err e => simp [hd] at hb
        | panic => simp [hd] at hb
        | ok r =>
          simp only [hd, Res.ok_bind] at hb
          cases hs : slice data (r.2 : Nat) data.length with
          | err e => simp [hs] at hb
          | panic => simp [hs] at hb
          | ok p =>
            simp only [hs, Res.ok_bind, Res.ok.injEq] at hb
            rw [← hb]
            rfl
      · simp at h
      · simp at h
    · rename_i e hcr _ hne
      have hm := decode_msgID h
      clear h hcr
      cases e <;> simp [msgID] at hm
      exact absurd rfl (hne _)

theorem create_isSome (e : Entity) : ∃ e0, create e.msgID = some e0 := by
  cases e <;> exact ⟨_, rfl⟩

end Verif.Entity
