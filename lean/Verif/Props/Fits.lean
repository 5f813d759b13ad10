import Verif.Lemmas.Fits3
/-! # C16, C68: exactly which bodies come back

Under the assumptions on the GB18030 and gzip libraries stated in `Spec.Codecs`. -/

namespace Verif

open Spec

/-- C16, exactly: a body of any of the 65 registered types comes back from its own bytes if and only if it fits the wire format (`Spec.BodyFits`). Whatever does
not fit is refused by the encoder, refused by the decoder, or changed. -/
theorem C16_exact (env : Env) (hc : Codecs env) (e : Entity) (hx : ExtrasConstructible e) : ComesBack env e ↔ BodyFits env e := by
  constructor
  · exact comes_back_fits hc hx
  · intro h
    obtain ⟨b, e', h1, h2⟩ := fits_comes_back h
    exact ⟨b, e', _, h1, h2⟩

/-- The sufficient direction needs no assumption. It covers more than `C16_body_round_trip_partial`. -/
theorem C16_fits_partial (env : Env) (e : Entity) (h : BodyFits env e) : ComesBack env e := by
  obtain ⟨b, e', h1, h2⟩ := fits_comes_back h
  exact ⟨b, e', _, h1, h2⟩

/-- What was in range fits. -/
theorem inRange_fits {env : Env} {e : Entity} (h : InRange env e) : BodyFits env e := by
  unfold BodyFits
  split
  · obtain ⟨h1, h2, h3, ⟨h4, h5, h6⟩, h7⟩ := h
    refine ⟨h1, h2, h3, ⟨h4, fun c hc => ⟨(h5 c hc).1, ?_⟩, h6⟩, h7⟩
    have := (h5 c hc).2
    exact UInt8.le_trans this (by decide)
  · obtain ⟨h1, h2, ⟨h3, b, h4, h5, -, h6⟩, h7, h8⟩ := h
    refine ⟨h1, h2, ⟨b, _, h4, ?_, bytesToString_pad _ (20 - b.length) h3⟩, h7, h8⟩
    rw [List.take_append, List.take_of_length_le h5, List.take_replicate, Nat.min_eq_left (by omega)]
    exact h6 _
  · exact h

/-- C68, exactly: a received body can be passed on, so that whoever receives it decodes the same body, if and only if it meets the conditions of
`Spec.Survives`. -/
theorem C68_exact (env : Env) (hc : Codecs env) (id : UInt16) (data : Bytes) (e : Entity) (n : Nat)
    (h : Entity.decodeBody env id data = .ok (e, n)) :
    (∃ b e' n', Entity.encode env e = .ok (b, e') ∧ Entity.decodeBody env id b = .ok (e, n')) ↔ Survives env e := by
  have hb := decoded_bare h
  have hid := Entity.decodeBody_msgID h
  have : (∃ b e' n', Entity.encode env e = .ok (b, e') ∧ Entity.decodeBody env id b = .ok (e, n')) ↔ ComesBack env e := by
    unfold ComesBack
    rw [hb.dropCache, hid]
  rw [this, C16_exact env hc e hb.constructible]
  exact ⟨fits_survives hb, survives_fits h⟩

/-! ## Non-trivial cases -/

/-- The assumptions hold of the sample environment. -/
theorem sample_codecs : Codecs Sample.env where
  empty := sample_text [] 0 (by decide) (by decide) (by decide)
  whole s b t h1 h2 h3 := by
    change (if s.all (· < 128) then some s else none) = some b at h1
    change (if b.all (· < 128) then some b else none) = some t at h2
    split at h1
    · rename_i hs
      cases h1
      rw [if_pos hs] at h2
      cases h2
      refine sample_text _ _ ?_ hs (Nat.le_refl _)
      intro h0
      rw [← h3] at h0
      exact (plain_bytesToString (Nat.le_refl _)).2 h0
    · cases h1
  cut s b k t h1 hk h2 h3 := by
    change (if s.all (· < 128) then some s else none) = some b at h1
    change (if (b.take k).all (· < 128) then some (b.take k) else none) = some t at h2
    split at h1
    · cases h1
      split at h2
      · cases h2
        have := congrArg List.length h3
        have h4 := (List.takeWhile_sublist (l := s.take k) (· ≠ 0)).length_le
        change (bytesToString (s.take k)).length ≤ _ at h4
        rw [List.length_take] at h4
        omega
      · cases h2
    · cases h1
  zip u := ⟨31 :: u, rfl⟩
  zipCut u z k h1 hk h2 := by
    cases h1
    cases k with
    | zero => cases h2
    | succ k =>
      change some (u.take k) = some u at h2
      have := congrArg List.length (Option.some.inj h2)
      simp only [List.length_take, List.length_cons] at this hk
      omega

/-- A SIM number with the character `:` comes back. It is not in range, but fits. -/
example : let e := Entity.m0107 { sim := [49, 58] }; ¬ InRange Sample.env e ∧ BodyFits Sample.env e ∧ ComesBack Sample.env e := by
  intro e
  have hf : BodyFits Sample.env e := by
    refine ⟨?_, ?_, ?_, ⟨by decide, by decide, by decide⟩, ?_, ?_⟩ <;> exact ⟨by decide, by decide⟩
  exact ⟨fun h => absurd (h.2.2.2.1.2.1 58 (by decide)) (by decide), hf, C16_fits_partial _ _ hf⟩

/-- One with leading zero does not. -/
example : ¬ ComesBack Sample.env (.m0107 { sim := [48, 49] }) := by
  intro h
  rw [C16_exact _ sample_codecs _ (by exact True.intro)] at h
  exact (fun h : BodyFits Sample.env (.m0107 { sim := [48, 49] }) => h.2.2.2.1.2.2 rfl) h

/-- A report with an extra made by its constructor comes back; one with an extra that was received, or made without constructor, does not. -/
example : let t : T0200 := { lat := ⟨30000000, -6⟩, lng := ⟨120000000, -6⟩, time := 1700000000, extras := [some ⟨.x01 77, []⟩] }
    ExtrasConstructible (.m0200 t) ∧ ¬ ComesBack Sample.env (.m0200 t) := by
  intro t
  have hx : ExtrasConstructible (.m0200 t) := by
    intro x hx y hy
    simp only [t, List.mem_cons, List.not_mem_nil, or_false] at hx
    subst hx
    cases hy
    exact ⟨_, .inr rfl⟩
  refine ⟨hx, ?_⟩
  rw [C16_exact _ sample_codecs _ hx]
  intro h
  obtain ⟨v, -, hv⟩ := h.2 _ (List.mem_cons_self)
  cases hv

/-- A received report with mileage cannot be passed on; one without extras can. -/
example : ∃ e n, Entity.decodeBody Sample.env 0x0200 ([0, 0, 0, 1, 0, 0, 0, 15, 2, 4, 0xcb, 0x14, 1, 0x31, 0x2d, 1, 0, 5, 2, 0x58, 0, 90,
    0x23, 0x11, 0x15, 0x06, 0x13, 0x20] ++ [1, 4, 0, 0, 0, 77]) = .ok (e, n) ∧ ¬ Survives Sample.env e := ⟨_, _, rfl, by
  intro h
  cases h⟩
example : ∃ e n, Entity.decodeBody Sample.env 0x0200 [0, 0, 0, 1, 0, 0, 0, 15, 2, 4, 0xcb, 0x14, 1, 0x31, 0x2d, 1, 0, 5, 2, 0x58, 0, 90,
    0x23, 0x11, 0x15, 0x06, 0x13, 0x20] = .ok (e, n) ∧ Survives Sample.env e := ⟨_, _, rfl, rfl⟩

end Verif
