import Verif.Lemmas.Fits2
import Verif.Props.Relay
/-! # Received bodies: their extras, and what they need to be passed on -/

namespace Verif

section
variable {env : Env} {data : Bytes} {n : Nat}

open Spec

/-- The extras of a received report have no encoding. -/
def Bare (t : T0200) : Prop := ∀ x ∈ t.extras, ∃ v, x = some (⟨v, []⟩ : Extra)

theorem T0200.decode_bare {e : T0200} (h : T0200.decode env {} data = .ok (e, n)) : Bare e := by
  obtain ⟨-, xs, h1, h2⟩ := T0200.decode_extras h
  obtain ⟨h3, -⟩ := decodeExtras_shape _ _ _ h1
  intro x hx
  rw [h2] at hx
  split at hx
  · obtain ⟨v, -, hv⟩ := h3 x hx
    exact ⟨v, hv⟩
  · cases hx

theorem T0201.decode_bare {e : T0201} (h : T0201.decode env {} data = .ok (e, n)) : Bare e.result := by
  unfold T0201.decode at h
  split at h
  · cases h
  obtain ⟨⟨a, t⟩, -, h⟩ := Res.bind_ok h
  obtain ⟨d, -, h⟩ := Res.bind_ok h
  obtain ⟨⟨r, k⟩, hr, h⟩ := Res.bind_ok h
  cases h
  exact T0200.decode_bare hr

theorem T0704.decode_bare {e : T0704} (h : T0704.decode env {} data = .ok (e, n)) : ∀ i ∈ e.items, Bare i := by
  unfold T0704.decode at h
  exact decodeMin_post (Q := fun e : T0704 => ∀ i ∈ e.items, Bare i) (by
    refine Rd.Post.bind (Rd.Post.any _) fun k _ => ?_
    rd_any
    refine Rd.Post.bind (Rd.Post.times _ (Q := Bare) (by
      unfold T0704.decodeItem
      rd_any
      rd_any
      refine Rd.Post.bind (Q := fun r : T0200 × Nat => Bare r.1) (Rd.Post.lift fun r hr => T0200.decode_bare (n := r.2) hr) fun r hr => ?_
      exact Rd.Post.pure hr)) fun l hl => Rd.Post.pure hl.2) h

/-- All reports in a received body are of that kind. -/
def BareBody : Entity → Prop
  | .m0200 b => Bare b
  | .m0201 b => Bare b.result
  | .m0500 b => Bare b.result
  | .m0704 b => ∀ i ∈ b.items, Bare i
  | _ => True

open Entity in
theorem decoded_bare {id : UInt16} {e : Entity} (h : Entity.decodeBody env id data = .ok (e, n)) : BareBody e := by
  have hid := Entity.decodeBody_msgID h
  cases e <;> try exact True.intro
  case m0200 t =>
    subst hid
    obtain ⟨a, ha, he⟩ := wrapDec_ok (mk := m0200) h
    cases he
    exact T0200.decode_bare ha
  case m0201 t =>
    subst hid
    obtain ⟨a, ha, he⟩ := wrapDec_ok (mk := m0201) h
    cases he
    exact T0201.decode_bare ha
  case m0500 t =>
    subst hid
    obtain ⟨a, ha, he⟩ := wrapDec_ok (mk := m0500) h
    cases he
    exact T0201.decode_bare ha
  case m0704 t =>
    subst hid
    obtain ⟨a, ha, he⟩ := wrapDec_ok (mk := m0704) h
    cases he
    exact T0704.decode_bare ha

theorem Bare.constructible {t : T0200} (h : Bare t) : ∀ x ∈ t.extras, Constructible x := by
  intro x hx y hy
  obtain ⟨v, hv⟩ := h x hx
  rw [hv] at hy
  cases hy
  exact ⟨v, .inr rfl⟩

theorem Bare.dropCache {t : T0200} (h : Bare t) : Spec.dropCache t = t := by
  have : (t.extras.map fun x => x.map fun x => (⟨x.val, []⟩ : Extra)) = t.extras := by
    unfold Bare at h
    generalize t.extras = xs at h
    induction xs with
    | nil => rfl
    | cons x xs ih =>
      obtain ⟨v, rfl⟩ := h x (by simp)
      rw [List.map_cons, ih fun y hy => h y (by simp [hy])]
      rfl
  unfold Spec.dropCache
  rw [this]

theorem Bare.no_extras {t : T0200} (h : Bare t) (hl : LocationOK env t) : t.extras = [] := by
  cases hx : t.extras with
  | nil => rfl
  | cons x xs =>
    obtain ⟨v, hv⟩ := h x (by simp [hx])
    obtain ⟨w, -, hw⟩ := hl.2 x (by simp [hx])
    rw [hv] at hw
    simp only [Option.some.injEq] at hw
    have := (Extra.new_length w).2
    rw [← hw] at this
    simp at this

theorem BareBody.constructible {e : Entity} (h : BareBody e) : ExtrasConstructible e := by
  cases e <;> try exact True.intro
  case m0200 t => exact Bare.constructible h
  case m0201 t => exact Bare.constructible h
  case m0500 t => exact Bare.constructible h
  case m0704 t => exact fun i hi => Bare.constructible (h i hi)

theorem BareBody.dropCache {e : Entity} (h : BareBody e) : Spec.Entity.dropCache e = e := by
  cases e <;> try rfl
  case m0200 t => exact congrArg _ (Bare.dropCache h)
  case m0201 t =>
    cases t
    exact congrArg (fun r => Entity.m0201 ⟨_, r⟩) (Bare.dropCache h)
  case m0500 t =>
    cases t
    exact congrArg (fun r => Entity.m0500 ⟨_, r⟩) (Bare.dropCache h)
  case m0704 t =>
    obtain ⟨t, is⟩ := t
    have : is.map Spec.dropCache = is := by
      have h' : ∀ i ∈ is, Bare i := h
      clear h
      induction is with
      | nil => rfl
      | cons i is ih =>
        rw [List.map_cons, Bare.dropCache (h' i (by simp)), ih fun j hj => h' j (by simp [hj])]
    exact congrArg (fun r => Entity.m0704 ⟨t, r⟩) this

theorem fits_survives {e : Entity} (hb : BareBody e) (h : BodyFits env e) : Survives env e := by
  cases e <;> try exact True.intro
  case m0100 t => exact h.2.2.2
  case m0102 t => exact h
  case m0104 t => exact h.1
  case m0200 t => exact Bare.no_extras hb h
  case m0201 t => exact Bare.no_extras hb h
  case m0500 t => exact Bare.no_extras hb h
  case m0702 t => exact ⟨h.2.1, h.2.2.1, h.2.2.2.1⟩
  case m0704 t => exact fun i hi => Bare.no_extras (hb i hi) (h.2 i hi).1
  case m0705 t => exact ⟨h.1, h.2.1⟩
  case m8100 t => exact h
  case m8103 t => exact h.1
  case m8105 t => exact h
  case m8300 t => exact h
  case m8108 t => exact h.2
  case m8301 t => exact h.2
  case m8302 t => exact h
  case m8303 t => exact h.2
  case m8304 t => exact h
  case m8400 t => exact h
  case m8401 t => exact h.2
  case m8600 t => exact h.1
  case m8602 t => exact h.1
  case m8604 t => exact h.1
  case m0901 t => exact h
  case m0a00 t =>
    intro k m hk hm
    obtain ⟨m', x, g1, g2, -⟩ := h
    rw [g1] at hk
    cases hk
    cases hm
    exact g2
  case m8a00 t =>
    intro k m hk hm
    obtain ⟨m', x, g1, g2, -⟩ := h
    rw [g1] at hk
    cases hk
    cases hm
    exact g2

open Entity in
theorem survives_fits {id : UInt16} {e : Entity} (hd : Entity.decodeBody env id data = .ok (e, n)) (h : Survives env e) : BodyFits env e := by
  by_cases h1 : ∃ t, e = .m0107 t
  · obtain ⟨t, rfl⟩ := h1
    have hid := Entity.decodeBody_msgID hd
    subst hid
    obtain ⟨a, ha, he⟩ := wrapDec_ok (mk := m0107) hd
    cases he
    exact T0107.fits ha
  by_cases h2 : ∃ t, e = .m0702 t
  · obtain ⟨t, rfl⟩ := h2
    have hid := Entity.decodeBody_msgID hd
    subst hid
    obtain ⟨a, ha, he⟩ := wrapDec_ok (mk := m0702) hd
    cases he
    have hp := T0702.times ha
    exact ⟨hp.1, h.1, h.2.1, h.2.2, hp.2⟩
  have hr : Relayable env e := by
    unfold Survives at h
    split at h
    · exact absurd ⟨_, rfl⟩ h1
    · exact absurd ⟨_, rfl⟩ h2
    · exact h
  have := decoded_inRange hd hr
  unfold BodyFits
  split
  · exact absurd ⟨_, rfl⟩ h1
  · exact absurd ⟨_, rfl⟩ h2
  · exact this

end
end Verif
