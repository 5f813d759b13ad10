import Verif.Lemmas.Layout
/-! # The layout of every body type -/

namespace Verif.Entity

theorem encode_layout (env : Env) (e : Entity) (h : Spec.InRange env e) :
    ∃ e', encode env e = .ok (Spec.bodyBytes env e, e') := by
  cases e with
  | m0001 b => exact ⟨_, keep_ok (r := T0001.encode b) (e := m0001 b) (by unfold T0001.encode; rw [put16_be16, put16_be16]; rfl)⟩
  | m0002 b => exact ⟨_, rfl⟩
  | m0003 b => exact ⟨_, rfl⟩
  | m0100 b =>
    obtain ⟨h1, h2, h3, h4⟩ := h
    refine ⟨_, keep_ok (r := T0100.encode env b) (e := m0100 b) ?_⟩
    unfold T0100.encode
    rw [AnyText.putNonempty h4, putFixed_padded, putFixed_padded, putFixed_padded, put16_be16, put16_be16]
    rfl
  | m0102 b =>
    refine ⟨_, keep_ok (r := T0102.encode env b) (e := m0102 b) ?_⟩
    unfold T0102.encode
    rw [AnyText.putNonempty h.2, Spec.textOrNothing, if_neg h.1]
    rfl
  | m0104 b =>
    refine ⟨_, keep_ok (r := T0104.encode b) (e := m0104 b) ?_⟩
    unfold T0104.encode
    rw [params_layout, put16_be16]
    simp [Spec.bodyBytes, Spec.paramsBytes]
  | m0107 b =>
    obtain ⟨h1, h2, h3, h4, h5, h6⟩ := h
    refine ⟨_, keep_ok (r := T0107.encode b) (e := m0107 b) ?_⟩
    unfold T0107.encode
    rw [putFixed_padded, putFixed_padded, putFixed_padded, put16_be16, sim_bytes h4]
    simp [Spec.bodyBytes, Spec.counted]
  | m0108 b => exact ⟨_, rfl⟩
  | m0200 b => exact ⟨_, wrapEnc_of m0200 (location_layout h)⟩
  | m0201 b =>
    refine ⟨m0201 b, wrapEnc_of m0201 ?_⟩
    unfold T0201.encode
    rw [location_layout h, put16_be16]
    rfl
  | m0301 b => exact ⟨_, rfl⟩
  | m0302 b => exact ⟨_, keep_ok (r := T0302.encode b) (e := m0302 b) (by unfold T0302.encode; rw [put16_be16]; rfl)⟩
  | m0303 b => exact ⟨_, rfl⟩
  | m0500 b =>
    refine ⟨m0500 b, wrapEnc_of m0500 ?_⟩
    unfold T0201.encode
    rw [location_layout h, put16_be16]
    rfl
  | m0700 b => exact ⟨_, keep_ok (r := T0700.encode b) (e := m0700 b) (by unfold T0700.encode; rw [put16_be16]; rfl)⟩
  | m0701 b => exact ⟨_, keep_ok (r := T0701.encode b) (e := m0701 b) (by unfold T0701.encode; rw [put32_be32]; rfl)⟩
  | m0702 b =>
    obtain ⟨h1, h2, h3, h4, h5⟩ := h
    refine ⟨_, keep_ok (r := T0702.encode env b) (e := m0702 b) ?_⟩
    unfold T0702.encode
    rw [AnyText.put8 (Text.any h2), AnyText.put8 (Text.any h4), Text.fixed h3, putTime_bytes h1, date_bytes h5]
    rfl
  | m0704 b =>
    refine ⟨_, keep_ok (r := T0704.encode env b) (e := m0704 b) ?_⟩
    unfold T0704.encode
    rw [encList_eq (g := fun i => Spec.counted16 (Spec.locationBytes env i)), u16_be16]
    · rfl
    · intro i hi
      unfold T0704.encodeItem
      rw [location_layout (h.2 i hi).1]
      simp only [Res.ok_bind, u16_be16, Spec.counted16]
  | m0705 b =>
    obtain ⟨h1, h2, h3, h4, h5⟩ := h
    refine ⟨m0705 b, wrapEnc_of m0705 ?_⟩
    obtain ⟨d, items⟩ := b
    simp only at h1 h2
    unfold T0705.encode
    simp only
    rw [if_neg (by omega : ¬ d > 86400000000000), encList_can, clock_bytes (by omega) h2, u16_be16]
    rfl
  | m0800 b => exact ⟨_, keep_ok (r := T0800.encode b) (e := m0800 b) (by unfold T0800.encode; rw [put32_be32]; rfl)⟩
  | m0801 b =>
    refine ⟨m0801 { b with location := { b.location with extras := [] }, packet := b.packet.map (fun _ => []) }, wrapEnc_of m0801 ?_⟩
    unfold T0801.encode
    rw [base_layout h.1, put32_be32]
    simp only [Res.ok_bind, Spec.bodyBytes]
    cases b.packet <;> rfl
  | m0802 b =>
    refine ⟨_, keep_ok (r := T0802.encode env b) (e := m0802 b) ?_⟩
    unfold T0802.encode
    rw [encList_eq (g := fun i => Spec.be32 i.mediaID.toNat ++ [i.type, i.channelID, i.event] ++ Spec.locationBase env i.location), u16_be16,
      put16_be16]
    · rfl
    · intro i hi
      unfold MediaItem.encodeItem
      rw [base_layout (h.2 i hi).1, put32_be32]
      rfl
  | m0805 b => exact ⟨_, keep_ok (r := T0805.encode b) (e := m0805 b) (by unfold T0805.encode; rw [u16_be16, put16_be16, flatMap_put32]; rfl)⟩
  | m8001 b => exact ⟨_, keep_ok (r := T8001.encode b) (e := m8001 b) (by unfold T8001.encode; rw [put16_be16, put16_be16]; rfl)⟩
  | m8003 b => exact ⟨_, keep_ok (r := T8003.encode b) (e := m8003 b) (by unfold T8003.encode; rw [put16_be16, flatMap_put16]; simp [Spec.bodyBytes, Spec.wordsBytes])⟩
  | m8100 b => exact ⟨_, keep_ok (r := T8100.encode env b) (e := m8100 b) (by unfold T8100.encode; rw [AnyText.putNonempty h, put16_be16]; rfl)⟩
  | m8103 b => exact ⟨_, keep_ok (r := T8103.encode b) (e := m8103 b) (by unfold T8103.encode; rw [params_layout]; rfl)⟩
  | m8104 b => exact ⟨_, rfl⟩
  | m8105 b => exact ⟨_, keep_ok (r := TByteText.encode env b) (e := m8105 b) (by unfold TByteText.encode; rw [AnyText.putNonempty h]; rfl)⟩
  | m8106 b => exact ⟨_, keep_ok (r := TIDs.encode b) (e := m8106 b) (by unfold TIDs.encode; rw [flatMap_put32]; rfl)⟩
  | m8107 b => exact ⟨_, rfl⟩
  | m8108 b =>
    refine ⟨_, keep_ok (r := T8108.encode env b) (e := m8108 b) ?_⟩
    unfold T8108.encode
    rw [AnyText.put8 (Text.any h.2), putFixed_padded, put32_be32]
    rfl
  | m8201 b => exact ⟨_, rfl⟩
  | m8202 b => exact ⟨_, keep_ok (r := T8202.encode b) (e := m8202 b) (by unfold T8202.encode; rw [put16_be16, put32_be32]; rfl)⟩
  | m8203 b => exact ⟨_, keep_ok (r := T8203.encode b) (e := m8203 b) (by unfold T8203.encode; rw [put16_be16, put32_be32]; rfl)⟩
  | m8300 b => exact ⟨_, keep_ok (r := TByteText.encode env b) (e := m8300 b) (by unfold TByteText.encode; rw [AnyText.putNonempty h]; rfl)⟩
  | m8301 b =>
    refine ⟨_, keep_ok (r := T8301.encode env b) (e := m8301 b) ?_⟩
    unfold T8301.encode
    rw [encList_eq (fun x hx => idText_layout (h.2 x hx))]
    rfl
  | m8302 b =>
    refine ⟨_, keep_ok (r := T8302.encode env b) (e := m8302 b) ?_⟩
    unfold T8302.encode
    rw [AnyText.put8 (Text.any h.1), encList_eq (fun x hx => idText_layout (h.2 x hx))]
    rfl
  | m8303 b =>
    refine ⟨_, keep_ok (r := T8303.encode env b) (e := m8303 b) ?_⟩
    unfold T8303.encode
    rw [encList_eq (fun x hx => AnyText.put16 (Text.any (h.2 x hx)))]
    rfl
  | m8304 b => exact ⟨_, keep_ok (r := T8304.encode env b) (e := m8304 b) (by unfold T8304.encode; rw [AnyText.put16 (Text.any h)]; rfl)⟩
  | m8400 b => exact ⟨_, keep_ok (r := T8400.encode env b) (e := m8400 b) (by unfold T8400.encode; rw [AnyText.put h]; rfl)⟩
  | m8401 b =>
    refine ⟨_, keep_ok (r := T8401.encode env b) (e := m8401 b) ?_⟩
    unfold T8401.encode
    rw [encList_eq (g := fun c => [c.flag] ++ Spec.counted (Spec.text env c.number) ++ Spec.counted (Spec.text env c.contact))]
    · rfl
    · intro c hc
      unfold Contact.encodeItem
      rw [AnyText.put8 (Text.any (h.2 c hc).1), AnyText.put8 (Text.any (h.2 c hc).2)]
      rfl
  | m8500 b => exact ⟨_, rfl⟩
  | m8600 b =>
    refine ⟨m8600 b, wrapEnc_of m8600 ?_⟩
    unfold T8600.encode
    rw [encListM_eq (fun a ha => circle_layout (h.2.2 a ha))]
    rfl
  | m8601 b => exact ⟨_, keep_ok (r := TIDs.encode b) (e := m8601 b) (by unfold TIDs.encode; rw [flatMap_put32]; rfl)⟩
  | m8602 b =>
    refine ⟨m8602 b, wrapEnc_of m8602 ?_⟩
    unfold T8602.encode
    rw [encListM_eq (fun a ha => rect_layout (h.2.2 a ha))]
    rfl
  | m8603 b => exact ⟨_, keep_ok (r := TIDs.encode b) (e := m8603 b) (by unfold TIDs.encode; rw [flatMap_put32]; rfl)⟩
  | m8604 b =>
    obtain ⟨h0, h1, h2, h3⟩ := h
    refine ⟨m8604 b, wrapEnc_of m8604 ?_⟩
    have hv : b.vertexes.flatMap (fun v => put32 (absU32 (micro v.lat)) ++ put32 (absU32 (micro v.lng))) =
        b.vertexes.flatMap fun v => Spec.coordBytes v.lat ++ Spec.coordBytes v.lng := by
      rw [List.flatMap_def, List.flatMap_def]
      congr 1
      refine List.map_congr_left fun v hv => ?_
      rw [coord_bytes (h2 v hv).1, coord_bytes (h2 v hv).2.1]
    unfold T8604.encode
    rw [markVertexes_same _ _ h2, hv]
    simp only [Res.ok_bind]
    rw [tail_layout h3, put32_be32, put16_be16, u16_be16]
    rfl
  | m8605 b => exact ⟨_, keep_ok (r := TIDs.encode b) (e := m8605 b) (by unfold TIDs.encode; rw [flatMap_put32]; rfl)⟩
  | m8606 b =>
    obtain ⟨h1, h2, h3, h4⟩ := h
    refine ⟨_, keep_ok (r := T8606.encode env b) (e := m8606 b) ?_⟩
    unfold T8606.encode
    rw [encList_eq (fun p hp => point_layout (h4 p hp)), putTime_bytes h1, putTime_bytes h2, put32_be32, put16_be16, u16_be16]
    rfl
  | m8607 b => exact ⟨_, keep_ok (r := TIDs.encode b) (e := m8607 b) (by unfold TIDs.encode; rw [flatMap_put32]; rfl)⟩
  | m8700 b => exact ⟨_, rfl⟩
  | m8701 b => exact ⟨_, rfl⟩
  | m8702 b => exact ⟨_, rfl⟩
  | m8800 b =>
    refine ⟨_, keep_ok (r := T8800.encode b) (e := m8800 b) ?_⟩
    unfold T8800.encode
    simp only [Spec.bodyBytes]
    by_cases h0 : b.retryIDs = []
    · rw [if_pos (by rw [h0]; rfl), if_pos h0, put32_be32, List.append_nil]
    · rw [if_neg (by simpa using h0), if_neg h0, put32_be32, flatMap_put16]
      simp [Spec.wordsBytes]
  | m8801 b => exact ⟨_, keep_ok (r := T8801.encode b) (e := m8801 b) (by unfold T8801.encode; rw [put16_be16, put16_be16]; rfl)⟩
  | m8802 b => exact ⟨_, keep_ok (r := T8802.encode env b) (e := m8802 b) (by unfold T8802.encode; rw [putTime_bytes h.1, putTime_bytes h.2]; rfl)⟩
  | m8803 b => exact ⟨_, keep_ok (r := T8803.encode env b) (e := m8803 b) (by unfold T8803.encode; rw [putTime_bytes h.1, putTime_bytes h.2]; rfl)⟩
  | m8804 b => exact ⟨_, keep_ok (r := T8804.encode b) (e := m8804 b) (by unfold T8804.encode; rw [put16_be16]; rfl)⟩
  | m8805 b => exact ⟨_, keep_ok (r := T8805.encode b) (e := m8805 b) (by unfold T8805.encode; rw [put32_be32]; rfl)⟩
  | m8900 b => exact ⟨_, rfl⟩
  | m0900 b => exact ⟨_, rfl⟩
  | m0901 b =>
    refine ⟨_, keep_ok (r := T0901.encode env b) (e := m0901 b) ?_⟩
    unfold T0901.encode
    simp only [Spec.bodyBytes, u32_be32]
  | m0a00 b => exact ⟨_, keep_ok (r := T0A00.encode b) (e := m0a00 b) (key_layout h)⟩
  | m8a00 b => exact ⟨_, keep_ok (r := T0A00.encode b) (e := m8a00 b) (key_layout h)⟩

end Verif.Entity
