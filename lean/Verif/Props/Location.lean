import Verif.Lemmas.Extras
import Verif.Spec.Coordinates
import Verif.Props.Sample
/-! # C18, C19, C20: location reports -/

namespace Verif

open Spec (BaseOK LocationOK TimeOK Item)

/-! ## C18 -/

/-- C18: a location report followed by any sequence of known and unknown items decodes to the report with the values
of the known items, in order. -/
theorem C18_known_items_in_order (env : Env) (e : T0200) (h : BaseOK env e) (hx : e.extras = []) (is : List Item)
    (hi : ∀ i ∈ is, i.OK) :
    ∃ b n, T0200.encode env e = .ok (b, e) ∧ T0200.decode env {} (b ++ is.flatMap Item.wire) =
      .ok ({ e with extras := (Spec.knownValues is).map fun v => some ⟨v, []⟩ }, n) := by
  have h1 := T0200.encode_base env e h [] (by rw [hx]; rfl)
  rw [List.append_nil] at h1
  refine ⟨_, 28, h1, ?_⟩
  have hl := items_length is
  have hd := decodeExtras_items is hi ((is.flatMap Item.wire).length - is.length) []
  rw [List.append_nil, decodeExtras_nil, Nat.add_sub_cancel' (by omega)] at hd
  rw [T0200.decode_base env e h {} _ _ hd]
  simp only [List.append_nil, List.length_map]
  congr 3
  split
  · rfl
  · have : Spec.knownValues is = [] := List.length_eq_zero_iff.1 (by omega)
    rw [this]; rfl

/-- C18: `Encode` appends the items of the extras that the constructors made, in order. -/
theorem C18_encode_appends_items (env : Env) (e : T0200) (h : BaseOK env e) (hx : e.extras = []) (vs : List ExtraVal)
    (hv : ∀ v ∈ vs, (Item.known v).OK) :
    ∃ b e', T0200.encode env e = .ok (b, e) ∧
      T0200.encode env { e with extras := vs.map fun v => some (Extra.new v) } = .ok (b ++ (vs.map Item.known).flatMap Item.wire, e') := by
  have h1 := T0200.encode_base env e h [] (by rw [hx]; rfl)
  rw [List.append_nil] at h1
  refine ⟨_, { e with extras := vs.map fun v => some (Extra.new v) }, h1, ?_⟩
  have h2 := T0200.encode_base env { e with extras := vs.map fun v => some (Extra.new v) } h _ (encList_known vs)
  rw [h2]
  congr 3
  rw [List.flatMap_map]
  clear h2
  induction vs with
  | nil => rfl
  | cons v vs ih =>
    have := hv v (by simp)
    rw [List.flatMap_cons, List.flatMap_cons, ih fun w hw => hv w (by simp [hw])]
    congr 1
    exact (Spec.itemWire_known v (by cases v <;> first | exact this | trivial)).symm

/-- C18: after any number of good items, an item whose length disagrees with its type makes the report an error,
whatever follows. -/
theorem C18_wrong_length_is_error (env : Env) (e : T0200) (h : BaseOK env e) (hx : e.extras = []) (is : List Item)
    (hi : ∀ i ∈ is, i.OK) (id : UInt8) (data rest : Bytes) (k : Nat) (hk : Spec.extraSize id data = some k)
    (hbad : data.length ≠ k) (hlen : data.length < 256) (self : T0200) :
    ∃ b, T0200.encode env e = .ok (b, e) ∧
      T0200.decode env self (b ++ is.flatMap Item.wire ++ Spec.itemWire id data ++ rest) = .err .invalidExtraLength := by
  have h1 := T0200.encode_base env e h [] (by rw [hx]; rfl)
  rw [List.append_nil] at h1
  refine ⟨_, h1, ?_⟩
  rw [List.append_assoc, List.append_assoc]
  refine T0200.decode_base_err env e h.2.2.2.2 self _ _ ?_
  have hl := items_length is
  generalize hL : (is.flatMap Item.wire ++ (Spec.itemWire id data ++ rest)).length = L
  have hL' : is.length + 1 ≤ L := by
    rw [← hL, List.length_append, List.length_append]
    simp only [Spec.itemWire, List.length_cons]
    omega
  obtain ⟨f, rfl⟩ : ∃ f, L = is.length + (f + 1) := ⟨L - is.length - 1, by omega⟩
  rw [decodeExtras_items is hi, show Spec.itemWire id data ++ rest = id :: u8 data.length :: (data ++ rest) from rfl,
    decodeExtras_round _ _ _ _ hlen]
  have hd := Extra.decode_size id data
  rw [hk] at hd
  simp only at hd
  split at hd
  · rw [hd]; rfl
  · obtain ⟨x, hd⟩ := hd
    rw [hd]
    simp only
    rw [if_pos (fun hc => hbad hc.symm)]
    rfl

/-- Non-trivial case: a mileage, an unknown item, an area alarm and a signal strength. -/
example : (∀ i ∈ [Item.known (.x01 5), .unknown 0xe0 [1, 2, 3], .known (.x12 1 7 0), .known (.x30 31)], i.OK) ∧
    Spec.knownValues [Item.known (.x01 5), .unknown 0xe0 [1, 2, 3], .known (.x12 1 7 0), .known (.x30 31)] =
      [.x01 5, .x12 1 7 0, .x30 31] ∧ Spec.extraSize 0x13 [1, 2] = some 7 := by
  refine ⟨?_, rfl, rfl⟩
  intro i hi
  simp only [List.mem_cons, List.not_mem_nil, or_false] at hi
  rcases hi with rfl | rfl | rfl | rfl
  · trivial
  · exact ⟨rfl, by decide⟩
  · trivial
  · trivial

/-! ## C19 -/

/-- C19 is false of the code for every report with at least one extra: decoding a received report and encoding it
again succeeds, but the result cannot be decoded (a decoded extra has no data). -/
theorem C19_refuted (env : Env) (e : T0200) (h : LocationOK env e) (hx : e.extras ≠ []) :
    ∃ b d n b2 d2, T0200.encode env e = .ok (b, e) ∧ T0200.decode env {} b = .ok (d, n) ∧ T0200.encode env d = .ok (b2, d2) ∧
      T0200.decode env {} b2 = .err .invalidExtraLength := by
  obtain ⟨b, h1, -, h3⟩ := T0200.round_trip env e h
  obtain ⟨vs, hv, hvs⟩ := known_extras h.2
  have hex : (Spec.dropCache e).extras = vs.map fun v => some ⟨v, []⟩ := by
    simp only [Spec.dropCache, hvs, List.map_map]
    rfl
  have henc : ∀ vs : List ExtraVal, encList encodeExtra (vs.map fun v => some ⟨v, []⟩) = .ok (vs.flatMap fun v => [(Extra.mk v []).id, 0]) := by
    intro vs
    induction vs with
    | nil => rfl
    | cons v vs ih => simp [encList, ih, encodeExtra]
  have h4 := T0200.encode_base env (Spec.dropCache e) h.1 _ (by rw [hex]; exact henc vs)
  refine ⟨b, Spec.dropCache e, 28, _, _, h1, h3, h4, ?_⟩
  refine T0200.decode_base_err env (Spec.dropCache e) h.1.2.2.2.2 {} _ _ ?_
  cases vs with
  | nil => exact absurd (by simpa using hvs) hx
  | cons v vs =>
    rw [List.flatMap_cons, show [(Extra.mk v []).id, 0] ++ (vs.flatMap fun v => [(Extra.mk v []).id, 0]) =
      (Extra.mk v []).id :: u8 ([] : Bytes).length :: ([] ++ vs.flatMap fun v => [(Extra.mk v []).id, 0]) from rfl,
      List.length_cons, decodeExtras_round _ _ _ _ (by decide)]
    have : Extra.decode (Extra.mk v []).id [] = .err .invalidExtraLength := by cases v <;> rfl
    rw [this]

/-- C19 where it holds: without extras the forwarded report decodes to the same report. -/
theorem C19_forward_without_extras_partial (env : Env) (e : T0200) (h : BaseOK env e) (hx : e.extras = []) :
    ∃ b d n, T0200.encode env e = .ok (b, e) ∧ T0200.decode env {} b = .ok (d, n) ∧ d = e ∧ T0200.encode env d = .ok (b, d) := by
  obtain ⟨b, h1, -, h3⟩ := T0200.round_trip env e ⟨h, by rw [hx]; simp⟩
  have : Spec.dropCache e = e := by
    obtain ⟨a1, a2, a3, a4, a5, a6, a7, a8, a9⟩ := e
    simp only at hx
    subst hx
    rfl
  rw [this] at h3
  exact ⟨b, e, 28, h1, h3, rfl, h1⟩

/-- Non-trivial case: a report from the southern hemisphere, with the bit for it set. -/
example : BaseOK Sample.env { status := 4, lat := ⟨-33868820, -6⟩, lng := ⟨151209290, -6⟩, time := 1700000000 } :=
  ⟨⟨rfl, by decide⟩, ⟨rfl, by decide⟩, ⟨fun _ => rfl, fun _ => by decide⟩, ⟨fun h => absurd h (by decide), fun h => absurd h (by decide)⟩,
    by simp [TimeOK, Sample.env, Spec.unix2010, Spec.unix2100]⟩

/-! ## C20 -/

theorem tdiv_of_bounds_pos (v n p : Int) (hp : 0 < p) (hv : 0 ≤ v) (h1 : n * p ≤ v) (h2 : v < (n + 1) * p) : v.tdiv p = n := by
  rw [Int.tdiv_eq_ediv_of_nonneg hv]
  exact Int.le_antisymm (Int.le_of_lt_add_one (Int.ediv_lt_of_lt_mul hp h2)) (Int.le_ediv_of_mul_le hp h1)

theorem Spec.TruncMicro.micro {d : Dec} {n : Int} (h : Spec.TruncMicro d n) (hn : n.natAbs < 2 ^ 32) : Verif.micro d = n := by
  obtain ⟨v, e⟩ := d
  unfold Spec.TruncMicro at h
  simp only at h
  have key : ((Dec.mul ⟨v, e⟩ Dec.million).rescale 0).value = n := by
    unfold Dec.mul Dec.million Dec.rescale
    simp only [Int.mul_one]
    split at h
    · rename_i he
      split
      · rename_i h0
        rw [h, h0]
        simp
      · rw [if_neg (by omega), h]
        simp
    · rename_i he
      have hp : (0 : Int) < 10 ^ (-(e + 6)).toNat := Int.pow_pos (by omega)
      rw [if_neg (by omega), if_pos (by omega)]
      simp only [Int.zero_sub]
      split at h
      · rename_i hv
        exact tdiv_of_bounds_pos v n _ hp hv h.2.1 h.2.2
      · rename_i hv
        have := tdiv_of_bounds_pos (-v) (-n) _ hp (by omega) (by rw [Int.neg_mul]; omega)
          (by
            have : (-n + 1) * 10 ^ (-(e + 6)).toNat = -((n - 1) * 10 ^ (-(e + 6)).toNat) := by rw [← Int.neg_mul]; congr 1; omega
            omega)
        rw [Int.neg_tdiv] at this
        omega
  unfold Verif.micro Dec.intPart
  rw [key]
  exact bmod_small n hn

/-- The status word after marking the hemisphere of one coordinate. -/
theorem mark32_bits (st : UInt32) (v : Int) (bit : Nat) (hbit : bit < 32) :
    ∃ st', markNegative st v (bit : Int) = .ok st' ∧
      ∀ i, st'.toNat.testBit i = if i = bit ∧ v < 0 then true else st.toNat.testBit i := by
  unfold markNegative
  split
  · rename_i hv
    obtain ⟨r, hr, hb⟩ := setBitUint32_eq st bit true
    refine ⟨r, hr, ?_⟩
    intro i
    rw [hb, bitWith]
    by_cases hi : i = bit
    · subst hi; simp [hv, hbit]
    · simp [hi, Ne.symm hi]
  · rename_i hv
    exact ⟨st, rfl, by intro i; simp [hv]⟩

/-- C20 exactly: any coordinates (cut to millionths they must fit 32 bits) and any status word. Encoding sets bits 2 and 3 of the status word for a
negative coordinate; the report decodes to the coordinates cut toward zero to millionths, negative if the bit is set, and everything else unchanged. -/
theorem C20_any_status (env : Env) (e : T0200) (lat lng : Int) (hlat : Spec.TruncMicro e.lat lat) (hlng : Spec.TruncMicro e.lng lng)
    (hlat32 : lat.natAbs < 2 ^ 32) (hlng32 : lng.natAbs < 2 ^ 32)
    (ht : TimeOK env e.time) (hx : ∀ x ∈ e.extras, ∃ v, Spec.ExtraOK v ∧ x = some (Extra.new v)) :
    ∃ b n st, T0200.encode env e = .ok (b, { e with status := st }) ∧
      T0200.decode env {} b = .ok (Spec.dropCache { e with lat := ⟨Spec.withBit (st.toNat.testBit 2) lat, -6⟩,
                                                           lng := ⟨Spec.withBit (st.toNat.testBit 3) lng, -6⟩, status := st }, n) ∧
      st.toNat.testBit 2 = (e.status.toNat.testBit 2 || decide (lat < 0)) ∧
      st.toNat.testBit 3 = (e.status.toNat.testBit 3 || decide (lng < 0)) ∧
      ∀ i, i ≠ 2 → i ≠ 3 → st.toNat.testBit i = e.status.toNat.testBit i := by
  have m1 := hlat.micro hlat32
  have m2 := hlng.micro hlng32
  obtain ⟨s1, hs1, b1⟩ := mark32_bits e.status lat 2 (by omega)
  obtain ⟨s2, hs2, b2⟩ := mark32_bits s1 lng 3 (by omega)
  have hs : ∀ i, s2.toNat.testBit i = if i = 3 ∧ lng < 0 then true else if i = 2 ∧ lat < 0 then true else e.status.toNat.testBit i := by
    intro i; rw [b2, b1]
  have w32 : ∀ bit n, (Spec.withBit bit n).natAbs = n.natAbs := by
    intro bit n; unfold Spec.withBit; split <;> simp
  have wneg : ∀ bit n, (n < 0 → bit = true) → (Spec.withBit bit n < 0 → bit = true) ∧ (bit = true → Spec.withBit bit n ≤ 0) := by
    intro bit n hb
    unfold Spec.withBit
    cases bit
    · simp at hb; simp; omega
    · simp
  generalize hnd : ({ e with lat := ⟨Spec.withBit (s2.toNat.testBit 2) lat, -6⟩,
                             lng := ⟨Spec.withBit (s2.toNat.testBit 3) lng, -6⟩, status := s2 } : T0200) = nd
  have hok : LocationOK env nd := by
    subst hnd
    refine ⟨⟨⟨rfl, by simp only [w32]; exact hlat32⟩, ⟨rfl, by simp only [w32]; exact hlng32⟩, ?_, ?_, ht⟩, hx⟩
    · exact wneg _ _ fun h => by rw [hs]; simp [h]
    · exact wneg _ _ fun h => by rw [hs]; simp [h]
  obtain ⟨vs, hv, hvs⟩ := known_extras hx
  have he := encList_known vs
  rw [← hvs] at he
  have hb := T0200.encode_base env nd hok.1 _ (by subst hnd; exact he)
  obtain ⟨b, g1, -, g3⟩ := T0200.round_trip env nd hok
  rw [hb] at g1
  simp only [Res.ok.injEq, Prod.mk.injEq, and_true] at g1
  have habs : ∀ bit n, absU32 (Spec.withBit bit n) = absU32 n := by
    intro bit n
    unfold absU32
    rw [w32]
  have cm1 : absU32 (micro nd.lat) = absU32 lat := by
    subst hnd
    rw [micro_coord _ ⟨rfl, by simp only [w32]; exact hlat32⟩]
    exact habs _ _
  have cm2 : absU32 (micro nd.lng) = absU32 lng := by
    subst hnd
    rw [micro_coord _ ⟨rfl, by simp only [w32]; exact hlng32⟩]
    exact habs _ _
  refine ⟨b, 28, s2, ?_, by subst hnd; exact g3, ?_, ?_, ?_⟩
  · unfold T0200.encode
    simp only
    rw [show ((2 : Nat) : Int) = 2 from rfl] at hs1
    rw [show ((3 : Nat) : Int) = 3 from rfl] at hs2
    rw [m1, m2, hs1]
    simp only [Res.ok_bind]
    rw [hs2]
    simp only [Res.ok_bind, he, List.append_assoc]
    rw [← g1]
    simp only [baseBytes, cm1, cm2]
    subst hnd
    simp only [List.append_assoc]
  · rw [hs]; by_cases hl : lat < 0 <;> simp [hl]
  · rw [hs]; by_cases hl : lng < 0 <;> simp [hl]
  · intro i h2 h3; rw [hs]; simp [h2, h3]

/-- C20: any coordinates (cut to millionths they must fit 32 bits) and any status word whose hemisphere bits were not
set against the sign. The report decodes to the coordinates cut toward zero to millionths, with sign; the status word
changes only in bits 2 and 3, which become set for a negative coordinate; everything else is unchanged. -/
theorem C20_coordinates_exact (env : Env) (e : T0200) (lat lng : Int) (hlat : Spec.TruncMicro e.lat lat) (hlng : Spec.TruncMicro e.lng lng)
    (hlat32 : lat.natAbs < 2 ^ 32) (hlng32 : lng.natAbs < 2 ^ 32)
    (hsouth : e.status.toNat.testBit 2 = true → lat ≤ 0) (hwest : e.status.toNat.testBit 3 = true → lng ≤ 0)
    (ht : TimeOK env e.time) (hx : ∀ x ∈ e.extras, ∃ v, Spec.ExtraOK v ∧ x = some (Extra.new v)) :
    ∃ b n st, T0200.encode env e = .ok (b, { e with status := st }) ∧
      T0200.decode env {} b = .ok (Spec.dropCache { e with lat := ⟨lat, -6⟩, lng := ⟨lng, -6⟩, status := st }, n) ∧
      st.toNat.testBit 2 = (e.status.toNat.testBit 2 || decide (lat < 0)) ∧
      st.toNat.testBit 3 = (e.status.toNat.testBit 3 || decide (lng < 0)) ∧
      ∀ i, i ≠ 2 → i ≠ 3 → st.toNat.testBit i = e.status.toNat.testBit i := by
  obtain ⟨b, n, st, h1, h2, h3, h4, h5⟩ := C20_any_status env e lat lng hlat hlng hlat32 hlng32 ht hx
  have hw : ∀ (c : Bool) (bit : Bool) (v : Int), bit = (c || decide (v < 0)) → (c = true → v ≤ 0) → Spec.withBit bit v = v := by
    rintro c _ v rfl hc
    unfold Spec.withBit
    split
    · rename_i h
      simp only [Bool.or_eq_true, decide_eq_true_eq] at h
      have : v ≤ 0 := h.elim hc (fun h => by omega)
      omega
    · rfl
  rw [hw _ _ _ h3 hsouth, hw _ _ _ h4 hwest] at h2
  exact ⟨b, n, st, h1, h2, h3, h4, h5⟩

/-- Non-trivial case: 33.8688205 degrees south (seven digits) and 151 degrees east (whole number), status word 3. -/
example : Spec.TruncMicro ⟨-338688205, -7⟩ (-33868820) ∧ Spec.TruncMicro ⟨151, 0⟩ 151000000 ∧
    ((3 : UInt32).toNat.testBit 2 = true → (-33868820 : Int) ≤ 0) := by
  refine ⟨?_, ?_, by decide⟩ <;> simp [Spec.TruncMicro]

/-- A hemisphere bit set against the sign turns the coordinate around: the restriction in C20 is needed. -/
example : ∃ b e' d n, T0200.encode Sample.env { status := 4, lat := ⟨30000000, -6⟩, time := 1700000000 } = .ok (b, e') ∧
    T0200.decode Sample.env {} b = .ok (d, n) ∧ d.lat = ⟨-30000000, -6⟩ := ⟨_, _, _, _, rfl, rfl, rfl⟩

end Verif
