import Verif.Props.Location
import Verif.Props.RoundTrip
/-! # C21: hemispheres of areas and routes -/

namespace Verif

open Spec (TailOK TimeOK Fits SameCoord OneSide SameAttr SameCircle SameRect SamePoint TruncMicro withBit Negative NegativeVertex NonePositive Shown ReadRect)

theorem Spec.Fits.micro {d : Dec} (h : Fits d) : Spec.TruncMicro d (Verif.micro d) ∧ (Verif.micro d).natAbs < 2 ^ 32 ∧
    (Verif.micro d < 0 → d.value < 0) ∧ (d.value ≤ 0 → Verif.micro d ≤ 0) := by
  obtain ⟨n, h1, h2⟩ := h
  have hm := h1.micro h2
  rw [hm]
  refine ⟨h1, h2, ?_, ?_⟩
  · intro hn
    unfold Spec.TruncMicro at h1
    split at h1
    · apply Classical.byContradiction
      intro hv
      have : 0 ≤ d.value * 10 ^ (d.exp + 6).toNat := Int.mul_nonneg (by omega) (Int.le_of_lt (Int.pow_pos (by omega)))
      omega
    · split at h1 <;> omega
  · intro hn
    unfold Spec.TruncMicro at h1
    split at h1
    · have : d.value * 10 ^ (d.exp + 6).toNat ≤ 0 :=
        Int.mul_nonpos_of_nonpos_of_nonneg hn (Int.le_of_lt (Int.pow_pos (by omega)))
      omega
    · split at h1
      · rename_i h0
        have hv : d.value = 0 := by omega
        rw [hv] at h1
        have hp : (0 : Int) < 10 ^ (-(d.exp + 6)).toNat := Int.pow_pos (by omega)
        apply Classical.byContradiction
        intro hc
        have : 0 < n * 10 ^ (-(d.exp + 6)).toNat := Int.mul_pos (by omega) hp
        omega
      · omega

/-- A decoded coordinate, when the hemisphere bit agrees with the sign. -/
theorem sameCoord_geo (d : Dec) (bit : Bool) (h : Fits d) (h1 : micro d < 0 → bit = true) (h2 : bit = true → micro d ≤ 0) :
    SameCoord d (geoCoord (absU32 (micro d)) bit) := by
  obtain ⟨a, b, -, -⟩ := h.micro
  have hc : Spec.Coord ⟨micro d, -6⟩ := ⟨rfl, b⟩
  have := geoCoord_coord ⟨micro d, -6⟩ bit hc ⟨h1, h2⟩
  rw [micro_coord _ hc] at this
  simp only at this
  rw [this]
  exact ⟨a, rfl⟩

theorem mark16_bits (at' : UInt16) (neg : Bool) (bit : Nat) (hbit : bit < 16) :
    ∃ r, markIf at' neg (bit : Int) = .ok r ∧ ∀ i, r.toNat.testBit i = if i = bit ∧ neg = true then true else at'.toNat.testBit i := by
  unfold markIf
  split
  · rename_i hv
    obtain ⟨r, hr, hb⟩ := setBitUint16_eq at' bit true
    refine ⟨r, hr, ?_⟩
    intro i
    rw [hb, bitWith]
    by_cases hi : i = bit
    · subst hi; simp [hv, hbit]
    · simp [hi]
  · rename_i hv
    exact ⟨at', rfl, by intro i; simp [hv]⟩

theorem mark8_bits (at' : UInt8) (v : Int) (bit : Nat) (hbit : bit < 8) :
    ∃ r, markByte at' v (bit : Int) = .ok r ∧ ∀ i, r.toNat.testBit i = if i = bit ∧ v < 0 then true else at'.toNat.testBit i := by
  unfold markByte
  split
  · rename_i hv
    obtain ⟨r, hr, hb⟩ := setBitByte_eq at' bit true
    refine ⟨r, hr, ?_⟩
    intro i
    rw [hb, bitWith]
    by_cases hi : i = bit
    · subst hi; simp [hv, hbit]
    · simp [hi]
  · rename_i hv
    exact ⟨at', rfl, by intro i; simp [hv]⟩

theorem tail_attr {env : Env} {a b : UInt16} {s e : Time} {m : UInt16} {d : UInt8} (h : TailOK env a s e m d) (hb : SameAttr a b) :
    TailOK env b s e m d := by
  unfold TailOK at *
  rw [hb 0 (by omega) (by omega)]
  exact h

/-- Lists whose items read back as something else. -/
theorem encListM_exists {α : Type} (enc : α → Res (Bytes × α)) (item : Rd α) (m : Nat) (P : α → α → Prop) (xs : List α)
    (h : ∀ x ∈ xs, ∃ b x' y, enc x = .ok (b, x') ∧ m ≤ b.length ∧ (∀ s, item (b ++ s) = .ok (y, s)) ∧ P x y) :
    ∃ bs xs', ∃ f : α → α, encListM enc xs = .ok (bs, xs') ∧ m * xs.length ≤ bs.length ∧
      (∀ s, Rd.times xs.length item (bs ++ s) = .ok (xs.map f, s)) ∧ ∀ x ∈ xs, P x (f x) := by
  have hc : ∃ f : α → α, ∀ x ∈ xs, ∃ b x', enc x = .ok (b, x') ∧ m ≤ b.length ∧ (∀ s, item (b ++ s) = .ok (f x, s)) ∧ P x (f x) := by
    refine ⟨fun x => open Classical in if hx : x ∈ xs then (h x hx).choose_spec.choose_spec.choose else x, ?_⟩
    intro x hx
    simp only [dif_pos hx]
    have := (h x hx).choose_spec.choose_spec.choose_spec
    exact ⟨_, _, this⟩
  obtain ⟨f, hf⟩ := hc
  clear h
  have : ∀ ys : List α, (∀ y ∈ ys, y ∈ xs) → ∃ bs xs', encListM enc ys = .ok (bs, xs') ∧ m * ys.length ≤ bs.length ∧
      (∀ s, Rd.times ys.length item (bs ++ s) = .ok (ys.map f, s)) := by
    intro ys
    induction ys with
    | nil => intro _; exact ⟨[], [], rfl, by simp, fun s => rfl⟩
    | cons y ys ih =>
      intro hy
      obtain ⟨b, x', h1, h2, h3, -⟩ := hf y (hy y (by simp))
      obtain ⟨bs, xs', g1, g2, g3⟩ := ih fun z hz => hy z (by simp [hz])
      refine ⟨b ++ bs, x' :: xs', by simp [encListM, h1, g1], ?_, ?_⟩
      · simp only [List.length_cons, List.length_append, Nat.mul_add, Nat.mul_one]; omega
      · intro s
        simp only [List.length_cons, Rd.times, List.append_assoc, Rd.bind]
        rw [h3]
        simp only
        rw [g3]
        rfl
  obtain ⟨bs, xs', h1, h2, h3⟩ := this xs fun y hy => hy
  exact ⟨bs, xs', f, h1, h2, h3, fun x hx => by obtain ⟨_, _, _, _, _, hp⟩ := hf x hx; exact hp⟩

/-! ## Circles -/

theorem CircleArea.item_general (env : Env) (a : CircleArea) (h1 : Fits a.lat) (h2 : Fits a.lng)
    (h3 : OneSide (a.attr.toNat.testBit 6) [a.lat]) (h4 : OneSide (a.attr.toNat.testBit 7) [a.lng])
    (h5 : TailOK env a.attr a.startTime a.endTime a.maxSpeed a.duration) :
    ∃ b a' c, CircleArea.encodeItem env a = .ok (b, a') ∧ 18 ≤ b.length ∧
      (∀ s, CircleArea.decodeItem env (b ++ s) = .ok (c, s)) ∧ SameCircle a c := by
  obtain ⟨r1, m1, b1⟩ := mark16_bits a.attr (decide (micro a.lat < 0)) 6 (by omega)
  obtain ⟨r2, m2, b2⟩ := mark16_bits r1 (decide (micro a.lng < 0)) 7 (by omega)
  have hb : ∀ i, r2.toNat.testBit i = if i = 7 ∧ micro a.lng < 0 then true else if i = 6 ∧ micro a.lat < 0 then true else a.attr.toNat.testBit i := by
    intro i; rw [b2, b1]; simp only [decide_eq_true_eq]
  have hsame : SameAttr a.attr r2 := by intro i hi hj; rw [hb]; simp [hi, hj]
  obtain ⟨-, -, p1, p2⟩ := h1.micro
  obtain ⟨-, -, q1, q2⟩ := h2.micro
  have c1 : SameCoord a.lat (geoCoord (absU32 (micro a.lat)) (r2.toNat.testBit 6)) := by
    apply sameCoord_geo _ _ h1
    · intro hn; rw [hb]; simp [hn]
    · intro hn
      rw [hb] at hn
      by_cases hl : micro a.lat < 0
      · omega
      · simp [hl] at hn; exact p2 (h3 (.inl hn) _ (by simp))
  have c2 : SameCoord a.lng (geoCoord (absU32 (micro a.lng)) (r2.toNat.testBit 7)) := by
    apply sameCoord_geo _ _ h2
    · intro hn; rw [hb]; simp [hn]
    · intro hn
      rw [hb] at hn
      by_cases hl : micro a.lng < 0
      · omega
      · simp [hl] at hn; exact q2 (h4 (.inl hn) _ (by simp))
  refine ⟨put32 a.id ++ put16 r2 ++ put32 (absU32 (micro a.lat)) ++ put32 (absU32 (micro a.lng)) ++ put32 a.radius ++
    encodeAreaTail env r2 a.startTime a.endTime a.maxSpeed a.duration, { a with attr := r2 },
    { a with attr := r2, lat := geoCoord (absU32 (micro a.lat)) (r2.toNat.testBit 6), lng := geoCoord (absU32 (micro a.lng)) (r2.toNat.testBit 7) },
    ?_, by simp; omega, ?_, ⟨c1, c2, hsame, rfl, rfl, rfl, rfl, rfl, rfl⟩⟩
  · unfold CircleArea.encodeItem
    simp only
    rw [show ((6 : Nat) : Int) = 6 from rfl] at m1
    rw [show ((7 : Nat) : Int) = 7 from rfl] at m2
    rw [m1]
    simp only [Res.ok_bind]
    rw [m2]
    rfl
  · intro s
    have g6 : getBitUint16 r2 6 = .ok (r2.toNat.testBit 6) := getBit16_nat r2 6
    have g7 : getBitUint16 r2 7 = .ok (r2.toNat.testBit 7) := getBit16_nat r2 7
    unfold CircleArea.decodeItem
    simp only [List.append_assoc, Rd.bind_u32_put32, Rd.bind_u16_put16, g6, g7, Rd.bind_lift_ok]
    rw [Rd.bind_ok _ (areaTail env _ _ _ _ _ (tail_attr h5 hsame) s)]
    simp only [Rd.pure_apply, getGeoPoint_eq]

/-- C21 for circles: every circle of a list arrives with its centre (cut to millionths) and its signs. -/
theorem C21_circles (env : Env) (e : T8600) (h0 : e.items ≠ []) (h1 : e.items.length < 256)
    (h : ∀ a ∈ e.items, Fits a.lat ∧ Fits a.lng ∧ OneSide (a.attr.toNat.testBit 6) [a.lat] ∧ OneSide (a.attr.toNat.testBit 7) [a.lng] ∧
      TailOK env a.attr a.startTime a.endTime a.maxSpeed a.duration) :
    ∃ b e', ∃ f : CircleArea → CircleArea, T8600.encode env e = .ok (b, e') ∧
      T8600.decode env {} b = .ok ({ e with items := e.items.map f }, b.length) ∧ ∀ a ∈ e.items, SameCircle a (f a) := by
  obtain ⟨bs, xs', f, g1, g2, g3, g4⟩ := encListM_exists (CircleArea.encodeItem env) (CircleArea.decodeItem env) 18 SameCircle e.items
    fun a ha => by
      obtain ⟨p1, p2, p3, p4, p5⟩ := h a ha
      exact CircleArea.item_general env a p1 p2 p3 p4 p5
  have hpos : 0 < e.items.length := List.length_pos_iff.2 h0
  refine ⟨[e.action, u8 e.items.length] ++ bs, { e with items := xs' }, f, by unfold T8600.encode; rw [g1]; rfl, ?_, g4⟩
  unfold T8600.decode
  rw [decodeMin_eq (rest := []) (a := { e with items := e.items.map f }) (by simp; omega)]
  · rfl
  · simp only [List.cons_append, List.nil_append, Rd.bind_byte_cons]
    rw [u8_toNat h1, bind_times_exact _ g3]
    rfl

/-- Non-trivial case: a circle in Sydney and one in Quito, without times. -/
example : Fits ⟨-338688205, -7⟩ ∧ OneSide false [⟨-338688205, -7⟩] ∧ TailOK Sample.env 2 zeroTime zeroTime 0 0 := by
  refine ⟨⟨-33868820, by simp [Spec.TruncMicro], by decide⟩, ?_, ?_⟩
  · intro _ d hd; simp at hd; subst hd; decide
  · exact ⟨rfl, rfl, rfl, rfl⟩

/-! ## Rectangles -/

theorem shown_geo (d : Dec) (bit : Bool) (neg : Prop) (h : Fits d) (hb : bit = true ↔ neg) (h1 : micro d < 0 → bit = true) :
    Shown neg d (geoCoord (absU32 (micro d)) bit) := by
  obtain ⟨a, b, -, -⟩ := h.micro
  rw [geoCoord_eq, absU32_toNat _ b]
  refine ⟨micro d, a, rfl, ?_, ?_⟩
  · intro hn
    rw [hb.2 hn]
    rfl
  · intro hn
    have : bit = false := by rw [← Bool.not_eq_true]; exact fun hx => hn (hb.1 hx)
    have h0 : ¬ micro d < 0 := fun hx => by rw [this] at h1; exact absurd (h1 hx) (by simp)
    rw [this]
    simp
    omega

theorem trunc_unique {d : Dec} {m n : Int} (h : Fits d) (hm : TruncMicro d m) (hn : TruncMicro d n) : m = n := by
  obtain ⟨x, hx, hx32⟩ := h
  have uniq : ∀ k, TruncMicro d k → k = x := by
    intro k hk
    unfold TruncMicro at hk hx
    have hp : (0 : Int) < 10 ^ (-(d.exp + 6)).toNat := Int.pow_pos (by omega)
    generalize (10 : Int) ^ (-(d.exp + 6)).toNat = w at hk hx hp
    split at hk
    · rw [if_pos (by assumption)] at hx
      rw [hk, hx]
    · rw [if_neg (by assumption)] at hx
      split at hk
      · rw [if_pos (by assumption)] at hx
        have l1 : k * w < (x + 1) * w := by omega
        have l2 : x * w < (k + 1) * w := by omega
        have := Int.lt_of_mul_lt_mul_right l1 (Int.le_of_lt hp)
        have := Int.lt_of_mul_lt_mul_right l2 (Int.le_of_lt hp)
        omega
      · rw [if_neg (by assumption)] at hx
        have l1 : (k - 1) * w < x * w := by omega
        have l2 : (x - 1) * w < k * w := by omega
        have := Int.lt_of_mul_lt_mul_right l1 (Int.le_of_lt hp)
        have := Int.lt_of_mul_lt_mul_right l2 (Int.le_of_lt hp)
        omega
  rw [uniq m hm, uniq n hn]

theorem trunc_iff {d : Dec} (h : Fits d) (P : Int → Prop) : (∃ n, TruncMicro d n ∧ P n) ↔ P (micro d) := by
  obtain ⟨a, -, -, -⟩ := h.micro
  constructor
  · rintro ⟨n, h1, h2⟩
    rwa [trunc_unique h h1 a] at h2
  · exact fun hp => ⟨_, a, hp⟩

theorem same_of_shown {d c : Dec} {neg : Prop} (h : Fits d) (hs : Shown neg d c) : SameCoord d c ↔ (neg → micro d ≤ 0) := by
  obtain ⟨a, -, -, -⟩ := h.micro
  obtain ⟨n, h1, h2, h3, h4⟩ := hs
  have : n = micro d := trunc_unique h h1 a
  subst this
  unfold withBit at h3
  simp only [if_true] at h3
  constructor
  · intro hc hn
    have := trunc_unique h hc.1 a
    have := h3 hn
    omega
  · intro hc
    refine ⟨?_, h2⟩
    have : c.value = micro d := by
      by_cases hn : neg
      · have := h3 hn
        have := hc hn
        omega
      · exact h4 hn
    rw [this]
    exact a

theorem RectArea.item_exact (env : Env) (a : RectArea) (f1 : Fits a.leftTopLat) (f2 : Fits a.leftTopLon) (f3 : Fits a.rightBottomLat)
    (f4 : Fits a.rightBottomLon) (h5 : TailOK env a.attr a.startTime a.endTime a.maxSpeed a.duration) :
    ∃ b a' c, RectArea.encodeItem env a = .ok (b, a') ∧ 22 ≤ b.length ∧
      (∀ s, RectArea.decodeItem env (b ++ s) = .ok (c, s)) ∧ ReadRect a c := by
  obtain ⟨r1, m1, b1⟩ := mark16_bits a.attr (decide (micro a.leftTopLat < 0)) 6 (by omega)
  obtain ⟨r2, m2, b2⟩ := mark16_bits r1 (decide (micro a.leftTopLon < 0)) 7 (by omega)
  obtain ⟨r3, m3, b3⟩ := mark16_bits r2 (decide (micro a.rightBottomLat < 0)) 6 (by omega)
  obtain ⟨r4, m4, b4⟩ := mark16_bits r3 (decide (micro a.rightBottomLon < 0)) 7 (by omega)
  have hb : ∀ i, r4.toNat.testBit i = if i = 7 ∧ micro a.rightBottomLon < 0 then true else if i = 6 ∧ micro a.rightBottomLat < 0 then true
      else if i = 7 ∧ micro a.leftTopLon < 0 then true else if i = 6 ∧ micro a.leftTopLat < 0 then true else a.attr.toNat.testBit i := by
    intro i; rw [b4, b3, b2, b1]; simp only [decide_eq_true_eq]
  have hsame : SameAttr a.attr r4 := by intro i hi hj; rw [hb]; simp [hi, hj]
  have hb6 : r4.toNat.testBit 6 = true ↔ Negative (a.attr.toNat.testBit 6) [a.leftTopLat, a.rightBottomLat] := by
    unfold Negative
    rw [hb]
    simp only [List.mem_cons, List.not_mem_nil, or_false, exists_eq_or_imp, exists_eq_left, trunc_iff f1, trunc_iff f3]
    by_cases x : micro a.rightBottomLat < 0 <;> by_cases y : micro a.leftTopLat < 0 <;> simp [x, y]
  have hb7 : r4.toNat.testBit 7 = true ↔ Negative (a.attr.toNat.testBit 7) [a.leftTopLon, a.rightBottomLon] := by
    unfold Negative
    rw [hb]
    simp only [List.mem_cons, List.not_mem_nil, or_false, exists_eq_or_imp, exists_eq_left, trunc_iff f2, trunc_iff f4]
    by_cases x : micro a.rightBottomLon < 0 <;> by_cases y : micro a.leftTopLon < 0 <;> simp [x, y]
  have c1 := shown_geo a.leftTopLat (r4.toNat.testBit 6) _ f1 hb6 (by intro hn; rw [hb]; simp [hn])
  have c2 := shown_geo a.leftTopLon (r4.toNat.testBit 7) _ f2 hb7 (by intro hn; rw [hb]; simp [hn])
  have c3 := shown_geo a.rightBottomLat (r4.toNat.testBit 6) _ f3 hb6 (by intro hn; rw [hb]; simp [hn])
  have c4 := shown_geo a.rightBottomLon (r4.toNat.testBit 7) _ f4 hb7 (by intro hn; rw [hb]; simp [hn])
  refine ⟨put32 a.id ++ put16 r4 ++ put32 (absU32 (micro a.leftTopLat)) ++ put32 (absU32 (micro a.leftTopLon)) ++
    put32 (absU32 (micro a.rightBottomLat)) ++ put32 (absU32 (micro a.rightBottomLon)) ++
    encodeAreaTail env r4 a.startTime a.endTime a.maxSpeed a.duration, { a with attr := r4 },
    { a with attr := r4, leftTopLat := geoCoord (absU32 (micro a.leftTopLat)) (r4.toNat.testBit 6), leftTopLon := geoCoord (absU32 (micro a.leftTopLon)) (r4.toNat.testBit 7), rightBottomLat := geoCoord (absU32 (micro a.rightBottomLat)) (r4.toNat.testBit 6), rightBottomLon := geoCoord (absU32 (micro a.rightBottomLon)) (r4.toNat.testBit 7) },
    ?_, by simp; omega, ?_, ⟨c1, c2, c3, c4, hsame, rfl, rfl, rfl, rfl, rfl⟩⟩
  · unfold RectArea.encodeItem
    simp only
    rw [show ((6 : Nat) : Int) = 6 from rfl] at m1 m3
    rw [show ((7 : Nat) : Int) = 7 from rfl] at m2 m4
    rw [m1]
    simp only [Res.ok_bind]
    rw [m2]
    simp only [Res.ok_bind]
    rw [m3]
    simp only [Res.ok_bind]
    rw [m4]
    rfl
  · intro s
    have g6 : getBitUint16 r4 6 = .ok (r4.toNat.testBit 6) := getBit16_nat r4 6
    have g7 : getBitUint16 r4 7 = .ok (r4.toNat.testBit 7) := getBit16_nat r4 7
    unfold RectArea.decodeItem
    simp only [List.append_assoc, Rd.bind_u32_put32, Rd.bind_u16_put16, g6, g7, Rd.bind_lift_ok]
    rw [Rd.bind_ok _ (areaTail env _ _ _ _ _ (tail_attr h5 hsame) s)]
    simp only [Rd.pure_apply, getGeoPoint_eq]

theorem readRect_same_iff {a c : RectArea} (f1 : Fits a.leftTopLat) (f2 : Fits a.leftTopLon) (f3 : Fits a.rightBottomLat) (f4 : Fits a.rightBottomLon)
    (h : ReadRect a c) : SameRect a c ↔
      (Negative (a.attr.toNat.testBit 6) [a.leftTopLat, a.rightBottomLat] → NonePositive [a.leftTopLat, a.rightBottomLat]) ∧
      (Negative (a.attr.toNat.testBit 7) [a.leftTopLon, a.rightBottomLon] → NonePositive [a.leftTopLon, a.rightBottomLon]) := by
  obtain ⟨c1, c2, c3, c4, hr⟩ := h
  unfold SameRect NonePositive
  simp only [List.mem_cons, List.not_mem_nil, or_false, forall_eq_or_imp, forall_eq, trunc_iff f1, trunc_iff f2, trunc_iff f3, trunc_iff f4,
    same_of_shown f1 c1, same_of_shown f2 c2, same_of_shown f3 c3, same_of_shown f4 c4, hr, and_true, true_and]
  constructor
  · rintro ⟨a1, a2, a3, a4⟩
    exact ⟨fun h => ⟨a1 h, a3 h⟩, fun h => ⟨a2 h, a4 h⟩⟩
  · rintro ⟨a1, a2⟩
    exact ⟨fun h => (a1 h).1, fun h => (a2 h).1, fun h => (a1 h).2, fun h => (a2 h).2⟩

/-- C21 for rectangles, exactly: every list of rectangles is read back as `ReadRect` says, and a rectangle is the same afterwards exactly when, if one of its
corners is south of the equator (or west of the meridian), none is on the other side. -/
theorem C21_rectangles_exact (env : Env) (e : T8602) (h0 : e.items ≠ []) (h1 : e.items.length < 256)
    (h : ∀ a ∈ e.items, Fits a.leftTopLat ∧ Fits a.leftTopLon ∧ Fits a.rightBottomLat ∧ Fits a.rightBottomLon ∧
      TailOK env a.attr a.startTime a.endTime a.maxSpeed a.duration) :
    ∃ b e', ∃ f : RectArea → RectArea, T8602.encode env e = .ok (b, e') ∧
      T8602.decode env {} b = .ok ({ e with items := e.items.map f }, b.length) ∧ ∀ a ∈ e.items, ReadRect a (f a) ∧ (SameRect a (f a) ↔
        (Negative (a.attr.toNat.testBit 6) [a.leftTopLat, a.rightBottomLat] → NonePositive [a.leftTopLat, a.rightBottomLat]) ∧
        (Negative (a.attr.toNat.testBit 7) [a.leftTopLon, a.rightBottomLon] → NonePositive [a.leftTopLon, a.rightBottomLon])) := by
  obtain ⟨bs, xs', f, g1, g2, g3, g4⟩ := encListM_exists (RectArea.encodeItem env) (RectArea.decodeItem env) 22 ReadRect e.items
    fun a ha => by
      obtain ⟨p1, p2, p3, p4, p5⟩ := h a ha
      exact RectArea.item_exact env a p1 p2 p3 p4 p5
  have hpos : 0 < e.items.length := List.length_pos_iff.2 h0
  refine ⟨[e.action, u8 e.items.length] ++ bs, { e with items := xs' }, f, by unfold T8602.encode; rw [g1]; rfl, ?_, ?_⟩
  · unfold T8602.decode
    rw [decodeMin_eq (rest := []) (a := { e with items := e.items.map f }) (by simp; omega)]
    · rfl
    · simp only [List.cons_append, List.nil_append, Rd.bind_byte_cons]
      rw [u8_toNat h1, bind_times_exact _ g3]
      rfl
  · intro a ha
    obtain ⟨p1, p2, p3, p4, -⟩ := h a ha
    exact ⟨g4 a ha, readRect_same_iff p1 p2 p3 p4 (g4 a ha)⟩

/-- Both sides of the equivalence: from 10° to 5° south no corner is positive; from 10° north to 5° south one is. -/
example : Negative false [⟨-5000000, -6⟩, ⟨-10000000, -6⟩] ∧ NonePositive [⟨-5000000, -6⟩, ⟨-10000000, -6⟩] ∧
    Negative false [⟨10000000, -6⟩, ⟨-5000000, -6⟩] ∧ ¬ NonePositive [⟨10000000, -6⟩, ⟨-5000000, -6⟩] := by
  have hf : ∀ n : Int, n.natAbs < 2 ^ 32 → Fits ⟨n, -6⟩ := fun n hn => ⟨n, by simp [TruncMicro], hn⟩
  have ht : ∀ n : Int, TruncMicro ⟨n, -6⟩ n := fun n => by simp [TruncMicro]
  refine ⟨.inr ⟨_, List.mem_cons_self, _, ht _, by decide⟩, ?_, .inr ⟨_, List.mem_cons_of_mem _ List.mem_cons_self, _, ht _, by decide⟩, ?_⟩
  · intro d hd
    simp only [List.mem_cons, List.not_mem_nil, or_false] at hd
    rcases hd with rfl | rfl <;> exact ⟨_, ht _, by decide⟩
  · intro h
    obtain ⟨n, h1, h2⟩ := h _ List.mem_cons_self
    rw [trunc_unique (hf _ (by decide)) h1 (ht _)] at h2
    exact absurd h2 (by decide)

/-- C21 for rectangles whose corners lie on one side of the equator and of the meridian (they share one hemisphere bit
per axis). Missing: rectangles that cross the equator or the meridian, for which it is false (`C21_refuted`). -/
theorem C21_rectangles_partial (env : Env) (e : T8602) (h0 : e.items ≠ []) (h1 : e.items.length < 256)
    (h : ∀ a ∈ e.items, Fits a.leftTopLat ∧ Fits a.leftTopLon ∧ Fits a.rightBottomLat ∧ Fits a.rightBottomLon ∧
      OneSide (a.attr.toNat.testBit 6) [a.leftTopLat, a.rightBottomLat] ∧ OneSide (a.attr.toNat.testBit 7) [a.leftTopLon, a.rightBottomLon] ∧
      TailOK env a.attr a.startTime a.endTime a.maxSpeed a.duration) :
    ∃ b e', ∃ f : RectArea → RectArea, T8602.encode env e = .ok (b, e') ∧
      T8602.decode env {} b = .ok ({ e with items := e.items.map f }, b.length) ∧ ∀ a ∈ e.items, SameRect a (f a) := by
  obtain ⟨b, e', f, g1, g2, g3⟩ := C21_rectangles_exact env e h0 h1 fun a ha => by
    obtain ⟨p1, p2, p3, p4, -, -, p7⟩ := h a ha
    exact ⟨p1, p2, p3, p4, p7⟩
  refine ⟨b, e', f, g1, g2, fun a ha => ?_⟩
  obtain ⟨p1, p2, p3, p4, p5, p6, -⟩ := h a ha
  rw [(g3 a ha).2]
  have key : ∀ (preset : Bool) (x y : Dec), Fits x → Fits y → OneSide preset [x, y] → Negative preset [x, y] → NonePositive [x, y] := by
    intro preset x y hx hy ho hn
    have h2 := ho (by
      unfold Negative at hn
      simp only [List.mem_cons, List.not_mem_nil, or_false, exists_eq_or_imp, exists_eq_left, trunc_iff hx, trunc_iff hy] at hn ⊢
      rcases hn with h | h | h
      · exact .inl h
      · exact .inr (.inl (hx.micro.2.2.1 h))
      · exact .inr (.inr (hy.micro.2.2.1 h)))
    unfold NonePositive
    simp only [List.mem_cons, List.not_mem_nil, or_false, forall_eq_or_imp, forall_eq, trunc_iff hx, trunc_iff hy] at h2 ⊢
    exact ⟨hx.micro.2.2.2 h2.1, hy.micro.2.2.2 h2.2⟩
  exact ⟨key _ _ _ p1 p3 p5, key _ _ _ p2 p4 p6⟩

/-- Non-trivial case: a rectangle from 5° to 10° south and from 36° to 37° east, with times. -/
example :
    let a : RectArea := ⟨1, 1, ⟨-5000000, -6⟩, ⟨36, 0⟩, ⟨-10000000, -6⟩, ⟨37, 0⟩, 1700000000, 1700003600, 60, 5⟩
    ∃ b e', ∃ f : RectArea → RectArea, T8602.encode Sample.env { items := [a] } = .ok (b, e') ∧
      T8602.decode Sample.env {} b = .ok ({ items := [f a] }, b.length) ∧ SameRect a (f a) := by
  intro a
  obtain ⟨b, e', f, h1, h2, h3⟩ := C21_rectangles_partial Sample.env { items := [a] } (by simp) (by simp) fun x hx => by
    cases List.mem_singleton.1 hx
    exact ⟨⟨-5000000, by simp [a, TruncMicro], by decide⟩, ⟨36000000, by simp [a, TruncMicro], by decide⟩, ⟨-10000000, by simp [a, TruncMicro], by decide⟩,
      ⟨37000000, by simp [a, TruncMicro], by decide⟩, by simp [a, OneSide], by simp [a, OneSide]; decide,
      by simp [a, TailOK, TimeOK, Sample.env, Spec.unix2010, Spec.unix2100]⟩
  exact ⟨b, e', f, h1, h2, h3 a (by simp)⟩

/-! ## Polygons -/

theorem markVertexes_bits (vs : List Vertex) (at' : UInt16) : ∃ r, markVertexes at' vs = .ok r ∧ SameAttr at' r ∧
    (r.toNat.testBit 6 = true ↔ at'.toNat.testBit 6 = true ∨ ∃ v ∈ vs, v.lat.value < 0) ∧
    (r.toNat.testBit 7 = true ↔ at'.toNat.testBit 7 = true ∨ ∃ v ∈ vs, v.lng.value < 0) := by
  induction vs generalizing at' with
  | nil => exact ⟨at', rfl, fun _ _ _ => rfl, by simp, by simp⟩
  | cons v vs ih =>
    obtain ⟨r1, m1, b1⟩ := mark16_bits at' (v.lat.mul Dec.million).isNeg 6 (by omega)
    obtain ⟨r2, m2, b2⟩ := mark16_bits r1 (v.lng.mul Dec.million).isNeg 7 (by omega)
    obtain ⟨r, hr, i1, i2, i3⟩ := ih r2
    rw [show ((6 : Nat) : Int) = 6 from rfl] at m1
    rw [show ((7 : Nat) : Int) = 7 from rfl] at m2
    rw [Dec.isNeg_coord] at m1 m2 b1 b2
    refine ⟨r, ?_, ?_, ?_, ?_⟩
    · unfold markVertexes
      rw [Dec.isNeg_coord, Dec.isNeg_coord, m1]
      simp only [Res.ok_bind]
      rw [m2]
      exact hr
    · intro i h6 h7
      rw [i1 i h6 h7, b2, b1]
      simp [h6, h7]
    · rw [i2, b2, b1]
      by_cases hv : v.lat.value < 0 <;> simp [hv]
    · rw [i3, b2, b1]
      by_cases hv : v.lng.value < 0 <;> simp [hv]

/-- C21 for polygons, exactly: every polygon is read back with its vertexes on the negative side of the equator (or of the meridian) if one of them is,
and everything else unchanged; the vertexes are the same afterwards exactly when in that case none is on the other side. -/
theorem C21_polygons_exact (env : Env) (e : T8604) (h0 : e.vertexes ≠ [] ∨ e.attr.toNat.testBit 0 = true) (h1 : e.vertexes.length < 65536)
    (h : ∀ v ∈ e.vertexes, Fits v.lat ∧ Fits v.lng) (h5 : TailOK env e.attr e.startTime e.endTime e.maxSpeed e.duration) :
    ∃ b at', ∃ f : Vertex → Vertex, T8604.encode env e = .ok (b, { e with attr := at' }) ∧
      T8604.decode env {} b = .ok ({ e with attr := at', vertexes := e.vertexes.map f }, b.length) ∧ SameAttr e.attr at' ∧
      (∀ v ∈ e.vertexes, Shown (NegativeVertex (e.attr.toNat.testBit 6) (e.vertexes.map (·.lat))) v.lat (f v).lat ∧
        Shown (NegativeVertex (e.attr.toNat.testBit 7) (e.vertexes.map (·.lng))) v.lng (f v).lng) ∧
      ((∀ v ∈ e.vertexes, SameCoord v.lat (f v).lat ∧ SameCoord v.lng (f v).lng) ↔
        (NegativeVertex (e.attr.toNat.testBit 6) (e.vertexes.map (·.lat)) → NonePositive (e.vertexes.map (·.lat))) ∧
        (NegativeVertex (e.attr.toNat.testBit 7) (e.vertexes.map (·.lng)) → NonePositive (e.vertexes.map (·.lng)))) := by
  have hsides : ∀ f : Vertex → Vertex, (∀ v ∈ e.vertexes, Shown (NegativeVertex (e.attr.toNat.testBit 6) (e.vertexes.map (·.lat))) v.lat (f v).lat ∧
      Shown (NegativeVertex (e.attr.toNat.testBit 7) (e.vertexes.map (·.lng))) v.lng (f v).lng) →
      ((∀ v ∈ e.vertexes, SameCoord v.lat (f v).lat ∧ SameCoord v.lng (f v).lng) ↔
        (NegativeVertex (e.attr.toNat.testBit 6) (e.vertexes.map (·.lat)) → NonePositive (e.vertexes.map (·.lat))) ∧
        (NegativeVertex (e.attr.toNat.testBit 7) (e.vertexes.map (·.lng)) → NonePositive (e.vertexes.map (·.lng)))) := by
    intro f hf
    constructor
    · intro hs
      constructor <;> intro hn d hd <;> obtain ⟨v, hv, rfl⟩ := List.mem_map.1 hd
      · exact (trunc_iff (h v hv).1 (· ≤ 0)).2 ((same_of_shown (h v hv).1 (hf v hv).1).1 (hs v hv).1 hn)
      · exact (trunc_iff (h v hv).2 (· ≤ 0)).2 ((same_of_shown (h v hv).2 (hf v hv).2).1 (hs v hv).2 hn)
    · rintro ⟨k1, k2⟩ v hv
      exact ⟨(same_of_shown (h v hv).1 (hf v hv).1).2 fun hn => (trunc_iff (h v hv).1 (· ≤ 0)).1 (k1 hn _ (List.mem_map.2 ⟨v, hv, rfl⟩)),
        (same_of_shown (h v hv).2 (hf v hv).2).2 fun hn => (trunc_iff (h v hv).2 (· ≤ 0)).1 (k2 hn _ (List.mem_map.2 ⟨v, hv, rfl⟩))⟩
  obtain ⟨r, hr, i1, i2, i3⟩ := markVertexes_bits e.vertexes e.attr
  have hshown : ∀ v ∈ e.vertexes, Shown (NegativeVertex (e.attr.toNat.testBit 6) (e.vertexes.map (·.lat))) v.lat (geoCoord (absU32 (micro v.lat)) (r.toNat.testBit 6)) ∧
      Shown (NegativeVertex (e.attr.toNat.testBit 7) (e.vertexes.map (·.lng))) v.lng (geoCoord (absU32 (micro v.lng)) (r.toNat.testBit 7)) := by
    intro v hv
    obtain ⟨f1, f2⟩ := h v hv
    refine ⟨shown_geo _ _ _ f1 ?_ fun hn => i2.2 (.inr ⟨v, hv, f1.micro.2.2.1 hn⟩), shown_geo _ _ _ f2 ?_ fun hn => i3.2 (.inr ⟨v, hv, f2.micro.2.2.1 hn⟩)⟩
    · rw [i2]
      exact or_congr_right ⟨fun ⟨w, h1, h2⟩ => ⟨_, List.mem_map.2 ⟨w, h1, rfl⟩, h2⟩, fun ⟨d, h1, h2⟩ => by
        obtain ⟨w, hw, rfl⟩ := List.mem_map.1 h1
        exact ⟨w, hw, h2⟩⟩
    · rw [i3]
      exact or_congr_right ⟨fun ⟨w, h1, h2⟩ => ⟨_, List.mem_map.2 ⟨w, h1, rfl⟩, h2⟩, fun ⟨d, h1, h2⟩ => by
        obtain ⟨w, hw, rfl⟩ := List.mem_map.1 h1
        exact ⟨w, hw, h2⟩⟩
  refine ⟨put32 e.id ++ put16 r ++ encodeAreaTail env r e.startTime e.endTime e.maxSpeed e.duration ++
    put16 (UInt16.ofNat e.vertexes.length) ++ e.vertexes.flatMap (fun v => put32 (absU32 (micro v.lat)) ++ put32 (absU32 (micro v.lng))),
    r, fun v => ⟨geoCoord (absU32 (micro v.lat)) (r.toNat.testBit 6), geoCoord (absU32 (micro v.lng)) (r.toNat.testBit 7)⟩,
    by unfold T8604.encode; rw [hr]; rfl, ?_, i1, hshown, hsides (fun v => ⟨geoCoord (absU32 (micro v.lat)) (r.toNat.testBit 6), geoCoord (absU32 (micro v.lng)) (r.toNat.testBit 7)⟩) hshown⟩
  · have htail := tail_attr h5 i1
    have htimes : ∀ s, Rd.times e.vertexes.length (Vertex.decodeItem r)
        (e.vertexes.flatMap (fun v => put32 (absU32 (micro v.lat)) ++ put32 (absU32 (micro v.lng))) ++ s) =
        .ok (e.vertexes.map fun v => (⟨geoCoord (absU32 (micro v.lat)) (r.toNat.testBit 6), geoCoord (absU32 (micro v.lng)) (r.toNat.testBit 7)⟩ : Vertex), s) := by
      intro s
      have g6 : getBitUint16 r 6 = .ok (r.toNat.testBit 6) := getBit16_nat r 6
      have g7 : getBitUint16 r 7 = .ok (r.toNat.testBit 7) := getBit16_nat r 7
      generalize e.vertexes = vs
      induction vs with
      | nil => rfl
      | cons v vs ih =>
        have hd : Vertex.decodeItem r (put32 (absU32 (micro v.lat)) ++ (put32 (absU32 (micro v.lng)) ++
            ((vs.flatMap fun v => put32 (absU32 (micro v.lat)) ++ put32 (absU32 (micro v.lng))) ++ s))) =
            .ok (⟨geoCoord (absU32 (micro v.lat)) (r.toNat.testBit 6), geoCoord (absU32 (micro v.lng)) (r.toNat.testBit 7)⟩,
              (vs.flatMap fun v => put32 (absU32 (micro v.lat)) ++ put32 (absU32 (micro v.lng))) ++ s) := by
          unfold Vertex.decodeItem
          simp only [Rd.bind_u32_put32, g6, g7, Rd.bind_lift_ok, Rd.pure_apply, getGeoPoint_eq]
        simp only [List.flatMap_cons, List.length_cons, Rd.times, List.append_assoc, Rd.bind]
        rw [hd]
        dsimp only
        rw [ih]
        rfl
    unfold T8604.decode
    rw [decodeMin_eq (rest := []) (a := { e with attr := r, vertexes := e.vertexes.map fun v => (⟨geoCoord (absU32 (micro v.lat)) (r.toNat.testBit 6), geoCoord (absU32 (micro v.lng)) (r.toNat.testBit 7)⟩ : Vertex) })]
    · rfl
    · have hl := flatMap_length_const (fun v : Vertex => put32 (absU32 (micro v.lat)) ++ put32 (absU32 (micro v.lng))) 8 (by simp) e.vertexes
      simp only [List.length_append, put32_length, put16_length, hl]
      rcases h0 with h0 | h0
      · have : 0 < e.vertexes.length := List.length_pos_iff.2 h0
        omega
      · rw [areaTail_length env _ _ _ _ _ htail (by rw [i1 0 (by omega) (by omega)]; exact h0)]
        omega
    · simp only [List.append_assoc, Rd.bind_u32_put32, Rd.bind_u16_put16]
      rw [Rd.bind_ok _ (areaTail env _ _ _ _ _ htail _), Rd.bind_u16_put16, u16_toNat h1, bind_times_exact _ htimes]
      rfl

/-- Non-trivial case: three vertexes on both sides of the equator. -/
example : let e : T8604 := { id := 1, vertexes := [⟨⟨10000000, -6⟩, ⟨36, 0⟩⟩, ⟨⟨-5000000, -6⟩, ⟨36, 0⟩⟩, ⟨⟨0, 0⟩, ⟨37, 0⟩⟩] }
    ∃ b e', T8604.encode Sample.env e = .ok (b, e') := by
  intro e
  obtain ⟨b, at', f, h, -⟩ := C21_polygons_exact Sample.env e (.inl (by simp [e])) (by simp [e]) (by
    intro v hv
    simp only [e, List.mem_cons, List.not_mem_nil, or_false] at hv
    rcases hv with rfl | rfl | rfl
    · exact ⟨⟨10000000, by simp [TruncMicro], by decide⟩, ⟨36000000, by simp [TruncMicro], by decide⟩⟩
    · exact ⟨⟨-5000000, by simp [TruncMicro], by decide⟩, ⟨36000000, by simp [TruncMicro], by decide⟩⟩
    · exact ⟨⟨0, by simp [TruncMicro], by decide⟩, ⟨37000000, by simp [TruncMicro], by decide⟩⟩) (by simp [e, TailOK])
  exact ⟨b, _, h⟩

/-- C21 for polygons whose vertexes lie on one side of the equator and of the meridian. Missing: polygons that cross
them, for which it is false (`C21_refuted`). -/
theorem C21_polygons_partial (env : Env) (e : T8604) (h0 : e.vertexes ≠ [] ∨ e.attr.toNat.testBit 0 = true) (h1 : e.vertexes.length < 65536)
    (h : ∀ v ∈ e.vertexes, Fits v.lat ∧ Fits v.lng) (h3 : OneSide (e.attr.toNat.testBit 6) (e.vertexes.map (·.lat)))
    (h4 : OneSide (e.attr.toNat.testBit 7) (e.vertexes.map (·.lng)))
    (h5 : TailOK env e.attr e.startTime e.endTime e.maxSpeed e.duration) :
    ∃ b at', ∃ f : Vertex → Vertex, T8604.encode env e = .ok (b, { e with attr := at' }) ∧
      T8604.decode env {} b = .ok ({ e with attr := at', vertexes := e.vertexes.map f }, b.length) ∧ SameAttr e.attr at' ∧
      ∀ v ∈ e.vertexes, SameCoord v.lat (f v).lat ∧ SameCoord v.lng (f v).lng := by
  obtain ⟨b, at', f, g1, g2, g3, -, g4⟩ := C21_polygons_exact env e h0 h1 h h5
  refine ⟨b, at', f, g1, g2, g3, g4.2 ?_⟩
  have key : ∀ (preset : Bool) (ds : List Dec), (∀ d ∈ ds, Fits d) → OneSide preset ds → NegativeVertex preset ds → NonePositive ds :=
    fun preset ds hf ho hn d hd => (trunc_iff (hf d hd) (· ≤ 0)).2 ((hf d hd).micro.2.2.2 (ho hn d hd))
  refine ⟨key _ _ (fun d hd => ?_) h3, key _ _ (fun d hd => ?_) h4⟩ <;> obtain ⟨v, hv, rfl⟩ := List.mem_map.1 hd
  · exact (h v hv).1
  · exact (h v hv).2

/-- Non-trivial case: a triangle south of the equator that touches it, with its hemisphere bits not yet set. -/
example : OneSide ((0 : UInt16).toNat.testBit 6) [⟨-1000000, -6⟩, ⟨0, 0⟩, ⟨-2, 0⟩] := by
  intro _ d hd
  simp only [List.mem_cons, List.not_mem_nil, or_false] at hd
  rcases hd with rfl | rfl | rfl <;> decide

/-! ## Routes -/

theorem RoutePoint.item_general (p : RoutePoint) (h1 : Fits p.lat) (h2 : Fits p.lng)
    (h3 : OneSide (p.attr.toNat.testBit 2) [p.lat]) (h4 : OneSide (p.attr.toNat.testBit 3) [p.lng])
    (ht : p.timeTooLong.isSome = p.timeTooShort.isSome) (hs : p.maxSpeed.isSome = p.overSpeedDuration.isSome) :
    ∃ b q, RoutePoint.encodeItem p = .ok b ∧ 18 ≤ b.length ∧ (∀ s, RoutePoint.decodeItem (b ++ s) = .ok (q, s)) ∧ SamePoint p q := by
  obtain ⟨r1, m1, b1⟩ := mark8_bits p.attr (micro p.lat) 2 (by omega)
  obtain ⟨r2, m2, b2⟩ := mark8_bits r1 (micro p.lng) 3 (by omega)
  obtain ⟨r3, m3, b3⟩ := setBitByte_eq r2 0 (p.timeTooLong.isSome && p.timeTooShort.isSome)
  obtain ⟨r4, m4, b4⟩ := setBitByte_eq r3 1 (p.maxSpeed.isSome && p.overSpeedDuration.isSome)
  have hb : ∀ i, r4.toNat.testBit i = if i = 1 then p.maxSpeed.isSome && p.overSpeedDuration.isSome
      else if i = 0 then p.timeTooLong.isSome && p.timeTooShort.isSome
      else if i = 3 ∧ micro p.lng < 0 then true else if i = 2 ∧ micro p.lat < 0 then true else p.attr.toNat.testBit i := by
    intro i; rw [b4, bitWith, b3, bitWith, b2, b1]; simp
  have c1 : SameCoord p.lat (geoCoord (absU32 (micro p.lat)) (r4.toNat.testBit 2)) := by
    apply sameCoord_geo _ _ h1
    · intro hn; rw [hb]; simp [hn]
    · intro hn
      rw [hb] at hn
      by_cases hl : micro p.lat < 0
      · omega
      · simp [hl] at hn; exact h1.micro.2.2.2 (h3 (.inl hn) _ (by simp))
  have c2 : SameCoord p.lng (geoCoord (absU32 (micro p.lng)) (r4.toNat.testBit 3)) := by
    apply sameCoord_geo _ _ h2
    · intro hn; rw [hb]; simp [hn]
    · intro hn
      rw [hb] at hn
      by_cases hl : micro p.lng < 0
      · omega
      · simp [hl] at hn; exact h2.micro.2.2.2 (h4 (.inl hn) _ (by simp))
  have g0 : getBitByte r4 0 = .ok (p.timeTooLong.isSome && p.timeTooShort.isSome) := by
    rw [show getBitByte r4 0 = .ok (r4.toNat.testBit 0) from getBit8_nat r4 0, hb]; simp
  have g1 : getBitByte r4 1 = .ok (p.maxSpeed.isSome && p.overSpeedDuration.isSome) := by
    rw [show getBitByte r4 1 = .ok (r4.toNat.testBit 1) from getBit8_nat r4 1, hb]; simp
  have g2 : getBitByte r4 2 = .ok (r4.toNat.testBit 2) := getBit8_nat r4 2
  have g3 : getBitByte r4 3 = .ok (r4.toNat.testBit 3) := getBit8_nat r4 3
  have hhigh : ∀ i, 4 ≤ i → r4.toNat.testBit i = p.attr.toNat.testBit i := by
    intro i hi
    rw [hb, if_neg (by omega), if_neg (by omega), if_neg (by omega), if_neg (by omega)]
  clear b1 b2 b3 b4 hb
  rw [show ((2 : Nat) : Int) = 2 from rfl] at m1
  rw [show ((3 : Nat) : Int) = 3 from rfl] at m2
  rw [show ((0 : Nat) : Int) = 0 from rfl] at m3
  rw [show ((1 : Nat) : Int) = 1 from rfl] at m4
  refine ⟨_, { p with attr := r4, lat := geoCoord (absU32 (micro p.lat)) (r4.toNat.testBit 2), lng := geoCoord (absU32 (micro p.lng)) (r4.toNat.testBit 3) },
    by unfold RoutePoint.encodeItem; simp only; rw [m1]; simp only [Res.ok_bind]; rw [m2]; simp only [Res.ok_bind]; rw [m3]; simp only [Res.ok_bind]; rw [m4]; rfl,
    by simp; omega, ?_, ⟨c1, c2, hhigh, rfl, rfl, rfl, rfl, rfl, rfl, rfl⟩⟩
  intro s
  unfold RoutePoint.decodeItem
  simp only [List.append_assoc, List.cons_append, List.nil_append, Rd.bind_u32_put32, Rd.bind_byte_cons, g0, g1, g2, g3, Rd.bind_lift_ok,
    getGeoPoint_eq]
  clear c1 c2 m1 m2 m3 m4 g0 g1 g2 g3 h1 h2 h3 h4 hhigh
  obtain ⟨i, sec, la, ln, w, at', tl, ts, ms, od⟩ := p
  simp only at *
  cases tl <;> cases ts <;> simp at ht <;> cases ms <;> cases od <;> simp at hs <;> simp

/-- C21 for routes: every point has its own hemisphere bits, so a route may cross the equator. -/
theorem C21_routes (env : Env) (e : T8606) (t1 : TimeOK env e.startTime) (t2 : TimeOK env e.endTime) (h0 : e.points.length < 65536)
    (h : ∀ p ∈ e.points, Fits p.lat ∧ Fits p.lng ∧ OneSide (p.attr.toNat.testBit 2) [p.lat] ∧ OneSide (p.attr.toNat.testBit 3) [p.lng] ∧
      p.timeTooLong.isSome = p.timeTooShort.isSome ∧ p.maxSpeed.isSome = p.overSpeedDuration.isSome) :
    ∃ b, ∃ f : RoutePoint → RoutePoint, T8606.encode env e = .ok b ∧
      T8606.decode env {} b = .ok ({ e with points := e.points.map f }, b.length) ∧ ∀ p ∈ e.points, SamePoint p (f p) := by
  have hall : ∀ p ∈ e.points, ∃ q, (∃ b, RoutePoint.encodeItem p = .ok b ∧ 18 ≤ b.length ∧ ∀ s, RoutePoint.decodeItem (b ++ s) = .ok (q, s)) ∧
      SamePoint p q := by
    intro p hp
    obtain ⟨p1, p2, p3, p4, p5, p6⟩ := h p hp
    obtain ⟨b, q, q1, q2, q3, q4⟩ := RoutePoint.item_general p p1 p2 p3 p4 p5 p6
    exact ⟨q, ⟨b, q1, q2, q3⟩, q4⟩
  obtain ⟨f, hf⟩ : ∃ f : RoutePoint → RoutePoint, ∀ p ∈ e.points,
      (∃ b, RoutePoint.encodeItem p = .ok b ∧ 18 ≤ b.length ∧ ∀ s, RoutePoint.decodeItem (b ++ s) = .ok (f p, s)) ∧ SamePoint p (f p) := by
    refine ⟨fun p => open Classical in if hp : p ∈ e.points then (hall p hp).choose else p, ?_⟩
    intro p hp
    simp only [dif_pos hp]
    exact (hall p hp).choose_spec
  obtain ⟨bs, g1, g2, g3⟩ := encList_times RoutePoint.encodeItem RoutePoint.decodeItem f 18 e.points fun p hp => (hf p hp).1
  have l1 := putTime_length env _ t1
  have l2 := putTime_length env _ t2
  refine ⟨_, f, by unfold T8606.encode; rw [g1]; rfl, ?_, fun p hp => (hf p hp).2⟩
  unfold T8606.decode
  rw [decodeMin_eq (rest := []) (a := { e with points := e.points.map f }) (by simp [l1, l2]; omega)]
  · rfl
  · simp only [List.append_assoc, Rd.bind_u32_put32, Rd.bind_u16_put16]
    rw [bind_bcdTime env _ t1, bind_bcdTime env _ t2, Rd.bind_u16_put16, u16_toNat h0, bind_times_exact _ g3]
    rfl

/-- Non-trivial case: a route over the equator, with a time limit at its first point and a speed limit at its second. -/
example : let p : RoutePoint := { id := 1, lat := ⟨10000, -6⟩, lng := ⟨36821946, -6⟩, timeTooLong := some 600, timeTooShort := some 60 }
    let q : RoutePoint := { id := 2, lat := ⟨-12921, -4⟩, lng := ⟨36823, -3⟩, maxSpeed := some 80, overSpeedDuration := some 10 }
    ∃ b, ∃ f : RoutePoint → RoutePoint, T8606.encode Sample.env { startTime := 1700000000, endTime := 1700003600, points := [p, q] } = .ok b ∧
      SamePoint p (f p) ∧ SamePoint q (f q) := by
  intro p q
  obtain ⟨b, f, h1, -, h2⟩ := C21_routes Sample.env { startTime := 1700000000, endTime := 1700003600, points := [p, q] }
    (by simp [TimeOK, Sample.env, Spec.unix2010, Spec.unix2100]) (by simp [TimeOK, Sample.env, Spec.unix2010, Spec.unix2100]) (by simp) (by
    intro v hv
    simp only [List.mem_cons, List.not_mem_nil, or_false] at hv
    rcases hv with rfl | rfl
    · exact ⟨⟨10000, by simp [p, TruncMicro], by decide⟩, ⟨36821946, by simp [p, TruncMicro], by decide⟩, by simp [p, OneSide], by simp [p, OneSide], rfl, rfl⟩
    · exact ⟨⟨-1292100, by simp [q, TruncMicro], by decide⟩, ⟨36823000, by simp [q, TruncMicro], by decide⟩, by simp [q, OneSide], by simp [q, OneSide], rfl, rfl⟩)
  exact ⟨b, f, h1, h2 p (by simp), h2 q (by simp)⟩

/-! ## Refutation -/

/-- C21 is false of the code: every rectangle from the northern into the southern hemisphere arrives with its northern
edge mirrored to the south. -/
theorem C21_refuted (env : Env) (a : RectArea) (north south east west : Int) (h1 : a.leftTopLat = ⟨north, -6⟩) (h2 : a.rightBottomLat = ⟨south, -6⟩)
    (h3 : a.leftTopLon = ⟨west, -6⟩) (h4 : a.rightBottomLon = ⟨east, -6⟩)
    (hn : 0 < north) (hn' : north < 2 ^ 32) (hs : south < 0) (hs' : south.natAbs < 2 ^ 32) (hw : 0 ≤ west) (hw' : west < 2 ^ 32)
    (he : 0 ≤ east) (he' : east < 2 ^ 32) (h5 : TailOK env a.attr a.startTime a.endTime a.maxSpeed a.duration) (action : UInt8) :
    ∃ b e' d n, T8602.encode env { action := action, items := [a] } = .ok (b, e') ∧ T8602.decode env {} b = .ok ({ action := action, items := [d] }, n) ∧
      d.leftTopLat = ⟨-north, -6⟩ ∧ d.rightBottomLat = ⟨south, -6⟩ := by
  have e1 : micro a.leftTopLat = north := by rw [h1]; exact micro_coord _ ⟨rfl, by simp only; omega⟩
  have e2 : micro a.rightBottomLat = south := by rw [h2]; exact micro_coord _ ⟨rfl, hs'⟩
  have e3 : micro a.leftTopLon = west := by rw [h3]; exact micro_coord _ ⟨rfl, by simp only; omega⟩
  have e4 : micro a.rightBottomLon = east := by rw [h4]; exact micro_coord _ ⟨rfl, by simp only; omega⟩
  obtain ⟨r, m, b⟩ := mark16_bits a.attr true 6 (by omega)
  have hb6 : r.toNat.testBit 6 = true := by rw [b]; simp
  have hsame : SameAttr a.attr r := by intro i hi _; rw [b]; simp [hi]
  have henc : RectArea.encodeItem env a = .ok (put32 a.id ++ put16 r ++ put32 (absU32 north) ++ put32 (absU32 west) ++
      put32 (absU32 south) ++ put32 (absU32 east) ++ encodeAreaTail env r a.startTime a.endTime a.maxSpeed a.duration, { a with attr := r }) := by
    unfold RectArea.encodeItem
    simp only [e1, e2, e3, e4]
    rw [show ((6 : Nat) : Int) = 6 from rfl] at m
    have k1 : decide (north < 0) = false := by simp; omega
    have k2 : decide (west < 0) = false := by simp; omega
    have k3 : decide (south < 0) = true := by simp; omega
    have k4 : decide (east < 0) = false := by simp; omega
    rw [k1, k2, k3, k4]
    have mf : ∀ (x : UInt16) (i : Int), markIf x false i = .ok x := fun _ _ => rfl
    rw [mf]
    simp only [Res.ok_bind]
    rw [mf]
    simp only [Res.ok_bind]
    rw [m]
    simp only [Res.ok_bind]
    rw [mf]
    rfl
  have hdec : ∀ s, RectArea.decodeItem env ((put32 a.id ++ put16 r ++ put32 (absU32 north) ++ put32 (absU32 west) ++
      put32 (absU32 south) ++ put32 (absU32 east) ++ encodeAreaTail env r a.startTime a.endTime a.maxSpeed a.duration) ++ s) =
      .ok ({ a with attr := r, leftTopLat := ⟨-north, -6⟩, rightBottomLat := ⟨south, -6⟩, leftTopLon := geoCoord (absU32 west) (r.toNat.testBit 7), rightBottomLon := geoCoord (absU32 east) (r.toNat.testBit 7) }, s) := by
    intro s
    have g6 : getBitUint16 r 6 = .ok true := by rw [← hb6]; exact getBit16_nat r 6
    have g7 : getBitUint16 r 7 = .ok (r.toNat.testBit 7) := getBit16_nat r 7
    have gn : geoCoord (absU32 north) true = ⟨-north, -6⟩ := by
      rw [geoCoord_eq, absU32_toNat _ (by omega), if_pos rfl]; congr 1; omega
    have gs : geoCoord (absU32 south) true = ⟨south, -6⟩ := by
      rw [geoCoord_eq, absU32_toNat _ hs', if_pos rfl]; congr 1; omega
    unfold RectArea.decodeItem
    simp only [List.append_assoc, Rd.bind_u32_put32, Rd.bind_u16_put16, g6, g7, Rd.bind_lift_ok]
    rw [Rd.bind_ok _ (areaTail env _ _ _ _ _ (tail_attr h5 hsame) s)]
    simp only [Rd.pure_apply, getGeoPoint_eq, gn, gs]
  obtain ⟨bs, xs', f, g1, g2, g3, g4⟩ := encListM_exists (RectArea.encodeItem env) (RectArea.decodeItem env) 22
    (fun _ y => y.leftTopLat = ⟨-north, -6⟩ ∧ y.rightBottomLat = ⟨south, -6⟩) [a] fun x hx => by
      obtain rfl : x = a := by simpa using hx
      exact ⟨_, _, _, henc, by simp; omega, hdec, rfl, rfl⟩
  refine ⟨[action, 1] ++ bs, { action := action, items := xs' }, f a, ([action, 1] ++ bs).length, by unfold T8602.encode; simp only; rw [g1]; rfl, ?_, g4 a (by simp)⟩
  unfold T8602.decode
  rw [decodeMin_eq (rest := []) (a := { action := action, items := [f a] }) (by simp at g2 ⊢; omega)]
  · rfl
  · simp only [List.cons_append, List.nil_append, Rd.bind_byte_cons]
    rw [show (1 : UInt8).toNat = [a].length from rfl, bind_times_exact _ g3]
    rfl

/-- Non-trivial case: a rectangle from 10° north to 5° south. -/
example : TailOK Sample.env 2 zeroTime zeroTime 0 0 ∧ (0 : Int) < 10000000 ∧ (-5000000 : Int) < 0 := ⟨⟨rfl, rfl, rfl, rfl⟩, by decide, by decide⟩

/-- C21 is false of polygons too: a vertex north of the equator is mirrored when another one is south of it. -/
theorem C21_polygon_refuted (env : Env) : ∃ b e' d n,
    T8604.encode env { vertexes := [⟨⟨10000000, -6⟩, ⟨0, -6⟩⟩, ⟨⟨-5000000, -6⟩, ⟨0, -6⟩⟩] } = .ok (b, e') ∧
    T8604.decode env {} b = .ok (d, n) ∧ d.vertexes.map (·.lat) = [⟨-10000000, -6⟩, ⟨-5000000, -6⟩] :=
  ⟨_, _, _, _, rfl, rfl, rfl⟩

end Verif
