import Verif.Lemmas.Fields
/-! # Location reports: extras and the fixed part -/

namespace Verif

open Spec (ExtraOK BaseOK LocationOK Coord Hemisphere TimeOK)

/-! ## Extras -/

theorem Extra.new_length (v : ExtraVal) : (Extra.new v).serialized.length ≤ 7 ∧ 1 ≤ (Extra.new v).serialized.length := by
  cases v with
  | x11 t a => cases a <;> simp [Extra.new] <;> split <;> simp
  | _ => simp [Extra.new]

theorem be32_put32 (n : UInt32) : Param.be32 (put32 n) = .ok n := by
  simp only [put32, Param.be32, get32_put32]

theorem be16_put16 (n : UInt16) : Param.be16 (put16 n) = .ok n := by
  simp only [put16, Param.be16, get16_put16]

theorem Extra.dec32_put (mk : UInt32 → ExtraVal) (n : UInt32) : Extra.dec32 mk (put32 n) = .ok (⟨mk n, []⟩, 4) := by
  simp [Extra.dec32, be32_put32, Extra.decoded]

theorem Extra.dec16_put (mk : UInt16 → ExtraVal) (n : UInt16) : Extra.dec16 mk (put16 n) = .ok (⟨mk n, []⟩, 2) := by
  simp [Extra.dec16, be16_put16, Extra.decoded]

theorem Extra.decode_new (v : ExtraVal) (h : ExtraOK v) :
    Extra.decode (Extra.new v).id (Extra.new v).serialized = .ok (⟨v, []⟩, (Extra.new v).serialized.length) := by
  cases v with
  | x01 n => exact Extra.dec32_put .x01 n
  | x02 n => exact Extra.dec16_put .x02 n
  | x03 n => exact Extra.dec16_put .x03 n
  | x04 n => exact Extra.dec16_put .x04 n
  | x25 n => exact Extra.dec32_put .x25 n
  | x2a n => exact Extra.dec16_put .x2a n
  | x2b n => exact Extra.dec32_put .x2b n
  | x30 n => rfl
  | x31 n => rfl
  | x11 t a =>
    have hd : Extra.decode (Extra.new (.x11 t a)).id (Extra.new (.x11 t a)).serialized = Extra.dec11 (Extra.new (.x11 t a)).serialized := rfl
    rw [hd]
    cases a with
    | none =>
      have ht : t = 0 := h.2 rfl
      subst ht
      rfl
    | some a =>
      have ht : t ≠ 0 := fun hc => by have := h.1 hc; simp at this
      have hs : (Extra.new (.x11 t (some a))).serialized = t :: put32 a := by simp [Extra.new, ht]
      rw [hs]
      unfold Extra.dec11
      rw [if_neg (by simp), idx_zero]
      simp only [Res.ok_bind]
      rw [if_neg ht, show slice (t :: put32 a) 1 (t :: put32 a).length = .ok (put32 a) from rfl]
      simp only [Res.ok_bind]
      rw [if_neg (by simp), be32_put32]
      rfl
  | x12 t a d =>
    have hd : Extra.decode (Extra.new (.x12 t a d)).id (Extra.new (.x12 t a d)).serialized = Extra.dec12 (Extra.new (.x12 t a d)).serialized := rfl
    rw [hd]
    rw [show (Extra.new (.x12 t a d)).serialized = t :: (put32 a ++ [d]) from rfl]
    unfold Extra.dec12
    rw [if_neg (by simp), idx_zero]
    have hs : slice (t :: (put32 a ++ [d])) 1 5 = .ok (put32 a) := rfl
    have hi : idx (t :: (put32 a ++ [d])) 5 = .ok d := rfl
    rw [hs, hi]
    simp only [Res.ok_bind, be32_put32]
    rfl
  | x13 r d x =>
    have hd : Extra.decode (Extra.new (.x13 r d x)).id (Extra.new (.x13 r d x)).serialized = Extra.dec13 (Extra.new (.x13 r d x)).serialized := rfl
    rw [hd]
    rw [show (Extra.new (.x13 r d x)).serialized = put32 r ++ put16 d ++ [x] from rfl]
    unfold Extra.dec13
    rw [if_neg (by simp)]
    have hs : slice (put32 r ++ put16 d ++ [x]) 0 4 = .ok (put32 r) := rfl
    have hs2 : slice (put32 r ++ put16 d ++ [x]) 4 6 = .ok (put16 d) := rfl
    have hi : idx (put32 r ++ put16 d ++ [x]) 6 = .ok x := rfl
    rw [hs, hs2, hi]
    simp only [Res.ok_bind, be32_put32, be16_put16]
    rfl

/-- One round of the extras loop. -/
theorem decodeExtras_round (fuel : Nat) (id : UInt8) (d rest : Bytes) (h : d.length < 256) :
    decodeExtras (fuel + 1) (id :: u8 d.length :: (d ++ rest)) =
      match Extra.decode id d with
      | .err .typeNotRegistered => decodeExtras fuel rest
      | .err e => .err e
      | .panic => .panic
      | .ok (x, count) => if count ≠ d.length then .err .invalidExtraLength
          else decodeExtras fuel rest >>= fun xs => .ok (some x :: xs) := by
  have hn : (u8 d.length).toNat = d.length := by simp; omega
  rw [decodeExtras]
  rw [if_neg (by simp), idx_zero, show idx (id :: u8 d.length :: (d ++ rest)) 1 = .ok (u8 d.length) from rfl,
    slice_to_end _ _ (by simp)]
  simp only [Res.ok_bind, List.drop_succ_cons, List.drop_zero, hn]
  rw [if_neg (by simp), slice_from_zero _ _ (by simp), slice_to_end _ _ (by simp)]
  simp only [Res.ok_bind, List.take_left, List.drop_left]
  split <;> simp_all

/-- The loop's bound does not matter once it is large enough. -/
theorem decodeExtras_nil (fuel : Nat) : decodeExtras fuel [] = .ok [] := by
  cases fuel <;> rfl

/-- Extras made by the constructors read back in order. -/
theorem decodeExtras_known (vs : List ExtraVal) (h : ∀ v ∈ vs, ExtraOK v) (fuel : Nat)
    (hf : vs.length ≤ fuel) :
    decodeExtras fuel (vs.flatMap fun v => (Extra.new v).id :: u8 (Extra.new v).serialized.length :: (Extra.new v).serialized) =
      .ok (vs.map fun v => some ⟨v, []⟩) := by
  induction vs generalizing fuel with
  | nil => exact decodeExtras_nil fuel
  | cons v vs ih =>
    obtain ⟨f, rfl⟩ : ∃ f, fuel = f + 1 := ⟨fuel - 1, by simp at hf; omega⟩
    have hl := Extra.new_length v
    rw [List.flatMap_cons, List.cons_append, List.cons_append, decodeExtras_round _ _ _ _ (by omega),
      Extra.decode_new v (h v (by simp))]
    simp only [ne_eq, not_true_eq_false, if_false]
    rw [ih (fun w hw => h w (by simp [hw])) f (by simp at hf; omega)]
    rfl

theorem encList_known (vs : List ExtraVal) : encList encodeExtra (vs.map fun v => some (Extra.new v)) =
    .ok (vs.flatMap fun v => (Extra.new v).id :: u8 (Extra.new v).serialized.length :: (Extra.new v).serialized) := by
  induction vs with
  | nil => rfl
  | cons v vs ih => simp [encList, ih, encodeExtra]

theorem known_extras {xs : List (Option Extra)} (h : ∀ x ∈ xs, ∃ v, ExtraOK v ∧ x = some (Extra.new v)) :
    ∃ vs : List ExtraVal, (∀ v ∈ vs, ExtraOK v) ∧ xs = vs.map fun v => some (Extra.new v) := by
  induction xs with
  | nil => exact ⟨[], by simp, rfl⟩
  | cons x xs ih =>
    obtain ⟨vs, h1, h2⟩ := ih fun y hy => h y (by simp [hy])
    obtain ⟨v, hv, hx⟩ := h x (by simp)
    refine ⟨v :: vs, ?_, by rw [h2, hx]; rfl⟩
    intro w hw
    rcases List.mem_cons.1 hw with rfl | hw
    · exact hv
    · exact h1 w hw

theorem flatMap_known_length (vs : List ExtraVal) : 2 * vs.length ≤ (vs.flatMap fun v =>
    (Extra.new v).id :: u8 (Extra.new v).serialized.length :: (Extra.new v).serialized).length := by
  induction vs with
  | nil => simp
  | cons v vs ih => rw [List.flatMap_cons, List.length_append]; simp only [List.length_cons] at ih ⊢; omega

/-! ## The report -/

/-- A status word after marking the hemisphere of one coordinate. -/
theorem mark32 (st : UInt32) (v : Int) (bit : Nat) (hbit : bit < 32) (h : v < 0 → st.toNat.testBit bit = true) :
    markNegative st v (bit : Int) = .ok st := by
  unfold markNegative
  split
  · rename_i hv
    obtain ⟨r, hr, hb⟩ := setBitUint32_eq st bit true
    rw [hr]
    congr 1
    apply UInt32.toNat.inj
    apply Nat.eq_of_testBit_eq
    intro i
    rw [hb, bitWith]
    split
    · rename_i hi; rw [hi.2, h hv]
    · rfl
  · rfl

/-- The fixed part of a location report on the wire. -/
def baseBytes (env : Env) (e : T0200) : Bytes :=
  put32 e.alarm ++ (put32 e.status ++ (put32 (absU32 (micro e.lat)) ++ (put32 (absU32 (micro e.lng)) ++ (put16 e.altitude ++
    (put16 e.speed ++ (put16 e.direction ++ putTime env e.time))))))

theorem baseBytes_length (env : Env) (e : T0200) (h : TimeOK env e.time) : (baseBytes env e).length = 28 := by
  simp [baseBytes, putTime_length env e.time h]

theorem T0200.encode_base (env : Env) (e : T0200) (h : BaseOK env e) (xs : Bytes) (hx : encList encodeExtra e.extras = .ok xs) :
    T0200.encode env e = .ok (baseBytes env e ++ xs, e) := by
  obtain ⟨h1, h2, h3, h4, h5⟩ := h
  have m1 := mark32 e.status (micro e.lat) 2 (by omega) (by rw [micro_coord _ h1]; exact h3.1)
  have m2 := mark32 e.status (micro e.lng) 3 (by omega) (by rw [micro_coord _ h2]; exact h4.1)
  unfold T0200.encode
  simp only
  rw [show ((2 : Nat) : Int) = 2 from rfl] at m1
  rw [show ((3 : Nat) : Int) = 3 from rfl] at m2
  rw [m1]
  simp only [Res.ok_bind]
  rw [m2]
  simp only [Res.ok_bind, hx, baseBytes, List.append_assoc]

theorem T0200.decode_base (env : Env) (e : T0200) (h : BaseOK env e) (self : T0200) (tail : Bytes) (xs : List (Option Extra))
    (hx : decodeExtras tail.length tail = .ok xs) :
    T0200.decode env self (baseBytes env e ++ tail) =
      .ok ({ e with extras := if xs.length > 0 then xs else self.extras }, 28) := by
  obtain ⟨h1, h2, h3, h4, h5⟩ := h
  have hl := baseBytes_length env e h5
  have hgen : ∀ data, data = baseBytes env e ++ tail → T0200.decode env self data =
      .ok ({ e with extras := if xs.length > 0 then xs else self.extras }, 28) := by
    intro data hdata
    have hdl : data.length = 28 + tail.length := by rw [hdata, List.length_append, hl]
    have hg2 : getBitUint32 e.status 2 = .ok (e.status.toNat.testBit 2) := getBitUint32_eq e.status 2
    have hg3 : getBitUint32 e.status 3 = .ok (e.status.toNat.testBit 3) := getBitUint32_eq e.status 3
    have hdrop : data.drop (data.length - tail.length) = tail := by
      rw [hdl, Nat.add_sub_cancel, hdata, List.drop_left' hl]
    have hsl : slice data (data.length - tail.length) data.length = .ok tail := by
      rw [slice_to_end _ _ (by omega), hdrop]
    unfold T0200.decode
    rw [decodeMin_eq (rest := tail) (by omega)
      (a := { e with extras := if xs.length > 0 then xs else self.extras })]
    · congr 2
      omega
    · generalize hL : data.length = L at hsl
      generalize hD : slice data = S at hsl
      rw [hdata]
      simp only [baseBytes, List.append_assoc, Rd.bind_u32_put32, Rd.bind_u16_put16, hg2, hg3, Rd.bind_lift_ok]
      rw [bind_bcdTime env e.time h5]
      simp only [Rd.bind_len, hsl, Rd.bind_lift_ok, hx, Rd.pure_apply, getGeoPoint_eq, geoCoord_coord _ _ h1 h3,
        geoCoord_coord _ _ h2 h4]
  exact hgen _ rfl

/-- Round trip of a location report, into a fresh value. -/
theorem T0200.round_trip (env : Env) (e : T0200) (h : LocationOK env e) : ∃ b, T0200.encode env e = .ok (b, e) ∧
    b.length = 28 + Spec.extrasSize e.extras ∧ T0200.decode env {} b = .ok (Spec.dropCache e, 28) := by
  obtain ⟨hb, hx⟩ := h
  obtain ⟨vs, hv, hvs⟩ := known_extras hx
  have he := encList_known vs
  refine ⟨_, T0200.encode_base env e hb _ (by rw [hvs]; exact he), ?_, ?_⟩
  · rw [List.length_append, baseBytes_length env e hb.2.2.2.2, hvs]
    congr 1
    clear he hvs hx
    induction vs with
    | nil => rfl
    | cons v vs ih =>
      rw [List.flatMap_cons, List.length_append, ih fun w hw => hv w (by simp [hw])]
      simp [Spec.extrasSize]
      omega
  · have hk := decodeExtras_known vs hv _ (Nat.le_trans (by omega) (flatMap_known_length vs))
    rw [T0200.decode_base env e hb {} _ _ hk]
    simp only [Spec.dropCache, hvs, List.map_map, List.length_map]
    congr 2
    cases vs <;> rfl

end Verif
