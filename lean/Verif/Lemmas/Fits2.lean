import Verif.Lemmas.Fits
import Verif.Lemmas.AcceptsAll
/-! # What it takes for a body to come back: packed numbers, areas, location reports -/

namespace Verif

open Spec

/-! ## Packed numbers -/

theorem nibble_table : ∀ x y : Fin 16, unpackByte (((UInt8.ofNat (48 + x.val) - 48) <<< 4) ||| (UInt8.ofNat (48 + y.val) - 48)) =
    [UInt8.ofNat (48 + x.val), UInt8.ofNat (48 + y.val)] := by decide +kernel

theorem unpack_pack {a b : UInt8} (ha : 48 ≤ a ∧ a ≤ 63) (hb : 48 ≤ b ∧ b ≤ 63) :
    unpackByte (((a - 48) <<< 4) ||| (b - 48)) = [a, b] := by
  have h1 : 48 ≤ a.toNat := UInt8.le_iff_toNat_le.1 ha.1
  have h2 : a.toNat ≤ 63 := UInt8.le_iff_toNat_le.1 ha.2
  have h3 : 48 ≤ b.toNat := UInt8.le_iff_toNat_le.1 hb.1
  have h4 : b.toNat ≤ 63 := UInt8.le_iff_toNat_le.1 hb.2
  have h := nibble_table ⟨a.toNat - 48, by omega⟩ ⟨b.toNat - 48, by omega⟩
  have ea : UInt8.ofNat (48 + (a.toNat - 48)) = a := by apply UInt8.toNat.inj; simp; omega
  have eb : UInt8.ofNat (48 + (b.toNat - 48)) = b := by apply UInt8.toNat.inj; simp; omega
  simp only [ea, eb] at h
  exact h

theorem packBCD_length : ∀ s : Bytes, (packBCD s).length = s.length / 2
  | [] => rfl
  | [_] => by simp [packBCD]
  | a :: b :: s => by simp only [packBCD, List.length_cons, packBCD_length s]; omega

theorem unpack_packBCD : ∀ s : Bytes, (∀ c ∈ s, 48 ≤ c ∧ c ≤ 63) → s.length % 2 = 0 → (packBCD s).flatMap unpackByte = s
  | [], _, _ => rfl
  | [_], _, h => by simp at h
  | a :: b :: s, hc, hl => by
    rw [packBCD, List.flatMap_cons, unpack_pack (hc a (by simp)) (hc b (by simp)),
      unpack_packBCD s (fun c h => hc c (by simp [h])) (by simp at hl; omega)]
    rfl

/-- A number of nibble characters without leading zero survives the packed form. -/
theorem bcd_nibbles (s : Bytes) (k : Nat) (h : Nibbles s (2 * k)) :
    (stringToBCD s k).length = k ∧ bcdToString (stringToBCD s k) = s := by
  obtain ⟨hl, hd, hh⟩ := h
  obtain ⟨t, ht⟩ : ∃ t, t = (if s.length % 2 = 1 then 48 :: s else s) := ⟨_, rfl⟩
  have htd : ∀ c ∈ t, 48 ≤ c ∧ c ≤ 63 := by
    intro c hc
    rw [ht] at hc
    split at hc
    · rcases List.mem_cons.1 hc with rfl | hc
      · decide
      · exact hd c hc
    · exact hd c hc
  have htl : t.length % 2 = 0 ∧ t.length ≤ 2 * k := by
    rw [ht]
    split
    · simp only [List.length_cons]; omega
    · omega
  have hp := packBCD_length t
  have hu := unpack_packBCD t htd htl.1
  have hb : stringToBCD s k = List.replicate (k - (packBCD t).length) 0 ++ packBCD t := by
    unfold stringToBCD stringToBCD0
    simp only [← ht]
    rw [if_neg (by omega)]
  refine ⟨by rw [hb]; simp; omega, ?_⟩
  cases s with
  | nil =>
    simp at ht
    subst ht
    rw [hb]
    unfold bcdToString
    rw [dropWhile_zeros]
    rfl
  | cons c s =>
    have hc : c ≠ 48 := by simpa using hh
    have hne : packBCD t ≠ [] := by
      intro h0
      rw [h0] at hu
      simp only [List.flatMap_nil] at hu
      rw [← hu] at ht
      split at ht <;> simp at ht
    obtain ⟨p, ps, hps⟩ := List.exists_cons_of_ne_nil hne
    have hp0 : p ≠ 0 := by
      intro h0
      subst h0
      rw [hps, List.flatMap_cons, ht, show unpackByte 0 = [48, 48] by decide] at hu
      split at hu
      · simp only [List.cons_append, List.nil_append, List.cons.injEq, true_and] at hu
        exact hc hu.1.symm
      · simp only [List.cons_append, List.nil_append, List.cons.injEq] at hu
        exact hc hu.1.symm
    have hdw : (packBCD t).dropWhile (· = 0) = packBCD t := by
      rw [hps, List.dropWhile_cons_of_neg (by simp [hp0])]
    rw [hb]
    unfold bcdToString
    rw [dropWhile_zeros, hdw]
    simp only
    rw [hu, ht]
    simp only [Bool.false_eq_true, if_false]
    have hdc : (c :: s).dropWhile (· = 48) = c :: s := by rw [List.dropWhile_cons_of_neg (by simp [hc])]
    split
    · rw [if_neg (by simp [hc]), List.dropWhile_cons_of_pos (by simp), hdc]
    · rw [if_neg (by simp [hc]), hdc]

theorem unpack_le (d : Bytes) : ∀ c ∈ d.flatMap unpackByte, c ≤ 63 := by
  intro c hc
  obtain ⟨b, -, hb⟩ := List.mem_flatMap.1 hc
  obtain ⟨x, y, h, hx, hy⟩ := unpackByte_eq b
  have := b.toNat_lt
  rw [h] at hb
  simp only [List.mem_cons, List.not_mem_nil, or_false] at hb
  rcases hb with rfl | rfl
  · rw [UInt8.le_iff_toNat_le]; simp; omega
  · rw [UInt8.le_iff_toNat_le]; simp; omega

theorem bcdToString_nibbles (d : Bytes) : Nibbles (bcdToString d) (2 * d.length) := by
  obtain ⟨h1, h2, h3⟩ := bcdToString_shape d
  refine ⟨h1, fun c hc => ⟨h2 c hc, ?_⟩, h3⟩
  unfold bcdToString at hc
  simp only [Bool.false_eq_true, if_false] at hc
  split at hc
  · exact unpack_le _ c hc
  · exact unpack_le _ c (mem_of_mem_dropWhile hc)

section
variable {env : Env} {data : Bytes} {n : Nat}

theorem T0107.fits {e : T0107} (h : T0107.decode {} data = .ok (e, n)) : BodyFits env (.m0107 e) := by
  unfold T0107.decode at h
  exact decodeMin_post (Q := fun e : T0107 => Plain e.manufactureID 5 ∧ Plain e.model 20 ∧ Plain e.terminalID 7 ∧
      Nibbles e.sim 20 ∧ Plain e.hardwareVersion 255 ∧ Plain e.softwareVersion 255) (by
    rd_any
    refine Rd.Post.bind (Rd.Post.read 5) fun m hm => ?_
    refine Rd.Post.bind (Rd.Post.read 20) fun mo hmo => ?_
    refine Rd.Post.bind (Rd.Post.read 7) fun t ht => ?_
    refine Rd.Post.bind (Rd.Post.read 10) fun sim hsim => ?_
    refine Rd.Post.bind (Rd.Post.any _) fun hn _ => ?_
    refine Rd.Post.bind (Rd.Post.read _) fun hw hhw => ?_
    refine Rd.Post.bind (Rd.Post.any _) fun sn _ => ?_
    refine Rd.Post.bind (Rd.Post.read _) fun sw hsw => ?_
    refine Rd.Post.bind (Q := fun x : Bytes => x.length ≤ 255) (Rd.Post.lift fun x hx => ?_) fun sv hsv => ?_
    · have := slice_from_zero sw sn.toNat (by omega)
      rw [this] at hx
      rw [← Res.ok.inj hx, List.length_take]
      have := u8_lt sn
      omega
    rd_any
    rd_any
    have := u8_lt hn
    have hs := bcdToString_nibbles sim
    rw [hsim] at hs
    exact Rd.Post.pure ⟨plain_bytesToString (by omega), plain_bytesToString (by omega), plain_bytesToString (by omega),
      hs, plain_bytesToString (by omega), plain_bytesToString hsv⟩) h

theorem T0107.comes_back {e : T0107} (h : BodyFits env (.m0107 e)) :
    ∃ b, T0107.encode e = .ok b ∧ T0107.decode {} b = .ok (e, b.length) := by
  obtain ⟨h1, h2, h3, h4, h5, h6⟩ := h
  obtain ⟨n1, n2⟩ := bcd_nibbles e.sim 10 h4
  refine ⟨_, rfl, ?_⟩
  unfold T0107.decode
  rw [decodeMin_eq (rest := []) (a := e) (by simp [n1]; omega)]
  · rfl
  · simp only [List.append_assoc, Rd.bind_u16_put16, List.cons_append, List.nil_append]
    rw [Rd.bind_read_append _ _ _ _ (by simp), Rd.bind_read_append _ _ _ _ (by simp), Rd.bind_read_append _ _ _ _ (by simp),
      Rd.bind_read_append _ _ _ _ n1]
    simp only [Rd.bind_byte_cons]
    rw [Rd.bind_read_append _ _ _ _ (u8_toNat (by have := h5.1; omega)).symm]
    simp only [Rd.bind_byte_cons]
    rw [Rd.bind_read_append _ _ _ _ (u8_toNat (by have := h6.1; omega)).symm, u8_toNat (by have := h6.1; omega),
      slice_from_zero _ _ (Nat.le_refl _)]
    simp only [Rd.bind_lift_ok, Rd.bind_byte_cons, List.take_length, Rd.pure_apply, n2, bytesToString_putFixed _ _ h1,
      bytesToString_putFixed _ _ h2, bytesToString_putFixed _ _ h3, bytesToString_self _ h5.2, bytesToString_self _ h6.2]

theorem T0702.comes_back {e : T0702} (h : BodyFits env (.m0702 e)) :
    ∃ b, T0702.encode env e = .ok b ∧ T0702.decode env {} b = .ok (e, b.length) := by
  obtain ⟨h1, h2, ⟨nu, t, n1, n2, n3⟩, h4, h5⟩ := h
  obtain ⟨dn, d1, d2⟩ := h2.bytes
  obtain ⟨cn, c1, c2⟩ := h4.bytes
  obtain ⟨x1, x2⟩ := date_round_trip env e.expiryDate h5
  have hput : putStrFixed env e.number 20 = .ok (putFixed nu 20) := by simp [putStrFixed, n1]
  have hget : ∀ rest, Rd.str env 20 (putFixed nu 20 ++ rest) = .ok (e.number, rest) := by
    intro rest
    unfold Rd.str
    refine Eq.trans (Rd.bind_read_append _ rest _ _ (by simp)) ?_
    rw [putFixed_padded]
    have : env.gbDec (padded 20 nu) = some t := n2
    simp [decodeStr, this, n3, Rd.lift]
  refine ⟨_, by unfold T0702.encode; rw [d1.put8, hput, c1.put8]; rfl, ?_⟩
  unfold T0702.decode
  have ht := putTime_length env e.time h1
  rw [decodeMin_eq (rest := []) (a := e) (by simp [x1, ht]; omega)]
  · rfl
  · simp only [List.append_assoc, List.cons_append, List.nil_append, Rd.bind_byte_cons]
    rw [bind_bcdTime env _ h1, Rd.bind_byte_cons, Rd.bind_ok _ (d1.str8 d2 _), Rd.bind_ok _ (hget _),
      Rd.bind_ok _ (c1.str8 c2 _), Rd.bind_read_exact _ _ _ x1, x2]
    rfl

theorem T0705.fits {e e' : T0705} {b : Bytes} (h1 : T0705.encode e = .ok (b, e')) (h2 : T0705.decode {} b = .ok (e, n)) :
    3600000000000 ≤ e.receiveTime ∧ e.receiveTime < 86400000000000 := by
  have h0 : 0 ≤ e.receiveTime := by
    have h := h2
    unfold T0705.decode at h
    refine decodeMin_post (Q := fun e : T0705 => 0 ≤ e.receiveTime) ?_ h
    rd_any
    rd_any
    dsimp only
    refine Rd.Post.ite (fun _ => Rd.Post.fail) fun _ => ?_
    rd_any
    rd_any
    rd_any
    rd_any
    rd_any
    refine Rd.Post.pure ?_
    simp only
    omega
  apply Decidable.byContradiction
  intro hc
  obtain ⟨b', e'', g1, x, g2⟩ := C23_refuted e (by omega) {}
  rw [h1] at g1
  cases g1
  rw [h2] at g2
  cases g2

theorem T8600.fits {e e' : T8600} {b : Bytes} (h1 : T8600.encode env e = .ok (b, e')) (h2 : T8600.decode env {} b = .ok (e, n)) : e.items ≠ [] := by
  intro h
  unfold T8600.encode at h1
  obtain ⟨⟨l, is⟩, hl, h1⟩ := Res.bind_ok h1
  cases h1
  rw [h] at hl
  cases hl
  obtain ⟨h2, -⟩ := decodeMin_inv h2
  simp at h2

theorem T8602.fits {e e' : T8602} {b : Bytes} (h1 : T8602.encode env e = .ok (b, e')) (h2 : T8602.decode env {} b = .ok (e, n)) : e.items ≠ [] := by
  intro h
  unfold T8602.encode at h1
  obtain ⟨⟨l, is⟩, hl, h1⟩ := Res.bind_ok h1
  cases h1
  rw [h] at hl
  cases hl
  obtain ⟨h2, -⟩ := decodeMin_inv h2
  simp at h2

theorem T8604.fits {e e' : T8604} {b : Bytes} (h1 : T8604.encode env e = .ok (b, e')) (h2 : T8604.decode env {} b = .ok (e, n)) :
    e.vertexes ≠ [] ∨ e.attr.toNat.testBit 0 = true := by
  apply Decidable.byContradiction
  intro h
  simp only [not_or, Decidable.not_not, Bool.not_eq_true] at h
  obtain ⟨hv, ha⟩ := h
  unfold T8604.encode at h1
  rw [hv] at h1
  simp only [markVertexes, Res.ok_bind, encodeAreaTail] at h1
  rw [if_pos ((and_one_eq_zero _).2 ha)] at h1
  cases h1
  obtain ⟨h2, -⟩ := decodeMin_inv h2
  simp at h2

/-! ## Location reports -/

/-- What a decoder of one extra returns. -/
def ExtraRead (r : Res (Extra × Nat)) : Prop := ∀ x k, r = .ok (x, k) → ∃ v, ExtraOK v ∧ x = ⟨v, []⟩ ∧ k = (Extra.new v).serialized.length

theorem Extra.dec32_read (mk : UInt32 → ExtraVal) (d : Bytes) (h1 : ∀ v, ExtraOK (mk v)) (h2 : ∀ v, (Extra.new (mk v)).serialized.length = 4) :
    ExtraRead (Extra.dec32 mk d) := by
  intro x k h
  unfold Extra.dec32 at h
  split at h
  · cases h
  · obtain ⟨v, -, h⟩ := Res.bind_ok h
    cases h
    exact ⟨mk v, h1 v, rfl, (h2 v).symm⟩

theorem Extra.dec16_read (mk : UInt16 → ExtraVal) (d : Bytes) (h1 : ∀ v, ExtraOK (mk v)) (h2 : ∀ v, (Extra.new (mk v)).serialized.length = 2) :
    ExtraRead (Extra.dec16 mk d) := by
  intro x k h
  unfold Extra.dec16 at h
  split at h
  · cases h
  · obtain ⟨v, -, h⟩ := Res.bind_ok h
    cases h
    exact ⟨mk v, h1 v, rfl, (h2 v).symm⟩

theorem Extra.dec8_read (mk : UInt8 → ExtraVal) (d : Bytes) (h1 : ∀ v, ExtraOK (mk v)) (h2 : ∀ v, (Extra.new (mk v)).serialized.length = 1) :
    ExtraRead (Extra.dec8 mk d) := by
  intro x k h
  unfold Extra.dec8 at h
  split at h
  · cases h
  · obtain ⟨v, -, h⟩ := Res.bind_ok h
    cases h
    exact ⟨mk v, h1 v, rfl, (h2 v).symm⟩

theorem Extra.dec11_read (d : Bytes) : ExtraRead (Extra.dec11 d) := by
  intro x k h
  unfold Extra.dec11 at h
  split at h
  · cases h
  · obtain ⟨t, -, h⟩ := Res.bind_ok h
    split at h
    · cases h
      exact ⟨.x11 0 none, by simp [ExtraOK], rfl, rfl⟩
    · rename_i ht
      obtain ⟨tl, -, h⟩ := Res.bind_ok h
      split at h
      · cases h
      · obtain ⟨a, -, h⟩ := Res.bind_ok h
        cases h
        exact ⟨.x11 t (some a), by simp [ExtraOK, ht], rfl, by simp [Extra.new, ht]⟩

theorem Extra.dec12_read (d : Bytes) : ExtraRead (Extra.dec12 d) := by
  intro x k h
  unfold Extra.dec12 at h
  split at h
  · cases h
  · obtain ⟨t, -, h⟩ := Res.bind_ok h
    obtain ⟨a, -, h⟩ := Res.bind_ok h
    obtain ⟨u, -, h⟩ := Res.bind_ok h
    cases h
    exact ⟨.x12 t a u, trivial, rfl, rfl⟩

theorem Extra.dec13_read (d : Bytes) : ExtraRead (Extra.dec13 d) := by
  intro x k h
  unfold Extra.dec13 at h
  split at h
  · cases h
  · obtain ⟨t, -, h⟩ := Res.bind_ok h
    obtain ⟨a, -, h⟩ := Res.bind_ok h
    obtain ⟨u, -, h⟩ := Res.bind_ok h
    cases h
    exact ⟨.x13 t a u, trivial, rfl, rfl⟩

theorem ExtraRead.ite {c : Prop} [Decidable c] {r s : Res (Extra × Nat)} (h1 : ExtraRead r) (h2 : ExtraRead s) :
    ExtraRead (if c then r else s) := by
  split
  · exact h1
  · exact h2

theorem Extra.decode_read (id : UInt8) (d : Bytes) : ExtraRead (Extra.decode id d) := by
  unfold Extra.decode
  refine .ite (Extra.dec32_read _ _ (fun _ => True.intro) fun _ => rfl) ?_
  refine .ite (Extra.dec16_read _ _ (fun _ => True.intro) fun _ => rfl) ?_
  refine .ite (Extra.dec16_read _ _ (fun _ => True.intro) fun _ => rfl) ?_
  refine .ite (Extra.dec16_read _ _ (fun _ => True.intro) fun _ => rfl) ?_
  refine .ite (Extra.dec11_read _) ?_
  refine .ite (Extra.dec12_read _) ?_
  refine .ite (Extra.dec13_read _) ?_
  refine .ite (Extra.dec32_read _ _ (fun _ => True.intro) fun _ => rfl) ?_
  refine .ite (Extra.dec16_read _ _ (fun _ => True.intro) fun _ => rfl) ?_
  refine .ite (Extra.dec32_read _ _ (fun _ => True.intro) fun _ => rfl) ?_
  refine .ite (Extra.dec8_read _ _ (fun _ => True.intro) fun _ => rfl) ?_
  refine .ite (Extra.dec8_read _ _ (fun _ => True.intro) fun _ => rfl) ?_
  intro x k h
  cases h

/-- The bytes that a list of extras takes if each is encoded from its value. -/
def valuesSize (xs : List (Option Extra)) : Nat :=
  (xs.map fun x => match x with | some x => 2 + (Extra.new x.val).serialized.length | none => 0).sum

theorem decodeExtras_shape : ∀ (f : Nat) (b : Bytes) (ys : List (Option Extra)), decodeExtras f b = .ok ys →
    (∀ y ∈ ys, ∃ v, ExtraOK v ∧ y = some ⟨v, []⟩) ∧ valuesSize ys ≤ b.length
  | 0, b, ys, h => by
    cases h
    exact ⟨by simp, Nat.zero_le _⟩
  | f + 1, b, ys, h => by
    match b with
    | [] => cases h; exact ⟨by simp, Nat.zero_le _⟩
    | [_] => cases h; exact ⟨by simp, Nat.zero_le _⟩
    | id :: k :: t =>
      rw [extras_step] at h
      split at h
      · cases h
      · rename_i hk
        cases hd : Extra.decode id (t.take k.toNat) with
        | panic => rw [hd] at h; cases h
        | err x =>
          rw [hd] at h
          cases x <;> first | (cases h; done) | skip
          obtain ⟨h1, h2⟩ := decodeExtras_shape f _ ys h
          refine ⟨h1, Nat.le_trans h2 ?_⟩
          simp only [List.length_drop, List.length_cons]
          omega
        | ok p =>
          obtain ⟨x, c⟩ := p
          rw [hd] at h
          simp only at h
          split at h
          · cases h
          · rename_i hc
            obtain ⟨xs, hx, h⟩ := Res.bind_ok h
            cases h
            obtain ⟨h1, h2⟩ := decodeExtras_shape f _ xs hx
            obtain ⟨v, g1, rfl, g3⟩ := Extra.decode_read _ _ _ _ hd
            refine ⟨fun y hy => ?_, ?_⟩
            · rcases List.mem_cons.1 hy with rfl | hy
              · exact ⟨v, g1, rfl⟩
              · exact h1 y hy
            · simp only [valuesSize, List.map_cons, List.sum_cons, List.length_cons, List.length_drop] at h2 ⊢
              omega

/-- Where the extras of a decoded report come from. -/
theorem T0200.decode_extras {self e : T0200} (h : T0200.decode env self data = .ok (e, n)) : 28 ≤ data.length ∧
    ∃ xs, decodeExtras (data.drop 28).length (data.drop 28) = .ok xs ∧ e.extras = if xs.length > 0 then xs else self.extras := by
  unfold T0200.decode at h
  obtain ⟨hl, r, hp⟩ := decodeMin_inv h
  refine ⟨hl, ?_⟩
  refine (?_ : Rd.PostN data.length _ fun x : T0200 => ∃ xs, decodeExtras (data.drop 28).length (data.drop 28) = .ok xs ∧
    x.extras = if xs.length > 0 then xs else self.extras) _ _ _ rfl hp
  refine Rd.PostN.bind Rd.Takes.u32 fun _ => ?_
  refine Rd.PostN.bind Rd.Takes.u32 fun _ => ?_
  refine Rd.PostN.bind Rd.Takes.u32 fun _ => ?_
  refine Rd.PostN.bind Rd.Takes.u32 fun _ => ?_
  refine Rd.PostN.bind (Rd.Takes.lift _) fun _ => ?_
  refine Rd.PostN.bind (Rd.Takes.lift _) fun _ => ?_
  refine Rd.PostN.bind Rd.Takes.u16 fun _ => ?_
  refine Rd.PostN.bind Rd.Takes.u16 fun _ => ?_
  refine Rd.PostN.bind Rd.Takes.u16 fun _ => ?_
  refine Rd.PostN.bind (Rd.Takes.bcdTime env) fun _ => ?_
  intro s a r hs h
  rw [Rd.bind_len] at h
  have hsl : slice data (data.length - s.length) data.length = .ok (data.drop 28) := by
    rw [slice_to_end _ _ (by omega), show data.length - s.length = 28 by omega]
  rw [hsl, Rd.bind_lift_ok] at h
  obtain ⟨xs, s', h1, h2⟩ := Rd.bind_inv h
  obtain ⟨h3, -⟩ := lift_inv h1
  simp only [Rd.pure_apply, Res.ok.injEq, Prod.mk.injEq] at h2
  exact ⟨xs, h3, by rw [← h2.1]⟩

/-- The bytes of a list of extras. -/
theorem encodeExtras_length {xs : List (Option Extra)} {b : Bytes} (h : encList encodeExtra xs = .ok b) : b.length = extrasSize xs := by
  induction xs generalizing b with
  | nil => rw [encList_nil h]; rfl
  | cons x xs ih =>
    obtain ⟨a, as, h1, h2, rfl⟩ := encList_cons h
    rw [List.length_append, ih h2]
    cases x with
    | none => cases h1; rfl
    | some x => cases h1; simp [extrasSize]; omega

theorem extrasSize_le_values {xs : List (Option Extra)} (h : ∀ x ∈ xs, Constructible x) : extrasSize xs ≤ valuesSize xs := by
  induction xs with
  | nil => exact Nat.le_refl _
  | cons x xs ih =>
    have ih := ih fun y hy => h y (by simp [hy])
    have hx := h x (by simp)
    simp only [extrasSize, valuesSize, List.map_cons, List.sum_cons] at ih ⊢
    cases x with
    | none => simp only; omega
    | some y =>
      obtain ⟨v, rfl | rfl⟩ := hx y rfl
      · simp only [show (Extra.new v).val = v from rfl]; omega
      · simp only [List.length_nil]; omega

theorem extras_all_new {xs : List (Option Extra)} (h : ∀ x ∈ xs, Constructible x) (hs : ∀ x ∈ xs, ∃ y, x = some y ∧ ExtraOK y.val)
    (hl : valuesSize xs ≤ extrasSize xs) : ∀ x ∈ xs, ∃ v, ExtraOK v ∧ x = some (Extra.new v) := by
  induction xs with
  | nil => simp
  | cons x xs ih =>
    have hle := extrasSize_le_values fun y (hy : y ∈ xs) => h y (by simp [hy])
    obtain ⟨y, rfl, hy⟩ := hs x (by simp)
    simp only [extrasSize, valuesSize, List.map_cons, List.sum_cons] at ih hl hle
    obtain ⟨v, rfl | rfl⟩ := h _ (List.mem_cons_self) y rfl
    · intro z hz
      rcases List.mem_cons.1 hz with rfl | hz
      · exact ⟨v, hy, rfl⟩
      · refine ih (fun y hy => h y (by simp [hy])) (fun y hy => hs y (by simp [hy])) ?_ z hz
        simp only [show (Extra.new v).val = v from rfl] at hl
        omega
    · exfalso
      have := (Extra.new_length v).2
      simp only [List.length_nil] at hl
      omega

theorem valuesSize_dropCache (xs : List (Option Extra)) : valuesSize (xs.map fun x => x.map fun x => ⟨x.val, []⟩) = valuesSize xs := by
  induction xs with
  | nil => rfl
  | cons x xs ih =>
    simp only [valuesSize, List.map_cons, List.sum_cons] at ih ⊢
    rw [ih]
    cases x <;> rfl

/-- A report comes back from (some of the first of) its bytes only if all of them are there, it is in range, and its extras were made by
their constructors. -/
theorem T0200.fits {e e' : T0200} {b : Bytes} {m : Nat} (hx : ∀ x ∈ e.extras, Constructible x) (hm : m ≤ b.length)
    (h1 : T0200.encode env e = .ok (b, e')) (h2 : T0200.decode env {} (b.take m) = .ok (Spec.dropCache e, n)) :
    LocationOK env e ∧ b.length = m ∧ b.length = 28 + extrasSize e.extras := by
  have hb : BaseOK env e := (T0200.decode_base_ok h2 : BaseOK env (Spec.dropCache e))
  obtain ⟨xb, hxb⟩ : ∃ xb, encList encodeExtra e.extras = .ok xb := by
    generalize e.extras = xs
    induction xs with
    | nil => exact ⟨[], rfl⟩
    | cons x xs ih =>
      obtain ⟨b, hb⟩ := ih
      obtain ⟨a, ha⟩ := encodeExtra_ok x
      exact ⟨a ++ b, by simp [encList, ha, hb]⟩
  have hlen := encodeExtras_length hxb
  rw [T0200.encode_base env e hb xb hxb] at h1
  cases h1
  have hbl := baseBytes_length env e hb.2.2.2.2
  obtain ⟨h28, xs, g1, g2⟩ := T0200.decode_extras h2
  have hxs : xs = e.extras.map fun x => x.map fun x => ⟨x.val, []⟩ := by
    have : (e.extras.map fun x => x.map fun x => (⟨x.val, []⟩ : Extra)) = if xs.length > 0 then xs else [] := g2
    rw [this]
    split
    · rfl
    · rename_i hc
      exact List.eq_nil_of_length_eq_zero (by omega)
  obtain ⟨k1, k2⟩ := decodeExtras_shape _ _ _ g1
  rw [hxs, valuesSize_dropCache] at k2
  rw [hxs] at k1
  have hle := extrasSize_le_values hx
  simp only [List.length_drop, List.length_take, List.length_append, hbl] at h28 k2 hm ⊢
  have hsome : ∀ x ∈ e.extras, ∃ y, x = some y ∧ ExtraOK y.val := by
    intro x hx
    obtain ⟨v, hv, hy⟩ := k1 _ (List.mem_map_of_mem hx)
    cases x with
    | none => cases hy
    | some y =>
      simp only [Option.map_some, Option.some.injEq, Extra.mk.injEq, and_true] at hy
      exact ⟨y, rfl, by rw [hy]; exact hv⟩
  refine ⟨⟨hb, extras_all_new hx hsome (by omega)⟩, by omega, by omega⟩

theorem T0200.fits_all {e e' : T0200} {b : Bytes} (hx : ∀ x ∈ e.extras, Constructible x)
    (h1 : T0200.encode env e = .ok (b, e')) (h2 : T0200.decode env {} b = .ok (Spec.dropCache e, n)) : LocationOK env e := by
  refine (T0200.fits hx (Nat.le_refl _) h1 (n := n) ?_).1
  rw [List.take_length]
  exact h2

theorem T0201.fits {e e' : T0201} {b : Bytes} (hx : ∀ x ∈ e.result.extras, Constructible x) (h1 : T0201.encode env e = .ok (b, e'))
    (h2 : T0201.decode env {} b = .ok ({ e with result := Spec.dropCache e.result }, n)) : LocationOK env e.result := by
  unfold T0201.encode at h1
  obtain ⟨⟨d, r⟩, hd, h1⟩ := Res.bind_ok h1
  cases h1
  unfold T0201.decode at h2
  split at h2
  · cases h2
  rw [Rd.u16_put16] at h2
  simp only [Res.ok_bind, List.length_append, put16_length] at h2
  rw [show 2 + d.length - d.length = 2 by omega, show 2 + d.length = (put16 e.replySerial ++ d).length by simp,
    slice_to_end _ _ (by simp)] at h2
  rw [show (put16 e.replySerial ++ d).drop 2 = d from rfl] at h2
  simp only [Res.ok_bind] at h2
  obtain ⟨⟨r', size⟩, hr, h2⟩ := Res.bind_ok h2
  simp only [Res.ok.injEq, Prod.mk.injEq, T0201.mk.injEq, true_and] at h2
  obtain ⟨rfl, -⟩ := h2
  exact T0200.fits_all hx hd hr

theorem T0704.item_inv {p : T0200} {b rest r : Bytes} (hx : ∀ x ∈ p.extras, Constructible x) (h1 : T0704.encodeItem env p = .ok b)
    (h2 : T0704.decodeItem env (b ++ rest) = .ok (Spec.dropCache p, r)) :
    (LocationOK env p ∧ 28 + extrasSize p.extras < 65536) ∧ r = rest := by
  unfold T0704.encodeItem at h1
  obtain ⟨⟨d, p'⟩, hd, h1⟩ := Res.bind_ok h1
  cases h1
  unfold T0704.decodeItem at h2
  rw [List.append_assoc, Rd.bind_u16_put16] at h2
  have hn : (UInt16.ofNat d.length).toNat = d.length % 65536 := by simp
  rw [hn] at h2
  obtain ⟨buf, s, h3, h4⟩ := Rd.bind_inv h2
  obtain ⟨x, s', h5, h6⟩ := Rd.bind_inv h4
  obtain ⟨h7, rfl⟩ := lift_inv h5
  simp only [Rd.pure_apply, Res.ok.injEq, Prod.mk.injEq] at h6
  obtain ⟨h8, rfl⟩ := h6
  obtain ⟨-, rfl, rfl⟩ := read_inv h3
  have hle : d.length % 65536 ≤ d.length := Nat.mod_le _ _
  rw [List.take_append_of_le_length hle] at h7
  obtain ⟨y, k⟩ := x
  simp only at h8
  subst h8
  obtain ⟨g1, g2, g3⟩ := T0200.fits hx hle hd h7
  refine ⟨⟨g1, by omega⟩, ?_⟩
  rw [← g2, List.drop_left]

theorem T0704.fits {e : T0704} {b : Bytes} (hx : ∀ i ∈ e.items, ∀ x ∈ i.extras, Constructible x) (h1 : T0704.encode env e = .ok b)
    (h2 : T0704.decode env {} b = .ok ({ e with items := e.items.map Spec.dropCache }, n)) :
    e.items.length < 65536 ∧ ∀ i ∈ e.items, LocationOK env i ∧ 28 + extrasSize i.extras < 65536 := by
  unfold T0704.encode at h1
  obtain ⟨l, hl, h1⟩ := Res.bind_ok h1
  cases h1
  unfold T0704.decode at h2
  obtain ⟨-, r, h2⟩ := decodeMin_inv h2
  simp only [List.append_assoc, Rd.bind_u16_put16, List.cons_append, List.nil_append, Rd.bind_byte_cons] at h2
  obtain ⟨x, s, h3, h4⟩ := Rd.bind_inv h2
  simp only [Rd.pure_apply, Res.ok.injEq, Prod.mk.injEq, T0704.mk.injEq, true_and] at h4
  obtain ⟨rfl, -⟩ := h4
  have hk := (Rd.Post.times _ (Rd.Post.any _) _ _ _ h3).1
  rw [List.length_map] at hk
  have := u16_lt (UInt16.ofNat e.items.length)
  refine ⟨by omega, ?_⟩
  rw [← List.append_nil l] at h3
  exact (times_inv (P := fun i => LocationOK env i ∧ 28 + extrasSize i.extras < 65536)
    (fun i hi b rest r => T0704.item_inv (hx i hi)) hl h3).1

/-! ## All types -/

theorem keep_inv {r : Res Bytes} {e e' : Entity} {b : Bytes} (h : Entity.keep r e = .ok (b, e')) : r = .ok b := by
  cases r with
  | ok x => cases h; rfl
  | err x => cases h
  | panic => cases h

theorem wrapEnc_inv {α : Type} {mk : α → Entity} {r : Res (Bytes × α)} {e' : Entity} {b : Bytes} (h : Entity.wrapEnc mk r = .ok (b, e')) :
    ∃ a, r = .ok (b, a) := by
  cases r with
  | ok x => cases h; exact ⟨_, rfl⟩
  | err x => cases h
  | panic => cases h

open Entity in
theorem comes_back_fits (hc : Codecs env) {e : Entity} (hx : ExtrasConstructible e) (h : ComesBack env e) : BodyFits env e := by
  obtain ⟨b, e', n, h1, h2⟩ := h
  cases e with
  | m0100 t =>
    obtain ⟨a, ha, he⟩ := wrapDec_ok (mk := m0100) h2
    cases he
    exact T0100.relay ha (T0100.fits hc (keep_inv h1) ha)
  | m0102 t =>
    obtain ⟨a, ha, he⟩ := wrapDec_ok (mk := m0102) h2
    cases he
    exact T0102.fits hc (keep_inv h1) ha
  | m0104 t =>
    obtain ⟨a, ha, he⟩ := wrapDec_ok (mk := m0104) h2
    cases he
    exact T0104.relay (env := env) ha (T0104.fits (keep_inv h1) ha)
  | m0107 t =>
    obtain ⟨a, ha, he⟩ := wrapDec_ok (mk := m0107) h2
    cases he
    exact T0107.fits ha
  | m0200 t =>
    obtain ⟨a, ha, he⟩ := wrapDec_ok (mk := m0200) h2
    obtain ⟨x, hx1⟩ := wrapEnc_inv (mk := m0200) h1
    cases he
    exact T0200.fits_all hx hx1 ha
  | m0201 t =>
    obtain ⟨a, ha, he⟩ := wrapDec_ok (mk := m0201) h2
    obtain ⟨x, hx1⟩ := wrapEnc_inv (mk := m0201) h1
    cases he
    exact T0201.fits hx hx1 ha
  | m0500 t =>
    obtain ⟨a, ha, he⟩ := wrapDec_ok (mk := m0500) h2
    obtain ⟨x, hx1⟩ := wrapEnc_inv (mk := m0500) h1
    cases he
    exact T0201.fits hx hx1 ha
  | m0702 t =>
    obtain ⟨a, ha, he⟩ := wrapDec_ok (mk := m0702) h2
    cases he
    exact T0702.fits hc (keep_inv h1) ha
  | m0704 t =>
    obtain ⟨a, ha, he⟩ := wrapDec_ok (mk := m0704) h2
    cases he
    exact T0704.fits hx (keep_inv h1) ha
  | m0705 t =>
    obtain ⟨a, ha, he⟩ := wrapDec_ok (mk := m0705) h2
    obtain ⟨x, hx1⟩ := wrapEnc_inv (mk := m0705) h1
    cases he
    exact T0705.relay (env := env) ha (T0705.fits hx1 ha)
  | m0801 t =>
    change (match T0801.decodePacket env {} b with | .ok b' => Res.ok (m0801 b', b.length) | .err x => .err x | .panic => .panic) = _ at h2
    split at h2
    · rename_i t' ht
      cases h2
      exact T0801.relay ht
    · cases h2
    · cases h2
  | m0802 t =>
    obtain ⟨a, ha, he⟩ := wrapDec_ok (mk := m0802) h2
    cases he
    exact T0802.relay ha
  | m0805 t =>
    obtain ⟨a, ha, he⟩ := wrapDec_ok (mk := m0805) h2
    cases he
    exact T0805.relay (env := env) ha
  | m8003 t =>
    obtain ⟨a, ha, he⟩ := wrapDec_ok (mk := m8003) h2
    cases he
    exact T8003.relay (env := env) ha
  | m8100 t =>
    obtain ⟨a, ha, he⟩ := wrapDec_ok (mk := m8100) h2
    cases he
    exact T8100.fits hc (keep_inv h1) ha
  | m8103 t =>
    obtain ⟨a, ha, he⟩ := wrapDec_ok (mk := m8103) h2
    cases he
    exact T8103.relay (env := env) ha (T8103.fits (keep_inv h1) ha)
  | m8105 t =>
    obtain ⟨a, ha, he⟩ := wrapDec_ok (mk := m8105) h2
    cases he
    exact TByteText.fits hc (keep_inv h1) ha
  | m8300 t =>
    obtain ⟨a, ha, he⟩ := wrapDec_ok (mk := m8300) h2
    cases he
    exact TByteText.fits hc (keep_inv h1) ha
  | m8106 t =>
    obtain ⟨a, ha, he⟩ := wrapDec_ok (mk := m8106) h2
    cases he
    exact TIDs.relay ha
  | m8601 t =>
    obtain ⟨a, ha, he⟩ := wrapDec_ok (mk := m8601) h2
    cases he
    exact TIDs.relay ha
  | m8603 t =>
    obtain ⟨a, ha, he⟩ := wrapDec_ok (mk := m8603) h2
    cases he
    exact TIDs.relay ha
  | m8605 t =>
    obtain ⟨a, ha, he⟩ := wrapDec_ok (mk := m8605) h2
    cases he
    exact TIDs.relay ha
  | m8607 t =>
    obtain ⟨a, ha, he⟩ := wrapDec_ok (mk := m8607) h2
    cases he
    exact T8607.relay ha
  | m8108 t =>
    obtain ⟨a, ha, he⟩ := wrapDec_ok (mk := m8108) h2
    cases he
    exact T8108.relay ha (T8108.fits hc (keep_inv h1) ha)
  | m8301 t =>
    obtain ⟨a, ha, he⟩ := wrapDec_ok (mk := m8301) h2
    cases he
    exact T8301.relay ha (T8301.fits hc (keep_inv h1) ha)
  | m8302 t =>
    obtain ⟨a, ha, he⟩ := wrapDec_ok (mk := m8302) h2
    cases he
    exact T8302.fits hc (keep_inv h1) ha
  | m8303 t =>
    obtain ⟨a, ha, he⟩ := wrapDec_ok (mk := m8303) h2
    cases he
    exact T8303.relay ha (T8303.fits hc (keep_inv h1) ha)
  | m8304 t =>
    obtain ⟨a, ha, he⟩ := wrapDec_ok (mk := m8304) h2
    cases he
    exact T8304.fits hc (keep_inv h1) ha
  | m8400 t =>
    obtain ⟨a, ha, he⟩ := wrapDec_ok (mk := m8400) h2
    cases he
    exact T8400.fits hc (keep_inv h1) ha
  | m8401 t =>
    obtain ⟨a, ha, he⟩ := wrapDec_ok (mk := m8401) h2
    cases he
    exact T8401.relay ha (T8401.fits hc (keep_inv h1) ha)
  | m8600 t =>
    obtain ⟨a, ha, he⟩ := wrapDec_ok (mk := m8600) h2
    obtain ⟨x, hx1⟩ := wrapEnc_inv (mk := m8600) h1
    cases he
    exact T8600.relay ha (T8600.fits hx1 ha)
  | m8602 t =>
    obtain ⟨a, ha, he⟩ := wrapDec_ok (mk := m8602) h2
    obtain ⟨x, hx1⟩ := wrapEnc_inv (mk := m8602) h1
    cases he
    exact T8602.relay ha (T8602.fits hx1 ha)
  | m8604 t =>
    obtain ⟨a, ha, he⟩ := wrapDec_ok (mk := m8604) h2
    obtain ⟨x, hx1⟩ := wrapEnc_inv (mk := m8604) h1
    cases he
    exact T8604.relay ha (T8604.fits hx1 ha)
  | m8606 t =>
    obtain ⟨a, ha, he⟩ := wrapDec_ok (mk := m8606) h2
    cases he
    exact T8606.relay ha
  | m8800 t =>
    obtain ⟨a, ha, he⟩ := wrapDec_ok (mk := m8800) h2
    cases he
    exact T8800.relay (env := env) ha
  | m8802 t =>
    obtain ⟨a, ha, he⟩ := wrapDec_ok (mk := m8802) h2
    cases he
    exact T8802.relay ha
  | m8803 t =>
    obtain ⟨a, ha, he⟩ := wrapDec_ok (mk := m8803) h2
    cases he
    exact T8803.relay ha
  | m0901 t =>
    obtain ⟨a, ha, he⟩ := wrapDec_ok (mk := m0901) h2
    cases he
    exact T0901.fits hc (keep_inv h1) ha
  | m0a00 t =>
    obtain ⟨a, ha, he⟩ := wrapDec_ok (mk := m0a00) h2
    cases he
    exact T0A00.relay ha (T0A00.fits (keep_inv h1))
  | m8a00 t =>
    obtain ⟨a, ha, he⟩ := wrapDec_ok (mk := m8a00) h2
    cases he
    exact T0A00.relay ha (T0A00.fits (keep_inv h1))
  | _ => exact True.intro

open Entity in
theorem fits_comes_back {e : Entity} (h : BodyFits env e) : ∃ b e', Entity.encode env e = .ok (b, e') ∧
    Entity.decodeBody env e.msgID b = .ok (Spec.Entity.dropCache e, Spec.consumed e b.length) := by
  by_cases h1 : ∃ t, e = .m0107 t
  · obtain ⟨t, rfl⟩ := h1
    obtain ⟨w, g1, g2⟩ := T0107.comes_back h
    exact ⟨w, _, keep_ok g1, wrapDec_of m0107 g2⟩
  by_cases h2 : ∃ t, e = .m0702 t
  · obtain ⟨t, rfl⟩ := h2
    obtain ⟨w, g1, g2⟩ := T0702.comes_back h
    exact ⟨w, _, keep_ok g1, wrapDec_of m0702 g2⟩
  refine Entity.round_trip env e ?_
  unfold BodyFits at h
  split at h
  · exact absurd ⟨_, rfl⟩ h1
  · exact absurd ⟨_, rfl⟩ h2
  · exact h

end
end Verif
