import Verif.Lemmas.RoundTrip
import Verif.Lemmas.Extras
import Verif.Spec.Layout
/-! # The encoders write the layout of `Spec/Layout.lean` -/

namespace Verif

open Spec (Plain Text AnyText TimeOK DateOK Coord Number LocationOK BaseOK)

/-! ## Fields -/

theorem TextBytes.text {env : Env} {s b : Bytes} (h : TextBytes env s b) : Spec.text env s = b := by
  simp [Spec.text, h.enc]

theorem AnyText.put {env : Env} {s : Bytes} (h : AnyText env s) : putStr env s = .ok (Spec.text env s) := by
  obtain ⟨b, hb⟩ := h.bytes
  rw [hb.text, hb.put]

theorem AnyText.putNonempty {env : Env} {s : Bytes} (h : AnyText env s) :
    putStrNonempty env s = .ok (Spec.textOrNothing env s) := by
  unfold Spec.textOrNothing
  split
  · rename_i hs; simp [putStrNonempty, hs]
  · rename_i hs
    obtain ⟨b, hb⟩ := h.bytes
    rw [hb.text, hb.nonempty hs]

theorem Text.any {env : Env} {s : Bytes} {n : Nat} (h : Text env s n) : AnyText env s := ⟨n, h⟩

theorem AnyText.put8 {env : Env} {s : Bytes} (h : AnyText env s) : putStr8 env s = .ok (Spec.counted (Spec.text env s)) := by
  obtain ⟨b, hb⟩ := h.bytes
  rw [hb.text, hb.put8]; rfl

theorem u16_be16 (n : Nat) : put16 (UInt16.ofNat n) = Spec.be16 n := by
  rw [put16_be16]
  simp only [Spec.be16, UInt16.toNat_ofNat']
  rw [show n % 2 ^ 16 / 256 % 256 = n / 256 % 256 by omega, show n % 2 ^ 16 % 256 = n % 256 by omega]

theorem u32_be32 (n : Nat) : put32 (UInt32.ofNat n) = Spec.be32 n := by
  rw [put32_be32]
  simp only [Spec.be32, Spec.be16, UInt32.toNat_ofNat', List.cons_append, List.nil_append, List.cons.injEq, and_true]
  refine ⟨?_, ?_, ?_, ?_⟩ <;> congr 1 <;> omega

theorem AnyText.put16 {env : Env} {s : Bytes} (h : AnyText env s) : putStr16 env s = .ok (Spec.counted16 (Spec.text env s)) := by
  unfold putStr16
  rw [AnyText.put h]
  simp only [Res.ok_bind, Spec.counted16, u16_be16]

theorem Text.fixed {env : Env} {s : Bytes} {n : Nat} (h : Text env s n) :
    putStrFixed env s n = .ok (Spec.padded n (Spec.text env s)) := by
  obtain ⟨b, hb, hl⟩ := h.bytes
  rw [hb.text, hb.putFixed, putFixed_padded]

theorem putTime_bytes {env : Env} {t : Int} (h : TimeOK env t) : putTime env t = Spec.timeBytes env t := by
  obtain ⟨h1, h2⟩ := h
  have h1 : 1262304000 ≤ t + env.tz := h1
  have h2 : t + env.tz < 4102444800 := h2
  have e3 : Spec.unix2000 = 946684800 := rfl
  have hl := C22_time_layout env.tz ((t + env.tz - Spec.unix2000) / 86400).toNat ((t + env.tz - Spec.unix2000) % 86400).toNat
    (by omega) (by omega)
  have ht : Spec.unix2000 + 86400 * (((t + env.tz - Spec.unix2000) / 86400).toNat : Int) +
      (((t + env.tz - Spec.unix2000) % 86400).toNat : Int) - env.tz = t := by omega
  have hl' : toBCDTime env.tz (Spec.unix2000 + 86400 * (((t + env.tz - Spec.unix2000) / 86400).toNat : Int) +
      (((t + env.tz - Spec.unix2000) % 86400).toNat : Int) - env.tz) = Spec.timeBytes env t := hl
  rw [ht] at hl'
  exact hl'

theorem coord_bytes {d : Dec} (h : Coord d) : put32 (absU32 (micro d)) = Spec.coordBytes d := by
  rw [put32_be32, micro_coord d h, absU32_toNat _ h.2]; rfl

theorem civilFromDays_dateSinceOne (n : Nat) :
    civilFromDays (-719162 + n) = (((Spec.dateSinceOne n).year : Int), (Spec.dateSinceOne n).month, (Spec.dateSinceOne n).day) := by
  induction n with
  | zero => decide
  | succ n ih =>
    rw [show (-719162 : Int) + ((n + 1 : Nat) : Int) = (-719162 + n) + 1 by omega, civilFromDays_succ, ih]
    simp only [Spec.dateSinceOne, Spec.Date.next, daysIn_eq_spec]
    split
    · rfl
    · split <;> simp

theorem packTwo_bcdByte {k : Nat} (hk : k < 100) : packTwo k = Spec.bcdByte k := by
  unfold packTwo Spec.bcdByte
  congr 1
  omega

theorem bcd_two {n : Nat} (h : n < 10000) : Spec.bcd 2 n = [packTwo (n / 100), packTwo (n % 100)] := by
  simp only [Spec.bcd, packTwo, List.nil_append, List.cons_append, List.cons.injEq, and_true, true_and]
  congr 1
  omega

theorem date_bytes {env : Env} {t : Int} (h : DateOK env t) :
    stringToBCD (fmt8 (civilOf env.tz t)) 4 = Spec.dateBytes env t := by
  obtain ⟨h0, h1, h2⟩ := h
  have e3 : Spec.unixOne = -62135596800 := rfl
  have h1' : -30610224000 ≤ t + env.tz := h1
  have hc := civilFromDays_dateSinceOne ((t + env.tz - Spec.unixOne) / 86400).toNat
  have hd : (-719162 : Int) + (((t + env.tz - Spec.unixOne) / 86400).toNat : Int) = (t + env.tz) / 86400 := by omega
  rw [hd] at hc
  obtain ⟨hy1, hy2⟩ := civil_year_range env.tz t 1000 9999 (by exact h1) (by exact h2)
  obtain ⟨r1, r2, r3, r4, r5, r6, r7⟩ := civilOf_range env.tz t
  have hd31 : daysIn (civilOf env.tz t).month (civilOf env.tz t).year ≤ 31 := by
    unfold daysIn; split; (split <;> omega); (split <;> omega)
  unfold Spec.dateBytes
  simp only
  generalize Spec.dateSinceOne ((t + env.tz - Spec.unixOne) / 86400).toNat = D at hc
  have c1 : (civilOf env.tz t).year = (D.year : Int) := by
    show (civilFromDays ((t + env.tz) / 86400)).1 = _; rw [hc]
  have c2 : (civilOf env.tz t).month = D.month := by
    show (civilFromDays ((t + env.tz) / 86400)).2.1 = _; rw [hc]
  have c3 : (civilOf env.tz t).day = D.day := by
    show (civilFromDays ((t + env.tz) / 86400)).2.2 = _; rw [hc]
  rw [fmt8_groups _ D.year c1 (by omega)]
  refine (stringToBCD_groups [D.year / 100, D.year % 100, (civilOf env.tz t).month, (civilOf env.tz t).day]).trans ?_
  rw [bcd_two (by omega), ← packTwo_bcdByte (by omega), ← packTwo_bcdByte (by omega), c2, c3]
  rfl

theorem clock_bytes {d : Int} (h0 : 0 ≤ d) (h1 : d < 86400000000000) :
    putFixed (stringToBCD0 (canTimeString d)) 5 = Spec.clockBytes d := by
  rw [canBytes]
  unfold canGroups Spec.clockBytes
  simp only
  rw [bcd_two (by omega), ← packTwo_bcdByte (by omega), ← packTwo_bcdByte (by omega), ← packTwo_bcdByte (by omega)]
  simp only [List.map_cons, List.map_nil, List.cons_append, List.nil_append]
  congr 1
  · congr 1; omega
  · congr 1
    · congr 1; omega
    · congr 1
      · congr 1; omega
      · congr 1
        · congr 1; omega
        · congr 2; omega

theorem numberOf_digitsVal (s : Bytes) : Spec.numberOf s = digitsVal s := by
  unfold Spec.numberOf digitsVal
  congr 1
  funext n c
  omega

theorem bcd_append_groups (ns : List Nat) (h : ∀ n ∈ ns, n < 100) : ∀ k, ns.length ≤ k →
    Spec.bcd k (digitsVal (ns.flatMap pad2)) = List.replicate (k - ns.length) 0 ++ ns.map packTwo := by
  induction hl : ns.length generalizing ns with
  | zero =>
    intro k _
    have : ns = [] := List.length_eq_zero_iff.1 hl
    subst this
    simp [bcd_zero]
  | succ l ih =>
    intro k hk
    obtain ⟨k, rfl⟩ : ∃ j, k = j + 1 := ⟨k - 1, by omega⟩
    have hne : ns ≠ [] := by intro hc; simp [hc] at hl
    obtain ⟨ms, m, rfl⟩ : ∃ ms m, ns = ms ++ [m] := ⟨ns.dropLast, ns.getLast hne, (List.dropLast_concat_getLast hne).symm⟩
    have hm := h m (by simp)
    have hms : ms.length = l := by simpa using hl
    rw [List.flatMap_append, digitsVal_append]
    simp only [List.flatMap_cons, List.flatMap_nil, List.append_nil, digitsVal_pad2 hm]
    rw [show (pad2 m).length = 2 from rfl, Spec.bcd]
    rw [show (digitsVal (ms.flatMap pad2) * 10 ^ 2 + m) / 100 = digitsVal (ms.flatMap pad2) by omega,
      ih ms (fun n hn => h n (by simp [hn])) hms k (by omega)]
    rw [List.map_append, ← List.append_assoc]
    congr 1
    · rw [show k + 1 - (l + 1) = k - l by omega]
    · simp only [List.map_cons, List.map_nil, packTwo]
      congr 2
      omega

theorem sim_bytes {s : Bytes} {k : Nat} (h : Number s (2 * k)) : stringToBCD s k = Spec.bcd k (Spec.numberOf s) := by
  obtain ⟨hl, hd, -⟩ := h
  rw [numberOf_digitsVal]
  have key : ∀ t : Bytes, (∀ c ∈ t, 48 ≤ c ∧ c ≤ 57) → t.length % 2 = 0 → t.length ≤ 2 * k → stringToBCD0 s = packBCD t →
      digitsVal t = digitsVal s → stringToBCD s k = Spec.bcd k (digitsVal s) := by
    intro t h1 h2 h3 h4 h5
    obtain ⟨ns, g1, g2⟩ := groups_of_digits t h1 h2
    have hnl : 2 * ns.length = t.length := by rw [← g2, groups_length]
    rw [← g2, packBCD_groups] at h4
    unfold stringToBCD
    simp only [h4, List.length_map]
    rw [if_neg (by omega), ← h5, ← g2, bcd_append_groups ns g1 k (by omega)]
  by_cases hp : s.length % 2 = 1
  · refine key (48 :: s) ?_ (by simp; omega) (by simp; omega) ?_ ?_
    · intro c hc
      rcases List.mem_cons.1 hc with rfl | hc
      · decide
      · exact hd c hc
    · unfold stringToBCD0; rw [if_pos hp]
    · rw [digitsVal_cons]; simp
  · refine key s hd (by omega) (by omega) ?_ rfl
    unfold stringToBCD0; rw [if_neg hp]

theorem beBytes_append (k n b : Nat) : Spec.beBytes (k + 1) n = Spec.beBytes k (n / 256) ++ [UInt8.ofNat (n % 256)] := rfl

theorem beBytes_bytesNat (b : Bytes) : Spec.beBytes b.length (bytesNat b) = b := by
  induction hl : b.length generalizing b with
  | zero =>
    have : b = [] := List.length_eq_zero_iff.1 hl
    subst this
    rfl
  | succ l ih =>
    have hne : b ≠ [] := by intro hc; simp [hc] at hl
    obtain ⟨ms, m, rfl⟩ : ∃ ms m, b = ms ++ [m] := ⟨b.dropLast, b.getLast hne, (List.dropLast_concat_getLast hne).symm⟩
    have hms : ms.length = l := by simpa using hl
    have hm := m.toNat_lt
    have hv : bytesNat (ms ++ [m]) = bytesNat ms * 256 + m.toNat := by
      unfold bytesNat; rw [List.foldl_append]; rfl
    rw [Spec.beBytes, hv, show (bytesNat ms * 256 + m.toNat) / 256 = bytesNat ms by omega, ih ms hms,
      show (bytesNat ms * 256 + m.toNat) % 256 = m.toNat by omega]
    simp

/-! ## Lists -/

theorem encList_eq {α : Type} {f : α → Res Bytes} {g : α → Bytes} {xs : List α} (h : ∀ x ∈ xs, f x = .ok (g x)) :
    encList f xs = .ok (xs.flatMap g) := by
  induction xs with
  | nil => rfl
  | cons x xs ih => simp [encList, h x (by simp), ih fun y hy => h y (by simp [hy])]

theorem encListM_eq {α : Type} {f : α → Res (Bytes × α)} {g : α → Bytes} {xs : List α} (h : ∀ x ∈ xs, f x = .ok (g x, x)) :
    encListM f xs = .ok (xs.flatMap g, xs) := by
  induction xs with
  | nil => rfl
  | cons x xs ih => simp [encListM, h x (by simp), ih fun y hy => h y (by simp [hy])]

theorem flatMap_put32 (ids : List UInt32) : ids.flatMap put32 = ids.flatMap fun i => Spec.be32 i.toNat := by
  congr 1; funext i; exact put32_be32 i

theorem flatMap_put16 (ids : List UInt16) : ids.flatMap put16 = ids.flatMap fun i => Spec.be16 i.toNat := by
  congr 1; funext i; exact put16_be16 i

/-! ## Location reports -/

theorem baseBytes_layout {env : Env} {e : T0200} (h : BaseOK env e) : baseBytes env e = Spec.locationBase env e := by
  obtain ⟨h1, h2, -, -, h5⟩ := h
  unfold baseBytes Spec.locationBase
  rw [coord_bytes h1, coord_bytes h2, putTime_bytes h5]
  simp only [put32_be32, put16_be16, List.append_assoc]

theorem extras_layout {xs : List (Option Extra)} (h : ∀ x ∈ xs, ∃ v, Spec.ExtraOK v ∧ x = some (Extra.new v)) :
    encList encodeExtra xs = .ok (Spec.extrasBytes xs) := by
  refine encList_eq fun x hx => ?_
  obtain ⟨v, hv, rfl⟩ := h x hx
  have hval : (Extra.new v).val = v := by cases v <;> rfl
  simp only [encodeExtra, hval]
  rw [Spec.itemWire_known v hv]
  rfl

theorem location_layout {env : Env} {e : T0200} (h : LocationOK env e) :
    T0200.encode env e = .ok (Spec.locationBytes env e, e) := by
  rw [T0200.encode_base env e h.1 _ (extras_layout h.2), baseBytes_layout h.1]; rfl

theorem base_layout {env : Env} {e : T0200} (h : BaseOK env e) :
    T0200.encode env { e with extras := [] } = .ok (Spec.locationBase env e, { e with extras := [] }) := by
  rw [T0200.encode_base env { e with extras := [] } h [] rfl, baseBytes_layout (e := { e with extras := [] }) h]
  simp only [List.append_nil]
  rfl

/-! ## Areas -/

theorem tail_layout {env : Env} {a : UInt16} {s e : Time} {m : UInt16} {d : UInt8} (h : Spec.TailOK env a s e m d) :
    encodeAreaTail env a s e m d = Spec.tailBytes env a s e m d := by
  unfold Spec.TailOK at h
  unfold encodeAreaTail Spec.tailBytes
  by_cases hb : a.toNat.testBit 0 = true
  · rw [if_pos hb] at h
    have : ¬ a &&& 1 = 0 := by rw [and_one_eq_zero, hb]; simp
    rw [if_neg this, if_pos hb, putTime_bytes h.1, putTime_bytes h.2, put16_be16]
  · have : a &&& 1 = 0 := by rw [and_one_eq_zero]; simpa using hb
    rw [if_pos this, if_neg hb]

theorem circle_layout {env : Env} {a : CircleArea} (h : Spec.CircleOK env a) :
    CircleArea.encodeItem env a = .ok (Spec.circleBytes env a, a) := by
  obtain ⟨h1, h2, h3, h4, h5⟩ := h
  have m1 : markIf a.attr (decide (micro a.lat < 0)) 6 = .ok a.attr := mark16 a.attr _ 6 (neg_imp h1 h3)
  have m2 : markIf a.attr (decide (micro a.lng < 0)) 7 = .ok a.attr := mark16 a.attr _ 7 (neg_imp h2 h4)
  unfold CircleArea.encodeItem
  simp only [m1, m2, Res.ok_bind]
  rw [coord_bytes h1, coord_bytes h2, tail_layout h5, put32_be32, put32_be32, put16_be16]
  rfl

theorem rect_layout {env : Env} {a : RectArea} (h : Spec.RectOK env a) :
    RectArea.encodeItem env a = .ok (Spec.rectBytes env a, a) := by
  obtain ⟨c1, c2, c3, c4, h1, h2, h3, h4, h5⟩ := h
  have m1 : markIf a.attr (decide (micro a.leftTopLat < 0)) 6 = .ok a.attr := mark16 a.attr _ 6 (neg_imp c1 h1)
  have m2 : markIf a.attr (decide (micro a.leftTopLon < 0)) 7 = .ok a.attr := mark16 a.attr _ 7 (neg_imp c2 h2)
  have m3 : markIf a.attr (decide (micro a.rightBottomLat < 0)) 6 = .ok a.attr := mark16 a.attr _ 6 (neg_imp c3 h3)
  have m4 : markIf a.attr (decide (micro a.rightBottomLon < 0)) 7 = .ok a.attr := mark16 a.attr _ 7 (neg_imp c4 h4)
  unfold RectArea.encodeItem
  simp only [m1, m2, m3, m4, Res.ok_bind]
  rw [coord_bytes c1, coord_bytes c2, coord_bytes c3, coord_bytes c4, tail_layout h5, put32_be32, put16_be16]
  rfl

theorem point_layout {p : RoutePoint} (h : Spec.PointOK p) : RoutePoint.encodeItem p = .ok (Spec.pointBytes p) := by
  obtain ⟨h1, h2, h3, h4, t1, t2, s1, s2⟩ := h
  have m1 : markByte p.attr (micro p.lat) 2 = .ok p.attr := mark8 p.attr _ 2 (by rw [micro_coord _ h1]; exact h3.1)
  have m2 : markByte p.attr (micro p.lng) 3 = .ok p.attr := mark8 p.attr _ 3 (by rw [micro_coord _ h2]; exact h4.1)
  have m3 : setBitByte p.attr 0 (p.timeTooLong.isSome && p.timeTooShort.isSome) = .ok p.attr := set8_same p.attr 0 _ (by rw [t1, t2]; simp)
  have m4 : setBitByte p.attr 1 (p.maxSpeed.isSome && p.overSpeedDuration.isSome) = .ok p.attr := set8_same p.attr 1 _ (by rw [s1, s2]; simp)
  unfold RoutePoint.encodeItem
  simp only [m1, m2, m3, m4, Res.ok_bind]
  rw [coord_bytes h1, coord_bytes h2]
  unfold Spec.pointBytes
  simp only [put32_be32, put16_be16]
  obtain ⟨i, sec, la, ln, w, at', tl, ts, ms, od⟩ := p
  simp only at *
  generalize at'.toNat.testBit 0 = b0 at *
  generalize at'.toNat.testBit 1 = b1 at *
  cases tl <;> cases ts <;> simp at t1 t2 <;> subst t1 <;> (try cases t2) <;>
    cases ms <;> cases od <;> simp at s1 s2 <;> subst s1 <;> (try cases s2) <;> simp [Spec.wordIf, Spec.byteIf]

theorem param_layout (p : Param) : Param.encodeItem p = .ok (Spec.paramBytes p) := by
  unfold Param.encodeItem Spec.paramBytes Spec.counted
  rw [put32_be32, List.append_assoc]
  rfl

theorem params_layout (ps : List Param) : encList Param.encodeItem ps = .ok (ps.flatMap Spec.paramBytes) :=
  encList_eq fun p _ => param_layout p

theorem idText_layout {env : Env} {x : IdText} {n : Nat} (h : Text env x.content n) :
    IdText.encodeItem env x = .ok (Spec.idTextBytes env x) := by
  unfold IdText.encodeItem
  rw [AnyText.put8 (Text.any h)]
  rfl

theorem key_layout {e : T0A00} (h : Spec.KeyOK e.publicKey) : T0A00.encode e = .ok (Spec.keyBytes e.publicKey) := by
  obtain ⟨n, x, hk, hs, h1, h2⟩ := h
  obtain ⟨n1, n2⟩ := natBytes_key n hs
  unfold T0A00.encode
  rw [hk]
  simp only [hs, ne_eq, not_true_eq_false, if_false, Spec.keyBytes]
  have hp : putFixed (natBytes n) 128 = natBytes n := by
    unfold putFixed
    rw [if_pos (by omega), List.take_of_length_le (by omega)]
  rw [hp]
  have hb := beBytes_bytesNat (natBytes n)
  rw [n1, n2] at hb
  rw [hb]
  have : UInt32.ofInt x = UInt32.ofNat x.toNat := by
    apply UInt32.toNat.inj
    unfold UInt32.ofInt
    simp
    omega
  rw [this, u32_be32]

end Verif
