import Verif.Spec.Access
import Verif.Lemmas.Bits
import Verif.Lemmas.RelayAll
/-! # Lemmas about the accessors of status words and attributes -/

namespace Verif

open Spec

/-! ## Setters -/

theorem lastSaid_cons {α : Type} (said : α → Option Bool) (before : Bool) (c : α) (cs : List α) :
    lastSaid said before (c :: cs) = lastSaid said ((said c).getD before) cs := by
  unfold lastSaid
  cases h : said c with
  | none => rw [List.filterMap_cons_none h]; rfl
  | some b =>
    rw [List.filterMap_cons_some h, List.getLast?_cons]
    cases (cs.filterMap said).getLast? <;> rfl

/-- The first call's value for bit `i` is the one the later calls start from. -/
theorem lastSaid_saidTo {α : Type} (bitOf : α → Nat) (value : α → Bool) (i : Nat) (old : Bool) (c : α) (cs : List α) :
    lastSaid (saidTo bitOf value i) (if i = bitOf c then value c else old) cs = lastSaid (saidTo bitOf value i) old (c :: cs) := by
  rw [lastSaid_cons]
  congr 1
  unfold saidTo
  by_cases h : i = bitOf c
  · rw [if_pos h, if_pos h.symm]; rfl
  · rw [if_neg h, if_neg (Ne.symm h)]; rfl

theorem bitWith_eq {w v o : Nat} {b : Bool} {i : Nat} (h : o < w) : bitWith w v o b i = if i = o then b else v.testBit i := by
  unfold bitWith
  by_cases hi : i = o
  · rw [if_pos ⟨h, hi⟩, if_pos hi]
  · rw [if_neg fun hc => hi hc.2, if_neg hi]

theorem Status.call_ok (st : UInt32) (c : Status.Call) : ∃ r, Status.call st c = .ok r ∧
    ∀ i, r.toNat.testBit i = if i = Spec.Status.bitOf c then Spec.Status.value c else st.toNat.testBit i := by
  cases c with
  | south b =>
    obtain ⟨r, h, hb⟩ := setBitUint32_eq st 2 b
    exact ⟨r, h, fun i => by rw [hb]; exact bitWith_eq (by decide)⟩
  | west b =>
    obtain ⟨r, h, hb⟩ := setBitUint32_eq st 3 b
    exact ⟨r, h, fun i => by rw [hb]; exact bitWith_eq (by decide)⟩

theorem AreaAttr.call_ok (a : UInt16) (c : AreaAttr.Call) : ∃ r, AreaAttr.call a c = .ok r ∧
    ∀ i, r.toNat.testBit i = if i = Spec.AreaAttr.bitOf c then Spec.AreaAttr.value c else a.toNat.testBit i := by
  cases c with
  | south b =>
    obtain ⟨r, h, hb⟩ := setBitUint16_eq a 6 b
    exact ⟨r, h, fun i => by rw [hb]; exact bitWith_eq (by decide)⟩
  | west b =>
    obtain ⟨r, h, hb⟩ := setBitUint16_eq a 7 b
    exact ⟨r, h, fun i => by rw [hb]; exact bitWith_eq (by decide)⟩
  | exitAlarm b =>
    obtain ⟨r, h, hb⟩ := setBitUint16_eq a 5 b
    exact ⟨r, h, fun i => by rw [hb]; exact bitWith_eq (by decide)⟩
  | enterAlarm b =>
    obtain ⟨r, h, hb⟩ := setBitUint16_eq a 3 b
    exact ⟨r, h, fun i => by rw [hb]; exact bitWith_eq (by decide)⟩

theorem SectionAttr.call_ok (a : UInt8) (c : SectionAttr.Call) : ∃ r, SectionAttr.call a c = .ok r ∧
    ∀ i, r.toNat.testBit i = if i = Spec.SectionAttr.bitOf c then Spec.SectionAttr.value c else a.toNat.testBit i := by
  cases c with
  | timeLimit b =>
    obtain ⟨r, h, hb⟩ := setBitByte_eq a 0 b
    exact ⟨r, h, fun i => by rw [hb]; exact bitWith_eq (by decide)⟩
  | speedLimit b =>
    obtain ⟨r, h, hb⟩ := setBitByte_eq a 1 b
    exact ⟨r, h, fun i => by rw [hb]; exact bitWith_eq (by decide)⟩
  | south b =>
    obtain ⟨r, h, hb⟩ := setBitByte_eq a 2 b
    exact ⟨r, h, fun i => by rw [hb]; exact bitWith_eq (by decide)⟩
  | west b =>
    obtain ⟨r, h, hb⟩ := setBitByte_eq a 3 b
    exact ⟨r, h, fun i => by rw [hb]; exact bitWith_eq (by decide)⟩

theorem Status.calls_ok (cs : List Status.Call) (st : UInt32) : ∃ r, Status.calls st cs = .ok r ∧
    ∀ i, r.toNat.testBit i = lastSaid (saidTo Spec.Status.bitOf Spec.Status.value i) (st.toNat.testBit i) cs := by
  induction cs generalizing st with
  | nil => exact ⟨st, rfl, fun i => rfl⟩
  | cons c cs ih =>
    obtain ⟨r, h, hb⟩ := Status.call_ok st c
    obtain ⟨r', h', hb'⟩ := ih r
    refine ⟨r', ?_, fun i => ?_⟩
    · show (Status.call st c >>= fun w => Status.calls w cs) = _
      rw [h]; exact h'
    · rw [hb', hb, lastSaid_saidTo]

theorem AreaAttr.calls_ok (cs : List AreaAttr.Call) (a : UInt16) : ∃ r, AreaAttr.calls a cs = .ok r ∧
    ∀ i, r.toNat.testBit i = lastSaid (saidTo Spec.AreaAttr.bitOf Spec.AreaAttr.value i) (a.toNat.testBit i) cs := by
  induction cs generalizing a with
  | nil => exact ⟨a, rfl, fun i => rfl⟩
  | cons c cs ih =>
    obtain ⟨r, h, hb⟩ := AreaAttr.call_ok a c
    obtain ⟨r', h', hb'⟩ := ih r
    refine ⟨r', ?_, fun i => ?_⟩
    · show (AreaAttr.call a c >>= fun w => AreaAttr.calls w cs) = _
      rw [h]; exact h'
    · rw [hb', hb, lastSaid_saidTo]

theorem SectionAttr.calls_ok (cs : List SectionAttr.Call) (a : UInt8) : ∃ r, SectionAttr.calls a cs = .ok r ∧
    ∀ i, r.toNat.testBit i = lastSaid (saidTo Spec.SectionAttr.bitOf Spec.SectionAttr.value i) (a.toNat.testBit i) cs := by
  induction cs generalizing a with
  | nil => exact ⟨a, rfl, fun i => rfl⟩
  | cons c cs ih =>
    obtain ⟨r, h, hb⟩ := SectionAttr.call_ok a c
    obtain ⟨r', h', hb'⟩ := ih r
    refine ⟨r', ?_, fun i => ?_⟩
    · show (SectionAttr.call a c >>= fun w => SectionAttr.calls w cs) = _
      rw [h]; exact h'
    · rw [hb', hb, lastSaid_saidTo]

/-! ## Getters -/

theorem Status.latType_eq (st : UInt32) : Status.getLatitudeType st = .ok (if st.toNat.testBit 2 then 1 else 0) := by
  have h := getBitUint32_eq st 2
  show (getBitUint32 st ((2 : Nat) : Int) >>= _) = _
  rw [h]; simp only [Res.ok_bind]; split <;> rfl

theorem Status.lngType_eq (st : UInt32) : Status.getLongitudeType st = .ok (if st.toNat.testBit 3 then 1 else 0) := by
  have h := getBitUint32_eq st 3
  show (getBitUint32 st ((3 : Nat) : Int) >>= _) = _
  rw [h]; simp only [Res.ok_bind]; split <;> rfl

theorem AreaAttr.latType_eq (a : UInt16) : AreaAttr.getLatitudeType a = .ok (if a.toNat.testBit 6 then 1 else 0) := by
  have h := getBitUint16_eq a 6
  show (getBitUint16 a ((6 : Nat) : Int) >>= _) = _
  rw [h]; simp only [Res.ok_bind]; split <;> rfl

theorem AreaAttr.lngType_eq (a : UInt16) : AreaAttr.getLongitudeType a = .ok (if a.toNat.testBit 7 then 1 else 0) := by
  have h := getBitUint16_eq a 7
  show (getBitUint16 a ((7 : Nat) : Int) >>= _) = _
  rw [h]; simp only [Res.ok_bind]; split <;> rfl

theorem SectionAttr.latType_eq (a : UInt8) : SectionAttr.getLatitudeType a = .ok (if a.toNat.testBit 2 then 1 else 0) := by
  have h := getBitByte_eq a 2
  show (getBitByte a ((2 : Nat) : Int) >>= _) = _
  rw [h]; simp only [Res.ok_bind]; split <;> rfl

theorem SectionAttr.lngType_eq (a : UInt8) : SectionAttr.getLongitudeType a = .ok (if a.toNat.testBit 3 then 1 else 0) := by
  have h := getBitByte_eq a 3
  show (getBitByte a ((3 : Nat) : Int) >>= _) = _
  rw [h]; simp only [Res.ok_bind]; split <;> rfl

/-! ## Received places -/

theorem typeOf_of {t : Res Int} {bit : Bool} {d : Dec} (ht : t = .ok (if bit then 1 else 0)) (h : Hemisphere bit d) : TypeOf t d := by
  subst ht
  refine ⟨?_, fun hn => ?_, fun hp => ?_⟩
  · cases bit
    · exact .inr rfl
    · exact .inl rfl
  · rw [h.1 hn]; rfl
  · cases bit
    · rfl
    · have := h.2 rfl; omega

theorem reportPlace_agrees {env : Env} {r : T0200} (h : BaseOK env r) : (reportPlace r).Agrees :=
  ⟨typeOf_of (Status.latType_eq r.status) h.2.2.1, typeOf_of (Status.lngType_eq r.status) h.2.2.2.1⟩

theorem areaPlace_agrees {a : UInt16} {lat lng : Dec} (h1 : Hemisphere (a.toNat.testBit 6) lat) (h2 : Hemisphere (a.toNat.testBit 7) lng) :
    (areaPlace a lat lng).Agrees :=
  ⟨typeOf_of (AreaAttr.latType_eq a) h1, typeOf_of (AreaAttr.lngType_eq a) h2⟩

theorem routePlace_agrees {p : RoutePoint} (h : PointOK p) : (routePlace p).Agrees :=
  ⟨typeOf_of (SectionAttr.latType_eq p.attr) h.2.2.1, typeOf_of (SectionAttr.lngType_eq p.attr) h.2.2.2.1⟩

section
variable {env : Env} {data : Bytes} {n : Nat}

theorem T0201.decode_agrees {e : T0201} (h : T0201.decode env {} data = .ok (e, n)) : ∀ p ∈ [reportPlace e.result], p.Agrees := by
  obtain ⟨d, k, hd⟩ := T0201.decode_result h
  intro p hp
  rw [List.mem_singleton.1 hp]
  exact reportPlace_agrees (T0200.decode_base_ok hd)

theorem T0200.decode_agrees {e : T0200} (h : T0200.decode env {} data = .ok (e, n)) : ∀ p ∈ placesOf (.m0200 e), p.Agrees := by
  intro p hp
  rw [List.mem_singleton.1 hp]
  exact reportPlace_agrees (T0200.decode_base_ok h)

theorem T0704.decode_agrees {e : T0704} (h : T0704.decode env {} data = .ok (e, n)) : ∀ p ∈ placesOf (.m0704 e), p.Agrees := by
  intro p hp
  obtain ⟨i, hi, rfl⟩ := List.mem_map.1 hp
  exact reportPlace_agrees ((T0704.items_ok h).2 i hi)

theorem T0801.decode_agrees {e : T0801} (h : T0801.decodePacket env {} data = .ok e) : ∀ p ∈ placesOf (.m0801 e), p.Agrees := by
  intro p hp
  rw [List.mem_singleton.1 hp]
  exact reportPlace_agrees (T0801.relay h).1

theorem T0802.decode_agrees {e : T0802} (h : T0802.decode env {} data = .ok (e, n)) : ∀ p ∈ placesOf (.m0802 e), p.Agrees := by
  intro p hp
  obtain ⟨i, hi, rfl⟩ := List.mem_map.1 hp
  exact reportPlace_agrees ((T0802.relay h).2 i hi).1

theorem T8600.decode_agrees {e : T8600} (h : T8600.decode env {} data = .ok (e, n)) : ∀ p ∈ placesOf (.m8600 e), p.Agrees := by
  intro p hp
  obtain ⟨a, ha, rfl⟩ := List.mem_map.1 hp
  have := (T8600.items_ok h).2 a ha
  exact areaPlace_agrees this.2.2.1 this.2.2.2.1

theorem T8602.decode_agrees {e : T8602} (h : T8602.decode env {} data = .ok (e, n)) : ∀ p ∈ placesOf (.m8602 e), p.Agrees := by
  intro p hp
  obtain ⟨a, ha, hp⟩ := List.mem_flatMap.1 hp
  obtain ⟨-, -, -, -, h1, h2, h3, h4, -⟩ := (T8602.items_ok h).2 a ha
  rcases List.mem_cons.1 hp with rfl | hp
  · exact areaPlace_agrees h1 h2
  · rw [List.mem_singleton.1 hp]
    exact areaPlace_agrees h3 h4

theorem T8604.decode_agrees {e : T8604} (h : T8604.decode env {} data = .ok (e, n)) : ∀ p ∈ placesOf (.m8604 e), p.Agrees := by
  intro p hp
  obtain ⟨v, hv, rfl⟩ := List.mem_map.1 hp
  have := (T8604.vertexes_ok h).2.1 v hv
  exact areaPlace_agrees this.2.2.1 this.2.2.2

theorem T8606.decode_agrees {e : T8606} (h : T8606.decode env {} data = .ok (e, n)) : ∀ p ∈ placesOf (.m8606 e), p.Agrees := by
  intro p hp
  obtain ⟨v, hv, rfl⟩ := List.mem_map.1 hp
  exact routePlace_agrees ((T8606.relay h).2.2.2 v hv)

end

theorem no_places {l : List Place} (h : l = []) : ∀ p ∈ l, p.Agrees := by
  subst h
  intro p hp
  cases hp

open Entity in
theorem decoded_agrees {env : Env} {id : UInt16} {data : Bytes} {e : Entity} {n : Nat}
    (h : Entity.decodeBody env id data = .ok (e, n)) : ∀ p ∈ placesOf e, p.Agrees := by
  unfold decodeBody at h
  split at h
  · cases h
  rename_i e0 he
  unfold create at he
  repeat (
    rcases ite_some he with ⟨-, rfl⟩ | he
    · first
      | (obtain ⟨a, ha, rfl⟩ := wrapDec_ok h
         first
          | exact no_places rfl
          | exact T0200.decode_agrees ha
          | exact T0201.decode_agrees ha
          | exact T0704.decode_agrees ha
          | exact T0802.decode_agrees ha
          | exact T8600.decode_agrees ha
          | exact T8602.decode_agrees ha
          | exact T8604.decode_agrees ha
          | exact T8606.decode_agrees ha)
      | (change Res.ok (_, 0) = _ at h
         simp only [Res.ok.injEq, Prod.mk.injEq] at h
         obtain ⟨rfl, -⟩ := h
         exact no_places rfl)
      | (simp only at h
         split at h
         · rename_i b' hb
           simp only [Res.ok.injEq, Prod.mk.injEq] at h
           obtain ⟨rfl, -⟩ := h
           exact T0801.decode_agrees hb
         · cases h
         · cases h))
  cases he

end Verif
