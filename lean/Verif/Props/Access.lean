import Verif.Lemmas.Access
import Verif.Props.Sample
/-! # C82: the accessors of status words and attributes -/

namespace Verif

open Spec

/-- C82, status words: however often and in whatever order the setters are called, the word keeps in each bit what the last call for that bit said, and
every other bit unchanged; the getters report the ignition (bit 0), the fix (bit 1) and the sides of equator (bit 2) and meridian (bit 3). Nothing
panics. -/
theorem C82_status (st : UInt32) (cs : List Status.Call) : ∃ st', Status.calls st cs = .ok st' ∧
    (∀ i, st'.toNat.testBit i = lastSaid (saidTo Spec.Status.bitOf Spec.Status.value i) (st.toNat.testBit i) cs) ∧
    Status.getAccState st' = .ok (st.toNat.testBit 0) ∧ Status.positioning st' = .ok (st.toNat.testBit 1) ∧
    Status.getLatitudeType st' =
      .ok (if lastSaid (fun | .south b => some b | _ => none) (st.toNat.testBit 2) cs then southLatitudeType else northLatitudeType) ∧
    Status.getLongitudeType st' =
      .ok (if lastSaid (fun | .west b => some b | _ => none) (st.toNat.testBit 3) cs then westLongitudeType else eastLongitudeType) := by
  obtain ⟨st', h, hb⟩ := Status.calls_ok cs st
  have none_said : ∀ i, i ≠ 2 → i ≠ 3 → st'.toNat.testBit i = st.toNat.testBit i := by
    intro i h2 h3
    rw [hb, show saidTo Spec.Status.bitOf Spec.Status.value i = fun _ => none from ?_]
    · rw [lastSaid, List.filterMap_eq_nil_iff.2 (fun _ _ => rfl)]; rfl
    · funext c
      unfold saidTo
      cases c
      · exact if_neg (Ne.symm h2)
      · exact if_neg (Ne.symm h3)
  refine ⟨st', h, hb, ?_, ?_, ?_, ?_⟩
  · rw [← none_said 0 (by decide) (by decide)]; exact getBitUint32_eq st' 0
  · rw [← none_said 1 (by decide) (by decide)]; exact getBitUint32_eq st' 1
  · rw [Status.latType_eq, hb]
    congr 3
    rw [show saidTo Spec.Status.bitOf Spec.Status.value 2 = (fun | .south b => some b | _ => none) from ?_]
    funext c; cases c <;> rfl
  · rw [Status.lngType_eq, hb]
    congr 3
    rw [show saidTo Spec.Status.bitOf Spec.Status.value 3 = (fun | .west b => some b | _ => none) from ?_]
    funext c; cases c <;> rfl

/-- C82, attributes of areas: the same for the sides (bits 6 and 7) and the two alarms (bits 3 and 5). -/
theorem C82_area (a : UInt16) (cs : List AreaAttr.Call) : ∃ a', AreaAttr.calls a cs = .ok a' ∧
    (∀ i, a'.toNat.testBit i = lastSaid (saidTo Spec.AreaAttr.bitOf Spec.AreaAttr.value i) (a.toNat.testBit i) cs) ∧
    AreaAttr.getLatitudeType a' =
      .ok (if lastSaid (fun | .south b => some b | _ => none) (a.toNat.testBit 6) cs then southLatitudeType else northLatitudeType) ∧
    AreaAttr.getLongitudeType a' =
      .ok (if lastSaid (fun | .west b => some b | _ => none) (a.toNat.testBit 7) cs then westLongitudeType else eastLongitudeType) := by
  obtain ⟨a', h, hb⟩ := AreaAttr.calls_ok cs a
  refine ⟨a', h, hb, ?_, ?_⟩
  · rw [AreaAttr.latType_eq, hb]
    congr 3
    rw [show saidTo Spec.AreaAttr.bitOf Spec.AreaAttr.value 6 = (fun | .south b => some b | _ => none) from ?_]
    funext c; cases c <;> rfl
  · rw [AreaAttr.lngType_eq, hb]
    congr 3
    rw [show saidTo Spec.AreaAttr.bitOf Spec.AreaAttr.value 7 = (fun | .west b => some b | _ => none) from ?_]
    funext c; cases c <;> rfl

/-- C82, attributes of sections of a route: the same for the limits (bits 0 and 1) and the sides (bits 2 and 3). -/
theorem C82_section (a : UInt8) (cs : List SectionAttr.Call) : ∃ a', SectionAttr.calls a cs = .ok a' ∧
    (∀ i, a'.toNat.testBit i = lastSaid (saidTo Spec.SectionAttr.bitOf Spec.SectionAttr.value i) (a.toNat.testBit i) cs) ∧
    SectionAttr.hasTimeLimit a' = .ok (lastSaid (fun | .timeLimit b => some b | _ => none) (a.toNat.testBit 0) cs) ∧
    SectionAttr.hasSpeedLimit a' = .ok (lastSaid (fun | .speedLimit b => some b | _ => none) (a.toNat.testBit 1) cs) ∧
    SectionAttr.getLatitudeType a' =
      .ok (if lastSaid (fun | .south b => some b | _ => none) (a.toNat.testBit 2) cs then southLatitudeType else northLatitudeType) ∧
    SectionAttr.getLongitudeType a' =
      .ok (if lastSaid (fun | .west b => some b | _ => none) (a.toNat.testBit 3) cs then westLongitudeType else eastLongitudeType) := by
  obtain ⟨a', h, hb⟩ := SectionAttr.calls_ok cs a
  refine ⟨a', h, hb, ?_, ?_, ?_, ?_⟩
  · refine (getBitByte_eq a' 0).trans ?_
    rw [hb, show saidTo Spec.SectionAttr.bitOf Spec.SectionAttr.value 0 = (fun | .timeLimit b => some b | _ => none) from ?_]
    funext c; cases c <;> rfl
  · refine (getBitByte_eq a' 1).trans ?_
    rw [hb, show saidTo Spec.SectionAttr.bitOf Spec.SectionAttr.value 1 = (fun | .speedLimit b => some b | _ => none) from ?_]
    funext c; cases c <;> rfl
  · rw [SectionAttr.latType_eq, hb]
    congr 3
    rw [show saidTo Spec.SectionAttr.bitOf Spec.SectionAttr.value 2 = (fun | .south b => some b | _ => none) from ?_]
    funext c; cases c <;> rfl
  · rw [SectionAttr.lngType_eq, hb]
    congr 3
    rw [show saidTo Spec.SectionAttr.bitOf Spec.SectionAttr.value 3 = (fun | .west b => some b | _ => none) from ?_]
    funext c; cases c <;> rfl

/-- Non-trivial cases: setting, clearing and setting again, on words with other bits set. -/
example : Status.calls 0x80000003 [.south true, .west true, .south false] = .ok 0x8000000b ∧
    AreaAttr.calls 0x0041 [.west true, .exitAlarm true, .south false, .enterAlarm true] = .ok 0x00a9 ∧
    SectionAttr.calls 0xf0 [.timeLimit true, .speedLimit true, .west true, .timeLimit false] = .ok 0xfa := by decide

/-- C82, received messages: in every message body that was decoded from any bytes, at every place of it (reports, bulk reports, media, areas, routes),
the types the accessors report are those of the sides on which the coordinates are. -/
theorem C82_received (env : Env) (id : UInt16) (data : Bytes) (e : Entity) (n : Nat) (h : Entity.decodeBody env id data = .ok (e, n)) :
    ∀ p ∈ placesOf e, p.Agrees :=
  decoded_agrees h

/-- Non-trivial case: a report from the south and the west, a circle in the south and the east. -/
example : ∃ e n, Entity.decodeBody Sample.env 0x0200 [0, 0, 0, 1, 0, 0, 0, 15, 2, 4, 0xcb, 0x14, 1, 0x31, 0x2d, 1, 0, 5, 2, 0x58, 0, 90,
    0x23, 0x11, 0x15, 0x06, 0x13, 0x20] = .ok (.m0200 e, n) ∧ (reportPlace e).latType = .ok 1 ∧ (reportPlace e).lngType = .ok 1 ∧
    e.lat.value < 0 ∧ e.lng.value < 0 := ⟨_, _, rfl, rfl, rfl, by decide, by decide⟩
example : ∃ e n, Entity.decodeBody Sample.env 0x8600 [1, 1, 0, 0, 0, 7, 0, 0x40, 2, 4, 0xcb, 0x14, 1, 0x31, 0x2d, 1, 0, 0, 0, 50] = .ok (.m8600 e, n) ∧
    ((placesOf (.m8600 e)).map fun p => (p.latType, p.lngType, p.lat.value, p.lng.value)) = [(.ok 1, .ok 0, -33868564, 20000001)] :=
  ⟨_, _, rfl, by decide⟩

/-- C82, received routes: a point has its two time thresholds exactly when `HasTimeLimit` says so, and its two speed thresholds exactly when
`HasSpeedLimit` says so. -/
theorem C82_limits (env : Env) (data : Bytes) (e : T8606) (n : Nat) (h : Entity.decodeBody env 0x8606 data = .ok (.m8606 e, n)) :
    ∀ p ∈ e.points,
      SectionAttr.hasTimeLimit p.attr = .ok p.timeTooLong.isSome ∧ SectionAttr.hasTimeLimit p.attr = .ok p.timeTooShort.isSome ∧
      SectionAttr.hasSpeedLimit p.attr = .ok p.maxSpeed.isSome ∧ SectionAttr.hasSpeedLimit p.attr = .ok p.overSpeedDuration.isSome := by
  intro p hp
  obtain ⟨a, ha, he⟩ := Entity.wrapDec_ok (show Entity.wrapDec Entity.m8606 (T8606.decode env {} data) = _ from h)
  obtain rfl := Entity.m8606.inj he
  obtain ⟨-, -, -, -, h1, h2, h3, h4⟩ := (T8606.relay ha).2.2.2 p hp
  rw [h1, h2, h3, h4]
  exact ⟨getBitByte_eq p.attr 0, getBitByte_eq p.attr 0, getBitByte_eq p.attr 1, getBitByte_eq p.attr 1⟩

/-- Non-trivial case: a route of two points, the first with both kinds of limits, the second with a speed limit only. -/
example : ∃ e n, Entity.decodeBody Sample.env 0x8606 ([0, 0, 0, 7, 0, 1, 0x23, 0x11, 0x15, 0x06, 0x13, 0x20, 0x23, 0x11, 0x16, 0x06, 0x13, 0x20, 0, 2] ++
    [0, 0, 0, 1, 0, 0, 0, 2, 2, 4, 0xcb, 0x14, 1, 0x31, 0x2d, 1, 30, 3, 0, 90, 0, 10, 0, 60, 5] ++
    [0, 0, 0, 2, 0, 0, 0, 3, 2, 4, 0xcb, 0x14, 1, 0x31, 0x2d, 1, 30, 2, 0, 80, 6]) = .ok (.m8606 e, n) ∧
    (e.points.map fun p => (p.timeTooLong, p.timeTooShort, p.maxSpeed, p.overSpeedDuration)) =
      [(some 90, some 10, some 60, some 5), (none, none, some 80, some 6)] := ⟨_, _, rfl, by decide⟩

end Verif
