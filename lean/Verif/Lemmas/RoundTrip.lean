import Verif.Lemmas.RoundTrip2
import Verif.Props.Times
import Verif.Spec.Consumed
/-! # Body round trips, all types together -/

namespace Verif.Entity

theorem keep_ok {r : Res Bytes} {e : Entity} {b : Bytes} (h : r = .ok b) : keep r e = .ok (b, e) := by rw [h]; rfl

theorem wrapEnc_of {α : Type} (mk : α → Entity) {r : Res (Bytes × α)} {b : Bytes} {a : α} (h : r = .ok (b, a)) :
    wrapEnc mk r = .ok (b, mk a) := by rw [h]; rfl

theorem wrapDec_of {α : Type} (mk : α → Entity) {r : Res (α × Nat)} {a : α} {n : Nat} (h : r = .ok (a, n)) :
    wrapDec mk r = .ok (mk a, n) := by rw [h]; rfl

theorem round_trip (env : Env) (e : Entity) (h : Spec.InRange env e) :
    ∃ w e', encode env e = .ok (w, e') ∧ decodeBody env e.msgID w = .ok (Spec.Entity.dropCache e, Spec.consumed e w.length) := by
  cases e with
  | m0001 b => obtain ⟨w, h1, h2⟩ := T0001.round_trip b; exact ⟨w, _, keep_ok h1, wrapDec_of m0001 h2⟩
  | m0002 b => exact ⟨[], _, rfl, rfl⟩
  | m0003 b => exact ⟨[], _, rfl, rfl⟩
  | m0100 b => obtain ⟨w, h1, h2⟩ := T0100.round_trip env b h.1 h.2.1 h.2.2.1 h.2.2.2; exact ⟨w, _, keep_ok h1, wrapDec_of m0100 h2⟩
  | m0102 b => obtain ⟨w, h1, h2⟩ := T0102.round_trip env b h.1 h.2; exact ⟨w, _, keep_ok h1, wrapDec_of m0102 h2⟩
  | m0104 b => obtain ⟨w, h1, h2⟩ := T0104.round_trip b h; exact ⟨w, _, keep_ok h1, wrapDec_of m0104 h2⟩
  | m0107 b => obtain ⟨w, h1, h2⟩ := T0107.round_trip b h.1 h.2.1 h.2.2.1 h.2.2.2.1 h.2.2.2.2.1 h.2.2.2.2.2; exact ⟨w, _, keep_ok h1, wrapDec_of m0107 h2⟩
  | m0108 b => obtain ⟨w, h1, h2⟩ := T0108.round_trip b; exact ⟨w, _, keep_ok h1, wrapDec_of m0108 h2⟩
  | m0200 b => obtain ⟨w, h1, -, h2⟩ := T0200.round_trip env b h; exact ⟨w, _, wrapEnc_of m0200 h1, wrapDec_of m0200 h2⟩
  | m0201 b => obtain ⟨w, h1, -, h2⟩ := T0201.round_trip env b h; exact ⟨w, _, wrapEnc_of m0201 h1, wrapDec_of m0201 h2⟩
  | m0301 b => obtain ⟨w, h1, h2⟩ := T0301.round_trip b; exact ⟨w, _, keep_ok h1, wrapDec_of m0301 h2⟩
  | m0302 b => obtain ⟨w, h1, h2⟩ := T0302.round_trip b; exact ⟨w, _, keep_ok h1, wrapDec_of m0302 h2⟩
  | m0303 b => obtain ⟨w, h1, -, h2⟩ := T0303.round_trip b; exact ⟨w, _, keep_ok h1, wrapDec_of m0303 h2⟩
  | m0500 b => obtain ⟨w, h1, -, h2⟩ := T0201.round_trip env b h; exact ⟨w, _, wrapEnc_of m0500 h1, wrapDec_of m0500 h2⟩
  | m0700 b => obtain ⟨w, h1, h2⟩ := T0700.round_trip b; exact ⟨w, _, keep_ok h1, wrapDec_of m0700 h2⟩
  | m0701 b => obtain ⟨w, h1, h2⟩ := T0701.round_trip b; exact ⟨w, _, keep_ok h1, wrapDec_of m0701 h2⟩
  | m0702 b => obtain ⟨w, h1, h2⟩ := T0702.round_trip env b h.1 h.2.1 h.2.2.1 h.2.2.2.1 h.2.2.2.2; exact ⟨w, _, keep_ok h1, wrapDec_of m0702 h2⟩
  | m0704 b => obtain ⟨w, h1, h2⟩ := T0704.round_trip env b h.1 h.2; exact ⟨w, _, keep_ok h1, wrapDec_of m0704 h2⟩
  | m0705 b => 
    obtain ⟨w, h1, h2⟩ := C23_can_time_round_trip_partial b h.1 h.2.1 h.2.2.2.1 h.2.2.2.2 {}
    have hr : b.receiveTime / 1000000 * 1000000 = b.receiveTime := by have := h.2.2.1; omega
    rw [hr] at h2
    exact ⟨w, _, wrapEnc_of m0705 h1, wrapDec_of m0705 h2⟩
  | m0800 b => obtain ⟨w, h1, h2⟩ := T0800.round_trip b; exact ⟨w, _, keep_ok h1, wrapDec_of m0800 h2⟩
  | m0801 b => 
    obtain ⟨w, h1, h2⟩ := T0801.round_trip env b h.1 h.2.1 h.2.2
    refine ⟨w, _, wrapEnc_of m0801 h1, ?_⟩
    show (match T0801.decodePacket env {} w with | .ok b' => Res.ok (m0801 b', w.length) | .err x => .err x | .panic => .panic) = _
    rw [h2]
    rfl
  | m0802 b => obtain ⟨w, h1, h2⟩ := T0802.round_trip env b h.1 h.2; exact ⟨w, _, keep_ok h1, wrapDec_of m0802 h2⟩
  | m0805 b => obtain ⟨w, h1, h2⟩ := T0805.round_trip b h; exact ⟨w, _, keep_ok h1, wrapDec_of m0805 h2⟩
  | m8001 b => obtain ⟨w, h1, h2⟩ := T8001.round_trip b; exact ⟨w, _, keep_ok h1, wrapDec_of m8001 h2⟩
  | m8003 b => obtain ⟨w, h1, h2⟩ := T8003.round_trip b h; exact ⟨w, _, keep_ok h1, wrapDec_of m8003 h2⟩
  | m8100 b => obtain ⟨w, h1, h2⟩ := T8100.round_trip env b h; exact ⟨w, _, keep_ok h1, wrapDec_of m8100 h2⟩
  | m8103 b => obtain ⟨w, h1, h2⟩ := T8103.round_trip b h; exact ⟨w, _, keep_ok h1, wrapDec_of m8103 h2⟩
  | m8104 b => exact ⟨[], _, rfl, rfl⟩
  | m8105 b => obtain ⟨w, h1, -, h2⟩ := TByteText.round_trip env b h; exact ⟨w, _, keep_ok h1, wrapDec_of m8105 h2⟩
  | m8106 b => obtain ⟨w, h1, -, h2⟩ := TIDs.round_trip b h; exact ⟨w, _, keep_ok h1, wrapDec_of m8106 h2⟩
  | m8107 b => exact ⟨[], _, rfl, rfl⟩
  | m8108 b => obtain ⟨w, h1, h2⟩ := T8108.round_trip env b h.1 h.2; exact ⟨w, _, keep_ok h1, wrapDec_of m8108 h2⟩
  | m8201 b => exact ⟨[], _, rfl, rfl⟩
  | m8202 b => obtain ⟨w, h1, h2⟩ := T8202.round_trip b; exact ⟨w, _, keep_ok h1, wrapDec_of m8202 h2⟩
  | m8203 b => obtain ⟨w, h1, h2⟩ := T8203.round_trip b; exact ⟨w, _, keep_ok h1, wrapDec_of m8203 h2⟩
  | m8300 b => obtain ⟨w, h1, -, h2⟩ := TByteText.round_trip env b h; exact ⟨w, _, keep_ok h1, wrapDec_of m8300 h2⟩
  | m8301 b => obtain ⟨w, h1, h2⟩ := T8301.round_trip env b h.1 h.2; exact ⟨w, _, keep_ok h1, wrapDec_of m8301 h2⟩
  | m8302 b => obtain ⟨w, h1, h2⟩ := T8302.round_trip env b h.1 h.2; exact ⟨w, _, keep_ok h1, wrapDec_of m8302 h2⟩
  | m8303 b => obtain ⟨w, h1, h2⟩ := T8303.round_trip env b h.1 h.2; exact ⟨w, _, keep_ok h1, wrapDec_of m8303 h2⟩
  | m8304 b => obtain ⟨w, h1, h2⟩ := T8304.round_trip env b h; exact ⟨w, _, keep_ok h1, wrapDec_of m8304 h2⟩
  | m8400 b => obtain ⟨w, h1, h2⟩ := T8400.round_trip env b h; exact ⟨w, _, keep_ok h1, wrapDec_of m8400 h2⟩
  | m8401 b => obtain ⟨w, h1, h2⟩ := T8401.round_trip env b h.1 h.2; exact ⟨w, _, keep_ok h1, wrapDec_of m8401 h2⟩
  | m8500 b => obtain ⟨w, h1, h2⟩ := T8500.round_trip b; exact ⟨w, _, keep_ok h1, wrapDec_of m8500 h2⟩
  | m8600 b => obtain ⟨w, h1, h2⟩ := T8600.round_trip env b h.1 h.2.1 h.2.2; exact ⟨w, _, wrapEnc_of m8600 h1, wrapDec_of m8600 h2⟩
  | m8601 b => obtain ⟨w, h1, -, h2⟩ := TIDs.round_trip b h; exact ⟨w, _, keep_ok h1, wrapDec_of m8601 h2⟩
  | m8602 b => obtain ⟨w, h1, h2⟩ := T8602.round_trip env b h.1 h.2.1 h.2.2; exact ⟨w, _, wrapEnc_of m8602 h1, wrapDec_of m8602 h2⟩
  | m8603 b => obtain ⟨w, h1, -, h2⟩ := TIDs.round_trip b h; exact ⟨w, _, keep_ok h1, wrapDec_of m8603 h2⟩
  | m8604 b => obtain ⟨w, h1, h2⟩ := T8604.round_trip env b h.1 h.2.1 h.2.2.1 h.2.2.2; exact ⟨w, _, wrapEnc_of m8604 h1, wrapDec_of m8604 h2⟩
  | m8605 b => obtain ⟨w, h1, -, h2⟩ := TIDs.round_trip b h; exact ⟨w, _, keep_ok h1, wrapDec_of m8605 h2⟩
  | m8606 b => obtain ⟨w, h1, h2⟩ := T8606.round_trip env b h.1 h.2.1 h.2.2.1 h.2.2.2; exact ⟨w, _, keep_ok h1, wrapDec_of m8606 h2⟩
  | m8607 b => obtain ⟨w, h1, h2⟩ := T8607.round_trip b h; exact ⟨w, _, keep_ok h1, wrapDec_of m8607 h2⟩
  | m8700 b => obtain ⟨w, h1, h2⟩ := T8700.round_trip b; exact ⟨w, _, keep_ok h1, wrapDec_of m8700 h2⟩
  | m8701 b => obtain ⟨w, h1, h2⟩ := T8700.round_trip b; exact ⟨w, _, keep_ok h1, wrapDec_of m8701 h2⟩
  | m8702 b => exact ⟨[], _, rfl, rfl⟩
  | m8800 b => obtain ⟨w, h1, h2⟩ := T8800.round_trip b h; exact ⟨w, _, keep_ok h1, wrapDec_of m8800 h2⟩
  | m8801 b => obtain ⟨w, h1, h2⟩ := T8801.round_trip b; exact ⟨w, _, keep_ok h1, wrapDec_of m8801 h2⟩
  | m8802 b => obtain ⟨w, h1, h2⟩ := T8802.round_trip env b h.1 h.2; exact ⟨w, _, keep_ok h1, wrapDec_of m8802 h2⟩
  | m8803 b => obtain ⟨w, h1, h2⟩ := T8803.round_trip env b h.1 h.2; exact ⟨w, _, keep_ok h1, wrapDec_of m8803 h2⟩
  | m8804 b => obtain ⟨w, h1, h2⟩ := T8804.round_trip b; exact ⟨w, _, keep_ok h1, wrapDec_of m8804 h2⟩
  | m8805 b => obtain ⟨w, h1, h2⟩ := T8805.round_trip b; exact ⟨w, _, keep_ok h1, wrapDec_of m8805 h2⟩
  | m8900 b => obtain ⟨w, h1, h2⟩ := T0900.round_trip b; exact ⟨w, _, keep_ok h1, wrapDec_of m8900 h2⟩
  | m0900 b => obtain ⟨w, h1, h2⟩ := T0900.round_trip b; exact ⟨w, _, keep_ok h1, wrapDec_of m0900 h2⟩
  | m0901 b => 
    obtain ⟨z, hz1, hz2, hz3⟩ := h
    obtain ⟨w, h1, h2⟩ := T0901.round_trip env b z hz1 hz2 hz3
    exact ⟨w, _, keep_ok h1, wrapDec_of m0901 h2⟩
  | m0a00 b => obtain ⟨w, h1, h2⟩ := T0A00.round_trip b h; exact ⟨w, _, keep_ok h1, wrapDec_of m0a00 h2⟩
  | m8a00 b => obtain ⟨w, h1, h2⟩ := T0A00.round_trip b h; exact ⟨w, _, keep_ok h1, wrapDec_of m8a00 h2⟩

end Verif.Entity
